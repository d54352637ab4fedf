{"claims": [
{"property": "C01", "status": "proved", "theorems": ["Verif.C01_list_row_major", "Verif.C01_list_too_long", "Verif.C01_fill", "Verif.C01_access_defined"], "note": "List constructor, fill constructor, flat and two-dimensional access, exact domain of defined accesses."},
{"property": "C02", "status": "proved", "theorems": ["Verif.C02_write_frame", "Verif.C02_flat_write"], "note": "Two-dimensional and flat writes."},
{"property": "C03", "status": "proved", "theorems": ["Verif.C03_add", "Verif.C03_sub", "Verif.C03_add_scalar", "Verif.C03_mul_scalar", "Verif.C03_sub_scalar", "Verif.C03_sub_scalar_undefined", "Verif.C03_scalar_left", "Verif.C03_1x1_operand", "Verif.C03_1x1_operand_left", "Verif.C03_1x1_scalar"], "note": "Law-free: for any numeric type with possibly undefined operations, defined iff every element operation is defined."},
{"property": "C04", "status": "proved", "theorems": ["Verif.C04_square_product", "Verif.C04_assoc", "Verif.C04_distrib", "Verif.C04_eye"], "note": "Over any exact ring; equality with Mathlib's matrix product, and program-level laws."},
{"property": "C05", "status": "proved", "theorems": ["Verif.C05_dot", "Verif.C05_outer", "Verif.C05_mulVec", "Verif.C05_vecMul", "Verif.C05_vecMul_transposed"], "note": "Over any exact commutative ring."},
{"property": "C06", "status": "proved", "theorems": ["Verif.C06_mul", "Verif.C06_vecMul", "Verif.C06_mulVec"], "note": "Exact condition for the shapes on which the products stay inside their operands; out of bounds otherwise."},
{"property": "C07", "status": "proved", "theorems": ["Verif.C07_transposed22", "Verif.C07_transposed_vectors", "Verif.C07_product"], "note": "2x2 matrices and vectors of any length."},
{"property": "C08", "status": "partial", "theorems": ["Verif.C08_inverse_fails", "Verif.C08_is_transpose_of_inverse", "Verif.C08_inverse_partial"], "note": "The code computes the transpose of the inverse: negation proved with a witness; the claim holds exactly for symmetric matrices."},
{"property": "C09", "status": "proved", "theorems": ["Verif.C09_inverted_scalar"], "note": "Over any exact field."},
{"property": "C10", "status": "proved", "theorems": ["Verif.C10_textbook", "Verif.C10_from_constructor"], "note": "Over any exact field; one or two controls."},
{"property": "C11", "status": "proved", "theorems": ["Verif.C11_textbook", "Verif.C11_textbook_runs", "Verif.C11_asymmetric_fails"], "note": "Step-level for symmetric invertible innovation covariance; run-level from symmetric P, Q, R; counterexample for asymmetric parameters."},
{"property": "C12", "status": "proved", "theorems": ["Verif.C12_time", "Verif.C12_time_from_start", "Verif.C12_time_any_type"], "note": "n*dt over exact fields; n-fold machine addition for every numeric type."},
{"property": "C13", "status": "proved", "theorems": ["Verif.C13_data_independent", "Verif.C13_definedness"], "note": "Law-free two-run theorem; definedness over exact fields."},
{"property": "C14", "status": "proved", "theorems": ["Verif.C14_symmetric"], "note": "Induction over runs, any exact field."},
{"property": "C15", "status": "proved", "theorems": ["Verif.C15_positive_semidefinite"], "note": "Real arithmetic; includes that every run is defined."},
{"property": "C16", "status": "proved", "theorems": ["Verif.C16_never_adds_uncertainty"], "note": "Real arithmetic; positive-semidefinite order."},
{"property": "C17", "status": "proved", "theorems": ["Verif.C17_optimal"], "note": "Real arithmetic; minimality in the positive-semidefinite order, trace, variances, uniqueness."},
{"property": "C18", "status": "proved", "theorems": ["Verif.C18_error_dynamics", "Verif.C18_tracks_exactly"], "note": "Error dynamics for a step and exact tracking over runs."},
{"property": "C19", "status": "proved", "theorems": ["Verif.C19_superposition"], "note": "Three-run theorem over any exact field."},
{"property": "C20", "status": "proved", "theorems": ["Verif.C20_batch_least_squares"], "note": "Strict unique minimiser; information form of the covariance; every run defined."},
{"property": "C21", "status": "proved", "theorems": ["Verif.C21_library_to_variant", "Verif.C21_variant_to_library", "Verif.C21_gain_off", "Verif.C21_gain_off_fresh"], "note": "Law-free equivalence in both directions; gain computation off."},
{"property": "C22", "status": "proved", "theorems": ["Verif.C22_one_measurement", "Verif.C22_two_measurements"], "note": "Exact condition for undefined behaviour of update."},
{"property": "C23", "status": "proved", "theorems": ["Verif.C23_joseph"], "note": "Any exact field."},
{"property": "C24", "status": "proved", "theorems": ["Verif.C24_add_exact", "Verif.C24_sub_exact", "Verif.C24_add_wraps_above", "Verif.C24_add_wraps_below", "Verif.C24_sub_wraps_above", "Verif.C24_sub_wraps_below", "Verif.C24_add_undefined", "Verif.C24_sub_undefined"], "note": "Exactness, exact wrap-around offsets, exact undefined cases, per width of int."},
{"property": "C25", "status": "proved", "theorems": ["Verif.C25_mul_total", "Verif.C25_mul_rounds_down", "Verif.C25_mul_exact"], "note": "Total on all operands for F below the promoted width; rounding down; representable products exact."},
{"property": "C26", "status": "proved", "theorems": ["Verif.C26_div_total", "Verif.C26_div_truncates", "Verif.C26_div_by_zero", "Verif.C26_div_negative_strict"], "note": "Total for non-zero divisor and F below the width; strict C++17 shift rule and division by zero covered separately."},
{"property": "C27", "status": "proved", "theorems": ["Verif.C27_eq", "Verif.C27_ne", "Verif.C27_lt", "Verif.C27_le", "Verif.C27_gt", "Verif.C27_ge", "Verif.C27_total_order"], "note": "Against the order of the represented rationals."},
{"property": "C28", "status": "proved", "theorems": ["Verif.C28_ofInt_exact", "Verif.C28_ofInt_fits", "Verif.C28_asInt_truncates", "Verif.C28_int_roundtrip", "Verif.C28_ofInt_wraps", "Verif.C28_ofInt_undefined", "Verif.C28_literals", "Verif.C28_one_wrong", "Verif.C28_asInt_narrow_wrong"], "note": "as<U> for U at least as wide as the representation; wrap-around and the undefined case beyond 64 bits stated."},
{"property": "C29", "status": "proved", "theorems": ["Verif.C29_ofReal_nearest", "Verif.C29_ofReal_exact", "Verif.C29_ofReal_undefined"], "note": "Floating-point arithmetic idealised to exact reals; undefined outside the range, exact boundary."},
{"property": "C30", "status": "proved", "theorems": ["Verif.C30_rep_roundtrip", "Verif.C30_asReal", "Verif.C30_real_roundtrip"], "note": "as_double idealised to exact reals."},
{"property": "C31", "status": "proved", "theorems": ["Verif.C31_min_max", "Verif.C31_min_max_val", "Verif.C31_neg", "Verif.C31_neg_min_wraps", "Verif.C31_neg_min_undefined"], "note": "Exceptional value covered on both kinds of platform."},
{"property": "C32", "status": "proved", "theorems": ["Verif.C32_step", "Verif.C32_step_any_state", "Verif.C32_fir", "Verif.C32_default"], "note": "Equivalence: a sequence is the output iff it satisfies the difference equation; plus arbitrary initial states."},
{"property": "C33", "status": "proved", "theorems": ["Verif.C33_df2_transposed", "Verif.C33_state_differs"], "note": "From rest; the states of the two forms differ (shown)."},
{"property": "C34", "status": "proved", "theorems": ["Verif.C34_linear", "Verif.C34_time_invariant", "Verif.C34_linear_transposed", "Verif.C34_time_invariant_transposed", "Verif.C34_runs_exist"], "note": "Both forms; existence of runs shown."},
{"property": "C35", "status": "proved", "theorems": ["Verif.C35_reset_biquad", "Verif.C35_reset_biquad_outputs", "Verif.C35_reset_cascade", "Verif.C35_reset_cascade_outputs", "Verif.C35_reset_onepole"], "note": "Any numeric type; biquad here, cascade in Props/Cascade (all three forms), one-pole in Props/OnePole."},
{"property": "C36", "status": "proved", "theorems": ["Verif.C36_response_limit_asymptotic", "Verif.C36_response_limit", "Verif.C36_response_transfer"], "note": "Real sinusoids of any amplitude and phase, any initial state; transfer function and exact undefined case."},
{"property": "C37", "status": "partial", "theorems": ["Verif.C37_is_stable_poles", "Verif.C37_bounded_partial", "Verif.C37_integrator", "Verif.C37_triangle", "Verif.C37_triangle_open"], "note": "Code accepts poles on the unit circle: integrator counterexample; proved for poles strictly inside, with explicit bound; stability triangle."},
{"property": "C38", "status": "proved", "theorems": ["Verif.C38_poles", "Verif.C38_zeros", "Verif.C38_zeros_undefined", "Verif.C38_solve", "Verif.C38_real_or_conj"], "note": "Real coefficients, exact complex square root (principal branch); C38_solve fixes the order of the roots."},
{"property": "C39", "status": "proved", "theorems": ["Verif.C39_zpk", "Verif.C39_ignored", "Verif.C39_roundtrip"], "note": "Includes round trip and ignored second roots."},
{"property": "C40", "status": "proved", "theorems": ["Verif.C40_construct", "Verif.C40_refines", "Verif.C40_observers", "Verif.C40_insert_not_at_end"], "note": "For every sequence of append/insert/remove/replace/clear from any state satisfying the invariant; failure characterised exactly. insert cannot append (C40_insert_not_at_end)."},
{"property": "C41", "status": "proved", "theorems": ["Verif.C41_series", "Verif.C41_step_forms", "Verif.C41_empty", "Verif.C41_step_frame", "Verif.C41_forms_agree"], "note": "Law-free: any numeric type, any step function; the definedness of the run is part of the equivalence."},
{"property": "C42", "status": "proved", "theorems": ["Verif.C42_product_transfer", "Verif.C42_order_irrelevant", "Verif.C42_run_exists"], "note": "Exact arithmetic, sections at rest."},
{"property": "C43", "status": "proved", "theorems": ["Verif.C43_response", "Verif.C43_response_undefined", "Verif.C43_response_order", "Verif.C43_is_stable", "Verif.C43_response_limit"], "note": "Also: convergence of the output to the predicted sinusoid for strictly stable sections."},
{"property": "C44", "status": "proved", "theorems": ["Verif.C44_replace", "Verif.C44_insert_remove", "Verif.C44_remove_insert"], "note": "Also replace followed by replace of the old section."},
{"property": "C45", "status": "proved", "theorems": ["Verif.C45_step_any_state", "Verif.C45_step", "Verif.C45_is_biquad", "Verif.C45_gain", "Verif.C45_default", "Verif.C45_run_exists", "Verif.C45_linear", "Verif.C45_time_invariant", "Verif.C45_impulse", "Verif.C45_reset", "Verif.C45_response", "Verif.C45_response_biquad"], "note": "Difference equation, linearity, time invariance, impulse response and frequency response over any exact field; the one-pole is shown to be the biquad with b1=b2=a2=0."},
{"property": "C46", "status": "partial", "theorems": ["Verif.C46_poles_wrong", "Verif.C46_zeros", "Verif.C46_is_stable_wrong", "Verif.C46_is_stable_partial", "Verif.C46_bounded_iff"], "note": "The code disagrees: solve() is a stub, poles() is always 7 and is_stable() always true. The negations are proved with witnesses; the partial theorem says what is_stable does mean, C46_bounded_iff what a correct one would report."},
{"property": "C47", "status": "proved", "theorems": ["Verif.C47_low_pass_coeff", "Verif.C47_high_pass_coeff", "Verif.C47_low_pass_no_overshoot", "Verif.C47_high_pass_no_overshoot", "Verif.C47_low_pass_gain", "Verif.C47_high_pass_gain", "Verif.C47_low_pass_monotone", "Verif.C47_high_pass_monotone", "Verif.C47_stable", "Verif.C47_high_pass_above_nyquist"], "note": "Low-pass and high-pass designs over the reals. The high-pass does not block DC: its DC gain is proved exactly (C47_high_pass_gain). unqualified abs is read as the real function."},
{"property": "C48", "status": "proved", "theorems": ["Verif.C48_low_pass", "Verif.C48_high_pass", "Verif.C48_band_pass", "Verif.C48_band_stop", "Verif.C48_gains", "Verif.C48_butterworth", "Verif.C48_lpf_hpf"], "note": "The whole frequency response is that of the analog prototype at the warped frequency; the gains at DC, Nyquist and nominal frequency follow. Real arithmetic; libm's tan is the real tangent."},
{"property": "C49", "status": "proved", "theorems": ["Verif.C49_stable"], "note": "All seven designs for all parameters."},
{"property": "C50", "status": "partial", "theorems": ["Verif.C50_low_shelf_partial", "Verif.C50_high_shelf_partial", "Verif.C50_peak_partial", "Verif.C50_low_shelf_transfer", "Verif.C50_high_shelf_transfer", "Verif.C50_peak_transfer", "Verif.C50_zero_dB_wrong", "Verif.C50_boost_wrong", "Verif.C50_boost_attenuates"], "note": "The code disagrees: the factor used is dbV_factor(dbGain) = 10^(|dbGain|/10)/2, so a 0 dB filter halves the amplitude. Partial: the gains in terms of that factor; the negations are proved."},
{"property": "C51", "status": "partial", "theorems": ["Verif.C51_dbP", "Verif.C51_dbP_attenuation", "Verif.C51_dbV_wrong", "Verif.C51_dbV_factor_wrong", "Verif.C51_dbV_partial", "Verif.C51_db_domain"], "note": "Includes the domain: dbP and dbV have a value exactly if the product of the amplitudes is positive."},
{"property": "C52", "status": "proved", "theorems": ["Verif.C52_count", "Verif.C52_order", "Verif.C52_rejects", "Verif.C52_overflow", "Verif.C52_cascade", "Verif.C52_band_stop_wrong"], "note": "Section count, minimality of the order, overflow for orders from 2^30, cascade construction iff the sections fit; the band-stop design is a stub that yields the identity filter."},
{"property": "C53", "status": "proved", "theorems": ["Verif.C53_stable", "Verif.C53_gain"], "note": "Real arithmetic; poles strictly inside the unit circle and unit gain at DC (low pass) resp. Nyquist (high pass), for both types."},
{"property": "C54", "status": "proved", "theorems": ["Verif.C54_range", "Verif.C54_reversed", "Verif.C54_reversed_unsigned", "Verif.C54_step", "Verif.C54_step_values", "Verif.C54_step_overflow", "Verif.C54_step_wrong", "Verif.C54_step_unsigned_wrong", "Verif.C54_step_empty", "Verif.C54_infinite", "Verif.C54_infinite_values", "Verif.C54_infinite_from", "Verif.C54_indices", "Verif.C54_post_increment", "Verif.C54_step_real", "Verif.C54_step_real_down"], "note": "Integer types bit-exact including promotions (8 to 64 bits, int of 16 or 32 bits); floating point as exact reals. Includes the overflow of a stepping range past its end (undefined for signed, endless for unsigned witness)."},
{"property": "C55", "status": "proved", "theorems": ["Verif.C55_copy", "Verif.C55_copy_overlap", "Verif.C55_copy_defined", "Verif.C55_fill", "Verif.C55_fill_defined", "Verif.C55_equal_predicate", "Verif.C55_equal"], "note": "Iterators are indices into one memory, so overlapping ranges are covered; includes exactly when each call is defined."},
{"property": "C56", "status": "proved", "theorems": ["Verif.C56_replaced", "Verif.C56_absent", "Verif.C56_cases", "Verif.C56_line"], "note": "std::string::find and replace are modelled by their standard semantics."},
{"property": "C57", "status": "proved", "theorems": ["Verif.C57_read", "Verif.C57_write", "Verif.C57_write_read", "Verif.C57_round_trip", "Verif.C57_single_overwide"], "note": "Exact effect and frame for every field, width, policy and value; the single-bit over-wide case is stated separately."},
{"property": "C58", "status": "proved", "theorems": ["Verif.C58_combined", "Verif.C58_separate", "Verif.C58_combined_eq_separate", "Verif.C58_overwide_wrong"], "note": "Equality for fitting values; the leak of an over-wide value into a neighbouring field is proved as a separate theorem."},
{"property": "C59", "status": "proved", "theorems": ["Verif.C59_set", "Verif.C59_clear", "Verif.C59_toggle", "Verif.C59_toggle_twice", "Verif.C59_trigger", "Verif.C59_bitmask", "Verif.C59_bitmask_undefined", "Verif.C59_rngmask"], "note": ""},
{"property": "C60", "status": "partial", "theorems": ["Verif.C60_clear_partial", "Verif.C60_clear_alone_partial", "Verif.C60_others_lost"], "note": "The code writes back all bits it read, so clear() also clears every other pending flag; the partial theorems give the exact effect and the case in which no other flag is pending, and C60_others_lost is the negation."},
{"property": "C61", "status": "partial", "theorems": ["Verif.C61_tc0_set", "Verif.C61_tc1_set", "Verif.C61_tc0_current", "Verif.C61_tc1_current", "Verif.C61_tc0_round_trip_partial", "Verif.C61_tc1_round_trip_partial", "Verif.C61_round_trip_wrong"], "note": "The round trip holds exactly for modes below 4; for the others the returned value is characterised and a witness of the failure is proved."},
{"property": "C62", "status": "partial", "theorems": ["Verif.C62_write_partial", "Verif.C62_byte_ignored", "Verif.C62_write_wrong"], "note": "The code sends the address twice and never the data byte, and sends no stop after an error; C62_write_partial gives the exact bus traffic for every reaction and C62_write_wrong the negation."},
{"property": "C63", "status": "proved", "theorems": ["Verif.C63_read", "Verif.C63_write", "Verif.C63_plain_torn", "Verif.C63_enables", "Verif.C63_section_broken"], "note": "Instruction-level interleaving model with arbitrary interrupt routines; C63_section_broken shows the effect of enabling interrupts inside a section that had disabled them."},
{"property": "C64", "status": "proved", "theorems": ["Verif.C64_beat", "Verif.C64_blink"], "note": ""},
{"property": "C65", "status": "proved", "theorems": ["Verif.C65_bounds", "Verif.C65_inside", "Verif.C65_nearest", "Verif.C65_idempotent", "Verif.C65_monotone", "Verif.C65_dac"], "note": ""},
{"property": "C66", "status": "proved", "theorems": ["Verif.C66_magnitude", "Verif.C66_specification", "Verif.C66_exists", "Verif.C66_least_order"], "note": "Real arithmetic; closed form of the squared gain, pass-band and stop-band bounds at every frequency, no amplification, least order."},
{"property": "C67", "status": "partial", "theorems": ["Verif.C67_magnitude_partial", "Verif.C67_even_pass_partial", "Verif.C67_stop_wrong", "Verif.C67_pass_wrong", "Verif.C67_even_stop_partial"], "note": "The code uses estop where a type 1 design needs 1/epass, and a wrong first-order gain: the exact squared gain it does have is proved, pass band of even orders is not attenuated, and an even order meets the whole stop-band specification iff 1 + estop^2 + estop^4 <= T_N(warp fstop / warp fpass)^2; stop band (order 2) and pass band (order 1) specifications are refuted by concrete witnesses."},
{"property": "C68", "status": "proved", "theorems": ["Verif.C68_rw_clear"], "note": "Defect of the declared policies, stated as the exact effect."},
{"property": "C69", "status": "proved", "theorems": ["Verif.C69_write_clears_flags"], "note": "Defect of read-modify-write on such registers, stated as the exact effect."},
{"property": "C70", "status": "proved", "theorems": ["Verif.C70_pwm_init"], "note": ""},
{"property": "C71", "status": "proved", "theorems": ["Verif.C71_tc0_force", "Verif.C71_tc1_force_wrong"], "note": "Timer 0 correct; timer 1 writes the wrong register (defect)."},
{"property": "C72", "status": "proved", "theorems": ["Verif.C72_scoped_sreg"], "note": ""},
{"property": "C73", "status": "proved", "theorems": ["Verif.C73_pcifr_wrong", "Verif.C73_eifr_wrong"], "note": "Defects stated as the exact effect of the calls."},
{"property": "C74", "status": "proved", "theorems": ["Verif.C74_pullups", "Verif.C74_pullups_wrong", "Verif.C74_registers"], "note": "Defect stated as the exact effect of the call."},
{"property": "C75", "status": "proved", "theorems": ["Verif.C75_poll", "Verif.C75_put", "Verif.C75_no_spurious", "Verif.C75_noticed", "Verif.C75_lost"], "note": "The loss of posts between test and reset is proved as C75_lost."},
{"property": "C76", "status": "proved", "theorems": ["Verif.C76_period", "Verif.C76_beat", "Verif.C76_late"], "note": "Timer in CTC mode as in the hardware manual; the off-by-one of the compare value is a defect of the examples."},
{"property": "C77", "status": "proved", "theorems": ["Verif.C77_beat_init", "Verif.C77_adc_init", "Verif.C77_led"], "note": ""},
{"property": "C78", "status": "proved", "theorems": ["Verif.C78_adc_result", "Verif.C78_other_order_torn", "Verif.C78_store"], "note": "That the compiler reads the low byte first and writes the high byte first is an assumption of the model (it is what avr-gcc does for 16-bit registers)."},
{"property": "C79", "status": "proved", "theorems": ["Verif.C79_best_trajectory"], "note": "Real arithmetic. Existence and uniqueness of the end state of the best trajectory, by dynamic programming over the run."},
{"property": "C80", "status": "proved", "theorems": ["Verif.C80_error_covariance", "Verif.C80_unbiased"], "note": "Real arithmetic; expectations are Bochner integrals over an arbitrary measure, so normalisation is not even needed."},
{"property": "C81", "status": "proved", "theorems": ["Verif.C81_conservative"], "note": "Real arithmetic."},
{"property": "C82", "status": "proved", "theorems": ["Verif.C82_best_gains"], "note": "Real arithmetic. Filters of predict-and-correct form; all affine functions of the data in C116."},
{"property": "C83", "status": "proved", "theorems": ["Verif.C83_monotone"], "note": "Real arithmetic."},
{"property": "C84", "status": "proved", "theorems": ["Verif.C84_biquad"], "note": "Arithmetic abstracted by the standard rounding model (Spec/Rounding.lean); floating point without over- and underflow and fixed point shown to be instances; the IEEE formats are shown to be instances in C101."},
{"property": "C85", "status": "proved", "theorems": ["Verif.C85_rounding", "Verif.C85_biquad"], "note": "Fixed point as modelled bit by bit in Model/FixedPoint.lean."},
{"property": "C86", "status": "proved", "theorems": ["Verif.C86_onepole", "Verif.C86_fixed_point"], "note": "As C84, C85."},
{"property": "C87", "status": "proved", "theorems": ["Verif.C87_dead_band", "Verif.C87_exact_decays"], "note": "Documents behaviour of the code: no limit on how long the rest persists."},
{"property": "C88", "status": "proved", "theorems": ["Verif.C88_dot", "Verif.C88_mul"], "note": "Square matrices."},
{"property": "C89", "status": "partial", "theorems": ["Verif.C89_fields_partial", "Verif.C89_foc1_wrong", "Verif.C89_registers", "Verif.C89_bits", "Verif.C89_working_registers", "Verif.C89_policies_partial", "Verif.C89_flags"], "note": "Fails for FOC1A and FOC1B (declared in TCCR1A), and for the policy of PCIF2:0, TWINT and TWWC (read/write)."},
{"property": "C90", "status": "proved", "theorems": ["Verif.C90_set", "Verif.C90_set_register"], "note": "Settings of foc1a/b are in C71. Values: the enumerators that the function accepts."},
{"property": "C91", "status": "partial", "theorems": ["Verif.C91_kept_partial", "Verif.C91_lost_wrong"], "note": "Fails for all functions that set a field of ADCSRA, ACSR or TWCR: a read-modify-write clears the pending flag of that register."},
{"property": "C92", "status": "proved", "theorems": ["Verif.C92_current", "Verif.C92_clear", "Verif.C92_results"], "note": "clear also clears all other flags of the register, see C60."},
{"property": "C93", "status": "proved", "theorems": ["Verif.C93_set", "Verif.C93_complete", "Verif.C93_tc0_waveform", "Verif.C93_tc1_waveform", "Verif.C93_waveforms_complete", "Verif.C93_status"], "note": ""},
{"property": "C94", "status": "partial", "theorems": ["Verif.C94_init", "Verif.C94_start", "Verif.C94_data_partial", "Verif.C94_no_byte_wrong", "Verif.C94_stop_partial", "Verif.C94_stop_wrong", "Verif.C94_address_wrong", "Verif.C94_expect"], "note": "The claim for data() and stop() holds only if TWSTA is clear (and TWINT set for stop); after start() no byte is ever transmitted (C94_no_byte_wrong, by induction over the calls)."},
{"property": "C95", "status": "proved", "theorems": ["Verif.C95_simulation_columns", "Verif.C95_velecov_wrong", "Verif.C95_gain_covariance"], "note": "Real numbers. C95_velecov_wrong shows the column velecov of the example to be P(0,1), not the variance of the velocity."},
{"property": "C96", "status": "proved", "theorems": ["Verif.C96_steady_state", "Verif.C96_bounded_of_observable", "Verif.C96_bounded_of_invertible", "Verif.C96_bounded_of_steady"], "note": "Real numbers; two states, one or two measurements. Boundedness is shown to follow from observability (one measurement) or an invertible H (two) and to be necessary for a steady covariance."},
{"property": "C97", "status": "proved", "theorems": ["Verif.C97_alpha_beta", "Verif.C97_any_start"], "note": "Real numbers. Covers the singular Q of the example (C96 needs a definite one)."},
{"property": "C98", "status": "proved", "theorems": ["Verif.C98_simulation", "Verif.C98_initial_state_forgotten"], "note": "Real numbers."},
{"property": "C99", "status": "partial", "theorems": ["Verif.C99_noise_covariance_wrong", "Verif.C99_noise_covariance_partial"], "note": "The claim is false for the code: two draws instead of one (C99_noise_covariance_wrong); it would hold with one draw for both components (the partial theorem)."},
{"property": "C100", "status": "proved", "theorems": ["Verif.C100_exact_tracking"], "note": "Real numbers."},
{"property": "C101", "status": "proved", "theorems": ["Verif.C101_correctly_rounded", "Verif.C101_unique", "Verif.C101_standard_model", "Verif.C101_binary32", "Verif.C101_binary64"], "note": "C101_correctly_rounded: all five operations; C101_unique: the specification determines the result; C101_standard_model instantiates C84, C86, C88 for float and double. Infinities and NaNs are error outcomes."},
{"property": "C102", "status": "partial", "theorems": ["Verif.C102_symmetric_wrong", "Verif.C102_nonnegative_wrong", "Verif.C102_position_variance_partial"], "note": "Does not hold: C102_symmetric_wrong (float, the simulation's own numbers), C102_nonnegative_wrong (double). C102_position_variance_partial: with H = [1 0] the position variance is nonnegative and never grows by a measurement and the gain of the position is in [0,1], in every format. Missing: the velocity variance, other measurement matrices."},
{"property": "C103", "status": "proved", "theorems": ["Verif.C103_time_stalls", "Verif.C103_time_exact", "Verif.C103_every_run_stops"], "note": "C103_time_exact, C103_time_stalls; C103_every_run_stops is an estimator whose runs of any length are all defined."},
{"property": "C104", "status": "proved", "theorems": ["Verif.C104_rest_remains"], "note": "C104_rest_remains; decay of the exact filter is C87_exact_decays."},
{"property": "C105", "status": "proved", "theorems": ["Verif.C105_isr", "Verif.C105_pass", "Verif.C105_steady", "Verif.C105_flicker_wrong", "Verif.C105_init", "Verif.C105_channel", "Verif.C105_channel_wrong"], "note": "The channel mask lists MUX2 twice and lacks MUX1 (C105_channel_wrong); the two levels 512 and 4*128+3 disagree (C105_flicker_wrong)."},
{"property": "C106", "status": "proved", "theorems": ["Verif.C106_delay", "Verif.C106_pass", "Verif.C106_triangle", "Verif.C106_no_jump", "Verif.C106_init"], "note": ""},
{"property": "C107", "status": "proved", "theorems": ["Verif.C107_blink"], "note": ""},
{"property": "C108", "status": "proved", "theorems": ["Verif.C108_difference", "Verif.C108_equal_iff", "Verif.C108_joseph_psd", "Verif.C108_program_wrong", "Verif.C108_float_wrong"], "note": "exact over the reals; the negative variance of the program is shown for all time steps and non-zero noise, and in binary32 for the program's numbers"},
{"property": "C109", "status": "proved", "theorems": ["Verif.C109_deaf_wrong", "Verif.C109_time_wrong"], "note": "bit-exact; holds for either reading of shifts of negative numbers"},
{"property": "C110", "status": "proved", "theorems": ["Verif.C110_cycle", "Verif.C110_gain", "Verif.C110_time"], "note": "bit-exact; the covariance part does not depend on data, its 112 states are in a table checked step by step by the kernel"},
{"property": "C111", "status": "proved", "theorems": ["Verif.C111_update_one", "Verif.C111_update_two", "Verif.C111_simulation", "Verif.C111_rows"], "note": "Over the reals. inv of a singular matrix is an error (Matlab warns and yields Inf). The last claim for two measurements (agreement only if symmetric) supposes invertible predicted covariance and measurement matrix."},
{"property": "C112", "status": "proved", "theorems": ["Verif.C112_elements", "Verif.C112_stops", "Verif.C112_never_wrong", "Verif.C112_sweep", "Verif.C112_inner_sweep", "Verif.C112_sweep_examples", "Verif.C112_sweep_wrong"], "note": "Formats are parameters; the counts for N = 101, 201 and 7 are evaluated in binary64. Overflow is excluded by hypothesis or shown not to occur."},
{"property": "C113", "status": "proved", "theorems": ["Verif.C113_one_access", "Verif.C113_register_access", "Verif.C113_together", "Verif.C113_apart"], "note": "EIMSK and PCICR functions return nothing, so the comma is the built-in operator."},
{"property": "C114", "status": "proved", "theorems": ["Verif.C114_transposed", "Verif.C114_transposed_fixed", "Verif.C114_cascade"], "note": "Extends C84 and C85 to the second form and to cascades."},
{"property": "C115", "status": "proved", "theorems": ["Verif.C115_bounded_error", "Verif.C115_start_forgotten", "Verif.C115_unobservable", "Verif.C115_simulation", "Verif.C115_simulation_forgets"], "note": "Exact real arithmetic. The constants depend on A, H, Q, R and the initial covariance, not on the data."},
{"property": "C116", "status": "proved", "theorems": ["Verif.C116_pythagoras", "Verif.C116_best_linear", "Verif.C116_is_linear"], "note": "Real arithmetic. Mean-zero noise with exactly the assumed covariances."},
{"property": "C117", "status": "proved", "theorems": ["Verif.C117_innovation_covariance", "Verif.C117_innovations_white"], "note": "Real arithmetic. Noise with exactly the assumed covariances."},
{"property": "C118", "status": "proved", "theorems": ["Verif.C118_nearest", "Verif.C118_exact", "Verif.C118_relative_error", "Verif.C118_monotone", "Verif.C118_ties", "Verif.C118_characters", "Verif.C118_exponent", "Verif.C118_no_trailing_zero", "Verif.C118_scientific", "Verif.C118_plain"], "note": ""},
{"property": "C119", "status": "proved", "theorems": ["Verif.C119_as_double", "Verif.C119_as_float", "Verif.C119_as_float_wrong", "Verif.C119_roundtrip", "Verif.C119_of_float", "Verif.C119_of_float_wrong", "Verif.C119_of_double_exact"], "note": ""},
{"property": "C120", "status": "proved", "theorems": ["Verif.C120_print", "Verif.C120_roundtrip", "Verif.C120_roundtrip_small", "Verif.C120_injective", "Verif.C120_monotone", "Verif.C120_injective_wrong"], "note": ""},
{"property": "C121", "status": "proved", "theorems": ["Verif.C121_number_word", "Verif.C121_matrix", "Verif.C121_matrix_determined", "Verif.C121_vector"], "note": ""},
{"property": "C122", "status": "proved", "theorems": ["Verif.C122_natural", "Verif.C122_biquad", "Verif.C122_biquad_undefined", "Verif.C122_biquad_determined", "Verif.C122_cascade", "Verif.C122_onepole", "Verif.C122_onepole_wrong"], "note": ""},
{"property": "C123", "status": "proved", "theorems": ["Verif.C123_noise_independent", "Verif.C123_recorded"], "note": ""},
{"property": "C124", "status": "partial", "theorems": ["Verif.C124_min_max", "Verif.C124_digits", "Verif.C124_is_integer", "Verif.C124_is_signed_partial", "Verif.C124_is_signed_wrong", "Verif.C124_requirement_desktop", "Verif.C124_requirement_avr", "Verif.C124_requirement_avr_wrong"], "note": ""},
{"property": "C125", "status": "proved", "theorems": ["Verif.C125_swap", "Verif.C125_swap_involutive", "Verif.C125_initializer_list", "Verif.C125_matrix_construction", "Verif.C125_as", "Verif.C125_as_float"], "note": ""},
{"property": "C126", "status": "proved", "theorems": ["Verif.C126_close", "Verif.C126_completes"], "note": ""},
{"property": "C127", "status": "proved", "theorems": ["Verif.C127_update", "Verif.C127_forever", "Verif.C127_unnoticed", "Verif.C127_biquad", "Verif.C127_transposed", "Verif.C127_onepole", "Verif.C127_cascade"], "note": ""},
{"property": "C128", "status": "proved", "theorems": ["Verif.C128_add", "Verif.C128_sub", "Verif.C128_mul", "Verif.C128_div", "Verif.C128_sign", "Verif.C128_inverted", "Verif.C128_kalman", "Verif.C128_filters", "Verif.C128_exact", "Verif.C128_singular", "Verif.C128_singular_update", "Verif.C128_overflow", "Verif.C128_overflow_update", "Verif.C128_simulation"], "note": ""},
{"property": "C129", "status": "proved", "theorems": ["Verif.C129_real", "Verif.C129_stable", "Verif.C129_design", "Verif.C129_low_frequency_wrong"], "note": ""},
{"property": "C130", "status": "proved", "theorems": ["Verif.C130_lowpass", "Verif.C130_highpass", "Verif.C130_dead", "Verif.C130_integer_abs_wrong"], "note": ""},
{"property": "C131", "status": "partial", "theorems": ["Verif.C131_type2", "Verif.C131_separates", "Verif.C131_type1_partial", "Verif.C131_type1_wrong", "Verif.C131_text"], "note": "type 2 proved; for type 1 the code violates the claim (C131_type1_wrong: no attenuation at the reported 3 dB frequency), C131_type1_partial gives the gain there for even orders"},
{"property": "C132", "status": "partial", "theorems": ["Verif.C132_table", "Verif.C132_coefficients", "Verif.C132_pass_calls", "Verif.C132_defined", "Verif.C132_defined_cascade", "Verif.C132_onepole", "Verif.C132_removed", "Verif.C132_call", "Verif.C132_calls_partial", "Verif.C132_calls_wrong", "Verif.C132_chebyshev1_removed", "Verif.C132_chebyshev1_wrong", "Verif.C132_type2_calls", "Verif.C132_band_wrong"], "note": "partial because the code violates the claim: C132_calls_wrong, C132_chebyshev1_wrong and C132_band_wrong prove it; C132_calls_partial is what holds of the calls of biquad-design, and C132_type2_calls shows that both type 2 Chebyshev calls do print their table. Responses over the reals; in floating point log10 of 0 is minus infinity or the gain is rounding noise."},
{"property": "C133", "status": "partial", "theorems": ["Verif.C133_design", "Verif.C133_band", "Verif.C133_pass_partial", "Verif.C133_pass_wrong"], "note": "partial because the code violates the claim: C133_pass_wrong; C133_pass_partial shows what would be printed without the second dsp::."},
{"property": "C134", "status": "proved", "theorems": ["Verif.C134_led", "Verif.C134_gains", "Verif.C134_rest", "Verif.C134_rest_far", "Verif.C134_gain_off", "Verif.C134_gain_off_desktop"], "note": "The limits and the exactness of the gains are stated for real numbers."},
{"property": "C135", "status": "proved", "theorems": ["Verif.C135_converges", "Verif.C135_consistent"], "note": "Stated for real numbers."},
{"property": "C136", "status": "proved", "theorems": ["Verif.C136_real", "Verif.C136_stable", "Verif.C136_accuracy", "Verif.C136_complex", "Verif.C136_case", "Verif.C136_low_frequency_wrong"], "note": "The functions of <cmath> are arbitrary parameters with the stated signs; the accuracy is relative to the values they deliver. One numeric type throughout."},
{"property": "C137", "status": "proved", "theorems": ["Verif.C137_type1", "Verif.C137_type2"], "note": "The functions of <cmath> are arbitrary parameters. One numeric type throughout."},
{"property": "C138", "status": "proved", "theorems": ["Verif.C138_prints", "Verif.C138_range", "Verif.C138_step", "Verif.C138_indices", "Verif.C138_break_iff", "Verif.C138_break", "Verif.C138_text"], "note": "The containers of the example are represented by their sizes; binary64 for double. Formatting state of the stream: the default."},
{"property": "C139", "status": "partial", "theorems": ["Verif.C139_text", "Verif.C139_text_partial", "Verif.C139_text_iff", "Verif.C139_singular", "Verif.C139_program", "Verif.C139_program_wrong"], "note": "partial because the code violates the claim: C139_text_iff and C139_program_wrong prove it; C139_text states what is written instead, C139_text_partial is the claim for symmetric A."},
{"property": "C140", "status": "proved", "theorems": ["Verif.C140_text", "Verif.C140_closed", "Verif.C140_simplified", "Verif.C140_joseph", "Verif.C140_start", "Verif.C140_program"], "note": "C140_program states the exact output in binary32, with the literals rounded to double and then to float as in the source."},
{"property": "C141", "status": "proved", "theorems": ["Verif.C141_finite", "Verif.C141_biquad", "Verif.C141_onepole", "Verif.C141_cascade", "Verif.C141_kalman", "Verif.C141_covariance"], "note": "No law of arithmetic is used, so rounding, saturation and wrap-around are all covered; a failed calculation counts as a value that stays."},
{"property": "C142", "status": "proved", "theorems": ["Verif.C142_run"], "note": "Exact field arithmetic; in floating point the two descriptions round differently."},
{"property": "C143", "status": "proved", "theorems": ["Verif.C143_sequential", "Verif.C143_positive"], "note": "Exact arithmetic; the innovation variance of the first measurement must not be 0 (the guard of inverted would then ignore it)."},
{"property": "C144", "status": "proved", "theorems": ["Verif.C144_residual", "Verif.C144_between", "Verif.C144_doubt"], "note": "Exact arithmetic."},
{"property": "C145", "status": "proved", "theorems": ["Verif.C145_removes", "Verif.C145_selects", "Verif.C145_complex", "Verif.C145_binary", "Verif.C145_assignment_wrong"], "note": "The disagreement (assignments without return) is C145_assignment_wrong; arithmetic is relative to the compound assignments, which the header only declares."},
{"property": "C146", "status": "proved", "theorems": ["Verif.C146_constant_data", "Verif.C146_one_source", "Verif.C146_simulation", "Verif.C146_needed", "Verif.C146_bounded_error", "Verif.C146_start_forgotten", "Verif.C146_steady_state", "Verif.C146_initial_state_forgotten"], "note": "C96, C98, C115 and C135 are the special case of positive definite process noise and are derived from these theorems (C135 from the same lemmas); C146_needed shows two steady covariances without the condition."},
{"property": "C147", "status": "proved", "theorems": ["Verif.C147_asymmetry", "Verif.C147_textbook", "Verif.C147_one_measurement", "Verif.C147_grows", "Verif.C147_double", "Verif.C147_exact"], "note": ""},
{"property": "C148", "status": "proved", "theorems": ["Verif.C148_estimate", "Verif.C148_float", "Verif.C148_covariance", "Verif.C148_formats"], "note": "Idealisation: arithmetic is any one of accuracy omega (Spec/Accurate.lean); IEEE formats without infinities and NaN (overflow is a failure) are shown to be instances."},
{"property": "C149", "status": "proved", "theorems": ["Verif.C149_fixed", "Verif.C149_finite_run", "Verif.C149_two", "Verif.C149_float", "Verif.C149_needs_noise"], "note": "Same arithmetics as C148. The clock is included; its values must be near as well."},
{"property": "C150", "status": "proved", "theorems": ["Verif.C150_diagonal", "Verif.C150_separate", "Verif.C150_symmetric", "Verif.C150_estimate", "Verif.C150_float_zero", "Verif.C150_fixed_zero", "Verif.C150_float", "Verif.C150_needs_zero"], "note": "ZeroExact (floating point: C150_float_zero, fixed point: C150_fixed_zero) says that 0 is neutral and absorbing without rounding; signed zeros, infinities and NaNs are not modelled there"},
{"property": "C151", "status": "proved", "theorems": ["Verif.C151_settled", "Verif.C151_not_earlier", "Verif.C151_accurate", "Verif.C151_alpha_beta", "Verif.C151_reported"], "note": "the data of a run are arbitrary; that runs of every length complete is C152"},
{"property": "C152", "status": "proved", "theorems": ["Verif.C152_follows", "Verif.C152_completes", "Verif.C152_overflow"], "note": "data below 2^-900 in magnitude are covered with M = 2^-900; the bounds are then absolute"},
{"property": "C153", "status": "proved", "theorems": ["Verif.C153_completes"], "note": ""},
{"property": "C154", "status": "proved", "theorems": ["Verif.C154_settled", "Verif.C154_not_earlier", "Verif.C154_accurate"], "note": ""},
{"property": "C155", "status": "proved", "theorems": ["Verif.C155_follows", "Verif.C155_completes", "Verif.C155_overflow"], "note": ""},
{"property": "C156", "status": "proved", "theorems": ["Verif.C156_equal", "Verif.C156_float", "Verif.C156_fixed", "Verif.C156_forever", "Verif.C156_exact", "Verif.C156_rounds"], "note": ""},
{"property": "C157", "status": "proved", "theorems": ["Verif.C157_least", "Verif.C157_ends", "Verif.C157_overflow", "Verif.C157_seconds", "Verif.C157_program"], "note": ""},
{"property": "C158", "status": "proved", "theorems": ["Verif.C158_tracking", "Verif.C158_noiseless", "Verif.C158_parameters"], "note": "exact arithmetic; the constants 75 and 12 are sufficient, not the smallest"},
{"property": "C159", "status": "proved", "theorems": ["Verif.C159_tracking"], "note": "binary64, round to nearest even; the constants are sufficient, not the smallest; the draws are parameters"},
{"property": "C160", "status": "proved", "theorems": ["Verif.C160_nearest", "Verif.C160_error", "Verif.C160_fixed"], "note": "Uses Mathlib's bounds of pi to 20 decimals."},
{"property": "C161", "status": "partial", "theorems": ["Verif.C161_prewarp_partial", "Verif.C161_below_nyquist_double", "Verif.C161_nyquist_wrong", "Verif.C161_nyquist_double_wrong", "Verif.C161_below_nyquist_wrong"], "note": "Partial since the claim is false at half the sampling frequency itself (C161_nyquist_wrong in float, C161_nyquist_double_wrong in double), and in float also just below it (C161_below_nyquist_wrong). It holds in double for all frequencies below (C161_below_nyquist_double), and in both types up to (1 - 2^-20) fs / 2 (C161_prewarp_partial). Of std::tan only the sign of the result is assumed."},
{"property": "C162", "status": "proved", "theorems": ["Verif.C162_range", "Verif.C162_accuracy", "Verif.C162_monotone"], "note": "Of response() only the angle; the response itself is analysed over the complex numbers (C36, C43, C45)."}
]}

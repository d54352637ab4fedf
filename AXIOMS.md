# Axioms of the theorems in MANIFEST.json

As printed by `#print axioms`, grouped.  All names are in namespace `Verif`.

## no axioms (8)

`C30_rep_roundtrip`, `C54_post_increment`, `C89_foc1_wrong`, `C89_registers`, `C89_working_registers`, `C93_waveforms_complete`, `C125_initializer_list`, `C145_assignment_wrong`

## propext (13)

`C03_sub_scalar_undefined`, `C41_empty`, `C63_section_broken`, `C65_bounds`, `C65_inside`, `C65_nearest`, `C65_idempotent`, `C65_monotone`, `C89_fields_partial`, `C89_policies_partial`, `C89_flags`, `C93_complete`, `C145_selects`

## Quot.sound, propext (30)

`C12_time_any_type`, `C21_library_to_variant`, `C21_variant_to_library`, `C21_gain_off`, `C35_reset_biquad`, `C35_reset_biquad_outputs`, `C35_reset_cascade`, `C35_reset_onepole`, `C40_insert_not_at_end`, `C45_reset`, `C54_step_unsigned_wrong`, `C54_step_empty`, `C54_infinite`, `C56_line`, `C59_bitmask_undefined`, `C62_byte_ignored`, `C63_enables`, `C78_other_order_torn`, `C89_bits`, `C94_stop_wrong`, `C106_no_jump`, `C113_register_access`, `C121_vector`, `C123_noise_independent`, `C124_is_integer`, `C124_is_signed_partial`, `C124_requirement_avr`, `C125_swap`, `C125_swap_involutive`, `C145_removes`

## Classical.choice, Quot.sound, propext (613)

`C01_list_row_major`, `C01_list_too_long`, `C01_fill`, `C01_access_defined`, `C02_write_frame`, `C02_flat_write`, `C03_add`, `C03_sub`, `C03_add_scalar`, `C03_mul_scalar`, `C03_sub_scalar`, `C03_scalar_left`, `C03_1x1_operand`, `C03_1x1_operand_left`, `C03_1x1_scalar`, `C04_square_product`, `C04_assoc`, `C04_distrib`, `C04_eye`, `C05_dot`, `C05_outer`, `C05_mulVec`, `C05_vecMul`, `C05_vecMul_transposed`, `C06_mul`, `C06_vecMul`, `C06_mulVec`, `C07_transposed22`, `C07_transposed_vectors`, `C07_product`, `C08_inverse_fails`, `C08_is_transpose_of_inverse`, `C08_inverse_partial`, `C09_inverted_scalar`, `C10_textbook`, `C10_from_constructor`, `C11_textbook`, `C11_textbook_runs`, `C11_asymmetric_fails`, `C12_time`, `C12_time_from_start`, `C13_data_independent`, `C13_definedness`, `C14_symmetric`, `C15_positive_semidefinite`, `C16_never_adds_uncertainty`, `C17_optimal`, `C18_error_dynamics`, `C18_tracks_exactly`, `C19_superposition`, `C20_batch_least_squares`, `C21_gain_off_fresh`, `C22_one_measurement`, `C22_two_measurements`, `C23_joseph`, `C24_add_exact`, `C24_sub_exact`, `C24_add_wraps_above`, `C24_add_wraps_below`, `C24_sub_wraps_above`, `C24_sub_wraps_below`, `C24_add_undefined`, `C24_sub_undefined`, `C25_mul_total`, `C25_mul_rounds_down`, `C25_mul_exact`, `C26_div_total`, `C26_div_truncates`, `C26_div_by_zero`, `C26_div_negative_strict`, `C27_eq`, `C27_ne`, `C27_lt`, `C27_le`, `C27_gt`, `C27_ge`, `C27_total_order`, `C28_ofInt_exact`, `C28_ofInt_fits`, `C28_asInt_truncates`, `C28_int_roundtrip`, `C28_ofInt_wraps`, `C28_ofInt_undefined`, `C28_literals`, `C28_one_wrong`, `C28_asInt_narrow_wrong`, `C29_ofReal_nearest`, `C29_ofReal_exact`, `C29_ofReal_undefined`, `C30_asReal`, `C30_real_roundtrip`, `C31_min_max`, `C31_min_max_val`, `C31_neg`, `C31_neg_min_wraps`, `C31_neg_min_undefined`, `C32_step`, `C32_step_any_state`, `C32_fir`, `C32_default`, `C33_df2_transposed`, `C33_state_differs`, `C34_linear`, `C34_time_invariant`, `C34_linear_transposed`, `C34_time_invariant_transposed`, `C34_runs_exist`, `C35_reset_cascade_outputs`, `C36_response_limit_asymptotic`, `C36_response_limit`, `C36_response_transfer`, `C37_is_stable_poles`, `C37_bounded_partial`, `C37_integrator`, `C37_triangle`, `C37_triangle_open`, `C38_poles`, `C38_zeros`, `C38_zeros_undefined`, `C38_solve`, `C38_real_or_conj`, `C39_zpk`, `C39_ignored`, `C39_roundtrip`, `C40_construct`, `C40_refines`, `C40_observers`, `C41_series`, `C41_step_forms`, `C41_step_frame`, `C41_forms_agree`, `C42_product_transfer`, `C42_order_irrelevant`, `C42_run_exists`, `C43_response`, `C43_response_undefined`, `C43_response_order`, `C43_is_stable`, `C43_response_limit`, `C44_replace`, `C44_insert_remove`, `C44_remove_insert`, `C45_step_any_state`, `C45_step`, `C45_is_biquad`, `C45_gain`, `C45_default`, `C45_run_exists`, `C45_linear`, `C45_time_invariant`, `C45_impulse`, `C45_response`, `C45_response_biquad`, `C46_poles_wrong`, `C46_zeros`, `C46_is_stable_wrong`, `C46_is_stable_partial`, `C46_bounded_iff`, `C47_low_pass_coeff`, `C47_high_pass_coeff`, `C47_low_pass_no_overshoot`, `C47_high_pass_no_overshoot`, `C47_low_pass_gain`, `C47_high_pass_gain`, `C47_low_pass_monotone`, `C47_high_pass_monotone`, `C47_stable`, `C47_high_pass_above_nyquist`, `C48_low_pass`, `C48_high_pass`, `C48_band_pass`, `C48_band_stop`, `C48_gains`, `C48_butterworth`, `C48_lpf_hpf`, `C49_stable`, `C50_low_shelf_partial`, `C50_high_shelf_partial`, `C50_peak_partial`, `C50_low_shelf_transfer`, `C50_high_shelf_transfer`, `C50_peak_transfer`, `C50_zero_dB_wrong`, `C50_boost_wrong`, `C50_boost_attenuates`, `C51_dbP`, `C51_dbP_attenuation`, `C51_dbV_wrong`, `C51_dbV_factor_wrong`, `C51_dbV_partial`, `C51_db_domain`, `C52_count`, `C52_order`, `C52_rejects`, `C52_overflow`, `C52_cascade`, `C52_band_stop_wrong`, `C53_stable`, `C53_gain`, `C54_range`, `C54_reversed`, `C54_reversed_unsigned`, `C54_step`, `C54_step_values`, `C54_step_overflow`, `C54_step_wrong`, `C54_infinite_values`, `C54_infinite_from`, `C54_indices`, `C54_step_real`, `C54_step_real_down`, `C55_copy`, `C55_copy_overlap`, `C55_copy_defined`, `C55_fill`, `C55_fill_defined`, `C55_equal_predicate`, `C55_equal`, `C56_replaced`, `C56_absent`, `C56_cases`, `C57_read`, `C57_write`, `C57_write_read`, `C57_round_trip`, `C57_single_overwide`, `C58_combined`, `C58_separate`, `C58_combined_eq_separate`, `C58_overwide_wrong`, `C59_set`, `C59_clear`, `C59_toggle`, `C59_toggle_twice`, `C59_trigger`, `C59_bitmask`, `C59_rngmask`, `C60_clear_partial`, `C60_clear_alone_partial`, `C60_others_lost`, `C61_tc0_set`, `C61_tc1_set`, `C61_tc0_current`, `C61_tc1_current`, `C61_tc0_round_trip_partial`, `C61_tc1_round_trip_partial`, `C61_round_trip_wrong`, `C62_write_partial`, `C62_write_wrong`, `C63_read`, `C63_write`, `C63_plain_torn`, `C64_beat`, `C64_blink`, `C65_dac`, `C66_magnitude`, `C66_specification`, `C66_exists`, `C66_least_order`, `C67_magnitude_partial`, `C67_even_pass_partial`, `C67_stop_wrong`, `C67_pass_wrong`, `C67_even_stop_partial`, `C68_rw_clear`, `C69_write_clears_flags`, `C70_pwm_init`, `C71_tc0_force`, `C71_tc1_force_wrong`, `C72_scoped_sreg`, `C73_pcifr_wrong`, `C73_eifr_wrong`, `C74_pullups`, `C74_pullups_wrong`, `C74_registers`, `C75_poll`, `C75_put`, `C75_no_spurious`, `C75_noticed`, `C75_lost`, `C76_period`, `C76_beat`, `C76_late`, `C77_beat_init`, `C77_adc_init`, `C77_led`, `C78_adc_result`, `C78_store`, `C79_best_trajectory`, `C80_error_covariance`, `C80_unbiased`, `C81_conservative`, `C82_best_gains`, `C83_monotone`, `C84_biquad`, `C85_rounding`, `C85_biquad`, `C86_onepole`, `C86_fixed_point`, `C87_dead_band`, `C87_exact_decays`, `C88_dot`, `C88_mul`, `C90_set`, `C90_set_register`, `C91_kept_partial`, `C91_lost_wrong`, `C92_current`, `C92_clear`, `C92_results`, `C93_set`, `C93_tc0_waveform`, `C93_tc1_waveform`, `C93_status`, `C94_init`, `C94_start`, `C94_data_partial`, `C94_no_byte_wrong`, `C94_stop_partial`, `C94_address_wrong`, `C94_expect`, `C95_simulation_columns`, `C95_velecov_wrong`, `C95_gain_covariance`, `C96_steady_state`, `C96_bounded_of_observable`, `C96_bounded_of_invertible`, `C96_bounded_of_steady`, `C97_alpha_beta`, `C97_any_start`, `C98_simulation`, `C98_initial_state_forgotten`, `C99_noise_covariance_wrong`, `C99_noise_covariance_partial`, `C100_exact_tracking`, `C101_correctly_rounded`, `C101_unique`, `C101_standard_model`, `C101_binary32`, `C101_binary64`, `C102_symmetric_wrong`, `C102_nonnegative_wrong`, `C102_position_variance_partial`, `C103_time_stalls`, `C103_time_exact`, `C103_every_run_stops`, `C104_rest_remains`, `C105_isr`, `C105_pass`, `C105_steady`, `C105_flicker_wrong`, `C105_init`, `C105_channel`, `C105_channel_wrong`, `C106_delay`, `C106_pass`, `C106_triangle`, `C106_init`, `C107_blink`, `C108_difference`, `C108_equal_iff`, `C108_joseph_psd`, `C108_program_wrong`, `C108_float_wrong`, `C109_deaf_wrong`, `C109_time_wrong`, `C110_cycle`, `C110_gain`, `C110_time`, `C111_update_one`, `C111_update_two`, `C111_simulation`, `C111_rows`, `C112_elements`, `C112_stops`, `C112_never_wrong`, `C112_sweep`, `C112_inner_sweep`, `C112_sweep_examples`, `C112_sweep_wrong`, `C113_one_access`, `C113_together`, `C113_apart`, `C114_transposed`, `C114_transposed_fixed`, `C114_cascade`, `C115_bounded_error`, `C115_start_forgotten`, `C115_unobservable`, `C115_simulation`, `C115_simulation_forgets`, `C116_pythagoras`, `C116_best_linear`, `C116_is_linear`, `C117_innovation_covariance`, `C117_innovations_white`, `C118_nearest`, `C118_exact`, `C118_relative_error`, `C118_monotone`, `C118_ties`, `C118_characters`, `C118_exponent`, `C118_no_trailing_zero`, `C118_scientific`, `C118_plain`, `C119_as_double`, `C119_as_float`, `C119_as_float_wrong`, `C119_roundtrip`, `C119_of_float`, `C119_of_float_wrong`, `C119_of_double_exact`, `C120_print`, `C120_roundtrip`, `C120_roundtrip_small`, `C120_injective`, `C120_monotone`, `C120_injective_wrong`, `C121_number_word`, `C121_matrix`, `C121_matrix_determined`, `C122_natural`, `C122_biquad`, `C122_biquad_undefined`, `C122_biquad_determined`, `C122_cascade`, `C122_onepole`, `C122_onepole_wrong`, `C123_recorded`, `C124_min_max`, `C124_digits`, `C124_is_signed_wrong`, `C124_requirement_desktop`, `C124_requirement_avr_wrong`, `C125_matrix_construction`, `C125_as`, `C125_as_float`, `C126_close`, `C126_completes`, `C127_update`, `C127_forever`, `C127_unnoticed`, `C127_biquad`, `C127_transposed`, `C127_onepole`, `C127_cascade`, `C128_add`, `C128_sub`, `C128_mul`, `C128_div`, `C128_sign`, `C128_inverted`, `C128_kalman`, `C128_filters`, `C128_exact`, `C128_singular`, `C128_singular_update`, `C128_overflow`, `C128_overflow_update`, `C128_simulation`, `C129_real`, `C129_stable`, `C129_design`, `C129_low_frequency_wrong`, `C130_lowpass`, `C130_highpass`, `C130_dead`, `C130_integer_abs_wrong`, `C131_type2`, `C131_separates`, `C131_type1_partial`, `C131_type1_wrong`, `C131_text`, `C132_table`, `C132_coefficients`, `C132_pass_calls`, `C132_defined`, `C132_defined_cascade`, `C132_onepole`, `C132_removed`, `C132_call`, `C132_calls_partial`, `C132_calls_wrong`, `C132_chebyshev1_removed`, `C132_chebyshev1_wrong`, `C132_type2_calls`, `C132_band_wrong`, `C133_design`, `C133_band`, `C133_pass_partial`, `C133_pass_wrong`, `C134_led`, `C134_gains`, `C134_rest`, `C134_rest_far`, `C134_gain_off`, `C134_gain_off_desktop`, `C135_converges`, `C135_consistent`, `C136_real`, `C136_stable`, `C136_accuracy`, `C136_complex`, `C136_case`, `C136_low_frequency_wrong`, `C137_type1`, `C137_type2`, `C138_prints`, `C138_range`, `C138_step`, `C138_indices`, `C138_break_iff`, `C138_break`, `C138_text`, `C139_text`, `C139_text_partial`, `C139_text_iff`, `C139_singular`, `C139_program`, `C139_program_wrong`, `C140_text`, `C140_closed`, `C140_simplified`, `C140_joseph`, `C140_start`, `C140_program`, `C141_finite`, `C141_biquad`, `C141_onepole`, `C141_cascade`, `C141_kalman`, `C141_covariance`, `C142_run`, `C143_sequential`, `C143_positive`, `C144_residual`, `C144_between`, `C144_doubt`, `C145_complex`, `C145_binary`, `C146_constant_data`, `C146_one_source`, `C146_simulation`, `C146_needed`, `C146_bounded_error`, `C146_start_forgotten`, `C146_steady_state`, `C146_initial_state_forgotten`, `C147_asymmetry`, `C147_textbook`, `C147_one_measurement`, `C147_grows`, `C147_double`, `C147_exact`, `C148_estimate`, `C148_float`, `C148_covariance`, `C148_formats`, `C149_fixed`, `C149_finite_run`, `C149_two`, `C149_float`, `C149_needs_noise`, `C150_diagonal`, `C150_separate`, `C150_symmetric`, `C150_estimate`, `C150_float_zero`, `C150_fixed_zero`, `C150_float`, `C150_needs_zero`, `C151_settled`, `C151_not_earlier`, `C151_accurate`, `C151_alpha_beta`, `C151_reported`, `C152_follows`, `C152_completes`, `C152_overflow`, `C153_completes`, `C154_settled`, `C154_not_earlier`, `C154_accurate`, `C155_follows`, `C155_completes`, `C155_overflow`, `C156_equal`, `C156_float`, `C156_fixed`, `C156_forever`, `C156_exact`, `C156_rounds`, `C157_least`, `C157_ends`, `C157_overflow`, `C157_seconds`, `C157_program`, `C158_tracking`, `C158_noiseless`, `C158_parameters`, `C159_tracking`, `C160_nearest`, `C160_error`, `C160_fixed`, `C161_prewarp_partial`, `C161_below_nyquist_double`, `C161_nyquist_wrong`, `C161_nyquist_double_wrong`, `C161_below_nyquist_wrong`, `C162_range`, `C162_accuracy`, `C162_monotone`

{"id": "C01", "title": "Row-major construction and access", "statement": "A matrix built from a list of at most N*M values has value number r*M+c of the list at (r,c), zeros for the values the list does not supply, and the same value when read by flat index; a fill-constructed matrix has the fill value everywhere; a longer list writes outside the object.", "quantifier": "all shapes N,M, all element types, all lists, all in-range and out-of-range index pairs", "why_tests_cant": "Tests build a handful of 2x2/1x2 matrices; shapes, list lengths and indices are unbounded and out-of-range behaviour is undefined, hence not observable by a test.", "anchors": ["include/num/matrix.hpp: matrix(value_type), matrix(initializer_list), at, operator[], operator()"]}
{"id": "C02", "title": "Element write has a frame", "statement": "Assigning through A(r,c) or A(i) changes exactly that element: reading it back gives the assigned value and every other (row,column) position inside the shape keeps its value.", "quantifier": "all shapes, all element values, all pairs of distinct in-range positions", "why_tests_cant": "Aliasing of two index pairs can only be excluded for every shape and every pair of positions.", "anchors": ["include/num/matrix.hpp: operator()(int,int), at(int,int), operator[](int)"]}
{"id": "C03", "title": "Element-wise operators", "statement": "A+B, A-B, A+v, v+A, A-v, A*v, v*A and the 1x1 variants compute, for every position, exactly the one scalar operation on the corresponding operand elements, with the operand order of the source, and never access storage out of bounds.", "quantifier": "all shapes, all operand values, every numeric type including ones whose arithmetic is inexact or can be undefined", "why_tests_cant": "Tests use a few int/double constants; a loop-bound slip shows only for other shapes, an operand-order slip only for other values.", "anchors": ["include/num/matrix.hpp: operator+, operator-, operator* (matrix/scalar, matrix/matrix, 1x1)"]}
{"id": "C04", "title": "Square product is the matrix product", "statement": "For square matrices A*B is the mathematical matrix product; hence it is associative, distributes over +, and eye() is a two-sided neutral element.", "quantifier": "all dimensions N, all matrices over any commutative (or not) ring", "why_tests_cant": "Unit tests check the product of one pair of 2x2 matrices; the identity is over all sizes and entries.", "anchors": ["include/num/matrix.hpp: operator*(matrix,matrix), eye"]}
{"id": "C05", "title": "Vector products", "statement": "rowvec*colvec is the dot product, colvec*rowvec the outer product, A*x and x*A (A square) the matrix-vector products, and x*A agrees with transposing and multiplying from the other side.", "quantifier": "all dimensions, all vectors and square matrices over any commutative ring", "why_tests_cant": "As C04: universally quantified over size and values.", "anchors": ["include/num/matrix.hpp: operator*(rowvec,colvec), operator*(colvec,rowvec), operator*(rowvec,matrix), operator*(matrix,colvec)"]}
{"id": "C06", "title": "Memory safety of products depends on shape", "statement": "The products that compile for non-square operands (A*B with equal shapes NxM, x*A, A*x) read and write only inside their operands and result exactly when M <= N (N,M>0); for M > N they access memory outside a matrix.", "quantifier": "all shapes N,M>0 and all values", "why_tests_cant": "Out-of-bounds access is undefined behaviour: a test may pass by luck, and only finitely many shapes can be instantiated.", "anchors": ["include/num/matrix.hpp: operator*(matrix,matrix), operator*(rowvec,matrix), operator*(matrix,colvec)"]}
{"id": "C07", "title": "Transposition", "statement": "transposed exchanges row and column of every element, is its own inverse, and reverses products: transposed(A*B) = transposed(B)*transposed(A).", "quantifier": "all 2x2 matrices and all row/column vectors of any length, any commutative ring for the product law", "why_tests_cant": "Universally quantified algebraic law.", "anchors": ["include/num/matrix.hpp: transposed"]}
{"id": "C08", "title": "2x2 inversion", "statement": "For every 2x2 matrix with non-zero determinant, A*inverted(A) and inverted(A)*A are the identity.", "quantifier": "all 2x2 matrices with non-zero determinant over a field", "why_tests_cant": "The unit test encodes the value the code produces for one matrix, so it cannot reveal that the function computes something else than the inverse.", "anchors": ["include/num/matrix.hpp: inverted(matrix<T,2,2>)", "test/matrix.t.cpp"]}
{"id": "C09", "title": "Scalar inversion is guarded", "statement": "inverted(v) is the reciprocal for v != 0 and 0 for v == 0; it never divides by zero.", "quantifier": "all values of any field", "why_tests_cant": "Needs every value, and the absence of a division by zero on every path.", "anchors": ["include/num/matrix.hpp: inverted(T)"]}
{"id": "C10", "title": "Update implements the textbook equations, one measurement", "statement": "One update(u,z) of a 2-state, 1-measurement estimator yields exactly: x- = Ax+Bu, P- = APA'+Q, K = P-H'(HP-H'+R)^-1, x = x- + K(z-Hx-), P = (I-KH)P-, provided HP-H'+R is non-zero; and the observers return these.", "quantifier": "all model matrices, all states, all controls (one or two), all measurements, over any field", "why_tests_cant": "Tests run one simulation and compare a few numbers; conformance with the equations is for all real-valued parameters.", "anchors": ["include/dsp/kalman.hpp: kalman::update, system_state, kalman_gain, estimation_error_covariance"]}
{"id": "C11", "title": "Update implements the textbook equations, two measurements", "statement": "The same as C10 for two measurements, provided the innovation covariance HP-H'+R is symmetric and invertible (which holds along every run started with symmetric P, Q, R).", "quantifier": "all model matrices, states and measurements over any field, all run lengths", "why_tests_cant": "Two-measurement use is not tested at all, and correctness hinges on symmetry because of how the 2x2 inverse is computed.", "anchors": ["include/dsp/kalman.hpp: kalman::update", "include/num/matrix.hpp: inverted(matrix<T,2,2>)"]}
{"id": "C12", "title": "Elapsed time", "statement": "After n updates time() is n*dt, whatever the inputs; before the first it is 0; update changes no model parameter.", "quantifier": "all run lengths, all inputs, all dt", "why_tests_cant": "Induction over unbounded histories.", "anchors": ["include/dsp/kalman.hpp: kalman::update, kalman::time"]}
{"id": "C13", "title": "Gain and covariance do not depend on data", "statement": "The sequence of Kalman gains, covariances and times is a function of the model and the initial covariance only: two estimators that differ in initial state, controls and measurements have identical gains and covariances after every step.", "quantifier": "all pairs of input histories of equal length, every numeric type including fixed point (no arithmetic law used)", "why_tests_cant": "A relational (two-run) property over all histories.", "anchors": ["include/dsp/kalman.hpp: kalman::update"]}
{"id": "C14", "title": "Covariance stays symmetric", "statement": "Starting from symmetric P with symmetric Q and R the reported covariance is symmetric after any number of updates.", "quantifier": "all models, all histories of any length, one or two measurements", "why_tests_cant": "Invariant over unbounded histories and all real parameters; the code never symmetrises.", "anchors": ["include/dsp/kalman.hpp: kalman::update, estimation_error_covariance"]}
{"id": "C15", "title": "Covariance stays positive semidefinite", "statement": "With P, Q positive semidefinite and R positive (definite), the reported covariance is positive semidefinite after any number of updates, in particular variances are never negative and the innovation variance is never zero, so the guarded zero-gain branch is never taken.", "quantifier": "all models, all histories, real arithmetic", "why_tests_cant": "Invariant over unbounded histories and all real parameters.", "anchors": ["include/dsp/kalman.hpp: kalman::update"]}
{"id": "C16", "title": "A measurement never adds uncertainty", "statement": "The covariance after correction never exceeds the predicted covariance (in the positive-semidefinite order) and the variance of the measured quantity after correction never exceeds the measurement noise R.", "quantifier": "all models with P,Q psd and R>0, real arithmetic", "why_tests_cant": "Inequality over all real parameters.", "anchors": ["include/dsp/kalman.hpp: kalman::update"]}
{"id": "C17", "title": "The gain is optimal", "statement": "Among all gains G, the gain computed by update minimises the posterior error covariance (I-GH)P-(I-GH)'+GRG' in the positive-semidefinite order, hence also every single variance and the trace.", "quantifier": "all models with P,Q psd and R>0, all alternative gains, real arithmetic", "why_tests_cant": "Minimisation over an infinite set of alternatives.", "anchors": ["include/dsp/kalman.hpp: kalman::update, kalman_gain"]}
{"id": "C18", "title": "Perfect model tracks exactly", "statement": "If the measured system follows x' = Ax+Bu exactly, measurements are exactly Hx', and the initial estimate is exact, then system_state() equals the true state after every update, whatever P, Q, R; in general the error obeys e' = (I-KH)A e.", "quantifier": "all models, all control histories of any length", "why_tests_cant": "Induction over unbounded histories, all parameters.", "anchors": ["include/dsp/kalman.hpp: kalman::update, system_state"]}
{"id": "C19", "title": "Estimate is affine in the data", "statement": "The state estimate is jointly linear in (initial estimate, controls, measurements): runs on two data sets superpose.", "quantifier": "all pairs of histories, all linear combinations, same model and initial covariance", "why_tests_cant": "Relational property over three runs of unbounded length.", "anchors": ["include/dsp/kalman.hpp: kalman::update, system_state"]}
{"id": "C20", "title": "Static system: recursive equals batch least squares", "statement": "For A = I, Q = 0, no control, with P0 positive definite and R > 0 the estimate after n measurements is the unique minimiser of the regularised least squares cost over all n measurements, and the covariance is the inverse of its (half) Hessian: P_n^-1 = P_0^-1 + n H'R^-1H.", "quantifier": "all measurement sequences of any length, all H, P0, R>0, x0", "why_tests_cant": "Equivalence with an optimisation problem over all sequences.", "anchors": ["include/dsp/kalman.hpp: kalman::update"]}
{"id": "C21", "title": "Benchmark variant agrees with the library", "statement": "The estimator in the AVR timing program computes the same state estimates, gains and covariances as the library estimator for every history when gain computation is on (it does not advance time); with gain computation off, gain and covariance never change.", "quantifier": "all histories, every numeric type (no arithmetic law used)", "why_tests_cant": "Two-program equivalence over unbounded histories; the variant has no tests.", "anchors": ["time/avr-kalman-time.cpp: num::kalman::update", "include/dsp/kalman.hpp: kalman::update"]}
{"id": "C22", "title": "Undefined behaviour of update", "statement": "update never divides by zero with one measurement: when the innovation variance is zero the gain is zero, and the estimate is the plain prediction; with two measurements it divides by zero exactly when the innovation covariance is singular.", "quantifier": "all models and inputs over any field", "why_tests_cant": "Absence of a division by zero on every input; the singular case yields inf/nan that tests never exercise.", "anchors": ["include/dsp/kalman.hpp: kalman::update", "include/num/matrix.hpp: inverted"]}
{"id": "C23", "title": "Covariance update equals Joseph form", "statement": "The short covariance update (I-KH)P- equals the Joseph form (I-KH)P-(I-KH)'+KRK' whenever the innovation covariance is invertible and P- is symmetric.", "quantifier": "all models over any field", "why_tests_cant": "Algebraic identity over all parameters; the project's own example compares the two forms numerically on one run.", "anchors": ["include/dsp/kalman.hpp: kalman::update", "example/desktop/covariance-error.e.cpp"]}
{"id": "C24", "title": "Fixed-point addition and subtraction", "statement": "a+b and a-b are exact whenever the exact result is representable; otherwise the result is off by a multiple of the full range for representations narrower than int and undefined for a 32-bit representation.", "quantifier": "all representation widths 8/16/32, all fractional bit counts, all operands, int of 16 or 32 bits", "why_tests_cant": "Tests add a few constants; 2^64 operand pairs for the 32-bit type and the UB case is not observable.", "anchors": ["include/num/fixed-point.hpp: operator+=, operator-=, operator+, operator-"]}
{"id": "C25", "title": "Fixed-point multiplication", "statement": "Whenever the exact product is in range, a*b is the exact product rounded down to a multiple of 2^-F (error in [0,2^-F)); the intermediate product never overflows.", "quantifier": "all widths, all F, all operands", "why_tests_cant": "As C24; absence of intermediate overflow needs all operands.", "anchors": ["include/num/fixed-point.hpp: operator*=, promote"]}
{"id": "C26", "title": "Fixed-point division", "statement": "For b != 0, whenever the quotient is in range, a/b is the exact quotient truncated toward zero to a multiple of 2^-F; division by zero is undefined; the intermediate never overflows.", "quantifier": "all widths, all F within the digits, all operands", "why_tests_cant": "As C24.", "anchors": ["include/num/fixed-point.hpp: operator/="]}
{"id": "C27", "title": "Fixed-point comparison is numeric comparison", "statement": "==, !=, <, <=, >, >= decide the corresponding relation of the represented real numbers, and form a total order.", "quantifier": "all operands of one fixed-point type", "why_tests_cant": "All pairs of values.", "anchors": ["include/num/fixed-point.hpp: operator==, operator<, operator<=, operator>, operator>=, operator!="]}
{"id": "C28", "title": "Integer conversion", "statement": "Constructing from an integer that fits in I bits and reading as<int>() gives the integer back; as<int>() truncates toward zero; an integer that does not fit is silently reduced modulo the range as long as its scaled value fits in 64 bits, beyond that the construction is undefined.", "quantifier": "all widths, all F, all integers", "why_tests_cant": "All integer values.", "anchors": ["include/num/fixed-point.hpp: fixed_point(U), as, underlying_value"]}
{"id": "C29", "title": "Real conversion rounds to nearest", "statement": "Constructing from a real number in range gives the nearest representable number (ties away from zero): error at most half a unit 2^-(F+1); exactly representable numbers convert without error.", "quantifier": "all reals in range (floating-point type idealised to exact reals)", "why_tests_cant": "A continuum of inputs.", "anchors": ["include/num/fixed-point.hpp: fixed_point(float), fixed_point(double), as_double"]}
{"id": "C30", "title": "Representation round trip", "statement": "to_rep(from_rep(n)) = n and from_rep(to_rep(x)) = x for all n, x; from_value keeps the representation value; value = rep * 2^-F.", "quantifier": "all representation values, all F", "why_tests_cant": "All values.", "anchors": ["include/num/fixed-point.hpp: to_rep, from_rep, from_value, as_double"]}
{"id": "C31", "title": "Negation and min/max", "statement": "-x negates the represented number and is an involution for every x except min(); every value lies between min() and max(); -min() wraps to min() for representations narrower than int and is undefined otherwise.", "quantifier": "all values, all widths", "why_tests_cant": "The single exceptional value is what tests miss.", "anchors": ["include/num/fixed-point.hpp: operator-(), min, max"]}
{"id": "C32", "title": "Biquad step realises the difference equation", "statement": "From reset, the outputs of step (direct form 2) satisfy y[n] = b0x[n]+b1x[n-1]+b2x[n-2]-a1y[n-1]-a2y[n-2] with zero past, for every input sequence.", "quantifier": "all coefficients in a commutative ring, all input sequences of any length", "why_tests_cant": "Unbounded sequences; internal state differs from the output history so it needs an invariant.", "anchors": ["include/dsp/biquad.hpp: BiQuad::step, step_df2, reset"]}
{"id": "C33", "title": "Direct form 2 and its transpose are equivalent", "statement": "From reset, step_df2 and step_df2_transposed produce identical outputs for every input sequence.", "quantifier": "all coefficients in a commutative ring, all input sequences", "why_tests_cant": "Two implementations, unbounded sequences, related by a simulation relation.", "anchors": ["include/dsp/biquad.hpp: step_df2, step_df2_transposed"]}
{"id": "C34", "title": "Biquad is linear and time-invariant", "statement": "From reset, the response to a linear combination of inputs is the same combination of responses, and delaying the input by d samples delays the output by d samples.", "quantifier": "all coefficients, all input sequences, all combinations, all delays, both forms", "why_tests_cant": "Relational property over unbounded sequences.", "anchors": ["include/dsp/biquad.hpp: step, step_df2_transposed"]}
{"id": "C35", "title": "reset forgets the past", "statement": "After reset() a filter (biquad, cascade or one-pole) behaves for every further input sequence exactly like a freshly constructed one, whatever it processed before; coefficients are unchanged.", "quantifier": "all filters, all past and future input sequences", "why_tests_cant": "Unbounded histories before and after.", "anchors": ["include/dsp/biquad.hpp: reset", "include/dsp/biquad-cascade.hpp: reset", "include/dsp/onepole.hpp: reset"]}
{"id": "C36", "title": "Frequency response describes the filter", "statement": "response(f) is the transfer function on the unit circle: driven from rest with the complex sinusoid exp(2*pi*i*f*n) a biquad with both poles strictly inside the unit circle produces outputs converging to response(f)*exp(2*pi*i*f*n).", "quantifier": "all coefficients with poles inside the unit circle, all frequencies, n to infinity", "why_tests_cant": "A limit over an infinite sequence.", "anchors": ["include/dsp/biquad.hpp: response, step"]}
{"id": "C37", "title": "is_stable means bounded output", "statement": "If is_stable() then every bounded input yields a bounded output. (Expected from the name; to be decided against the code, which accepts poles on the unit circle.)", "quantifier": "all coefficients, all bounded input sequences of infinite length", "why_tests_cant": "Quantifies over infinite bounded sequences.", "anchors": ["include/dsp/biquad.hpp: is_stable, poles"]}
{"id": "C38", "title": "poles and zeros are the roots", "statement": "poles() returns exactly the roots (with multiplicity) of z^2+a1 z+a2, zeros() those of b0 z^2+b1 z+b2 (b0 != 0), the greater real root first, of a conjugate pair the one with positive imaginary part first; a leading coefficient of zero divides by zero.", "quantifier": "all coefficients (complex square root idealised as exact)", "why_tests_cant": "All real coefficients including the complex-root case.", "anchors": ["include/dsp/biquad.hpp: solve, poles, zeros"]}
{"id": "C39", "title": "ZPK construction has the requested poles and zeros", "statement": "A biquad constructed from zeros, poles and gain has exactly these poles and zeros and leading gain k, when each pair is either two reals or a conjugate pair; for other pairs the second root is ignored.", "quantifier": "all zpk descriptions", "why_tests_cant": "All real/complex pairs.", "anchors": ["include/dsp/biquad.hpp: to_coeff, BiQuad(zpk)"]}
{"id": "C40", "title": "Cascade is a bounded list of sections", "statement": "Under any sequence of append, insert, remove, replace, clear the cascade's content is that of the corresponding list operations; size never exceeds the capacity; operations outside their documented preconditions (index, room) are the only ones that fail.", "quantifier": "all capacities, all operation sequences of any length, all sections", "why_tests_cant": "Refinement over unbounded operation sequences.", "anchors": ["include/dsp/biquad-cascade.hpp: append, insert, remove, replace, clear, size, reserved, begin, end"]}
{"id": "C41", "title": "Cascade steps its sections in order", "statement": "step feeds the sample through the sections front to back: the output sequence is that of the composed single filters, each evolving its own state only; an empty cascade passes the input through; an assembled cascade of both forms agree.", "quantifier": "all cascades, all input sequences", "why_tests_cant": "Unbounded sequences and cascade lengths.", "anchors": ["include/dsp/biquad-cascade.hpp: step, step_df2, step_df2_transposed"]}
{"id": "C42", "title": "Section order does not matter from rest", "statement": "From reset, the output of a cascade is the same for every order of its sections, and equals that of the single difference equation with the product transfer function.", "quantifier": "all permutations of all cascades, all input sequences, commutative ring", "why_tests_cant": "Commutation of LTI systems over unbounded sequences.", "anchors": ["include/dsp/biquad-cascade.hpp: step, reset"]}
{"id": "C43", "title": "Cascade response and stability", "statement": "response(f) of a cascade is the product of the section responses (1 for an empty one), independent of order; is_stable() holds iff it holds for all sections.", "quantifier": "all cascades, all frequencies", "why_tests_cant": "All lengths and orders.", "anchors": ["include/dsp/biquad-cascade.hpp: response, is_stable"]}
{"id": "C44", "title": "replace, insert, remove are inverse to each other", "statement": "replace(i,b) returns the previous section i and changes no other; remove(i) after insert(i,b) restores the cascade.", "quantifier": "all cascades with room, all indices", "why_tests_cant": "All lengths and indices.", "anchors": ["include/dsp/biquad-cascade.hpp: replace, insert, remove"]}
{"id": "C45", "title": "One-pole step", "statement": "From reset the one-pole's output satisfies y[n] = b0 x[n] - a1 y[n-1]; it is linear; and its response(f) is b0/(1+a1 e^{-2 pi i f}).", "quantifier": "all coefficients, all input sequences", "why_tests_cant": "Unbounded sequences.", "anchors": ["include/dsp/onepole.hpp: step, reset, response"]}
{"id": "C46", "title": "One-pole stability report", "statement": "is_stable() tells whether the pole -a1 is inside the unit circle and poles() returns -a1.", "quantifier": "all coefficients", "why_tests_cant": "All coefficients.", "anchors": ["include/dsp/onepole.hpp: is_stable, poles, solve"]}
{"id": "C47", "title": "Designed one-pole filters never overshoot", "statement": "A designed one-pole low-pass keeps every output between the least and greatest input seen (and 0 initially), has unit gain at DC; the designed high-pass has unit gain at the Nyquist frequency; both poles are strictly inside the unit circle for 0 < f < fs/2.", "quantifier": "all cut-off and sample frequencies, all input sequences, real arithmetic", "why_tests_cant": "Unbounded sequences, continuum of parameters.", "anchors": ["include/dsp/onepole-design.hpp: design_method<...>::design_coefficients", "include/dsp/onepole.hpp: step"]}
{"id": "C48", "title": "Designed biquads have the nominal gains", "statement": "Low-pass: unit gain at DC, zero at Nyquist; high-pass: the reverse; band-pass: zero at DC and Nyquist and unit gain at the centre; band-stop: unit at DC and Nyquist, zero at the centre; the low/high-pass magnitude at the cut-off frequency is the quality factor Q.", "quantifier": "all 0 < f < fs/2, all Q > 0, real arithmetic", "why_tests_cant": "Continuum of parameters, transcendental functions.", "anchors": ["include/dsp/biquad-design.hpp: design_method specialisations", "include/dsp/biquad.hpp: response"]}
{"id": "C49", "title": "Designed biquads are stable", "statement": "All biquad designs (low, high, band pass, band stop, shelves, peak) have both poles strictly inside the unit circle.", "quantifier": "all 0 < f < fs/2, all Q > 0, all gains, real arithmetic", "why_tests_cant": "Continuum of parameters.", "anchors": ["include/dsp/biquad-design.hpp: design_method specialisations", "include/dsp/biquad.hpp: is_stable"]}
{"id": "C50", "title": "Shelf and peak gains", "statement": "Low shelf: gain V at DC, 1 at Nyquist (boost) resp. 1/V (cut); high shelf mirrored; peak filter: V resp. 1/V at the centre and 1 at DC and Nyquist, where V is the factor for the requested dB gain. A 0 dB filter is transparent. (To be decided against the code.)", "quantifier": "all 0 < f < fs/2, Q > 0, all dB gains, real arithmetic", "why_tests_cant": "Continuum of parameters.", "anchors": ["include/dsp/biquad-design.hpp: low_shelf, high_shelf, peak_band_eq", "include/dsp/filter-design.hpp: dbV_factor"]}
{"id": "C51", "title": "Decibel conversions are inverse", "statement": "dbP_factor and dbP are inverse for gains >= 1, dbV_factor and dbV likewise. (Expected from the names; to be decided against the code.)", "quantifier": "all positive factors, all non-negative dB values, real arithmetic", "why_tests_cant": "Continuum of parameters.", "anchors": ["include/dsp/filter-design.hpp: dbP, dbP_factor, dbV, dbV_factor"]}
{"id": "C52", "title": "Chebyshev section count", "statement": "A Chebyshev design of order N has N/2 rounded up sections (one first-order section iff N is odd), make_biquad_cascade<n> succeeds iff this is at most n, and the sections appear in order.", "quantifier": "all valid specifications, all orders for which the index arithmetic of the loop does not overflow int (below 2^30), all capacities", "why_tests_cant": "All orders.", "anchors": ["include/dsp/chebyshev-design.hpp: chebyshev1_lp_hp_impl, chebyshev2_lp_hp_impl, make_biquad_cascade"]}
{"id": "C53", "title": "Chebyshev filters are stable with the nominal gain", "statement": "Every section of a Chebyshev type 1 or 2 low-pass/high-pass design has its poles strictly inside the unit circle, and the cascade has the nominal gain at DC (low-pass) resp. Nyquist (high-pass).", "quantifier": "all valid specifications (band edges in (0, fs/2) in the right order, stop band attenuated more than pass band), all orders below 2^30, real arithmetic", "why_tests_cant": "Continuum of parameters and all orders.", "anchors": ["include/dsp/chebyshev-design.hpp: chebyshev1_lp_hp_impl, chebyshev2_lp_hp_impl"]}
{"id": "C54", "title": "Ranges enumerate what they say", "statement": "range(a,b) with a <= b yields a, a+1, ..., b-1 and stops; range(a,b,s) with s>0 yields exactly a+k*s for all k >= 0 with a+k*s < b, in order, and stops, when the first such number not below b and its distance from a are representable, and otherwise, for signed types at least as wide as int, has undefined behaviour; range(a) never stops; indices(c) yields 0..size-1; range(a,b) with a > b, for such types, does not stop before overflow; range(a,b,s) is empty for a >= b whatever s is.", "quantifier": "all bounds and steps of an integer type", "why_tests_cant": "All bounds; non-termination cannot be tested.", "anchors": ["include/core/range.hpp: range, indices, range_proxy, step_range_proxy, infinite_range_proxy"]}
{"id": "C55", "title": "copy, fill and equal", "statement": "copy makes the destination equal to the source sequence and leaves the rest, also for overlapping ranges when the destination begins before the source; fill sets exactly the range; equal decides equality of sequences (under any predicate, stopping at the first mismatch).", "quantifier": "all sequences, all destinations, all predicates", "why_tests_cant": "All lengths and overlaps.", "anchors": ["include/std/algorithm.hpp: copy, fill, equal"]}
{"id": "C56", "title": "Text replacement", "statement": "replaced(text, from, to) replaces exactly the leftmost occurrence of from and returns the text unchanged when there is none.", "quantifier": "all strings", "why_tests_cant": "All strings.", "anchors": ["include/core/text.hpp: replaced, line"]}
{"id": "C57", "title": "Bit-field write/read round trip with frame", "statement": "Writing a value to a bit field of a register and reading the field gives the value if it fits the field; a value too wide for the field is truncated to the field width by a multi-bit field and counts as 1 for a single-bit field; every bit of the register outside the field and every other register is unchanged.", "quantifier": "all register contents, all fields hi>=lo of 8- and 16-bit registers, all values", "why_tests_cant": "2^8..2^16 contents x fields x values; frame over all other bits.", "anchors": ["include/mcu/register.hpp: bitfield_t::read, write, w_t::write, rngmask, shl, shr"]}
{"id": "C58", "title": "Combined lazy writes equal separate writes", "statement": "write_lazy of several disjoint fields of one register combined with the comma operator performs one write whose effect equals writing the fields one after another, when every value fits its field; an over-wide value can corrupt a combined neighbouring field, which a separate write does not.", "quantifier": "all register contents, all field lists, all fitting values", "why_tests_cant": "All contents, field combinations and values; number of hardware writes matters.", "anchors": ["include/mcu/register.hpp: write_proxy, operator,, bitfield_t::write_lazy"]}
{"id": "C59", "title": "Bit operations", "statement": "set, clear and toggle of a single-bit field of a read/write register change only that bit; toggle twice restores the register; bitmask and rngmask have exactly the listed bits.", "quantifier": "all register contents, all bits", "why_tests_cant": "All contents and bits.", "anchors": ["include/mcu/register.hpp: setbit_t, clearbit_w0_t, togglebit_t, bitmask, rngmask"]}
{"id": "C60", "title": "Clearing a write-1-to-clear flag", "statement": "clear() on a write-1-to-clear flag clears this flag and leaves other pending flags pending.", "quantifier": "all combinations of pending flags on hardware that clears each flag written as 1", "why_tests_cant": "Depends on hardware semantics of register writes; not testable on the host.", "anchors": ["include/mcu/register.hpp: clearbit_w1_t, rc_w1_t", "include/mcu/atmega328.hpp: tc0/tc1 tifr flags"]}
{"id": "C61", "title": "Timer waveform round trip", "statement": "After set(waveform w) of timer 0 or 1, current(waveform) returns w.", "quantifier": "all waveform modes, all previous register contents", "why_tests_cant": "Requires the target hardware registers.", "anchors": ["include/mcu/atmega328.hpp: tc0::output::set/current(waveform), tc1::output::set/current(waveform)"]}
{"id": "C62", "title": "TWI write sends address then data", "statement": "sync::write(address, byte) puts start, the address byte, the data byte and stop on the bus in this order when every status is as expected, and reports an error as soon as one is not.", "quantifier": "all addresses, bytes and device responses", "why_tests_cant": "Requires an interactive device.", "anchors": ["include/mcu/atmega328.hpp: twi::sync::detail::write"]}
{"id": "C63", "title": "Atomic access under interrupts", "statement": "Reading or writing a variable of any size through atomic() while an interrupt routine reads and writes it is linearisable for every interleaving: all runs of the interrupt routine happen before or after the whole access. A plain bytewise read can yield a value the variable never had; atomic enables interrupts on exit even if they were disabled before.", "quantifier": "all interleavings, interrupt routines, variable sizes, byte orders and values", "why_tests_cant": "Interleavings are not reproducible in tests.", "anchors": ["include/mcu/register.hpp: scoped_interrupt_guard, atomic"]}
{"id": "C64", "title": "Periodic interrupt counters", "statement": "In the interrupt examples the 10/100/1000-tick mailboxes are posted exactly at multiples of 10/100/1000 ticks, and the LED toggles every 1000 ticks.", "quantifier": "any number of ticks", "why_tests_cant": "Induction over unbounded tick counts.", "anchors": ["example/avr/avr-adc-dac-isr-atmega.e.cpp: beat ISR", "example/avr/avr-blink-led-isr.e.cpp: ISR"]}
{"id": "C65", "title": "clamp", "statement": "clamp(v,lo,hi) is in [lo,hi] for lo<=hi, is v if v is in the interval and the nearer bound otherwise; idempotent and monotone. The DAC output of the example is the clamped value, within 3..1023.", "quantifier": "all values of a totally ordered type", "why_tests_cant": "All values.", "anchors": ["example/avr/avr-adc-dac-isr-atmega.e.cpp: clamp"]}
{"id": "C66", "title": "Chebyshev type 2 filters meet their specification", "statement": "A Chebyshev type 2 low-pass or high-pass cascade has, at every frequency, squared gain T^2/(T^2+estop^2) with T the Chebyshev polynomial of the order N at the warped frequency ratio; it passes every pass-band frequency with at most Apass dB attenuation, attenuates every stop-band frequency by at least Astop dB and never amplifies; N is the least order for which this design can do so.", "quantifier": "all sample, pass and stop frequencies and attenuations with 0 < Apass < Astop, both responses, all frequencies in [0, fs/2], real arithmetic", "why_tests_cant": "Continuum of parameters and frequencies, all orders.", "anchors": ["include/dsp/chebyshev-design.hpp: chebyshev2_lp_hp, chebyshev2_lp_hp_impl, make_biquad_cascade", "include/dsp/biquad-cascade.hpp: response"]}
{"id": "C67", "title": "Chebyshev type 1 filters meet their specification", "statement": "A Chebyshev type 1 low-pass or high-pass cascade passes every pass-band frequency with at most Apass dB attenuation and attenuates every stop-band frequency by at least Astop dB.", "quantifier": "all sample, pass and stop frequencies and attenuations with 0 < Apass < Astop, both responses, all frequencies in [0, fs/2], real arithmetic", "why_tests_cant": "Continuum of parameters and frequencies, all orders.", "anchors": ["include/dsp/chebyshev-design.hpp: chebyshev1_lp_hp, chebyshev1_lp_hp_impl"]}
{"id": "C68", "title": "A write-1-to-clear flag declared read/write", "statement": "clear() on a flag of a write-1-to-clear register that is declared with a plain read/write policy leaves the flag pending and clears the other pending flags of the register.", "quantifier": "all pending-flag combinations, all bits", "why_tests_cant": "Depends on hardware semantics of register writes.", "anchors": ["include/mcu/register.hpp: rw_t, clearbit_w0_t", "include/mcu/atmega328.hpp: pcifr"]}
{"id": "C69", "title": "Read-modify-write of a register holding write-1-to-clear flags", "statement": "Writing any field of a register that also contains write-1-to-clear flags clears every pending flag outside the field: the read-modify-write writes a pending flag back as 1.", "quantifier": "all register contents, all fields, all sets of flags", "why_tests_cant": "Depends on hardware semantics of register writes.", "anchors": ["include/mcu/register.hpp: bitfield_t::write, w_t::write", "include/mcu/atmega328.hpp: adcsra"]}
{"id": "C70", "title": "Timer 1 PWM initialisation", "statement": "Initialising timer 1 as a 10-bit fast PWM sets exactly the waveform, compare-output and clock-select bits documented for it and leaves every other bit of the control registers and every other register as it was.", "quantifier": "all previous register contents", "why_tests_cant": "Requires the target hardware registers.", "anchors": ["example/avr/avr-adc-dac-isr-atmega.e.cpp: dac::init", "include/mcu/atmega328.hpp: tc1"]}
{"id": "C71", "title": "Force output compare", "statement": "Forcing an output compare of timer 0 sets the force bit of timer 0's control register B and nothing else; forcing one of timer 1 writes a waveform/compare-output bit of control register A instead of the force bit of control register C.", "quantifier": "all previous register contents", "why_tests_cant": "Requires the target hardware registers.", "anchors": ["include/mcu/atmega328.hpp: tc0 foc0a/foc0b, tc1 foc1a/foc1b"]}
{"id": "C72", "title": "scoped_sreg restores the status register", "statement": "A block run under scoped_sreg leaves the status register, including the global interrupt flag, as it was before the block, whatever the block does.", "quantifier": "all blocks, all machine states", "why_tests_cant": "All blocks and states.", "anchors": ["include/mcu/atmega328.hpp: scoped_sreg"]}
{"id": "C73", "title": "Clearing external interrupt flags", "statement": "Clearing one external interrupt flag clears every flag of the register, not only the requested one; clearing one pin-change interrupt flag leaves that flag as it was and clears the others.", "quantifier": "all pending-flag combinations", "why_tests_cant": "Depends on hardware semantics of register writes.", "anchors": ["include/mcu/atmega328.hpp: eifr, pcifr"]}
{"id": "C74", "title": "TWI initialisation and the pull-ups", "statement": "twi initialisation requests the pull-ups of SDA and SCL by writing the input register, which toggles the output latch: each latch bit of the port ends as its old value toggled by the levels read, plus one toggle of the SDA and SCL bits; with all lines idle high the latch is unchanged, so pull-ups that were off stay off.", "quantifier": "all previous port contents and pin levels", "why_tests_cant": "Depends on hardware semantics of register writes.", "anchors": ["include/mcu/atmega328.hpp: twi init, gpio inp"]}
{"id": "C75", "title": "Mailbox between interrupt routine and main loop", "statement": "Testing a mailbox answers true exactly if a post is present, never more often than posts were made, and a post made before the test is noticed; posts made between the test and the automatic reset are lost.", "quantifier": "all schedules of posts, any number of polls", "why_tests_cant": "Interleavings are not reproducible in tests.", "anchors": ["example/avr/avr-adc-dac-isr-atmega.e.cpp: mbx::operator bool, operator="]}
{"id": "C76", "title": "Heartbeat period", "statement": "After initialisation the heartbeat interrupt comes every 251 timer clocks (compare value 250 plus one), not every 250 as its names say: n milliseconds contain n - ceil(n/251) beats.", "quantifier": "any number of timer clocks, all previous register contents", "why_tests_cant": "Unbounded time; depends on the timer hardware.", "anchors": ["example/avr/avr-adc-dac-isr-atmega.e.cpp: beat::init", "example/avr/avr-blink-led-isr.e.cpp: init_timer0_1ms"]}
{"id": "C77", "title": "Initialisation of timer 0, ADC and LED", "statement": "Initialising the heartbeat, the ADC and the LED, and switching the LED, sets exactly the documented register bits and leaves every other bit and register as it was; ADC initialisation also clears a pending ADC interrupt.", "quantifier": "all previous register contents, all ports and pins", "why_tests_cant": "All register contents; hardware semantics.", "anchors": ["example/avr/avr-adc-dac-isr-atmega.e.cpp: beat::init, adc::init, led", "include/mcu/atmega328.hpp: tc0, adc, led"]}
{"id": "C78", "title": "16-bit peripheral registers", "statement": "Reading the ADC result yields the result of one conversion even if another completes between the byte accesses, and writing a 16-bit timer register makes it take the new value at once; reading the bytes in the other order could combine two conversions.", "quantifier": "all values, all schedules of conversions", "why_tests_cant": "Depends on hardware timing.", "anchors": ["include/mcu/register.hpp: r_t::read, w_t::write, register16_t", "include/mcu/atmega328.hpp: adc::conversion::result, tc1_pwm_on_a_pb1::write"]}
{"id": "C79", "title": "Estimate ends the best-fitting trajectory", "statement": "Of all state trajectories, one that ends in the estimate has the least total misfit (initial deviation weighted by P0^-1, process disturbances by Q^-1, measurement errors by R^-1); every trajectory ending elsewhere fits worse.", "quantifier": "all models with positive definite P0, Q, R, all control and measurement sequences, all competing trajectories", "why_tests_cant": "Optimality over a continuum of trajectories of any length.", "anchors": ["include/dsp/kalman.hpp: update"]}
{"id": "C80", "title": "Reported covariance is the actual error covariance", "statement": "For a system with random initial error, process and measurement noise of the covariances given to the estimator, all uncorrelated, the covariance of the actual estimation error after any number of steps is the covariance the estimator reports; with zero-mean noise the error has mean zero.", "quantifier": "all probability spaces and noise distributions with these second moments, all models, controls and numbers of steps", "why_tests_cant": "A statement about expectations over all noise distributions; tests can only sample.", "anchors": ["include/dsp/kalman.hpp: update, estimation_error_covariance"]}
{"id": "C81", "title": "Overstated noise keeps the reported covariance an upper bound", "statement": "If the real initial error and noise are at most as strong (Loewner order) as the covariances given to the estimator, the covariance of the actual estimation error is at most the reported one, and so is each variance.", "quantifier": "all noise distributions with second moments below the assumed ones, all models, numbers of steps", "why_tests_cant": "Quantifies over distributions and unbounded runs.", "anchors": ["include/dsp/kalman.hpp: update, estimation_error_covariance"]}
{"id": "C82", "title": "No filter with other gains does better", "statement": "With noise as assumed, every filter of predict-and-correct form with any sequence of gains, started with the same estimate, has an error covariance at least the reported one.", "quantifier": "all gain sequences, noise distributions, models, numbers of steps", "why_tests_cant": "All sequences of real matrices.", "anchors": ["include/dsp/kalman.hpp: update"]}
{"id": "C83", "title": "Reported covariance is monotone in the uncertainty put in", "statement": "Of two estimators for the same system the one given larger P0, Q and R reports a larger covariance after equally many updates, whatever data either processes.", "quantifier": "all pairs of models ordered in the Loewner order, all data", "why_tests_cant": "All ordered pairs of matrices and unbounded runs.", "anchors": ["include/dsp/kalman.hpp: constructor, update, estimation_error_covariance"]}
{"id": "C84", "title": "Biquad under rounding: no overflow, bounded error", "statement": "Computed in any arithmetic whose operations have a relative error u and whose products have in addition an absolute error eta, a section with poles inside the unit circle accepts every input bounded by X, provided that the numbers reach up to the explicit bound on its state and terms, without leaving the range of the numbers, and its output stays within a fixed explicit distance of the exact output for ever.", "quantifier": "all arithmetics with bounded rounding errors, all coefficients with poles inside the unit circle, all bounded input sequences, all sample counts", "why_tests_cant": "Infinitely many inputs and an infinite horizon; errors might accumulate beyond any tested length.", "anchors": ["include/dsp/biquad.hpp:step_df2"]}
{"id": "C85", "title": "Fixed-point biquad: no overflow, error in units of the last place", "statement": "Fixed-point arithmetic has exact sums and differences and products less than one unit off; a fixed-point section with poles p0, p1 inside the unit circle and the stated headroom never overflows and stays within (2(|b0|+|b1|+|b2|)/((1-|p0|)(1-|p1|))+3) units in the last place of the exact output.", "quantifier": "all widths, all numbers of fractional bits below the promoted width, all platforms, coefficients and bounded inputs", "why_tests_cant": "All input sequences of unbounded length.", "anchors": ["include/num/fixed-point.hpp:operator*", "include/dsp/biquad.hpp:step_df2"]}
{"id": "C86", "title": "One-pole filter under rounding", "statement": "With |a1| < 1 a one-pole filter computed with rounding, with the explicit headroom for its inputs, never leaves the range and stays within D/(1-|a1|) of the exact output, D bounding the error of one step; in fixed point within 2/(1-|a1|) units in the last place.", "quantifier": "all arithmetics with bounded rounding errors, coefficients, bounded inputs", "why_tests_cant": "All input sequences of unbounded length.", "anchors": ["include/dsp/onepole.hpp:step"]}
{"id": "C87", "title": "Fixed-point one-pole low-pass has a dead band", "statement": "With -1 <= a1 < 0 and zero input, a fixed-point one-pole filter repeats every positive state below ulp/(1+a1) for ever, although the exact filter decays to zero.", "quantifier": "all widths, fractional bits, platforms, coefficients and states in the band, all times", "why_tests_cant": "Statement about all times and all states; a test would need to know where to look.", "anchors": ["include/dsp/onepole.hpp:step", "include/num/fixed-point.hpp:operator*"]}
{"id": "C88", "title": "Dot and matrix product under rounding", "statement": "Dot products and products of square matrices computed with rounding differ from the exact ones by at most ((1+u)^(N+1)-1) times the sum of the moduli of the products plus N(1+u)^(N+1) eta.", "quantifier": "all sizes, all arithmetics with bounded rounding errors, all elements in range", "why_tests_cant": "All sizes and all elements.", "anchors": ["include/num/matrix.hpp:operator*"]}
{"id": "C89", "title": "Register declarations match the datasheet", "statement": "Every field declared for the ATmega328 lies at the address and bits, and has the access policy, that the datasheet gives for its name.", "quantifier": "all declared registers and fields", "why_tests_cant": "Tests run on a host without the hardware, where a wrong address or bit goes unnoticed.", "anchors": ["include/mcu/atmega328.hpp:reg"]}
{"id": "C90", "title": "Driver functions set the bits they are named for", "statement": "set( x{} ) puts the value into the datasheet bits of the peripheral setting that x names, current( x ) delivers it, and nothing else changes except pending flags of the same register.", "quantifier": "all settings, all values of the setting, all states of all registers", "why_tests_cant": "256 values for each of over two hundred registers: too many states, and no hardware in the tests.", "anchors": ["include/mcu/atmega328.hpp:set", "include/mcu/atmega328.hpp:current"]}
{"id": "C91", "title": "Driver functions keep pending interrupts", "statement": "Setting a field keeps all pending interrupt flags.", "quantifier": "all settings, values and states", "why_tests_cant": "The loss shows only if an interrupt is pending at the moment of the write.", "anchors": ["include/mcu/atmega328.hpp:set"]}
{"id": "C92", "title": "Flags and results are read and cleared", "statement": "current( flag ) delivers the flag named, clear( flag ) clears it and changes no control bit; results are read from the right registers in the right order.", "quantifier": "all flags and states", "why_tests_cant": "All register states.", "anchors": ["include/mcu/atmega328.hpp:current", "include/mcu/atmega328.hpp:clear"]}
{"id": "C93", "title": "Enumerators select what their names say", "statement": "After set( e ) with an enumerator e, the bits of the peripheral's field hold the datasheet code of what the name of e says (clock division, edge, channel, waveform and top value, ...); every code has an enumerator; a bus status read equals an enumerator exactly if the status register shows that state.", "quantifier": "all enumerations that are written to a register, all enumerators, all register states", "why_tests_cant": "The meaning of codes exists only in hardware; tests on a host cannot see a shifted enumeration.", "anchors": ["include/mcu/atmega328.hpp:enum class"]}
{"id": "C94", "title": "Two-wire transfers through the field-based driver", "statement": "On an interface whose control register keeps the bits written to it (as the datasheet describes), start() of detail_x transmits a start condition, data( byte ) is to transmit the byte and stop() a stop condition. In fact no byte is transmitted after start(), whatever functions of the driver are called in whatever order, since every function writes TWCR by read-modify-write and TWSTA stays set; stop() before TWINT is set does nothing; address( byte ) only sets the own slave address. expect( s ) waits for TWINT, and reports exactly whether the status differs.", "quantifier": "for all sequences of driver calls, all bytes, all states of the interface and all reactions of the bus", "why_tests_cant": "the defect shows only on the bus, with real hardware; a mocked register does not distinguish a repeated start from a data byte, and no finite set of call sequences shows that no order of calls helps", "anchors": ["include/mcu/atmega328.hpp:1966-2006", "include/mcu/register.hpp:202-209", "include/mcu/register.hpp:321-380"]}
{"id": "C95", "title": "Gain and stored covariance carry the same information", "statement": "After every update the gain times the measurement noise covariance R equals the stored covariance times H transposed. Hence the simulation's columns posecov and velecov are measnoise squared times posgain and velgain in every row; velecov, meant as variance of the velocity estimate, is in fact the covariance of position and velocity (ecov(1) is element (0,1)).", "quantifier": "all estimators with positive semidefinite P, Q and positive definite R, all data; all parameters and draws of the simulation", "why_tests_cant": "The identity relates results of two different formulas for all real inputs; a test compares one table with itself.", "anchors": ["include/dsp/kalman.hpp:update", "example/desktop/kalman-sim.e.cpp:140-154"]}
{"id": "C96", "title": "Covariance and gain settle", "statement": "If the process noise acts on every state and some fixed gain keeps the error bounded, exactly one steady covariance L exists (solution of the algebraic Riccati equation), and covariance and gain of every estimator with these matrices tend to L and L H' inv(R), whatever the initial covariance and the data, at a rate independent of the data. Boundedness follows from observability and is necessary.", "quantifier": "all A, B, H, positive definite Q and R, all initial covariances and states, all measurement and control sequences", "why_tests_cant": "A limit over unboundedly many steps, for all matrices.", "anchors": ["include/dsp/kalman.hpp:update"]}
{"id": "C97", "title": "The simulated tracker becomes the alpha-beta filter", "statement": "The gains recorded by the simulation tend to alpha and beta/dt of the alpha-beta filter for the tracking index accelnoise*dt^2/measnoise; with any initial state and covariance the covariance tends to the closed-form steady covariance.", "quantifier": "all positive dt, measnoise, accelnoise, all draws, all initial states and covariances", "why_tests_cant": "A limit in closed form for all parameters; a finite run shows neither.", "anchors": ["example/desktop/kalman-sim.e.cpp:53-155", "include/dsp/kalman.hpp:update"]}
{"id": "C98", "title": "The initial state is forgotten", "statement": "Two estimators that differ in the initial state only yield estimates that approach each other on the same data, whatever these are.", "quantifier": "all initial states, all data, all estimators as in C96, and those of the simulation (singular Q)", "why_tests_cant": "A limit for all data sequences and initial states.", "anchors": ["include/dsp/kalman.hpp:update"]}
{"id": "C99", "title": "Simulated disturbance has the covariance told to the estimator", "statement": "The covariance of process_noise() equals the matrix Q given to the estimator.", "quantifier": "all parameters other than 0, all distributions of the draws with variance 1 and no correlation", "why_tests_cant": "A statement on expectations; a finite sample can only suggest it, and the estimates look plausible either way.", "anchors": ["example/desktop/kalman-sim.e.cpp:37-42", "example/desktop/kalman-sim.e.cpp:84-86"]}
{"id": "C100", "title": "Without noise the simulation tracks exactly", "statement": "If all draws are 0 the simulated object has position t^2/2 and velocity t, and the estimates equal them in every row.", "quantifier": "all dt, accelnoise, measnoise other than 0, any number of steps", "why_tests_cant": "All run lengths and parameters.", "anchors": ["example/desktop/kalman-sim.e.cpp:53-155"]}
{"id": "C101", "title": "Floating point rounds correctly", "statement": "In every IEEE 754 binary format each operation of the model returns the representable number nearest to the exact result, of two equally near ones the one with even last digit, and fails exactly if the exact result rounds beyond the largest number; this result is unique; and the arithmetic satisfies the standard model of rounding used by C84 to C88, with u = 2^-p and eta = 2^q/2.", "quantifier": "all formats, all operands, all operations", "why_tests_cant": "Exhausting pairs of doubles is impossible and ties and underflow are rare.", "anchors": ["include/dsp/kalman.hpp:template T", "include/dsp/biquad.hpp:template T"]}
{"id": "C102", "title": "Covariance in floating point", "statement": "Computed in floating point, the covariance stays symmetric with nonnegative variances, as it does in exact arithmetic (C14, C15).", "quantifier": "all formats, all estimators, all updates", "why_tests_cant": "Asymmetry and negative variances appear only for particular values; a test that compares with a tolerance hides them.", "anchors": ["include/dsp/kalman.hpp:update"]}
{"id": "C103", "title": "Time in floating point", "statement": "In floating point the elapsed time is exact for the first 2^p updates if the time step is a power of two, and constant from then on; for every time step it is constant once it has reached 2^(p+1) time steps.", "quantifier": "all formats, time steps, estimators, measurements, run lengths", "why_tests_cant": "It takes 2^24 updates to see it in float, 2^53 in double.", "anchors": ["include/dsp/kalman.hpp:update"]}
{"id": "C104", "title": "Floating-point one-pole filter keeps a rest", "statement": "With -1 <= a1 < -1/2 and zero input a floating-point one-pole filter never fails, never increases, and after finitely many steps repeats a positive value for ever, although the exact filter decays to zero.", "quantifier": "all formats, coefficients, positive states, all times", "why_tests_cant": "It takes thousands of steps to reach the denormal numbers, and the claim is about all times.", "anchors": ["include/dsp/onepole.hpp:step"]}
{"id": "C105", "title": "Level detector (avr-adc-isr)", "statement": "Every pass of the main loop switches the LED on or off twice: by whether a conversion result exceeds 512, then by whether one exceeds 515, each time changing no other pin, and never by a value mixed from two conversions. Inputs above 515 keep it on, up to 512 off; inputs of 513 to 515 make it flicker for ever. The initialisation selects channel 0 if MUX1 was clear, and only then.", "quantifier": "all conversion results, all times at which conversions complete, all numbers of passes, all register contents", "why_tests_cant": "An interrupt between the two bytes of the result occurs rarely and the flicker needs an input in a window of 3 units.", "anchors": ["example/avr/avr-adc-isr.e.cpp:guarded", "example/avr/avr-adc-isr.e.cpp:init_adc", "example/avr/avr-adc-isr.e.cpp:ISR"]}
{"id": "C106", "title": "Fading (avr-fade-led)", "statement": "Apart from the LED port, n passes of the main loop write exactly the compare values of n periods of a triangle of 2046 steps of size 1, output B being the complement of output A and timer 0 a quarter; the delay shows the last sample of the input and touches no other bit.", "quantifier": "all numbers of passes, clock frequencies, inputs, memory contents", "why_tests_cant": "Only hardware can run it, and a jump lasts 2 ms.", "anchors": ["example/avr/avr-fade-led.e.cpp:main", "example/avr/avr-fade-led.e.cpp:delay_ms"]}
{"id": "C107", "title": "Blinking (avr-blink-led)", "statement": "After n passes the LED is on if n is even, off otherwise; the other bits of the port stay 1, the direction register keeps its other bits and nothing else is written.", "quantifier": "all n, all memory contents", "why_tests_cant": "It is about all n.", "anchors": ["example/avr/avr-blink-led.e.cpp:main"]}
{"id": "C108", "title": "Two forms of the covariance correction (covariance-error)", "statement": "The simplified and the Joseph form of the correction differ by (K S - P H') K', so they agree exactly if the gain is zero or optimal; the Joseph form keeps the covariance positive semidefinite for every gain. In the program the gain is not the optimal one of the covariance it is applied to: after ten passes the simplified covariance has a negative variance, the Joseph one never.", "quantifier": "all covariances, gains, noise levels and time steps (exact arithmetic); the program's own numbers in binary32", "why_tests_cant": "Rounding noise and the formula error cannot be told apart by running the program.", "anchors": ["example/desktop/covariance-error.e.cpp:main"]}
{"id": "C109", "title": "Simulation in fixed point on the target (avr-kalman-sim)", "statement": "With the 16-bit int of the target, fixed_point<int,15> has no fractional bits: the acceleration noise becomes 0, covariance and gain stay zero, and the estimate does not depend on the measurements; the clock overflows at update 32768.", "quantifier": "all runs, all controls and measurements", "why_tests_cant": "A test on a desktop has a 32-bit int, and a test on the target sees plausible numbers: the prediction.", "anchors": ["example/avr/avr-kalman-sim.e.cpp:16", "include/num/fixed-point.hpp:power2", "include/dsp/kalman.hpp:update"]}
{"id": "C110", "title": "Simulation in fixed point on a desktop (kalman-sim)", "statement": "In fixed_point<int,15> with 32-bit int, whatever the data: the covariance repeats exactly every 19 updates from update 93 on, but no sooner, and is never symmetric; the gain from update 55 on is within 4 units of the last place of the best constant gain. Runs of n updates exist exactly for n < 32768.", "quantifier": "all data for which no state calculation overflows, all run lengths", "why_tests_cant": "It is about all run lengths and data; a cycle is not seen in 300 printed lines.", "anchors": ["example/desktop/kalman-sim.e.cpp:17", "include/num/fixed-point.hpp", "include/dsp/kalman.hpp:update"]}
{"id": "C111", "title": "The C++ estimator and simulation against their Matlab originals", "statement": "One update of the estimator has the result of kalman.m whenever that has one (one measurement), or if the innovation covariance is symmetric (two measurements); with a singular innovation covariance kalman.m fails, and so does update with two measurements, whereas with one measurement it carries on with gain zero. The simulations record the same rows for the same draws, but the C++ program makes ceil(T/dt) passes and the Matlab program floor(T/dt)+1: 50 and 51.", "quantifier": "all matrices, states, inputs, measurements; all time steps, durations, noises and draws", "why_tests_cant": "The Matlab program draws its own random numbers; a comparison covers single runs.", "anchors": ["example/matlab/kalman.m:8", "example/matlab/kalman-sim.m:1", "include/dsp/kalman.hpp:update", "example/desktop/kalman-sim.e.cpp:main"]}
{"id": "C112", "title": "Ranges of floating-point numbers and the frequency sweeps of the examples", "statement": "A stepping range over float or double visits the rounded sums first, first+step, ... and ends exactly if one of them reaches the end; range(0.0f,1e8f,1.0f) never ends. The sweep range(Flo, Fhi+Fstep, Fstep) with N samples visits N or N+1 frequencies, each within 3*2^-p (relative) of the exact one; the inner sweep range(Flo+Fstep, Fhi, Fstep) visits N-2 or N-1, all below 1/2. In double N = 101 and 201, as in the examples, give exactly N; N = 7 gives an eighth frequency beyond 1/2.", "quantifier": "all formats of at least 4 digits, all starts, steps, ends and sample counts that the precision allows", "why_tests_cant": "The number of elements depends on accumulated rounding; a test sees single sample counts.", "anchors": ["include/core/range.hpp", "example/desktop/biquad.e.cpp:72-77", "example/desktop/biquad-design.e.cpp:92-156", "example/desktop/onepole-design.e.cpp", "example/desktop/chebyshev-design.e.cpp"]}
{"id": "C113", "title": "Accesses to the hardware by get/set functions of the ATmega328 drivers", "statement": "Setting a field reads its register once and writes it once; setting a whole register only writes, the high byte first. Two settings of one register in one statement, separated by a comma, read once and write once, with both values and all other bits as read - except in EIMSK and PCICR, where the register is read and written twice.", "quantifier": "all setting functions and pairs of them for the same register, all fitting values, any hardware whatsoever (reads and writes may have any effect)", "why_tests_cant": "The number of bus accesses is invisible in memory; it matters only on hardware with side effects.", "anchors": ["include/mcu/register.hpp:319-380", "include/mcu/atmega328.hpp:1180-2637"]}
{"id": "C114", "title": "Transposed form and cascades under rounding", "statement": "The transposed direct form with poles inside the unit circle, computed with rounding in numbers with the explicit headroom, never leaves the range for inputs bounded by X and stays within (E0+E1+E2)/((1-|p0|)(1-|p1|)) of the exact output, E0..E2 bounding the errors of one step; in fixed point within 5/((1-|p0|)(1-|p1|)) units in the last place, independent of b0, b1, b2. A cascade of either form stays within the sum of the errors of its sections, each amplified by the sections that follow.", "quantifier": "all arithmetics of the standard model of rounding (IEEE formats and fixed point among them), all coefficients with poles inside the unit circle, all bounded input sequences of any length, cascades of any number of sections", "why_tests_cant": "Error accumulation over unbounded runs and all inputs.", "anchors": ["include/dsp/biquad.hpp:257-266", "include/dsp/biquad-cascade.hpp:191-223"]}
{"id": "C115", "title": "The estimator is stable", "statement": "If the process noise acts on every state and some fixed gain keeps the error bounded, there are C and g < 1 such that, when the real system deviates from the model by at most D per step and the measurements are wrong by at most D, the error of the estimate after n steps is at most C (g^n E + D), E bounding the initial error. Two estimators with different initial states and different initial covariances agree in the long run on the measurements of such a system. Both hold for the estimator of the simulation, whose process noise covariance is singular. Along a direction the measurement does not see and the system expands the error grows.", "quantifier": "all matrices meeting the condition, all initial states and covariances, all disturbance and measurement error sequences within the bound, runs of any length", "why_tests_cant": "Stability concerns unbounded runs and all disturbances; a simulation shows single ones.", "anchors": ["include/dsp/kalman.hpp:74-99", "example/desktop/kalman-sim.e.cpp:60-140"]}
{"id": "C116", "title": "The estimate is the best linear function of the data", "statement": "For mean-zero uncorrelated noise with the covariances given to the estimator, the estimate after any number of updates is a constant plus a linear function of the measurements, and every other such function has an error covariance at least the reported one; the excess is exactly the second moment of its difference from the estimate.", "quantifier": "all linear models, noise distributions with the stated moments, numbers of steps, and all competing affine functions of the measurements", "why_tests_cant": "A test compares with a few competitors on a few samples; optimality over all affine functions and all distributions is a statement about a continuum.", "anchors": ["include/dsp/kalman.hpp:74-99"]}
{"id": "C117", "title": "The innovations are uncorrelated and have the covariance used for the gain", "statement": "For uncorrelated noise with the covariances given to the estimator, the difference between each measurement and its prediction has covariance H P- H' + R with P- the predicted covariance, and such differences of two different steps are uncorrelated.", "quantifier": "all linear models, noise distributions with the stated moments, all pairs of steps of all runs", "why_tests_cant": "Second moments over all distributions cannot be sampled; a whiteness test on one recorded run only has statistical power.", "anchors": ["include/dsp/kalman.hpp:74-99"]}
{"id": "C118", "title": "Numbers are printed with six significant digits, correctly rounded", "statement": "The text of a number, read back, is the nearest number with at most six significant decimal digits (ties to even); numbers with six digits survive unchanged; the relative error is at most 5e-6; printing is monotone; an exponent appears exactly if the printed value is below 1e-4 or at least 1e6, there are no trailing zeros after the point and no superfluous leading ones, the exponent has a sign and at least two digits, and only digits, point, sign and e occur.", "quantifier": "all rational (hence all finite double and float) values", "why_tests_cant": "Rounding carries (999999.5), the switch to exponents and stripped zeros interact; only finitely many numbers can be printed.", "anchors": ["include/num/matrix-io.hpp", "include/num/fixed-point-io.hpp", "include/core/vector-io.hpp", "example/desktop/kalman-sim.e.cpp: std::cout"]}
{"id": "C119", "title": "Conversions between fixed point and floating point with rounding", "statement": "as<double>() is exact for all formats, in float (and double on AVR) for 8 and 16 bits but not for 32; converting to floating point and back restores the number in these cases; a floating-point number between min() and max() becomes a fixed-point number that is off by at most half a unit plus 2^(bits-p) units, which is not always the nearest one (the largest double below half a unit becomes one unit); for doubles that are multiples of 2^-20 units the result is that over the reals (C29).", "quantifier": "all widths, F up to 62, all floating-point values in range, IEEE binary64 and binary32", "why_tests_cant": "Double rounding shows for single values out of 2^64.", "anchors": ["include/num/fixed-point.hpp: fixed_point( float ), fixed_point( double ), as, as_double"]}
{"id": "C120", "title": "Fixed-point numbers survive printing", "statement": "A fixed-point number is printed as the decimal text of its value; reading the text and constructing from it restores the number if its representation is below 100000, hence for all formats of 8 and 16 bits, which therefore print differently for different numbers; with 32 bits different numbers may print alike; the printed values are ordered like the numbers.", "quantifier": "all widths, all F, all numbers", "why_tests_cant": "Two conversions and two roundings over all values.", "anchors": ["include/num/fixed-point-io.hpp: operator<<", "include/num/fixed-point.hpp: as"]}
{"id": "C121", "title": "Matrices and vectors are printed completely and unambiguously", "statement": "A matrix is printed as one line per row with the elements in order, each preceded by one blank, without reading outside the storage; text determines the shape and the texts of all elements; a vector is printed between brackets, each element preceded by a blank.", "quantifier": "all shapes, all element types whose texts contain no blanks or line ends (all numbers)", "why_tests_cant": "All shapes and contents.", "anchors": ["include/num/matrix-io.hpp: operator<<", "include/core/vector-io.hpp: operator<<"]}
{"id": "C122", "title": "Filters as text", "statement": "The text of a biquad states whether both roots of its denominator are in the closed unit disk and gives coefficients, state, poles and zeros in a fixed layout from which coefficients and state can be read off; it is undefined exactly if b0 = 0; a cascade prints a summary that says stable iff all sections are, followed by the texts of its sections in order; a one-pole filter always prints 'always stable' and 7 as pole, also if its pulse response is unbounded.", "quantifier": "all coefficients and states, cascades of any length", "why_tests_cant": "All filters; the stability report depends on roots.", "anchors": ["include/dsp/biquad-io.hpp", "include/dsp/biquad-cascade-io.hpp", "include/dsp/onepole-io.hpp"]}
{"id": "C123", "title": "Printed output of kalman-sim against the recorded run", "statement": "The gains and covariances printed by the simulation do not depend on the noise drawn, whatever the numeric type; and in double, with the program's constants and 50 passes, every run that the program completes prints exactly the recorded description of the system and, to the last digit, the recorded rows of gains and covariances.", "quantifier": "all sequences of draws; the first part for all numeric types, parameters and run lengths", "why_tests_cant": "The recorded file shows one run with one seed of the generator; a test compares with that run only, not with every sequence of draws.", "anchors": ["example/desktop/kalman-sim.e.cpp:53-169", "example/desktop/kalman-sim.out.txt:1-35", "include/dsp/kalman.hpp: update()", "include/num/matrix-io.hpp", "include/core/vector-io.hpp"]}
{"id": "C124", "title": "numeric_limits on AVR and the requirement of fixed_point", "statement": "The replacement of numeric_limits reports for every integer type the least and the greatest value, the number of digits, that it is an integer type, and is_signed exactly for the types with negative values; so fixed_point accepts exactly the signed integral types, on AVR as on a desktop.", "quantifier": "all integer types of 8 to 64 bits, signed and unsigned, and the floating-point types; 16- and 32-bit int", "why_tests_cant": "test/stdcpp.t.cpp looks at four signed types only, and compiles against the desktop library, not the replacement.", "anchors": ["include/std/limits.hpp:26-145", "include/std/type_traits.hpp:80-90", "include/num/fixed-point.hpp:65", "include/num/fixed-point.hpp:143"]}
{"id": "C125", "title": "swap, initializer_list and as", "statement": "swap exchanges two objects and nothing else, also when they are the same object; the AVR initializer_list spans its elements, and constructing a matrix from it in memory writes what the model of the constructor says and nothing else; as<T> keeps values of T, otherwise reduces modulo 2^bits, and truncates floating-point numbers.", "quantifier": "all memories, positions, lists, integer types and values", "why_tests_cant": "Aliasing, frame conditions and all values of all types are beyond single examples.", "anchors": ["include/std/utility.hpp:22-51", "include/std/utility.hpp:59-111", "include/num/matrix.hpp:73-77", "include/core/shims.hpp:18-38"]}
{"id": "C126", "title": "Rounding error of the kalman-sim simulation", "statement": "In double, with the program's constants, for up to 50 passes and all draws of at most 16 in magnitude, the simulation completes; its positions, measurements, velocities and estimates are within 1e-7, its gains within 2^-50 and its covariances within 2^-45 of the simulation in exact arithmetic with the same draws; and the program always prints the recorded system, gains and covariances.", "quantifier": "all sequences of up to 50 triples of doubles of magnitude at most 16", "why_tests_cant": "A run shows the rounding errors of one sequence of draws, and has no exact run to compare with; the bound is for all sequences.", "anchors": ["example/desktop/kalman-sim.e.cpp:37-169", "include/dsp/kalman.hpp: update()", "include/num/matrix.hpp: operators", "example/desktop/kalman-sim.out.txt:1-35"]}
{"id": "C127", "title": "Infinities and NaN never leave the estimator or a filter", "statement": "With IEEE infinities, NaN and signed zeros modelled, update() of the estimator, step() of biquad sections in both forms, of cascades and of one-pole filters always complete; once a single measurement, control or input sample is an infinity or NaN, no component of the estimate and no filter output is ever finite again, even for sections without feedback, while gain and error covariance of the estimator go on as if nothing had happened.", "quantifier": "all floating-point formats, all systems and coefficients (also non-finite ones), all states and all input sequences of any length", "why_tests_cant": "A test feeds a few samples after the bad one; that no later input ever brings back a finite value is a statement about all continuations and all coefficients.", "anchors": ["include/dsp/kalman.hpp:74-99", "include/dsp/biquad.hpp:236-266", "include/dsp/biquad-cascade.hpp:180-210", "include/dsp/onepole.hpp:222-225", "include/num/matrix.hpp: operators, inverted()"]}
{"id": "C128", "title": "The idealised floating-point model agrees with full IEEE arithmetic", "statement": "The arithmetic with infinities, NaN and signed zeros satisfies the rules of IEEE 754 for sum, difference, product and quotient, including the signs of zeros, underflows and infinities, and for the comparison with zero in the scalar inversion; whenever the estimator, a filter or the simulation runs without error in the arithmetic of finite numbers only, it delivers the same numbers in the full arithmetic (for direct form II exactly then); two measurements with a determinant computed as zero make gain and estimate non-finite, and with a determinant that overflows make the gain zero, so that measurements are ignored; the simulation with draws of at most 16 never produces an infinity or NaN.", "quantifier": "all formats, all pairs of operands, all runs of any length; for the simulation all sequences of up to 50 draws", "why_tests_cant": "Agreement of two arithmetics over all runs and the exact condition under which a run stays finite cannot be sampled.", "anchors": ["include/dsp/kalman.hpp:74-99", "include/num/matrix.hpp:482-505", "include/dsp/biquad.hpp:236-266", "example/desktop/kalman-sim.e.cpp:37-169"]}
{"id": "C129", "title": "Filter designs in floating point: accuracy and stability", "statement": "When a second-order section is designed in floating point, whatever accuracy the functions of <cmath> have: if none of the three terms of the denominator as computed (1, K/Q, K*K or their shelf and peak variants) is smaller than four roundoffs of their sum, the designed coefficients lie strictly inside the stability triangle. For low-pass, high-pass, band-pass and band-stop, if no term of 1 + K/Q + K^2 is below five roundoffs of the sum, the design completes without overflow, every coefficient is within 24 roundoffs of the exact one for that K and Q, and both poles lie inside the unit circle. For real numbers the generic design functions are the ones analysed before. Without the condition the claim is false: the low-pass with 2 Hz and Q = 1/2 at 44.1 kHz in float, with correctly rounded prewarping, has a real pole greater than 1.", "quantifier": "all floating-point formats with at least 6 digits and the usual exponents, all design kinds, all functions standing for <cmath>, all frequencies, sampling frequencies, qualities and gains subject to the stated condition", "why_tests_cant": "Whether rounding moves a pole out of the unit circle depends on the last bits of the frequency; below a certain frequency about every fifth design fails and above none does. A test sees a handful of frequencies and compares coefficients with a tolerance far above the effect.", "anchors": ["include/dsp/biquad-design.hpp:97-300", "include/dsp/filter-design.hpp:20-60"]}
{"id": "C130", "title": "One-pole designs in floating point: gain and dead filters", "statement": "The one-pole low-pass designed in floating point has its pole in [0, 1] and its gain for constant signals b0/(1+a1) is exactly 1 if the pole is at least 1/2 and within one roundoff of 1 otherwise; for the high-pass up to half the sampling frequency the same holds at half the sampling frequency. If pi f / fs is at most a quarter of a roundoff, then even with a correctly rounded exp the coefficients are b0 = 0 and a1 = -1 and every output is zero whatever the input. If the unqualified abs is resolved to the integer function, b0 is 1 and the gain for constant signals exceeds 1.", "quantifier": "all floating-point formats, all functions standing for exp with values between 0 and 1 on nonpositive arguments, all frequencies and sampling frequencies, all input sequences", "why_tests_cant": "Exactness of the gain is a statement about every value exp may return; the dead filter appears only for extreme frequency ratios; the overload of abs depends on the headers of the platform and compiles silently either way.", "anchors": ["include/dsp/onepole-design.hpp:70-97"]}
{"id": "C131", "title": "Reported information of the Chebyshev designs", "statement": "A Chebyshev type 2 design reports the warped band edges, the ripple factors, the exact order and its ceiling (the order of the cascade), and as f3 a frequency at which the cascade has exactly half the power; if the stop band is to be attenuated by at least 3 dB, the power is at least one half everywhere from f3 towards the pass band and at most one half towards the stop band, and f3 lies between the band edges if the pass band is attenuated by at most 3 dB. The same is expected of type 1. The printed information contains every member with its name.", "quantifier": "all valid specifications, both responses, all frequencies in [0, fs/2], real arithmetic", "why_tests_cant": "Continuum of parameters; f3 goes through complex inverse hyperbolic functions on and off the branch cut.", "anchors": ["include/dsp/chebyshev-design.hpp: AlgoInfoT, chebyshev1_lp_hp_impl, chebyshev2_lp_hp_impl", "include/dsp/chebyshev-design-io.hpp: operator<<"]}
{"id": "C132", "title": "Frequency response tables of the filter examples", "statement": "What the filter examples print of a filter contains the table of its response: the printed frequencies, gains and gains in dB (20 log10) are those of this filter at exactly the frequencies of the range, in order, every one of them defined; and every call in the examples prints its table. (The table is right wherever it is printed, and the text around it belongs to the same filter. A biquad is printed iff b0 and all gains are non-zero. A design has zero gain exactly at the frequencies it is meant to remove, so the calls for low pass, high pass and band stop of biquad-design.e.cpp and for type 1 of chebyshev-design.e.cpp take the logarithm of zero. The table of print_band belongs to a fixed filter, not to the coefficients passed and printed.)", "quantifier": "all filters, designs, texts, number formats and lists of frequencies; for the calls in main the frequencies the floating-point ranges visit", "why_tests_cant": "the examples are not run by the tests; a test compares at chosen frequencies with a tolerance and in floating point, where a zero gain appears as rounding noise", "anchors": ["example/desktop/biquad.e.cpp:22-79", "example/desktop/biquad-cascade.e.cpp:29-72", "example/desktop/biquad-design.e.cpp:16-176", "example/desktop/chebyshev-design.e.cpp:31-255", "example/desktop/onepole.e.cpp:22-79", "example/desktop/onepole-design.e.cpp:16-104"]}
{"id": "C133", "title": "Matlab calls printed by the filter examples", "statement": "The design call shown as Matlab code is the C++ call rewritten: biquad_design and onepole_design calls become calls of the filter kind with the same arguments, chebyshev2_bs becomes bscheb2, and the type 1 and 2 low-pass and high-pass calls become lhcheb1 and lhcheb2 with 1 and -1 for the kind. (The last does not hold: only the first dsp:: is removed, so the call printed has the argument dsp::1 or dsp::-1.)", "quantifier": "all names and argument texts without the characters searched for", "why_tests_cant": "the examples are not run by the tests; the claim concerns all argument texts", "anchors": ["example/desktop/biquad-design.e.cpp:54-58", "example/desktop/onepole-design.e.cpp:54-58", "example/desktop/chebyshev-design.e.cpp:76-82", "example/desktop/chebyshev-design.e.cpp:186-188"]}
{"id": "C134", "title": "Benchmark program", "statement": "For every numeric type, pass n of the benchmark's endless loop writes port B exactly once, with the LED on after an even number of passes, the other pins pulled up, only the direction of the LED pin changed and nothing else written; the time of the estimator stays 0. In exact arithmetic no pass fails; gain and covariance after each pass are those that kalman-sim records, whatever its noise; and as the measurement stays dt^2/2 while the control input says that the system accelerates, the estimate tends to position dt^2/2 + (1-alpha)/beta dt^2 and velocity (alpha/beta - 1/2) dt with the gains alpha and beta of the alpha-beta filter (45 to 46 m from the measurement with the constants of the program). Without gain computation the estimate on AVR is the uniformly accelerated motion ((n dt)^2/2, n dt), and on desktop the first pass reads an indeterminate gain.", "quantifier": "all numbers of passes, all initial memory contents; LED: all numeric types and constants; estimator: all real constants", "why_tests_cant": "the loop never ends and prints nothing; the limits concern infinitely many passes", "anchors": ["time/avr-kalman-time.cpp:18-36", "time/avr-kalman-time.cpp:89-95", "time/avr-kalman-time.cpp:199-274"]}
{"id": "C135", "title": "Constant data", "statement": "If the control input and the measurement stay the same, the estimate converges to a limit that depends neither on the initial estimate nor on the initial covariance; if some state stays where it is under the control input and is measured as that measurement, the limit is this state.", "quantifier": "all systems with positive definite process and measurement noise for which some fixed gain keeps the error bounded, all constant inputs and measurements, all initial estimates and positive semidefinite covariances", "why_tests_cant": "infinitely many steps, all systems", "anchors": ["include/dsp/kalman.hpp:74-99"]}
{"id": "C136", "title": "Chebyshev designs in floating point: accuracy and stability", "statement": "When a Chebyshev filter of either type is designed in floating point, whatever accuracy the functions of <cmath> have: if sinh(a) and the tangent are not negative and the cosines not positive, every coefficient of every section is within 32 roundoffs of the exact one for the values W0, Wi and cos(th) that the design computed, and there is one section for every two poles and one for a single pole. If moreover no term of a denominator 1 - 2 W0 cos(th) + W0^2 + Wi^2 (or 1 + W0) is smaller than five roundoffs of their sum, all poles lie inside the unit circle. Without that condition rounding can never push a pair of conjugate poles or the pole of the first-order section out of the closed unit disc, but it can push out a real pole: the type 2 low-pass of order 2 with the stop band from 1 Hz at 44.1 kHz in float, with correctly rounded tangent, sine and cosine and sinh(a) = 1, has a real pole greater than 1. For real numbers the generic design functions are the ones analysed before.", "quantifier": "all floating-point formats (with at least 6 digits and the usual exponents for accuracy and stability), both types, low-pass and high-pass, all functions standing for <cmath>, all specifications, all orders and sections", "why_tests_cant": "Rounding moves poles by some last digits; whether one crosses the unit circle depends on the last bits of the tangent of the frequency. Tests see a few specifications at comfortable frequencies.", "anchors": ["include/dsp/chebyshev-design.hpp:96-151", "include/dsp/chebyshev-design.hpp:155-162", "include/dsp/chebyshev-design.hpp:172-226", "include/dsp/chebyshev-design.hpp:239-246", "include/dsp/filter-design.hpp:20-60"]}
{"id": "C137", "title": "Zeros of Chebyshev designs in floating point are exact", "statement": "When a type 1 filter is designed in floating point, all zeros of every section with a gain other than zero are exactly at -1 for a low-pass and exactly at +1 for a high-pass filter, in spite of rounding. When a type 2 filter is designed in floating point, all zeros lie exactly on the unit circle, so there is a frequency that each section rejects completely.", "quantifier": "all floating-point formats, low-pass and high-pass, all functions standing for <cmath>, all specifications for which the design completes, all orders and sections", "why_tests_cant": "Exactness of a zero cannot be seen with a tolerance, and testing responses in floating point shows noise around zero anyway.", "anchors": ["include/dsp/chebyshev-design.hpp:131-147", "include/dsp/chebyshev-design.hpp:207-223"]}
{"id": "C138", "title": "What the range example writes", "statement": "A loop over a range that writes each value and a blank writes exactly the values of the range, in order, after what was written before. Over an infinite range of a signed type, a loop left by break is defined iff some value of the progression is the first at which it stops and everything up to it fits in the type; it then writes the values up to and including that one; so the loop over range(a) broken at i == m writes a, ..., m if a <= m, and is undefined if m < a. range.e.cpp writes the eight lines its labels announce, and its loops end, whatever the width of int.", "quantifier": "all ranges, value types, texts of values, stopping conditions and platforms", "why_tests_cant": "The example is not run by the tests; a test cannot show that an infinite loop is never left in a defined way.", "anchors": ["example/desktop/range.e.cpp:14-93", "include/core/range.hpp:28-261"]}
{"id": "C139", "title": "What the matrix example writes", "statement": "matrix.e.cpp writes, under each of its labels, the matrix the label denotes: sums, multiples, products, transposes, the inverse and the unit matrix, one row per line. (All are right except that the transpose of the inverse is written for the inverse: the text is right iff A is symmetric. For the matrix of the program, which is not, the text is wrong. A singular A divides by zero.)", "quantifier": "all vectors x, y, matrices A and element formats (exact arithmetic); the program's own numbers in binary64; both widths of int", "why_tests_cant": "The example has no expected output; a reader sees plausible numbers.", "anchors": ["example/desktop/matrix.e.cpp:13-47", "include/num/matrix-io.hpp", "include/num/matrix.hpp:inverted"]}
{"id": "C140", "title": "What the covariance example writes", "statement": "covariance-error.e.cpp writes ten blocks, at the times 0, dt, ..., 9 dt, each with the variance after as many passes in the simplified and in Joseph's form. After i passes the first row of the simplified variance has been multiplied by the product of the 0.9 - 2^-j, j < i, and as much has been taken from the second row; so from the second block on the variance of the position is negative, the matrix is not positive semidefinite, and it is not symmetric unless the time step is 2. Joseph's form is positive semidefinite in all blocks.", "quantifier": "all time steps, noises and element formats (exact arithmetic); the program's own numbers in binary32", "why_tests_cant": "The example has no expected output; a test cannot tell the effect of the formula from that of rounding.", "anchors": ["example/desktop/covariance-error.e.cpp:16-55", "include/num/matrix-io.hpp"]}
{"id": "C141", "title": "Computed with finitely many numbers everything ends in a cycle", "statement": "In any number type with finitely many values (fixed point, float, with or without infinities and NaN), a second-order section (either form), a one-pole filter or a cascade fed a periodic input delivers, from some time on, a periodic output whose period is a multiple of the input's; for section and one-pole the time before and the period are bounded by the number of states. An estimator given periodic data ends in a cycle with everything it consists of, and its covariance and gain do so whatever the data, after at most |T|^4 updates.", "quantifier": "every finite number type (no law of arithmetic assumed), every coefficient and state, every eventually periodic input; every estimator and all runs", "why_tests_cant": "limit cycles may be as long as the number of states (2^64 for a float section); no test runs that long", "anchors": ["include/dsp/biquad.hpp:236-266", "include/dsp/onepole.hpp:222-225", "include/dsp/biquad-cascade.hpp:191-223", "include/dsp/kalman.hpp: kalman::update"]}
{"id": "C142", "title": "The estimate does not depend on coordinates, units or the order of the measurements", "statement": "In exact arithmetic, an estimator and the same one described in other coordinates of the state (x -> S x), other units or order of measurements (z -> M z, M invertible), of controls (v -> V v) and of time stay descriptions of each other through every run on the same data: one run is defined iff the other is, then estimates, covariances and times correspond, and the gains satisfy G' M = S G.", "quantifier": "every exact field, every estimator (covariances symmetric or not), one or two measurements and controls, every change of description with invertible M, all data sequences", "why_tests_cant": "it relates infinitely many pairs of programs' inputs; a test compares one pair", "anchors": ["include/dsp/kalman.hpp: kalman::update"]}
{"id": "C143", "title": "Independent measurements may be processed one after the other", "statement": "With a diagonal R, an update with two measurements gives the same estimate and covariance as two updates with one measurement each, in either order, the second one with A = 1, B = 0, Q = 0; over an exact field if the innovation covariances are invertible, over the reals whenever P and Q are positive semidefinite and the variances positive.", "quantifier": "every estimator with two measurements, every control and measurement, both orders", "why_tests_cant": "equality of rational functions in 15 variables; a test samples points, in rounded arithmetic", "anchors": ["include/dsp/kalman.hpp: kalman::update", "include/num/matrix.hpp: inverted(T), inverted(matrix<T,2,2>)"]}
{"id": "C144", "title": "The estimate lies between prediction and measurement", "statement": "What the measurement still differs from the estimate is R S^-1 times what it differed from the prediction, so a noise-free measurement is met exactly and leaves no uncertainty about what it measures. With one measurement and any R >= 0 the estimate of the measured quantity is a mean (weights in [0,1]) of the predicted and the measured one; a larger R moves every component less from its prediction, and the movement tends to 0 as R grows.", "quantifier": "every estimator with symmetric (for the mean: positive semidefinite) covariances, every control and measurement, in exact arithmetic", "why_tests_cant": "an inequality over all real parameters and a limit", "anchors": ["include/dsp/kalman.hpp: kalman::update"]}
{"id": "C145", "title": "Type traits and complex numbers on AVR", "statement": "The AVR replacements of remove_reference, remove_const, remove_volatile and remove_cv drop exactly what they are named for (of a reference no qualification, so the bare type needs remove_reference first); is_same_v decides equality, enable_if has a type iff its condition holds, integral_constant is its value however read. complex keeps the parts it is given; its binary operators, all made from the compound assignments that are declared but nowhere defined, are those of the complex numbers for every right definition of those and every accepted mix of scalar and complex operands. Its assignments store both parts but end without return, which is undefined.", "quantifier": "every type built from qualifiers and references, every value, every definition of the compound assignments", "why_tests_cant": "types are not run-time values, and the AVR branch of these headers is never compiled by the desktop tests", "anchors": ["include/std/type_traits.hpp:36-104", "include/std/complex.hpp:24-192"]}
{"id": "C146", "title": "Singular process noise suffices for the steady state if it reaches every state within two steps", "statement": "If the process noise of two consecutive steps together acts in every direction, though that of one step may not (as in the simulation, where one random acceleration drives position and velocity), and some fixed gain keeps the error bounded, then: there is exactly one steady covariance, and the covariance and the gain of the estimator tend to it and to the corresponding gain from every start; the initial state is forgotten whatever the data; the error under disturbances of bounded size stays bounded and the initial error decays exponentially; with constant data the estimate converges. A single source of noise suffices exactly if the system turns its direction. Without the condition there may be two steady covariances.", "quantifier": "All 2-state models with one or two measurements, all positive semidefinite process noise covariances with the condition, all initial covariances and states, all runs of any length, all disturbances and noise within a bound", "why_tests_cant": "The claims are about limits and about all infinite families of data and models; a test sees finitely many steps of finitely many models.", "anchors": ["include/dsp/kalman.hpp:74-99", "example/desktop/kalman-sim.e.cpp:60-140"]}
{"id": "C147", "title": "With two measurements the asymmetry of the covariance grows", "statement": "The inverse that `inverted` computes for 2x2 matrices is transposed (C08). In exact arithmetic with symmetric covariances that has no effect, but with two measurements it makes the estimator unstable: an update multiplies the asymmetry w of the covariance by det A (det R - 2 det N + 2 w'^2) / (det (N + R) + w'^2), near -2 for precise measurements, where the textbook has det A det R / (det (N + R) + w'^2). If the measurement noise is a quarter of the process noise or less and |det A| >= 1, every asymmetry, however small, grows until it is of the order of the process noise. Rounding suffices to start it: in double, an ordinary constant-velocity model with symmetric start has a wildly asymmetric covariance and a wrong gain after 57 updates, whatever the data. With one measurement the factor is det A R / (H M H^T + R).", "quantifier": "All 2-state models with two measurements (for the factor and the growth), all covariances with positive semidefinite symmetric part, all data; one concrete model in double for all data", "why_tests_cant": "The formula and the growth concern all models and arbitrarily small asymmetries; tests with a few updates see nothing, because the asymmetry starts at the size of a rounding error.", "anchors": ["include/num/matrix.hpp:492-505", "include/dsp/kalman.hpp:92", "include/dsp/kalman.hpp:98"]}
{"id": "C148", "title": "With one measurement rounding does not accumulate: the estimator follows the exact one for ever", "statement": "Let the process noise reach every state within two steps (Q may be singular) and let some fixed gain keep the error bounded (observability suffices). For every bound D of controls and measurements and every tolerance there is an accuracy from which on the one-measurement estimator, computed with rounding and with rounded parameters and data, stays within the tolerance of the exact estimator in covariance, gain and state after every number of updates, although its loops neither enforce symmetry nor definiteness of the covariance; and no update fails (no division by zero, no overflow) unless the addition to the clock does. For covariance and gain this holds whatever the data are. In every binary floating point format with enough digits and exponents all updates succeed, for ever: the clock stops, it does not overflow. float has accuracy 2^-24, double 2^-53. (With two measurements the same is false, C147.)", "quantifier": "for all models meeting the conditions, all bounds and tolerances, all arithmetics of the accuracy, all lists of data of every length", "why_tests_cant": "no test runs for ever; drift, loss of symmetry or of definiteness can show after any number of updates, and for one choice of parameters only", "anchors": ["include/dsp/kalman.hpp: kalman::update", "include/num/matrix.hpp"]}
{"id": "C149", "title": "Every finite run is computed to every accuracy, for one measurement and for two", "statement": "For every estimator with non-negative covariances P and Q and positive measurement covariance R, every list of controls and measurements and every tolerance there is an accuracy of the arithmetic (and of the stored parameters, clock and data) from which on the run succeeds, with no overflow and no division by zero, and covariance, gain, estimate and time are within the tolerance of those of the exact run. With two measurements this holds whatever the covariances are as long as the exact run succeeds, so that the instability of C147 is one of long runs only. It holds in every binary floating point format with enough digits and exponents; fixed point with F fractional and more than n <= F integral bits has accuracy 2^-n (2^-14 for the type used in the simulation). Measurement noise is needed: with R = 0 an arbitrarily small change of P decides between an estimate that ignores the measurement and one that adopts it.", "quantifier": "for all models, all lists of data, all tolerances, all arithmetics of the accuracy", "why_tests_cant": "the accuracy needed depends on parameters and data; no finite set of number types and runs shows that one always exists", "anchors": ["include/dsp/kalman.hpp: kalman::update", "include/num/matrix.hpp", "include/num/fixed-point.hpp"]}
{"id": "C150", "title": "With two measurements of two separate states zeros stay exact and rounding does not accumulate", "statement": "If transition, measurement and noise matrices and the initial covariance are diagonal, covariance and gain of the two-measurement estimator are diagonal after every run, exactly, in every arithmetic whose operations with zero are exact, such as floating point and fixed point, however inexact its other operations are. If the control matrix is diagonal, too, each component of the estimate depends on the same component of initial estimate, controls and measurements only. As long as the computed covariance stays exactly symmetric, as in this case, the instability of C147 does not arise: the estimator with two measurements follows the exact one for ever within every tolerance if the arithmetic is accurate enough, and no update fails unless the addition to the clock does. The zeros have to be exact: for two random walks an asymmetry of the initial covariance of any size grows beyond a fixed bound.", "quantifier": "for all diagonal models, all lists of data of every length, all arithmetics with an exact zero (of the accuracy needed for the tolerance)", "why_tests_cant": "the claims are about runs of every length and all number types; the effect of a rounding error may appear after any number of updates", "anchors": ["include/dsp/kalman.hpp: kalman::update", "include/num/matrix.hpp: operator*, inverted", "include/num/fixed-point.hpp"]}
{"id": "C151", "title": "In double the gain of the example's estimator becomes constant after 185 updates", "statement": "Whatever controls and measurements the estimator of example/desktop/kalman-sim.e.cpp gets, in double arithmetic its covariance and its gain are the same numbers from the 185th update on and never change again; the covariance before the 185th update is another one. After every number of updates, however large, the computed covariance is within 2^-46 and the computed gain within 2^-52 of the exact ones. The constant gain is that of the alpha-beta filter up to 2^-54 in position and 2^-57 in velocity. The gains and covariances that the simulation reports from the 185th pass on are these numbers, whatever the draws of the noise.", "quantifier": "for all lists of controls and measurements of every length, all draws", "why_tests_cant": "a test sees finitely many updates and one sequence of data; a slow drift or a cycle of rounding errors may show up after any number of updates", "anchors": ["example/desktop/kalman-sim.e.cpp:53-155", "include/dsp/kalman.hpp: kalman::update"]}
{"id": "C152", "title": "In double the estimate of the example's estimator stays close to the exact one for ever", "statement": "If all controls and measurements have magnitude at most M, with M between 2^-900 and 2^1000, then after every number of updates, however large, the estimator of example/desktop/kalman-sim.e.cpp in double has not overflowed, its position is within M / 2^35 and its velocity within M / 2^38 of those of the exact estimator that gets the same data, and they are at most 115 M and 18 M. With controls and measurements of the largest double it overflows.", "quantifier": "for all M in the range, all lists of controls and measurements up to M of every length", "why_tests_cant": "rounding errors are fed back through the estimate; only an argument about all lengths shows that they do not accumulate", "anchors": ["example/desktop/kalman-sim.e.cpp:53-155", "include/dsp/kalman.hpp: kalman::update"]}
{"id": "C153", "title": "The simulation completes, however long it runs in practice", "statement": "The simulation example/desktop/kalman-sim.e.cpp in double, with the program's constants, run for any number of passes up to 2^40 instead of the program's 50, with all draws of the noise at most 16 in magnitude, completes without overflow and reports one row per pass.", "quantifier": "for all numbers of passes up to 2^40 and all draws up to 16", "why_tests_cant": "the program runs fifty passes with one seed; position and velocity grow without bound, and the covariance, the clock and the estimate have to stay within range for all draws", "anchors": ["example/desktop/kalman-sim.e.cpp:53-155", "include/dsp/kalman.hpp: kalman::update"]}
{"id": "C154", "title": "In 32-bit floating point the gain of the target's estimator becomes constant, and is always close to the exact one", "statement": "For every run of the estimator of example/avr/avr-kalman-sim.e.cpp in 32-bit floating point (double on the target), whatever the controls and measurements: from the 80th update on covariance and gain are constant, and they are 9500154/2^19, 15181282/2^23 (twice), 12767446/2^25 and 12160199/2^26, 9716021/2^29; after 79 updates the covariance is still different. After every number of updates the covariance is within 2^-18, 2^-21, 2^-21, 2^-22 and the gain within 2^-24, 2^-27 of those of the exact estimator with dt = 1, measnoise = 10, accelnoise = 1/5.", "quantifier": "for all lists of controls and measurements, of every length", "why_tests_cant": "the numeric type of the target does not exist on the machine that runs the tests; the claim is about runs of every length", "anchors": ["example/avr/avr-kalman-sim.e.cpp:34-103", "include/dsp/kalman.hpp: kalman::update"]}
{"id": "C155", "title": "In 32-bit floating point the estimate of the target's estimator stays close to the exact one for ever", "statement": "If all controls and measurements have magnitude at most M, with M between 2^-100 and 2^110, then after every number of updates, however large, the estimator of example/avr/avr-kalman-sim.e.cpp in 32-bit floating point has not overflowed, its position is within M / 2^6 and its velocity within M / 2^9 of those of the exact estimator that gets the same data, and they are at most 115 M and 18 M. With controls and measurements of the largest number it overflows.", "quantifier": "for all M in the range, all lists of controls and measurements up to M of every length", "why_tests_cant": "rounding errors are fed back through the estimate; only an argument about all lengths shows that they do not accumulate", "anchors": ["example/avr/avr-kalman-sim.e.cpp:34-103", "include/dsp/kalman.hpp: kalman::update"]}
{"id": "C156", "title": "The program on the target: the estimate is the simulated state", "statement": "In the program example/avr/avr-kalman-sim.e.cpp, which adds no noise, the estimate is exactly equal to the state of the simulated system after every number of passes that completes, in every floating point format and every fixed point type and for all constants dt, measnoise, accelnoise. With the program's constants and 32-bit floating point every number of passes completes; up to 4096 passes position and velocity are exactly n^2/2 and n, after 4097 the position is rounded; the velocity is min(n, 2^24) and the position never exceeds 2^48.", "quantifier": "for all numbers of passes, all constants, all floating point formats and fixed point types", "why_tests_cant": "the program prints nothing and is not run by the tests; equality in rounding arithmetic for all constants needs the argument that both sides perform the same operations", "anchors": ["example/avr/avr-kalman-sim.e.cpp:34-103", "include/dsp/kalman.hpp: kalman::update"]}
{"id": "C157", "title": "The number of passes of the simulations", "statement": "In every floating point format the loop for ( int i = 0; i*dt < T; ++i ) of the simulations runs as many passes as the least counter i for which i*dt, rounded, reaches T. It ends if some counter within int and the range of the format does; if dt is not negative and the largest int does not reach T, the counter overflows (on the target, with int of 16 bits, this happens for T = 50 s and dt = 1 ms). With dt = 1 and a whole number T of seconds that the format represents it runs T passes. The program of the target with its own constants, in 32-bit floating point, ends after 50 passes with the estimates 1250 of the position and 50 of the velocity.", "quantifier": "for all formats, durations, steps and widths of int", "why_tests_cant": "the program of the target is not run by the tests; the overflow of the counter depends on a width of int that the test machine does not have", "anchors": ["example/avr/avr-kalman-sim.e.cpp:87", "example/desktop/kalman-sim.e.cpp:127"]}
{"id": "C158", "title": "The error of the example's estimate stays bounded for ever", "statement": "In exact arithmetic with the constants of the desktop example, if no draw of the noise generator exceeds G in magnitude, the simulation completes and in every row the estimated position is within 75 G of the true position and the estimated velocity within 12 G of the true velocity; without noise both are equal to the true values. For every positive time step and all positive standard deviations there is a factor, the same for all runs, such that the errors stay below it times G.", "quantifier": "all runs of every length, all sequences of draws, all bounds G, all positive constants, on the desktop and on the AVR (initial gain undefined or zero)", "why_tests_cant": "A test runs a fixed number of passes with one sequence of pseudo-random draws; a bound for all sequences and all lengths cannot be observed.", "anchors": ["example/desktop/kalman-sim.e.cpp:127-155"]}
{"id": "C159", "title": "The error of the example's estimate in double", "statement": "In double with the program's constants, for up to 4096 passes and draws of magnitude at most G with G at most 16, the simulation completes without overflow and in every row the estimated position is within 75 G + 0.02 of the simulated position and the estimated velocity within 12 G + 0.004 of the simulated velocity, all rounding errors of simulation and estimator included.", "quantifier": "all runs of up to 4096 passes, all sequences of draws up to G, all G up to 16, on the desktop and on the AVR (initial gain undefined or zero)", "why_tests_cant": "A test sees one sequence of draws; neither the worst sequence nor the accumulation of rounding errors over all sequences can be sampled.", "anchors": ["example/desktop/kalman-sim.e.cpp:127-155"]}
{"id": "C160", "title": "The constant pi is the nearest number of each type", "statement": "num::pi<T> is the number of the type T nearest to pi, for double and float on the desktop and for double and float on AVR, although for float the literal is rounded twice (to double, then to float). In double it is below pi by less than 2^-52, in float above pi by less than 2^-23. For fixed_point it is within half a unit and a millionth part of one of pi, plus 2^-52, in every format whose range includes 22/7.", "quantifier": "The three combinations of the formats of double and T; all numbers of the format (nearest); all widths and numbers of fraction bits up to 62 whose range includes 22/7.", "why_tests_cant": "That no other number of the type is nearer is a statement about the real number pi and all numbers of the type; a test can only compare with another rounded constant.", "anchors": ["include/num/constants.hpp:13-14", "include/num/fixed-point.hpp:104-110"]}
{"id": "C161", "title": "The warped frequency is not negative up to half the sampling frequency", "statement": "prewarp(f, fs) is the tangent of an angle before the pole at pi/2, hence not negative, for every frequency from 0 to half the sampling frequency. It is false: at f = fs / 2 the rounded angle lies behind the pole and the result is negative, in float for fs = 48000, in double for fs = 22500; in float even for frequencies below fs / 2, which the Chebyshev designs assert, as for the number before 10500 with fs = 21000. It is true in double for all f < fs / 2, and in both types for frequencies up to half the sampling frequency less a millionth part of it.", "quantifier": "All frequencies f >= 0 and sampling frequencies fs >= 1 with f < fs / 2 in double, with f <= (1 - 2^-20) fs / 2 in double and float, on the desktop and AVR; all tangent functions whose results have the right sign. For the negations: particular frequencies, and all such tangent functions.", "why_tests_cant": "Whether the angle passes the pole depends on the last bit of two roundings for each pair of frequencies; there are no tests of the designs.", "anchors": ["include/dsp/filter-design.hpp:20-26", "include/num/constants.hpp:13-14", "include/dsp/chebyshev-design.hpp:100-109"]}
{"id": "C162", "title": "The angle at which the frequency response is evaluated", "statement": "The angle 2 * pi<T> * fnorm in response() is, for every finite frequency, within two unit roundoffs (relative, plus the underflow error) of 2 pi times the frequency. For frequencies from 0 to 1/2 it is always defined and between 0 and pi<T>, and equal to pi<T> at 1/2. It does not decrease when the frequency increases, and the opposite frequency has the opposite angle.", "quantifier": "All numbers fnorm of the type, in double and float on the desktop and on AVR (accuracy, order, sign: wherever the angle is finite; range: 0 <= fnorm <= 1/2).", "why_tests_cant": "The error with respect to the real number pi, and the order, concern all numbers of the type; a test compares with another rounded result at a few frequencies.", "anchors": ["include/dsp/biquad.hpp:337", "include/dsp/onepole.hpp:296", "include/num/constants.hpp:13-14"]}

# Design of the machine-checked model of martinmoene/kalman-estimator

Sources modelled: `/repo` (read as text, never built or run).  Model and proofs: `lean/` (Lean 4.33.0, Mathlib).
Properties: `properties.jsonl`.  Claims and theorem names: `MANIFEST.json`.  Axioms per theorem: `AXIOMS.md`.
Wrong programs tried against the theorems: `seeded/LOG.jsonl`.

## Layout

| directory | content |
|---|---|
| `lean/Verif/Model/*.lean` | model of the C++ code, function by function, each definition citing file and lines |
| `lean/Verif/Spec/*.lean`  | independent specifications: textbook equations, difference equations, list operations, hardware, datasheet |
| `lean/Verif/Lemmas/*.lean`| helper lemmas |
| `lean/Verif/Props/*.lean` | the property theorems `Cnn_*`, each with an `example` that meets its hypotheses |
| `lean/Verif/Validation/*.lean` | the unit tests of the repository in the types they use (`int`, `float`, fixed point) |
| `lean/Verif/Props/RepoTests.lean`, `RepoRun.lean` | the unit tests and the recorded simulation run of the repository replayed on the model |

Suffixes: `_partial` – the claim holds only in the restricted form stated; `_wrong` (and names such as `_lost`,
`_fails`) – the negation of an expectation, or the exact effect of a defect.

Validation of the model: `Props/RepoTests.lean` evaluates the assertions of the repository's own test files (matrix,
fixed point, biquad, cascade, ranges, algorithms) on the model; all hold.  `Validation/*.lean` evaluates them once more in the
types the tests use: `int` with overflow as error (`Model/Int`), IEEE `float` and `double`, fixed point.  They are evidence that the source was read
correctly, no property rests on them.  `Props/RepoRun.lean` feeds the measurements recorded in
`example/desktop/kalman-sim.out.txt` to the model, which then reproduces all 300 recorded estimates, gains and covariances to
the printed digits.  One of them (matrix.t.cpp:576-584) expects the transposed inverse of C08.

## Modelling decisions

* **Undefined behaviour** is a distinct outcome: every operation that can misbehave returns `Res α = Except Err α`;
  `Err` lists the reasons (access out of bounds, signed overflow, division by zero, bad shift, failed assertion, read
  of an indeterminate value, domain error, exception, exhausted fuel of a loop that waits for hardware).  A theorem that
  says `= .ok v` therefore also says that there is no undefined behaviour.  Mathlib's total operations (`1/0 = 0`,
  `log 0 = 0`) never enter a model: `Model/RealFun.lean` and `CNum` turn them into errors.
* **Numeric types.**  C++ templates over `T` become definitions over a type with the law-free class `CNum`.  Structural
  theorems (data flow, memory safety, independence of data, equality of two programs) use no arithmetic law and hold
  for `double`, `float` and fixed point alike.  Algebraic theorems take `T` to be an arbitrary exact ring or field
  (`ExactRing`, `ExactField`: division by zero an error), order-related ones the real numbers; they are idealisations of
  the `double` instantiation.  C84 to C88 bound the difference: they assume the standard model of rounding
  (`Spec/Rounding.lean`: each operation is correct up to a relative error `u` and an absolute error `η` as long as
  results stay below `M`), which is proved for fixed point and for every IEEE 754 binary format (C101).
* **Floating point** (`Model/Ieee.lean`): finite numbers of a format with `p` digits, smallest number `2^q` and a largest
  number, as exact rationals; every operation rounds to nearest, ties to even, with gradual underflow.  In
  `Model/Ieee` overflow and division by zero are error outcomes.  `Model/IeeeSpecial` adds infinities, NaN (one, without
  payload or signalling) and signed zeros, with which the C++ program goes on; C128 relates the two.  Excess precision and contraction (`a*b+c` as one operation) by a compiler are not
  modelled.  C101 to C104 run the code in this arithmetic.
* **Fixed point** is modelled bit-exactly: the representation is an integer in the range of the signed type, all
  integer promotions are modelled, with the width of `int` as parameter (16 on AVR, 32 on desktop).  Conversions that do
  not fit wrap (implementation-defined before C++20, guaranteed since).
* **Ranges** are bit-exact over integer types of 8 to 64 bits, and over floating-point formats (C112).
* **Registers** are bytes of a memory `address → byte`; access goes through an abstract hardware `Hw σ`, theorems
  instantiate it with plain memory (`ram`), with write-1-to-clear flags (`chip w1c`, the masks taken from the datasheet in
  `Spec/Datasheet.lean`), with toggling PIN registers, with a bus (with and without control bits that stay set), or with the temporary register of 16-bit accesses.
* **Interrupts** are interleavings of single instructions with arbitrary interrupt routines.
* **Loops that wait for hardware** take fuel; running out is an error outcome.

## What is modelled

| source | model | remarks |
|---|---|---|
| `num/matrix.hpp` | `Model/Matrix` | everything |
| `num/matrix-io.hpp`, `num/fixed-point-io.hpp`, `core/vector-io.hpp`, `dsp/*-io.hpp` | `Model/Output` | the stream is a list of characters in default format; numbers by the standard semantics of `%.6g`; filters over the reals with the output of a number as parameter |
| floating-point conversions of `num/fixed-point.hpp` | `Model/FixedFloat` | with IEEE rounding (over the reals in `Model/FixedPoint`) |
| `dsp/kalman.hpp`, estimator of `time/avr-kalman-time.cpp` | `Model/Kalman` | the sizes that compile: 2 states, 1 or 2 measurements, 1 or 2 controls |
| `main` of `time/avr-kalman-time.cpp` | `Model/Benchmark` | the endless loop is cut off after any number of passes; no timing |
| `example/desktop/kalman-sim.e.cpp`, `example/avr/avr-kalman-sim.e.cpp` | `Model/KalmanSim`, `Model/KalmanSimOutput`, `Model/KalmanTarget` | the random draws are parameters; the number of passes of the desktop loop is the number of draws (from the condition of the loop: C157); printing modelled for the desktop program only |
| `example/desktop/covariance-error.e.cpp` | `Model/CovarianceError`, `Model/DesktopExamples` (output) | whole program |
| `example/desktop/range.e.cpp`, `matrix.e.cpp` | `Model/DesktopExamples` | whole programs |
| `example/matlab/kalman.m`, `kalman-sim.m` | `Model/Matlab` | over the reals; `inv` of a singular matrix as error; plotting left out |
| `double`, `float` | `Model/Ieee` | finite numbers, rounding to nearest even, overflow as error |
| infinities, NaN, signed zeros | `Model/IeeeSpecial` | total arithmetic; instances for estimator, filters, simulation; not for printing and elementary functions |
| `num/fixed-point.hpp` | `Model/FixedPoint` | implementation types of 8, 16, 32 bits |
| `dsp/biquad.hpp` | `Model/Biquad` | both direct forms, poles, zeros, ZPK construction, response |
| `dsp/biquad-cascade.hpp` | `Model/Cascade` | all member functions |
| `dsp/onepole.hpp`, `dsp/onepole-design.hpp` | `Model/OnePole` | what can be instantiated |
| `dsp/filter-design.hpp`, `dsp/filter.hpp`, `dsp/biquad-design.hpp`, `dsp/chebyshev-design.hpp` | `Model/Design` | over the reals |
| information of `dsp/chebyshev-design.hpp`, `dsp/chebyshev-design-io.hpp` | `Model/ChebyshevInfo` | over the reals, `std::acosh` of complex numbers by its principal value |
| `num/constants.hpp` | `Model/Constants` | the literal as a rational number, rounded to `double`, then to `T`; also the angle in `response()` (C160-C162) |
| `dsp/biquad-design.hpp`, `dsp/onepole-design.hpp` | `Model/DesignFloat` | for any numeric type, the functions of `<cmath>` as parameters (C129, C130); one type throughout |
| `dsp/chebyshev-design.hpp` | `Model/ChebyshevFloat` | the designs for any numeric type, the functions of `<cmath>` as parameters (C136, C137); one type throughout, `f3` left out (it is in `Model/ChebyshevInfo`) |
| `core/range.hpp`, sweeps of the desktop filter examples | `Model/Range`, `Model/FloatRange` | |
| `example/desktop/biquad.e.cpp`, `biquad-cascade.e.cpp`, `biquad-design.e.cpp`, `chebyshev-design.e.cpp`, `onepole.e.cpp`, `onepole-design.e.cpp` | `Model/FilterExamples` | responses over the reals, output of a real number is a parameter; of `main` the calls of the design examples and `onepole.e.cpp` |
| `std/algorithm.hpp`, `core/text.hpp` | `Model/Algorithm` | `std::string` by its standard semantics |
| `std/limits.hpp`, `std/utility.hpp`, `core/shims.hpp` | `Model/StdShims` | the AVR replacements; moving is copying |
| `std/type_traits.hpp`, `std/complex.hpp` | `Model/TypeTraits` | the AVR replacements; types without arrays and functions |
| `mcu/register.hpp` | `Model/Register`, `Model/Isr` (`atomic`) | |
| `mcu/atmega328.hpp` | `Model/Atmega`, `Model/AtmegaRegs`, `Model/AtmegaDrivers`, `Model/AtmegaEnums` | all register declarations, enumerations and get/set functions; waveforms, force, PWM, TWI |
| `example/avr/avr-adc-dac-isr-atmega.e.cpp`, `avr-blink-led-isr.e.cpp` | `Model/Isr` | interrupt routines, mailboxes, initialisation |
| `example/avr/avr-adc-isr.e.cpp`, `avr-fade-led.e.cpp`, `avr-blink-led.e.cpp` | `Model/AvrExamples` | main loops, interrupt routine, initialisation; a delay only counts |

Not modelled: the formatting state of streams, the AVR replacement `std/tuple.hpp` (it lacks the last `#endif`, so that
it does not compile on AVR), the functions `std/complex.hpp` only declares (compound assignments are parameters, `abs` and
`sqrt` left out), the test framework, timing, the compiler,
the type aliases of `core/traits.hpp` and `std/cstdint.hpp`, and `issue/avr-issue-tpl-fun.b.cpp`.

## Properties

| id | property | model | status | how proved |
|---|---|---|---|---|
| C01 | Row-major construction and access | Matrix | proved | induction over the copy and fill loops; exact domain of defined accesses |
| C02 | Element write has a frame | Matrix | proved | index injectivity of row-major addressing |
| C03 | Element-wise operators | Matrix | proved | law-free: induction over the element loop, `Res` of every element operation |
| C04 | Square product is the matrix product | Matrix | proved | triple loop = finite sum; refinement to Mathlib `Matrix` multiplication |
| C05 | Vector products | Matrix | proved | loops = finite sums |
| C06 | Memory safety of products depends on shape | Matrix | proved | exact index arithmetic of the inner loop; out-of-bounds outcome otherwise |
| C07 | Transposition | Matrix | proved | pointwise |
| C08 | 2x2 inversion | Matrix | partial | witness for the negation, pointwise identity for the transpose |
| C09 | Scalar inversion is guarded | Matrix | proved | case split on zero |
| C10 | Update implements the textbook equations, one measurement | Kalman, Matrix | proved | refinement of `update` to the textbook equations over Mathlib matrices |
| C11 | Update implements the textbook equations, two measurements | Kalman, Matrix | proved | same; symmetry invariant by induction over runs; witness for asymmetric input |
| C12 | Elapsed time | Kalman | proved | induction over the run |
| C13 | Gain and covariance do not depend on data | Kalman | proved | relational (two-run) induction, no arithmetic law |
| C14 | Covariance stays symmetric | Kalman | proved | invariant by induction |
| C15 | Covariance stays positive semidefinite | Kalman | proved | invariant by induction, positive semidefinite matrices (Mathlib) |
| C16 | A measurement never adds uncertainty | Kalman | proved | difference is a Gram matrix |
| C17 | The gain is optimal | Kalman | proved | completion of squares |
| C18 | Perfect model tracks exactly | Kalman | proved | induction over the run |
| C19 | Estimate is affine in the data | Kalman | proved | relational (three-run) induction |
| C20 | Static system: recursive equals batch least squares | Kalman | proved | information form by induction, strict convexity of the cost |
| C21 | Benchmark variant agrees with the library | Kalman (both variants) | proved | simulation relation in both directions |
| C22 | Undefined behaviour of update | Kalman | proved | case analysis of `Res` |
| C23 | Covariance update equals Joseph form | Kalman | proved | ring identity |
| C24 | Fixed-point addition and subtraction | FixedPoint | proved | integer arithmetic, exact wrap-around |
| C25 | Fixed-point multiplication | FixedPoint | proved | floor division bounds |
| C26 | Fixed-point division | FixedPoint | proved | truncated division bounds |
| C27 | Fixed-point comparison is numeric comparison | FixedPoint | proved | monotone scaling |
| C28 | Integer conversion | FixedPoint | proved | integer arithmetic |
| C29 | Real conversion rounds to nearest | FixedPoint | proved | rounding of reals, exact boundary of definedness |
| C30 | Representation round trip | FixedPoint | proved | integer arithmetic |
| C31 | Negation and min/max | FixedPoint | proved | integer arithmetic |
| C32 | Biquad step realises the difference equation | Biquad | proved | induction over inputs; equivalence with the difference equation `Spec/Filter` |
| C33 | Direct form 2 and its transpose are equivalent | Biquad | proved | simulation relation between the two states |
| C34 | Biquad is linear and time-invariant | Biquad | proved | from C32 |
| C35 | reset forgets the past | Biquad, Cascade | proved | definition of the state after reset, induction |
| C36 | Frequency response describes the filter | Biquad | proved | decay of the transient (linear recurrences), geometric bounds |
| C37 | is_stable means bounded output | Biquad | partial | partial: bound by partial fractions; integrator counterexample |
| C38 | poles and zeros are the roots | Biquad | proved | roots of a quadratic with complex square root |
| C39 | ZPK construction has the requested poles and zeros | Biquad | proved | polynomial identities |
| C40 | Cascade is a bounded list of sections | Cascade | proved | refinement to lists, induction over operation sequences |
| C41 | Cascade steps its sections in order | Cascade | proved | induction over sections and inputs, law-free |
| C42 | Section order does not matter from rest | Cascade | proved | product of transfer polynomials; uniqueness of the response |
| C43 | Cascade response and stability | Cascade | proved | product over sections; limit from C36 |
| C44 | replace, insert, remove are inverse to each other | Cascade | proved | list identities through the refinement |
| C45 | One-pole step | OnePole | proved | induction over inputs |
| C46 | One-pole stability report | OnePole | partial | partial: witnesses of the stubbed results |
| C47 | Designed one-pole filters never overshoot | OnePole | proved | convexity of the update |
| C48 | Designed biquads have the nominal gains | Design | proved | trigonometric identities, analog prototype at the warped frequency |
| C49 | Designed biquads are stable | Design | proved | Jury criterion |
| C50 | Shelf and peak gains | Design | partial | partial: transfer functions with the factor the code computes |
| C51 | Decibel conversions are inverse | Design | partial | logarithm identities; witness |
| C52 | Chebyshev section count | Design | proved | induction over the list of sections; ceiling arithmetic |
| C53 | Chebyshev filters are stable with the nominal gain | Design | proved | Jury criterion, products |
| C54 | Ranges enumerate what they say | Range | proved | induction over the iterator; exact overflow condition |
| C55 | copy, fill and equal | Algorithm | proved | induction over the loops, indices into one memory |
| C56 | Text replacement | Algorithm (text) | proved | first occurrence by induction over the string |
| C57 | Bit-field write/read round trip with frame | Register | proved | bitwise extensionality |
| C58 | Combined lazy writes equal separate writes | Register | proved | bitwise extensionality, induction over the list of fields |
| C59 | Bit operations | Register | proved | bitwise extensionality, induction over the mask list |
| C60 | Clearing a write-1-to-clear flag | Register | partial | partial: exact effect and negation |
| C61 | Timer waveform round trip | Atmega | partial | partial: exact effect and witness |
| C62 | TWI write sends address then data | Atmega | partial | partial: exact bus trace for every reaction |
| C63 | Atomic access under interrupts | Isr | proved | invariant over all interleavings of instructions and interrupt routines |
| C64 | Periodic interrupt counters | Isr | proved | induction over ticks |
| C65 | clamp | Isr | proved | order arithmetic |
| C66 | Chebyshev type 2 filters meet their specification | Design | proved | closed form of the squared gain through Chebyshev polynomials (Mathlib) |
| C67 | Chebyshev type 1 filters meet their specification | Design | partial | partial: same closed form for what the code computes; witnesses |
| C68 | A write-1-to-clear flag declared read/write | Register | proved | exact effect |
| C69 | Read-modify-write of a register holding write-1-to-clear flags | Register | proved | exact effect |
| C70 | Timer 1 PWM initialisation | Atmega | proved | exact register contents |
| C71 | Force output compare | Atmega | proved | exact effect |
| C72 | scoped_sreg restores the status register | Atmega | proved | for every body |
| C73 | Clearing external interrupt flags | Atmega | proved | exact effect |
| C74 | TWI initialisation and the pull-ups | Atmega | proved | exact effect with the toggling hardware of PIN registers |
| C75 | Mailbox between interrupt routine and main loop | Isr | proved | induction over schedules of posts and polls |
| C76 | Heartbeat period | Isr | proved | induction over timer clocks |
| C77 | Initialisation of timer 0, ADC and LED | Isr | proved | exact register contents |
| C78 | 16-bit peripheral registers | Isr, Register | proved | temporary-register hardware model |
| C79 | Estimate ends the best-fitting trajectory | Kalman | proved | dynamic programming over the run (cost-to-arrive is a quadratic form) |
| C80 | Reported covariance is the actual error covariance | Kalman | proved | induction over the run, Bochner integrals, independence as orthogonality |
| C81 | Overstated noise keeps the reported covariance an upper bound | Kalman | proved | induction, positive semidefinite order |
| C82 | No filter with other gains does better | Kalman | proved | induction, completion of squares |
| C83 | Reported covariance is monotone in the uncertainty put in | Kalman | proved | induction, minimum over gains |
| C84 | Biquad under rounding: no overflow, bounded error | Biquad | proved | standard rounding model; induction, geometric series |
| C85 | Fixed-point biquad: no overflow, error in units of the last place | Biquad, FixedPoint | proved | fixed point is an instance of the rounding model |
| C86 | One-pole filter under rounding | OnePole, FixedPoint | proved | same |
| C87 | Fixed-point one-pole low-pass has a dead band | OnePole, FixedPoint | proved | invariant by induction over time |
| C88 | Dot and matrix product under rounding | Matrix | proved | induction over the sum |
| C89 | Register declarations match the datasheet | AtmegaRegs | partial | complete table check by kernel evaluation (finite: all declarations) |
| C90 | Driver functions set the bits they are named for | AtmegaDrivers | proved | generic theorem on settings; table check for the bit names |
| C91 | Driver functions keep pending interrupts | AtmegaDrivers | partial | from C90 and the flag masks; negation for the registers concerned |
| C92 | Flags and results are read and cleared | AtmegaDrivers | proved | bitwise extensionality |
| C93 | Enumerators select what their names say | AtmegaEnums, AtmegaDrivers | proved | C90 plus table check of codes |
| C94 | Two-wire transfers through the field-based driver | AtmegaDrivers (twi_x) | partial | invariant (TWSTA set) by induction over sequences of driver calls; symbolic execution of each call on the bus |
| C95 | Gain and stored covariance carry the same information | Kalman, KalmanSim | proved | matrix algebra (information form of the gain); induction over rows; witness for the wrong column |
| C96 | Covariance and gain settle | Kalman | proved | monotone bounded Riccati iteration from 0 converges; uniqueness and attraction by the transition products of the error, bounded through the Lyapunov inequality |
| C97 | The simulated tracker becomes the alpha-beta filter | KalmanSim, Kalman | proved | closed form verified as fixed point; attraction as in C96 with definiteness after two steps |
| C98 | The initial state is forgotten | Kalman, KalmanSim | proved | difference of states is multiplied by the transition products, which tend to 0 |
| C99 | Simulated disturbance has the covariance told to the estimator | KalmanSim | partial | second moments by linearity of the integral; determinant signs |
| C100 | Without noise the simulation tracks exactly | KalmanSim | proved | induction over the loop with the exact state as invariant |
| C101 | Floating point rounds correctly | Ieee | proved | nearest grid point by cases on the exponent; tie to even by parity; the standard model by the relative error bound |
| C102 | Covariance in floating point | Ieee, Kalman, KalmanSim | partial | witnesses by kernel evaluation; bounds from monotonicity of rounding |
| C103 | Time in floating point | Ieee, Kalman | proved | induction over the updates, a tie rounds to even |
| C104 | Floating-point one-pole filter keeps a rest | Ieee, OnePole | proved | invariant 2^q <= state; descending multiples of 2^q become constant |
| C105 | Level detector (avr-adc-isr) | AvrExamples | proved | invariant of the main loop under interrupts before every access; induction over the passes |
| C106 | Fading (avr-fade-led) | AvrExamples | proved | loop invariants for counting loops; induction over the passes |
| C107 | Blinking (avr-blink-led) | AvrExamples | proved | induction over the passes |
| C108 | Two forms of the covariance correction (covariance-error) | CovarianceError, Ieee | proved | matrix algebra; congruence preserves positive semidefiniteness; evaluation of the ten passes with symbolic dt and noise |
| C109 | Simulation in fixed point on the target (avr-kalman-sim) | KalmanSim, FixedPoint, Kalman | proved | invariant over the run; induction on two runs in parallel |
| C110 | Simulation in fixed point on a desktop (kalman-sim) | KalmanSim, FixedPoint, Kalman | proved | invariant over the run with a table of covariances; square root bounds for the gain; induction for the clock |
| C111 | The C++ estimator and simulation against their Matlab originals | Matlab, Kalman, KalmanSim | proved | matrix algebra on both programs; induction on the passes with equal states; counts by floor and ceiling |
| C112 | Ranges of floating-point numbers and the frequency sweeps of the examples | FloatRange, Range, Ieee | proved | induction over the elements with rounding error bounds; a fixed point of rounded addition for non-termination; evaluation of two counts |
| C113 | Accesses to the hardware by get/set functions of the ATmega328 drivers | AtmegaDrivers, Register | proved | unfolding over an arbitrary hardware; table of settings checked once for disjoint fields |
| C114 | Transposed form and cascades under rounding | Biquad, Cascade, Ieee, FixedPoint | proved | invariant over the run: the state expressed by the last two outputs; induction on the sections with linearity of the exact filter |
| C115 | The estimator is stable | Kalman, KalmanSim | proved | Lyapunov function built from the steady covariance and its image: the error stays within a multiple of it that shrinks from some step on; induction over the run |
| C116 | The estimate is the best linear function of the data | Model/Kalman; Spec/KalmanLinear, Spec/KalmanStat | proved | orthogonality invariant: the error is uncorrelated with the estimate and every affine function of the data so far, by induction over the steps (Lemmas/KalmanLinear); Pythagoras |
| C117 | The innovations are uncorrelated and have the covariance used for the gain | Model/Kalman; Spec/KalmanLinear, Spec/KalmanStat | proved | same invariant: an innovation is uncorrelated with the error after the step (optimal gain) and stays so |
| C118 | Numbers are printed with six significant digits, correctly rounded | Model/Output; Spec/Output | proved | significant digits and exponent bounded through Int.log, digit strings evaluated by an independent reader (Spec/Output.readNumber), nearest by the rounding lemma |
| C119 | Conversions between fixed point and floating point with rounding | Model/FixedFloat, Ieee, FixedPoint | proved | exactness of scaling by powers of two, monotone rounding, one rounded addition; witnesses evaluated by the kernel |
| C120 | Fixed-point numbers survive printing | Model/Output, FixedFloat | proved | C118 (relative error) and C119 give an error below half a unit, C29 recovers the number |
| C121 | Matrices and vectors are printed completely and unambiguously | Model/Output, Matrix; Spec/Output | proved | loop invariant for the text, then the text is taken apart at separators |
| C122 | Filters as text | Model/Output, Biquad, Cascade, OnePole; Spec/Output | proved | as C121, with C37, C38, C43, C45 and C46 |
| C123 | Printed output of kalman-sim against the recorded run | Model/KalmanSimOutput, KalmanSim, Kalman, Output, Ieee | proved | the covariance recursion does not read the state (induction over the run); the run without noise by kernel evaluation, one pass at a time from literal states |
| C124 | numeric_limits on AVR and the requirement of fixed_point | Model/StdShims | partial | arithmetic of the promoted types; the values of a type are those of its bit patterns; witnesses |
| C125 | swap, initializer_list and as | Model/StdShims, Algorithm, Matrix | proved | list updates; refinement of the constructor of matrices to memory through C55; rounding functions |
| C126 | Rounding error of the kalman-sim simulation | Model/KalmanSim, Model/KalmanSimOutput, Model/Ieee, Lemmas/KalmanSimError, Lemmas/KalmanSimStep, Lemmas/KalmanSimClose | proved | induction over the passes beside the exact simulation: error bounds for positions and estimates propagate by a rational recursion, gains and covariances are the literal ones of C123, compared with the exact Riccati recursion by kernel evaluation |
| C127 | Infinities and NaN never leave the estimator or a filter | Model/IeeeSpecial, Kalman, Biquad, Cascade, OnePole, Matrix | proved | no operation on a non-finite operand other than a quotient is finite; explicit small matrices; invariant "a state variable is not finite" by induction over the samples |
| C128 | The idealised floating-point model agrees with full IEEE arithmetic | Model/IeeeSpecial, Ieee, Kalman, Biquad, Cascade, OnePole, KalmanSim | proved | case analysis of the operands; simulation relation through all matrix functions, filters and the program (`Lemmas/Refine`); backward analysis for direct form II |
| C129 | Filter designs in floating point: accuracy and stability | Model/DesignFloat, Model/Ieee, Model/Design | proved | rounding error analysis of the quotients with explicit constants; triangle of stability; kernel evaluation and bounds of tan and pi for the unstable design |
| C130 | One-pole designs in floating point: gain and dead filters | Model/DesignFloat, Model/OnePole, Model/Ieee | proved | exact subtraction for operands within a factor two; the only number of the format near 1; induction over the samples |
| C131 | Reported information of the Chebyshev designs | Model/ChebyshevInfo, Model/Design, Model/Output | partial | complex inverse hyperbolic cosine on both sides of 1; Chebyshev polynomial of its value; monotonicity; for type 1 a witness against the claim |
| C132 | Frequency response tables of the filter examples | Model/FilterExamples, Model/Output, Model/FloatRange, Model/Design | partial | the loops write one number per frequency (induction), so the output is computed from the list of responses; the response of a bilinear section is zero iff both parts of its numerator are; the frequencies of the calls by evaluation of the floating-point ranges in the kernel; the sweeps of the type 2 Chebyshev designs avoid their zeros (numeric bounds), so these calls print; the calls for low pass, high pass, band stop and Chebyshev type 1 and the table of print_band are proved wrong |
| C133 | Matlab calls printed by the filter examples | Model/FilterExamples, Model/Text | partial | first occurrences of the searched texts (C56); the Chebyshev calls are proved wrong |
| C134 | Benchmark program | Model/Benchmark, Model/Kalman, Model/KalmanSim, Model/AvrExamples | proved | induction over the passes separates LED and estimator; C21 and the covariance recursion for the gains; C135 with the rest point of the alpha-beta filter for the limit |
| C135 | Constant data | Model/Kalman | proved | the difference to the rest point follows the closed loop of C115, driven by the difference of the gain to its limit, which vanishes; the rest point exists because the settled closed loop shrinks a quadratic form |
| C136 | Chebyshev designs in floating point: accuracy and stability | Model/ChebyshevFloat, Model/DesignFloat, Model/Ieee, Model/Design | proved | rounding error analysis of the sections with explicit constants; monotonicity of rounding for the closed disc; induction over the loop of sections; kernel evaluation and bounds of tan, pi and sqrt 2 for the unstable design |
| C137 | Zeros of Chebyshev designs in floating point are exact | Model/ChebyshevFloat, Model/Ieee | proved | multiplication by 2 and by the sign is exact; monotonicity of rounding; zeros of palindromic polynomials |
| C138 | What the range example writes | Model/DesktopExamples, Model/Range, Model/FloatRange | proved | a loop without break prints what the range visits (induction); with break, induction over the iterations of the infinite range, both directions; the program by kernel evaluation for both widths of int, and more fuel changes nothing |
| C139 | What the matrix example writes | Model/DesktopExamples, Model/Matrix, Model/Output | partial | each operator equals that of Mathlib's matrices; the text of a matrix determines its elements, so the block of the inverse is right iff the matrix is symmetric; the program in binary64 by kernel evaluation |
| C140 | What the covariance example writes | Model/DesktopExamples, Model/CovarianceError | proved | induction over the passes; closed form of the simplified recursion; kernel evaluation of the program in binary32 |
| C141 | Computed with finitely many numbers everything ends in a cycle | Model/Biquad, Model/OnePole, Model/Cascade, Model/Kalman | proved | pigeonhole on the finite state space: two equal states at times that differ by a multiple of the input's period, then induction; the covariance recursion has no input at all |
| C142 | The estimate does not depend on coordinates, units or the order of the measurements | Model/Kalman | proved | one update maps corresponding estimators to corresponding ones (matrix algebra, no symmetry needed); induction over the data |
| C143 | Independent measurements may be processed one after the other | Model/Kalman | proved | both sides written out in numbers, with the columns of P Hᵀ and the entries of S as unknowns; one rational identity serves estimate and covariance |
| C144 | The estimate lies between prediction and measurement | Model/Kalman | proved | 1 - H K = R S⁻¹; the weight is HPHᵀ/S; monotonicity and limit of its inverse |
| C145 | Type traits and complex numbers on AVR | Model/TypeTraits | proved | case analysis on qualifiers and references; each binary operator unfolded to the compound assignment it calls |
| C146 | Singular process noise suffices for the steady state if it reaches every state within two steps | Kalman, KalmanSim | proved | two steps make every covariance positive definite; the sum of the steady covariance and its image under the error dynamics is a Lyapunov function; then as C96, C98, C115, C135 |
| C147 | With two measurements the asymmetry of the covariance grows | Kalman, Matrix, Ieee | proved | polynomial identities for the symmetric and the skew part of the corrected covariance; the determinant is monotone, so the factor exceeds 29/26 while the asymmetry is small; the run in double is evaluated one update at a time |
| C148 | With one measurement rounding does not accumulate: the estimator follows the exact one for ever | Kalman, Matrix, Ieee | proved | the steps are continuous functions of arithmetic, parameters and data (families of computations that approach exact ones, limit along an ultrafilter), so one step has a small error uniformly on a compact set; near the settled covariance the exact update is a contraction in an adapted norm, for covariance and error of the state; induction over the length of the run; independence of the data from C13 |
| C149 | Every finite run is computed to every accuracy, for one measurement and for two | Kalman, Matrix, Ieee, FixedPoint | proved | each step is continuous along families of arithmetics that approach the reals (for the 2x2 inverse where the determinant is not zero); induction over the data with the invariant that the covariances are non-negative; the filter of all trials whose accuracy tends to zero; a counterexample without noise by evaluation |
| C150 | With two measurements of two separate states zeros stay exact and rounding does not accumulate | Kalman, Matrix, Ieee, FixedPoint | proved | the operations on 2x2 matrices are evaluated for diagonal operands, symbolically; induction over the data; the proof of C148 with determinant and adjugate instead of the scalar innovation and with the exact symmetry of the computed covariance as an invariant; C147 for the counterexample |
| C151 | In double the gain of the example's estimator becomes constant after 185 updates | KalmanSim, Kalman, Matrix, Ieee | proved | the covariances and gains of 185 updates are given as literals and each step from one to the next is checked by evaluation in the kernel; the last one is a fixed point, induction over the data covers the rest; the exact covariances are followed by evaluation for 260 updates and enclosed for ever between two covariances that the exact recursion maps into each other (monotonicity of the Riccati recursion) |
| C152 | In double the estimate of the example's estimator stays close to the exact one for ever | KalmanSim, Kalman, Matrix, Ieee | proved | a norm of the plane in which the error transition contracts for every gain from the fifteenth update on (a table of rates for the updates before); induction over the data with bounds for the estimate and its difference from the exact one in that norm; relative rounding bounds for each of the nine operations of an update; the clock stays below 2^53 because rounding is monotone |
| C153 | The simulation completes, however long it runs in practice | KalmanSim, Kalman, Matrix, Ieee | proved | induction over the passes with velocity at most 16 n and position at most 16 n^2 in magnitude after n passes, relative rounding bounds for each operation, and the invariant of C152 for the estimator |
| C154 | In 32-bit floating point the gain of the target's estimator becomes constant, and is always close to the exact one | KalmanSim, Kalman, Matrix, Ieee | proved | as C151 with 80 literals; the exact covariances are followed by evaluation and then enclosed as there |
| C155 | In 32-bit floating point the estimate of the target's estimator stays close to the exact one for ever | KalmanSim, Kalman, Matrix, Ieee | proved | as C152, with the same norm and table of rates; the clock stays below 2^24 |
| C156 | The program on the target: the estimate is the simulated state | KalmanTarget, KalmanSim, Kalman, Matrix, Ieee, FixedPoint | proved | invariant over the passes: estimator and simulation have the same matrices and the same state, since the prediction is computed by the same operations and the innovation is exactly zero; for 32 bits the invariant of C155 and the monotonicity of rounding, by which velocity and position stay below 2^24 and 2^48 |
| C157 | The number of passes of the simulations | KalmanTarget, KalmanSim, Ieee | proved | induction on the distance of the counter from the largest int; monotonicity of rounding; uniqueness of the least counter |
| C158 | The error of the example's estimate stays bounded for ever | KalmanSim, Kalman, Matrix | proved | invariant over the passes: the weighted norm of C152 of the difference between true state and estimate; the exact gains are close to the tabulated ones by C151, the noise adds at most a constant; for other constants the stability theorem of C115, with the data of the simulation as a disturbed trajectory |
| C159 | The error of the example's estimate in double | KalmanSim, Kalman, Matrix, Ieee | proved | as C158 for the exact estimator fed with the data of the simulation in double, whose rounding errors are bounded and act as additional noise; the estimator in double is close to the exact one by the invariant of C152 |
| C160 | The constant pi is the nearest number of each type | Constants, FixedFloat | proved | the ends of an interval of width 1e-20 around pi (Mathlib's bounds) round to the same number, which is therefore nearest to pi (monotony of rounding); the fixed-point case from C119 |
| C161 | The warped frequency is not negative up to half the sampling frequency | Constants, DesignFloat | partial | error bounds of the product and the quotient; in double two different numbers of 53 digits differ by a part in 2^53, which outweighs the rounding of the product, and rounding the quotient is monotone; sign of the tangent before and behind the pole; the counterexamples are evaluated by the kernel |
| C162 | The angle at which the frequency response is evaluated | Constants, Ieee | proved | doubling the constant is exact; standard model of rounding, the error of the constant from C160, monotony and symmetry of rounding |

No property is classed as not applicable.

## Disagreements between code and expectation

Each is proved, either as negation with a witness or as the exact effect.

* C06: products of non-square operands with more columns than rows (M > N) access memory out of bounds.
* C08: `inverted( matrix<T,2,2> )` returns the transpose of the inverse (matrix.hpp:500-501); hence C11 needs symmetric R and P.
* C21: the gain is indeterminate before the first update.
* C28: an integer that does not fit wraps silently; the literal 1 becomes -1 if there are no integral bits.
* C37: `is_stable` accepts poles on the unit circle (an integrator).
* C40: `insert` cannot append.
* C46: one-pole `poles()` always is 7, `is_stable()` always true (stub).
* C47: the one-pole high-pass does not block DC.
* C50/C51: `dbV_factor` is not the inverse of `dbV`; shelf and peak filters of 0 dB halve the amplitude.
* C52: `chebyshev2_bs` is a stub that yields the identity.
* C54: a stepping range overflows if the end is near the largest value; for unsigned types it may never stop.
* C112: `range( 0.0f, 1e8f, 1.0f )` never ends; the examples' sweep formula with 7 samples visits 8 frequencies, the
  last beyond half the sampling frequency.
* C113: two settings of EIMSK or PCICR in one statement access the register twice, unlike all others.
* C57/C58: a value too wide for a field counts as 1 in a single-bit write but leaks into neighbouring fields in a
  combined lazy write.
* C60, C73: clearing one write-1-to-clear flag clears all pending flags of the register.
* C61: `current( waveform )` does not invert `set( waveform )` for modes from 4 on.
* C62: TWI `write` sends the address twice and never the data byte; no stop after an error.
* C63: `atomic` enables interrupts on exit even if they were disabled before.
* C67: Chebyshev type 1 designs use `estop` where `1/epass` is needed and a wrong first-order gain.
* C145: the assignments of the AVR `complex` lack their `return`.
* C131: for the same reason the frequency `f3` reported by a type 1 design is not its 3 dB frequency.
* C68, C73: pin-change flags are declared read/write: clearing one leaves it and clears the others.
* C69, C91: setting any field of ADCSRA, ACSR or TWCR drops the pending flag of the register (for TWCR it starts the
  next bus action).
* C71, C89: FOC1A and FOC1B are declared in TCCR1A, so forcing a compare changes the output mode instead.
* C74: TWI pull-ups are requested through the PIN register, which toggles the latch.
* C94: after `start()` of the field-based TWI driver (`detail_x`) no call ever transmits a byte: TWSTA stays set.
* C75: posts between the test and the reset of a mailbox are lost.
* C76: the heartbeat period is 251 timer clocks, not 250.
* C87: a fixed-point one-pole low-pass never reaches zero from small positive states (dead band).
* C95: the simulation's column `velecov` is the covariance of position and velocity, not the variance of the velocity.
* C99: the simulated disturbance uses two draws, so its covariance is not the Q told to the estimator.
* C102: in `float` the covariance of the simulation is no longer symmetric after one update; in `double` a variance can
  become negative (measurement matrix `[7 0]`, small measurement noise).
* C103: in floating point the estimator's time stops after `2^p` steps (`2^24` in `float`).
* C104: a floating-point one-pole low-pass with `a1 < -1/2` ends at a positive denormal number and never at zero.
* C105: the ADC channel mask lists MUX2 twice and lacks MUX1; the two levels at which the LED is switched differ, so
  inputs between them make it flicker.
* C139: `matrix.e.cpp` writes the transpose of the inverse under the label `inverted(A)`.
* C147: because of the transposed inverse, an estimator with two precise measurements is numerically unstable: rounding errors in the symmetry
  of the covariance double with every update, until the covariance and the gain are wrong (in `double` after some 57 updates).
* C108: `covariance-error` applies the simplified correction with a gain that is not optimal for it: a negative variance.
* C109: on the target `fixed_point<int,15>` has no fractional bits; the estimator ignores all measurements.
* C110: in fixed point the covariance neither settles nor stays symmetric, and the clock overflows at update 32768.
* C119: the constructor from `double` adds 0.5 in floating point, so the largest number below half a unit becomes one unit.
* C120: numbers of 32 bits that differ may print alike (six digits).
* C122: the text of a one-pole filter always says "always stable" and gives 7 as pole.
* C124: the AVR replacement of `numeric_limits` reports every unsigned type as signed; on AVR `fixed_point` therefore
  accepts unsigned types.
* C123: the recorded run has an empty line between the columns, the present program prints none; the texts of
  the columns themselves agree.
* C127: one measurement or sample that is infinite or NaN destroys the estimate or the output for ever, also in filters without
  feedback; the error covariance does not show it.
* C128: with two measurements in `float`, variances of `1e20` let the determinant overflow: gain zero, measurements ignored.
* C129: a low-pass at 2 Hz with Q = 1/2 for 44.1 kHz designed in `float` has a pole greater than 1 (low frequencies lose the
  square term in rounding).
* C136: a type 2 low-pass with the stop band from 1 Hz at 44.1 kHz designed in `float` has a real pole greater than 1.
* C130: a one-pole low-pass for a very low frequency gets `b0 = 0`, `a1 = -1`: all outputs are zero.  onepole-design.hpp calls
  `abs` and `exp` without `std::`; where only `::abs(int)` is visible, `b0` is 1 and the gain for constant signals exceeds 1.
  Which function is taken depends on the platform's headers and is not determined by the source.
* C132: the frequencies of the low-pass, high-pass and band-stop calls of `biquad-design.e.cpp` and of the type 1 calls of
  `chebyshev-design.e.cpp` contain one with gain zero, whose logarithm is printed; the table of `print_band` is that of a
  fixed filter, not of the coefficients it prints.
* C133: the Matlab calls of `lhcheb1`, `lhcheb2` keep a `dsp::`, as only the first occurrence is replaced.
* C111: the C++ simulation makes one pass less than the Matlab one (50, not 51), and with one measurement of variance zero
  the estimator goes on with gain zero where `inv` is singular.
* C161: at half the sampling frequency `prewarp` may be negative: the rounded angle lies behind the pole of the tangent
  (`float` at 48000, `double` at 22500); in `float` even below it, for frequencies the Chebyshev designs admit.

## Trusted base

* The Lean 4 kernel.  Axioms: at most `propext`, `Classical.choice` and `Quot.sound`; `AXIOMS.md` lists them for each
  theorem of the manifest.  No own axioms, no `sorry`, no `native_decide`, no `bv_decide`.  `decide +kernel` is used for
  complete finite tables and for the evaluation of concrete witnesses only (it adds no axiom: the kernel evaluates the decision procedure).
* The reading of the C++ source into `Model/` (by hand, each definition cites its lines; the tables of registers and
  enumerations were extracted from the source by a script and reviewed).
* The specifications in `Spec/`, notably the transcription of the ATmega328 datasheet (register summary, code tables) and
  the values of the bit macros of `avr/io.h`.
* That `double` behaves like the real numbers up to the errors bounded in C84 to C88, where a theorem is about reals;
  and that the machine's arithmetic is IEEE 754 (C101 to C104).

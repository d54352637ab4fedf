import Verif.Model.KalmanSim
import Verif.Spec.KalmanSim

/-
The run of example/desktop/kalman-sim.e.cpp that the repository records in example/desktop/kalman-sim.out.txt, replayed
on the model over rational numbers.  Draws that reproduce the recorded measurements are put in; the model must then
print the recorded estimates, gains and covariances.  The file has six significant digits: gains and covariances, which
do not depend on the measurements, agree to these; the estimates agree up to the rounding of the measurements.
-/

namespace Verif
namespace RepoTests

/-- kalman-sim.e.cpp:58-63 -/
def simParams : KalmanSim.Params ℚ := ⟨1, 10, 1 / 5⟩

/-- kalman-sim.out.txt:21 -/
def posmeas : List ℚ :=
  [-18.2285, -6.2886, 16.4017, 1.86002, 3.83663, 13.1817, 20.3417, 30.6843, 37.2684, 53.567, 43.0297, 65.6315,
   90.4069, 77.5341, 101.701, 114.165, 153.305, 152.981, 184.146, 204.109, 233.352, 233.794, 263.873, 285.221,
   330.032, 336.344, 368.444, 405.238, 408.923, 460.571, 488.804, 516.139, 562.987, 570.89, 636.275, 665.735,
   690.596, 732.202, 784.532, 818.786, 863.582, 908.869, 943.461, 975.954, 1030.39, 1068.7, 1109.82, 1164.31,
   1203.33, 1249.17]

/-- kalman-sim.out.txt:23 -/
def poshat : List ℚ :=
  [0.48129, 1.93756, 4.50729, 7.9167, 12.1631, 17.4005, 23.5798, 30.9034, 39.0521, 48.9581, 57.2173, 67.9409,
   81.6192, 92.0442, 105.258, 119.089, 138.078, 154.776, 174.833, 195.865, 219.329, 239.756, 262.621, 286.059,
   314.117, 339.396, 366.661, 396.483, 422.604, 453.875, 485.542, 517.31, 552.591, 583.948, 622.024, 659.624,
   695.853, 733.777, 775.098, 816.13, 858.711, 902.69, 945.899, 987.942, 1032.83, 1077.3, 1121.83, 1168.77,
   1215, 1261.78]

/-- kalman-sim.out.txt:25 -/
def posgain : List ℚ :=
  [0.000999001, 0.00348458, 0.00829591, 0.0160443, 0.0270893, 0.0413959, 0.0584332, 0.0771904, 0.0963497,
   0.114574, 0.130789, 0.144358, 0.155093, 0.163155, 0.168917, 0.172834, 0.175354, 0.176873, 0.177713,
   0.178122, 0.178283, 0.178322, 0.178323, 0.178336, 0.178387, 0.178487, 0.178635, 0.178822, 0.179039,
   0.179272, 0.179512, 0.179748, 0.179972, 0.180179, 0.180366, 0.18053, 0.18067, 0.180789, 0.180887, 0.180965,
   0.181028, 0.181076, 0.181113, 0.18114, 0.18116, 0.181173, 0.181182, 0.181188, 0.181192, 0.181194]

/-- kalman-sim.out.txt:27 -/
def posecov : List ℚ :=
  [0.0999001, 0.348458, 0.829591, 1.60443, 2.70893, 4.13959, 5.84332, 7.71904, 9.63497, 11.4574, 13.0789,
   14.4358, 15.5093, 16.3155, 16.8917, 17.2834, 17.5354, 17.6873, 17.7713, 17.8122, 17.8283, 17.8322, 17.8323,
   17.8336, 17.8387, 17.8487, 17.8635, 17.8822, 17.9039, 17.9272, 17.9512, 17.9748, 17.9972, 18.0179, 18.0366,
   18.053, 18.067, 18.0789, 18.0887, 18.0965, 18.1028, 18.1076, 18.1113, 18.114, 18.116, 18.1173, 18.1182,
   18.1188, 18.1192, 18.1194]

/-- kalman-sim.out.txt:31 -/
def velhat : List ℚ :=
  [0.985032, 1.97024, 3.00816, 3.97819, 4.91965, 5.88019, 6.84199, 7.83888, 8.80958, 9.89397, 10.6133,
   11.5652, 12.754, 13.4373, 14.3593, 15.2515, 16.5833, 17.5444, 18.7449, 19.9214, 21.2207, 22.0937, 23.1204,
   24.1025, 25.4425, 26.3771, 27.4154, 28.6043, 29.3081, 30.4536, 31.5246, 32.499, 33.7268, 34.4402, 35.7535,
   36.888, 37.7722, 38.7374, 39.9457, 41.0043, 42.1119, 43.2484, 44.1946, 44.9296, 45.8757, 46.6855, 47.4201,
   48.3216, 49.0636, 49.785]

/-- kalman-sim.out.txt:33 -/
def velgain : List ℚ :=
  [0.000799201, 0.00179229, 0.00316198, 0.00486865, 0.00684016, 0.00896681, 0.0111075, 0.0131099, 0.0148403,
   0.0162115, 0.0171962, 0.0178215, 0.0181505, 0.0182611, 0.0182286, 0.0181159, 0.0179704, 0.0178245,
   0.0176979, 0.0176007, 0.0175363, 0.0175038, 0.0174993, 0.0175178, 0.0175537, 0.0176016, 0.0176565,
   0.0177144, 0.0177719, 0.0178265, 0.0178767, 0.0179213, 0.01796, 0.0179925, 0.0180193, 0.0180408, 0.0180577,
   0.0180705, 0.01808, 0.0180868, 0.0180915, 0.0180946, 0.0180964, 0.0180974, 0.0180978, 0.0180978, 0.0180976,
   0.0180974, 0.0180971, 0.0180968]

/-- kalman-sim.out.txt:35 -/
def velecov : List ℚ :=
  [0.0799201, 0.179229, 0.316198, 0.486865, 0.684016, 0.896681, 1.11075, 1.31099, 1.48403, 1.62115, 1.71962,
   1.78215, 1.81505, 1.82611, 1.82286, 1.81159, 1.79704, 1.78245, 1.76979, 1.76007, 1.75363, 1.75038, 1.74993,
   1.75178, 1.75537, 1.76016, 1.76565, 1.77144, 1.77719, 1.78265, 1.78767, 1.79213, 1.796, 1.79925, 1.80193,
   1.80408, 1.80577, 1.80705, 1.808, 1.80868, 1.80915, 1.80946, 1.80964, 1.80974, 1.80978, 1.80978, 1.80976,
   1.80974, 1.80971, 1.80968]

/-- Draws for which the program measures `zs`: without process noise the position in pass `i` (from 0) is
`(i + 1) ^ 2 / 2`. -/
def draws : ℕ → List ℚ → List (ℚ × ℚ × ℚ)
  | _, [] => []
  | i, z :: zs => (0, 0, (z - ((i : ℚ) + 1) ^ 2 / 2) / 10) :: draws (i + 1) zs

/-- As many elements, each within `rel` times the expected one. -/
def agree (rel : ℚ) : List ℚ → List ℚ → Bool
  | [], [] => true
  | a :: as, b :: bs => decide (|a - b| ≤ rel * |b|) && agree rel as bs
  | _, _ => false

/-- The run with the recorded measurements. -/
def simRun (avr : Bool) : List (KalmanSim.Row ℚ) :=
  match KalmanSim.main avr simParams (draws 0 posmeas) with
  | .ok rows => rows
  | .error _ => []

/-- The estimator of both platforms prints what the file records. -/
example : ∀ avr, (simRun avr).map (·.posmeas) = posmeas ∧
    agree (5 / 1000000) ((simRun avr).map (·.poshat)) poshat ∧
    agree (5 / 1000000) ((simRun avr).map (·.posgain)) posgain ∧
    agree (5 / 1000000) ((simRun avr).map (·.posecov)) posecov ∧
    agree (5 / 1000000) ((simRun avr).map (·.velhat)) velhat ∧
    agree (5 / 1000000) ((simRun avr).map (·.velgain)) velgain ∧
    agree (5 / 1000000) ((simRun avr).map (·.velecov)) velecov := by
  decide +kernel

end RepoTests
end Verif

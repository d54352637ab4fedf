import Verif.Spec.KalmanSim
import Verif.Model.FixedPoint
import Verif.Lemmas.KalmanRun
import Verif.Lemmas.KalmanFloat
import Verif.Lemmas.MatrixMore

/- The covariance part of the estimator in `fixed_point<int,15>` on a desktop, by evaluation: it runs into a cycle. -/

namespace Verif
open Kalman KalmanSim

/-- Integer literals are converted by `fixed_point( int )` (fixed-point.hpp:99-102). -/
instance {w : Width} {F : Nat} : CLit (Fx w F) := ⟨Fx.ofInt w F⟩

namespace FixedSim

/-- The covariance part of an update: the gain and the new covariance. -/
def cov {T : Type} [CNum T] (A Q : Mat T 2 2) (H : Mat T 1 2) (R : Mat T 1 1) (P : Mat T 2 2) :
    Res (Mat T 2 1 × Mat T 2 2) := do
  let P ← predictCov A P Q
  let K ← gain .one P H R
  .ok (K, ← correctCov .one K H P)

theorem cov_of_update {T : Type} [CNum T] {k k' : Kalman T .one .one} {v z} (h : k.update v z = .ok k') :
    ∃ K, k'.K = some K ∧ cov k.A k.Q k.H k.R k.P = .ok (K, k'.P) ∧ k'.A = k.A ∧ k'.Q = k.Q ∧ k'.H = k.H ∧
      k'.R = k.R := by
  obtain ⟨t, x, P, K, x', P', -, -, h1, h2, -, h3, rfl⟩ := update_inv h
  refine ⟨K, rfl, ?_, rfl, rfl, rfl, rfl⟩
  rw [cov, h1, bind_ok, h2, bind_ok, h3, bind_ok]

/-- `int` of 32 bits; shifts of negative numbers undefined or not. -/
def desktop (s : Bool) : Platform := ⟨32, s, .inr rfl⟩

/-- A matrix by the representations of its elements. -/
def raw (t : Int × Int × Int × Int) : Mat (Fx .w32 16) 2 2 :=
  .mk22 (.narrow _ _ t.1) (.narrow _ _ t.2.1) (.narrow _ _ t.2.2.1) (.narrow _ _ t.2.2.2)

/-- The covariances before the first 112 updates. -/
def table : List (Int × Int × Int × Int) := [
  (655, 1310, 1310, 2621), (6544, 5235, 5235, 5237), (22826, 11741, 11741, 7836), (54345, 20714, 20714, 10391),
  (105109, 31896, 31896, 12854), (177477, 44814, 44815, 15160), (271217, 58748, 58750, 17232), (382852, 72775, 72781, 18995),
  (505817, 85906, 85919, 20398), (631411, 97250, 97264, 21422), (750904, 106243, 106267, 22100), (857330, 112714, 112748, 22495),
  (946470, 116833, 116876, 22687), (1017031, 119007, 119056, 22755), (1069958, 119734, 119788, 22765), (1107875, 119530, 119578, 22765),
  (1133422, 118771, 118811, 22782), (1149984, 117817, 117859, 22837), (1159965, 116859, 116913, 22930), (1165696, 116048, 116109, 23057),
  (1168448, 115413, 115465, 23207), (1169478, 114984, 115030, 23374), (1169686, 114763, 114821, 23552), (1169672, 114730, 114791, 23731),
  (1169734, 114847, 114916, 23905), (1170040, 115078, 115142, 24068), (1170627, 115384, 115449, 24217), (1171496, 115735, 115794, 24350),
  (1172585, 116102, 116155, 24466), (1174303, 116512, 116576, 24571), (1176024, 116889, 116946, 24656), (1177660, 117222, 117268, 24724),
  (1179157, 117508, 117550, 24778), (1180521, 117749, 117804, 24822), (1181730, 117948, 118002, 24854), (1182786, 118109, 118158, 24878),
  (1184174, 118284, 118335, 24900), (1185287, 118413, 118458, 24914), (1186174, 118506, 118548, 24924), (1186860, 118570, 118607, 24930),
  (1187373, 118612, 118657, 24934), (1187761, 118639, 118678, 24935), (1188053, 118655, 118692, 24936), (1188251, 118662, 118701, 24936),
  (1188404, 118666, 118706, 24936), (1188492, 118665, 118708, 24936), (1188543, 118662, 118709, 24936), (1188583, 118659, 118709, 24936),
  (1188613, 118657, 118708, 24936), (1188636, 118655, 118707, 24936), (1188630, 118651, 118705, 24936), (1188620, 118648, 118704, 24937),
  (1188631, 118649, 118704, 24938), (1188620, 118648, 118705, 24939), (1188634, 118650, 118707, 24940), (1188627, 118651, 118709, 24940),
  (1188624, 118651, 118711, 24940), (1188623, 118651, 118713, 24940), (1188624, 118651, 118715, 24940), (1188626, 118651, 118717, 24940),
  (1188630, 118651, 118719, 24940), (1188635, 118651, 118721, 24940), (1188640, 118651, 118723, 24940), (1188646, 118651, 118725, 24940),
  (1188653, 118651, 118727, 24940), (1188660, 118651, 118729, 24940), (1188667, 118651, 118731, 24940), (1188675, 118651, 118732, 24940),
  (1188682, 118651, 118733, 24940), (1188689, 118651, 118734, 24940), (1188695, 118651, 118735, 24940), (1188701, 118651, 118736, 24940),
  (1188707, 118651, 118737, 24940), (1188712, 118651, 118738, 24940), (1188695, 118649, 118738, 24940), (1188702, 118650, 118739, 24940),
  (1188709, 118651, 118740, 24940), (1188717, 118651, 118740, 24940), (1188701, 118649, 118740, 24940), (1188708, 118650, 118741, 24940),
  (1188716, 118651, 118741, 24940), (1188701, 118649, 118741, 24940), (1188709, 118650, 118742, 24940), (1188695, 118648, 118742, 24940),
  (1188704, 118649, 118743, 24941), (1188714, 118651, 118744, 24941), (1188703, 118650, 118745, 24941), (1188716, 118651, 118746, 24941),
  (1188706, 118650, 118747, 24941), (1188698, 118649, 118748, 24941), (1188713, 118651, 118750, 24941), (1188707, 118650, 118751, 24941),
  (1188702, 118649, 118752, 24941), (1188698, 118648, 118753, 24941), (1188717, 118650, 118754, 24941), (1188712, 118649, 118755, 24941),
  (1188708, 118648, 118756, 24941), (1188705, 118647, 118757, 24941), (1188703, 118647, 118758, 24942), (1188703, 118647, 118760, 24942),
  (1188704, 118647, 118740, 24940), (1188709, 118648, 118741, 24941), (1188716, 118650, 118742, 24941), (1188702, 118649, 118743, 24941),
  (1188712, 118651, 118745, 24941), (1188702, 118650, 118746, 24941), (1188716, 118651, 118747, 24941), (1188707, 118650, 118748, 24941),
  (1188699, 118649, 118749, 24941), (1188715, 118651, 118750, 24941), (1188708, 118650, 118751, 24941), (1188703, 118649, 118752, 24941)]

/-- The covariance number `i`. -/
def entry (i : Nat) : Mat (Fx .w32 16) 2 2 := raw (table.getD i (0, 0, 0, 0))

/-- One more update; the last covariance of the table is followed by number 93. -/
def next (i : Nat) : Nat := if i = 111 then 93 else i + 1

/-- Is the gain from update 55 on as expected? -/
def nearGain (i : Nat) (K : Mat (Fx .w32 16) 2 1) : Bool :=
  decide (i < 54) || (decide (11872 ≤ (K.get 0 0).storage.toInt) && decide ((K.get 0 0).storage.toInt ≤ 11873) &&
    decide (1185 ≤ (K.get 1 0).storage.toInt) && decide ((K.get 1 0).storage.toInt ≤ 1186))

/-- The step from covariance `i` is right. -/
def stepOk (s : Bool) (i : Nat) : Bool :=
  letI := Fx.cnum (desktop s) .w32 16
  Res.yields (cov (raw (65536, 65536, 0, 65536)) (raw (655, 1310, 1310, 2621)) ⟨#v[.narrow _ _ 65536, .narrow _ _ 0]⟩
    (.fill 1 1 (.narrow _ _ 6553600)) (entry i))
    (fun r => r.2.storage == (entry (next i)).storage && nearGain i r.1)

theorem steps_ok (s : Bool) : ∀ i, i < 112 → stepOk s i = true := by
  cases s <;> decide +kernel

/-- The number of the covariance after `n` updates. -/
def index (n : Nat) : Nat := if n < 112 then n else 93 + (n - 93) % 19

theorem index_lt (n : Nat) : index n < 112 := by
  unfold index
  split <;> omega

theorem index_succ (n : Nat) : index (n + 1) = next (index n) := by
  unfold index next
  split_ifs <;> omega

theorem index_period {n : Nat} (h : 93 ≤ n) : index (n + 19) = index n := by
  unfold index
  split_ifs <;> omega

end FixedSim
end Verif

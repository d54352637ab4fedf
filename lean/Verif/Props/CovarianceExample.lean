import Verif.Lemmas.OutputText
import Verif.Model.DesktopExamples
import Verif.Props.CovarianceError
import Verif.Props.MatrixExample

/- Property C140: what example/desktop/covariance-error.e.cpp writes. -/

namespace Verif
open DesktopExamples Output Ieee Matrix CovarianceError
open scoped Matrix

/-- The gain of pass `i`. -/
noncomputable def gainAt (i : ℕ) : Matrix (Fin 2) (Fin 1) ℝ := !![1 / 10 + 1 / 2 ^ i; 1 / 10 + 1 / 2 ^ i]

/-- The variance after `i` passes in the simplified form, if at first it is `Q`. -/
noncomputable def covP (Q : Matrix (Fin 2) (Fin 2) ℝ) : ℕ → Matrix (Fin 2) (Fin 2) ℝ
  | 0 => Q
  | i + 1 => covP Q i - gainAt i * (!![1, 0] : Matrix (Fin 1) (Fin 2) ℝ) * covP Q i

/-- The variance after `i` passes in Joseph's form. -/
noncomputable def covJ (Q : Matrix (Fin 2) (Fin 2) ℝ) (R : ℝ) : ℕ → Matrix (Fin 2) (Fin 2) ℝ
  | 0 => Q
  | i + 1 =>
    (1 - gainAt i * (!![1, 0] : Matrix (Fin 1) (Fin 2) ℝ)) * covJ Q R i * (1 - gainAt i * (!![1, 0] : Matrix (Fin 1) (Fin 2) ℝ))ᵀ +
      R • (gainAt i * (gainAt i)ᵀ)

/-- The block of a time `t`. -/
noncomputable def covBlock (elem : ℝ → Text) (t : ℝ) (P J : Matrix (Fin 2) (Fin 2) ℝ) : Text :=
  "\ndt:".toList ++ elem t ++ " P:\n".toList ++ grid elem P ++ "\ndt:".toList ++ elem t ++ " PJ:\n".toList ++ grid elem J

/-- The matrix `{ dt*dt*dt*dt/4, dt*dt*dt/2, dt*dt*dt/2, dt*dt }` times the square of the noise. -/
noncomputable def covStart (dt a : ℝ) : Matrix (Fin 2) (Fin 2) ℝ := (a ^ 2) • !![dt ^ 4 / 4, dt ^ 3 / 2; dt ^ 3 / 2, dt ^ 2]

namespace DesktopExamples
open KalmanSim

theorem passes_real (elem : ℝ → Text) {dt R : ℝ} {Q : Matrix (Fin 2) (Fin 2) ℝ} {more : ℝ → Bool}
    (hm : ∀ k, more k = true ↔ 1 / 1000 < k) (n : ℕ) :
    ∀ i fuel s os, i + n = 10 → n < fuel → s.P.toMatrix = covP Q i → s.PJ.toMatrix = covJ Q R i →
      passes elem more (1 / 10) dt ⟨#v[1, 0]⟩ R fuel (1 / 2 ^ i) (i * dt) s os =
        .ok (os ++ ((List.range n).map fun j : ℕ =>
          covBlock elem ((i + j : ℕ) * dt) (covP Q (i + j)) (covJ Q R (i + j))).flatten) := by
  induction n with
  | zero =>
    intro i fuel s os hi hf _ _
    obtain ⟨fuel, rfl⟩ : ∃ k, fuel = k + 1 := ⟨fuel - 1, by omega⟩
    obtain rfl : i = 10 := hi
    have : ¬ more (1 / 2 ^ 10) = true := by rw [hm]; norm_num
    rw [passes, if_neg this]
    simp
  | succ n ih =>
    intro i fuel s os hi hf hP hJ
    obtain ⟨fuel, rfl⟩ : ∃ k, fuel = k + 1 := ⟨fuel - 1, by omega⟩
    have hmo : more (1 / 2 ^ i) = true := by
      rw [hm, one_div_lt_one_div (by norm_num) (by positivity)]
      calc (2 : ℝ) ^ i ≤ 2 ^ 9 := pow_le_pow_right₀ (by norm_num) (by omega)
        _ < 1000 := by norm_num
    have hb : block elem ((i : ℝ) * dt) s = .ok (covBlock elem ((i : ℝ) * dt) (covP Q i) (covJ Q R i)) := by
      rw [block, matrix_grid, bind_ok, matrix_grid, bind_ok, hP, hJ]
      rfl
    have hK : gain (1 / 10 : ℝ) (1 / 2 ^ i) = .ok ⟨#v[1 / 10 + 1 / 2 ^ i, 1 / 10 + 1 / 2 ^ i]⟩ := rfl
    have hKm : (⟨#v[1 / 10 + 1 / 2 ^ i, 1 / 10 + 1 / 2 ^ i]⟩ : Mat ℝ 2 1).toMatrix = gainAt i := by
      ext a b; fin_cases a <;> fin_cases b <;> rfl
    have hH : (⟨#v[1, 0]⟩ : Mat ℝ 1 2).toMatrix = !![1, 0] := mH_mat
    obtain ⟨S, hS, hS'⟩ := simplified_mat ⟨#v[1 / 10 + 1 / 2 ^ i, 1 / 10 + 1 / 2 ^ i]⟩ (⟨#v[1, 0]⟩ : Mat ℝ 1 2) s.P
    obtain ⟨J, hJo, hJ'⟩ := joseph_mat ⟨#v[1 / 10 + 1 / 2 ^ i, 1 / 10 + 1 / 2 ^ i]⟩ (⟨#v[1, 0]⟩ : Mat ℝ 1 2) R s.PJ
    have hp : pass (1 / 10) ⟨#v[1, 0]⟩ R (1 / 2 ^ i) s = .ok ⟨S, J⟩ := by
      rw [pass, hK, bind_ok, hS, bind_ok, hJo, bind_ok]
    have hl : (CLit.lit 2 : Res ℝ) = .ok 2 := congrArg Except.ok (Int.cast_ofNat 2)
    have hd : CNum.div (1 / 2 ^ i : ℝ) 2 = .ok (1 / 2 ^ (i + 1)) := by
      rw [div_two, pow_succ, div_div]
    have ha : CNum.add ((i : ℝ) * dt) dt = .ok (((i + 1 : ℕ) : ℝ) * dt) := by
      rw [ExactRing.add_eq]
      push_cast
      congr 1
      ring
    rw [passes, if_pos hmo, hb, bind_ok]
    dsimp only
    rw [hp, bind_ok, hl, bind_ok, hd, bind_ok, ha, bind_ok,
      ih (i + 1) fuel ⟨S, J⟩ _ (by omega) (by omega) (by rw [hS', hKm, hH, hP]; rfl) (by rw [hJ', hKm, hH, hJ]; rfl)]
    rw [List.range_succ_eq_map, List.map_cons, List.map_map, List.flatten_cons, Nat.add_zero, List.append_assoc]
    have e : ∀ j : ℕ, i + 1 + j = i + (j + 1) := fun j => by omega
    simp only [e]
    rfl

theorem covStart_eq (p : Params ℝ) : (mQ p).toMatrix = covStart p.dt p.accelnoise := by
  rw [mQ_mat, covStart]
  ext i j; fin_cases i <;> fin_cases j <;> (simp; ring)

end DesktopExamples

/-- **C140** In exact arithmetic, for all time steps and noises: the program writes ten blocks, at the times 0, `dt`, ..., `9 dt`,
with the variances after as many passes in the two forms. -/
theorem C140_text (elem : ℝ → Text) (p : KalmanSim.Params ℝ) {more : ℝ → Bool} (hm : ∀ k, more k = true ↔ 1 / 1000 < k)
    {fuel : ℕ} (hf : 10 < fuel) :
    covarianceMain elem more (1 / 10) p fuel = .ok ((List.range 10).map fun i : ℕ => covBlock elem (i * p.dt)
      (covP (covStart p.dt p.accelnoise) i) (covJ (covStart p.dt p.accelnoise) (p.measnoise ^ 2) i)).flatten := by
  have hl : (CLit.lit 1 : Res ℝ) = .ok (1 / 2 ^ 0) := congrArg Except.ok (by simp)
  have := passes_real elem (dt := p.dt) (R := p.measnoise * p.measnoise) (Q := (KalmanSim.mQ p).toMatrix) hm 10 0 fuel
    ⟨KalmanSim.mQ p, KalmanSim.mQ p⟩ [] rfl hf rfl rfl
  rw [Nat.cast_zero, zero_mul, covStart_eq] at this
  simp only [zero_add, ← sq] at this
  rw [covarianceMain, KalmanSim.sysH_eq, bind_ok, ExactRing.mul_eq, bind_ok, KalmanSim.sysQ_eq, bind_ok, hl, bind_ok, ← sq]
  exact this

/-- The product of the factors `1 - K(0)` of the first `i` passes. -/
noncomputable def shrink (i : ℕ) : ℝ := ∏ j ∈ Finset.range i, (9 / 10 - 1 / 2 ^ j)

/-- **C140** The variance in the simplified form after `i` passes in closed form: the first row has been multiplied by `shrink i`, and
as much has been taken from the second row as from the first. -/
theorem C140_closed (Q : Matrix (Fin 2) (Fin 2) ℝ) (i : ℕ) :
    covP Q i = !![shrink i * Q 0 0, shrink i * Q 0 1;
      Q 1 0 - (1 - shrink i) * Q 0 0, Q 1 1 - (1 - shrink i) * Q 0 1] := by
  induction i with
  | zero =>
    rw [covP, shrink, Finset.prod_range_zero]
    ext a b; fin_cases a <;> fin_cases b <;> simp
  | succ i ih =>
    have hs : shrink (i + 1) = shrink i * (9 / 10 - 1 / 2 ^ i) := Finset.prod_range_succ _ _
    rw [covP, ih, hs, gainAt]
    ext a b
    fin_cases a <;> fin_cases b <;> simp <;> ring

theorem shrink_neg {i : ℕ} (h : 0 < i) : shrink i < 0 := by
  obtain ⟨n, rfl⟩ : ∃ n, i = n + 1 := ⟨i - 1, by omega⟩
  rw [shrink, Finset.prod_range_succ']
  refine mul_neg_of_pos_of_neg (Finset.prod_pos fun j _ => ?_) (by norm_num)
  have : (1 : ℝ) / 2 ^ (j + 1) ≤ 1 / 2 ^ 1 :=
    one_div_le_one_div_of_le (by norm_num) (pow_le_pow_right₀ (by norm_num) (by omega))
  linarith

/-- **C140** From the second block on, the variance of the position in the simplified form is negative, so that it is no
covariance; and it is not symmetric, unless the time step is 2. -/
theorem C140_simplified {dt a : ℝ} (hdt : dt ≠ 0) (ha : a ≠ 0) {i : ℕ} (hi : 0 < i) :
    covP (covStart dt a) i 0 0 < 0 ∧ ¬ (covP (covStart dt a) i).PosSemidef ∧ ((covP (covStart dt a) i).IsSymm ↔ dt = 2) := by
  have hs := shrink_neg hi
  have h00 : covP (covStart dt a) i 0 0 = shrink i * (a ^ 2 * (dt ^ 4 / 4)) := by
    rw [C140_closed, covStart]
    simp
  have hneg : covP (covStart dt a) i 0 0 < 0 := by
    rw [h00]
    exact mul_neg_of_neg_of_pos hs (by positivity)
  refine ⟨hneg, fun h => ?_, ?_⟩
  · exact absurd (h.diag_nonneg (i := 0)) (not_le.2 hneg)
  · have h1 : covP (covStart dt a) i 0 1 = shrink i * (a ^ 2 * (dt ^ 3 / 2)) := by
      rw [C140_closed, covStart]
      simp
    have h2 : covP (covStart dt a) i 1 0 = a ^ 2 * (dt ^ 3 / 2) - (1 - shrink i) * (a ^ 2 * (dt ^ 4 / 4)) := by
      rw [C140_closed, covStart]
      simp
    have key : covP (covStart dt a) i 1 0 = covP (covStart dt a) i 0 1 ↔ dt = 2 := by
      rw [h1, h2]
      constructor
      · intro h
        have : (1 - shrink i) * (a ^ 2 * dt ^ 3) * (2 - dt) = 0 := by linear_combination 4 * h
        have hne : (1 - shrink i) * (a ^ 2 * dt ^ 3) ≠ 0 :=
          mul_ne_zero (by linarith) (mul_ne_zero (pow_ne_zero 2 ha) (pow_ne_zero 3 hdt))
        have := (mul_eq_zero.1 this).resolve_left hne
        linarith
      · rintro rfl
        ring
    rw [← key]
    constructor
    · intro h
      exact congrFun (congrFun h 0) 1
    · intro h
      ext x y
      fin_cases x <;> fin_cases y
      · rfl
      · exact h
      · exact h.symm
      · rfl

/-- **C140** Joseph's form remains positive semidefinite in all blocks. -/
theorem C140_joseph {Q : Matrix (Fin 2) (Fin 2) ℝ} (hQ : Q.PosSemidef) {R : ℝ} (hR : 0 ≤ R) (i : ℕ) :
    (covJ Q R i).PosSemidef := by
  induction i with
  | zero => exact hQ
  | succ i ih =>
    refine (KF.psd_congr ih _).add ((?_ : (gainAt i * (gainAt i)ᵀ).PosSemidef).smul hR)
    have := KF.psd_congr (Matrix.PosSemidef.one (n := Fin 1) (R := ℝ)) (gainAt i)
    rwa [Matrix.mul_one] at this

/-- **C140** ... since the first is. -/
theorem C140_start (dt a : ℝ) : (covStart dt a).PosSemidef := by
  rw [← covStart_eq ⟨dt, 0, a⟩]
  exact KalmanSim.mQ_psd _

/-- The parameters of the program, and its condition. -/
example : ∃ (p : KalmanSim.Params ℝ) (more : ℝ → Bool), p.dt ≠ 0 ∧ p.dt ≠ 2 ∧ p.accelnoise ≠ 0 ∧
    ∀ k, more k = true ↔ 1 / 1000 < k := by
  classical
  exact ⟨⟨1, 14 / 100, 1 / 5⟩, fun k => decide (1 / 1000 < k), by norm_num, by norm_num, by norm_num, fun k => by simp⟩

/-! What the program writes in `float`. -/

def covText0 : Text :=
  "\ndt:0 P:\n 0.01 0.02\n 0.02 0.04\n\ndt:0 PJ:\n 0.01 0.02\n 0.02 0.04\n".toList
def covText1 : Text :=
  "\ndt:1 P:\n -0.001 -0.002\n 0.009 0.018\n\ndt:1 PJ:\n 0.023816 0.022816\n 0.022816 0.031816\n".toList
def covText2 : Text :=
  "\ndt:2 P:\n -0.0004 -0.0008\n 0.0096 0.0192\n\ndt:2 PJ:\n 0.0108666 0.0104666\n 0.0104666 0.0200666\n".toList
def covText3 : Text :=
  "\ndt:3 P:\n -0.00026 -0.00052\n 0.00974 0.01948\n\ndt:3 PJ:\n 0.00699212 0.00673212\n 0.00673212 0.0164721\n".toList
def covText4 : Text :=
  "\ndt:4 P:\n -0.0002015 -0.000403\n 0.0097985 0.019597\n\ndt:4 PJ:\n 0.00519189 0.00499039\n 0.00499039 0.0147889\n".toList
def covText5 : Text :=
  "\ndt:5 P:\n -0.000168756 -0.000337513\n 0.00983124 0.0196625\n\ndt:5 PJ:\n 0.00415919 0.00399043\n 0.00399043 0.0138217\n".toList
def covText6 : Text :=
  "\ndt:6 P:\n -0.000146607 -0.000293214\n 0.00985339 0.0197068\n\ndt:6 PJ:\n 0.00347669 0.00333008\n 0.00333008 0.0131835\n".toList
def covText7 : Text :=
  "\ndt:7 P:\n -0.000129656 -0.000259311\n 0.00987034 0.0197407\n\ndt:7 PJ:\n 0.00298122 0.00285157\n 0.00285157 0.0127219\n".toList
def covText8 : Text :=
  "\ndt:8 P:\n -0.000115677 -0.000231354\n 0.00988432 0.0197686\n\ndt:8 PJ:\n 0.00260087 0.00248519\n 0.00248519 0.0123695\n".toList
def covText9 : Text :=
  "\ndt:9 P:\n -0.000103657 -0.000207315\n 0.00989634 0.0197927\n\ndt:9 PJ:\n 0.00230007 0.00219641\n 0.00219641 0.0120928\n".toList

/-- The ten blocks. -/
def covarianceText : Text :=
  covText0 ++ covText1 ++ covText2 ++ covText3 ++ covText4 ++ covText5 ++ covText6 ++ covText7 ++ covText8 ++ covText9

namespace DesktopExamples

/-- Numbers of the program. -/
def G (n e : ℤ) (h : |n| < 2 ^ binary32.p ∧ binary32.q ≤ e ∧ |(n : ℚ) * 2 ^ e| ≤ binary32.max := by decide +kernel) :
    Flt binary32 := .lit binary32 n e h

def covLimit : Flt binary64 := F 1152921504606847 (-60)
def covTenth : Flt binary32 := G 13421773 (-27)
def covH : Mat (Flt binary32) 1 2 := ⟨#v[G 1 0, G 0 0]⟩
def covR : Flt binary32 := G 5261335 (-28)
def cov0 : CovarianceError.State (Flt binary32) := ⟨⟨#v[G 10737419 (-30), G 10737419 (-29), G 10737419 (-29), G 10737419 (-28)]⟩,
  ⟨#v[G 10737419 (-30), G 10737419 (-29), G 10737419 (-29), G 10737419 (-28)]⟩⟩
def cov1 : CovarianceError.State (Flt binary32) := ⟨⟨#v[G (-536871) (-29), G (-536871) (-28), G 9663677 (-30), G 9663677 (-29)]⟩,
  ⟨#v[G 6393059 (-28), G 12249247 (-29), G 12249247 (-29), G 8540543 (-28)]⟩⟩
def cov2 : CovarianceError.State (Flt binary32) := ⟨⟨#v[G (-1717987) (-32), G (-1717987) (-31), G 5153961 (-29), G 5153961 (-28)]⟩,
  ⟨#v[G 11667881 (-30), G 702399 (-26), G 702399 (-26), G 5386577 (-28)]⟩⟩
def cov3 : CovarianceError.State (Flt binary32) := ⟨⟨#v[G (-2233383) (-33), G (-2233383) (-32), G 5229123 (-29), G 5229123 (-28)]⟩,
  ⟨#v[G 15015467 (-31), G 7228561 (-30), G 14457121 (-31), G 2210851 (-27)]⟩⟩
def cov4 : CovarianceError.State (Flt binary32) := ⟨⟨#v[G (-13846975) (-36), G (-13846975) (-35), G 2630265 (-28), G 2630265 (-27)]⟩,
  ⟨#v[G 5574753 (-30), G 2679197 (-29), G 2679197 (-29), G 15879455 (-30)]⟩⟩
def cov5 : CovarianceError.State (Flt binary32) := ⟨⟨#v[G (-5798421) (-35), G (-5798421) (-34), G 5278109 (-29), G 5278109 (-28)]⟩,
  ⟨#v[G 8931789 (-31), G 8569389 (-31), G 2142347 (-29), G 14840913 (-30)]⟩⟩
def cov6 : CovarianceError.State (Flt binary32) := ⟨⟨#v[G (-2518689) (-34), G (-2518689) (-33), G 10580001 (-30), G 10580001 (-29)]⟩,
  ⟨#v[G 14932271 (-32), G 7151301 (-31), G 1787825 (-29), G 3538913 (-28)]⟩⟩
def cov7 : CovarianceError.State (Flt binary32) := ⟨⟨#v[G (-4454931) (-35), G (-4454931) (-34), G 5299101 (-29), G 5299101 (-28)]⟩,
  ⟨#v[G 1600531 (-29), G 1530923 (-29), G 6123691 (-31), G 853753 (-26)]⟩⟩
def cov8 : CovarianceError.State (Flt binary32) := ⟨⟨#v[G (-15898535) (-37), G (-15898535) (-36), G 10613211 (-30), G 10613211 (-29)]⟩,
  ⟨#v[G 11170647 (-32), G 10673821 (-32), G 5336909 (-31), G 6640833 (-29)]⟩⟩
def cov9 : CovarianceError.State (Flt binary32) := ⟨⟨#v[G (-7123289) (-36), G (-7123289) (-35), G 10626117 (-30), G 10626117 (-29)]⟩,
  ⟨#v[G 2469679 (-30), G 9433513 (-32), G 4716755 (-31), G 12984495 (-30)]⟩⟩
def cov10 : CovarianceError.State (Flt binary32) := ⟨⟨#v[G (-12794095) (-37), G (-12794095) (-36), G 10637465 (-30), G 10637465 (-29)]⟩,
  ⟨#v[G 4421043 (-31), G 8442273 (-32), G 4221135 (-31), G 12748033 (-30)]⟩⟩

instance : DecidableEq (CovarianceError.State (Flt binary32)) := fun a b =>
  decidable_of_iff (a.P = b.P ∧ a.PJ = b.PJ) ⟨fun h => by cases a; cases b; cases h.1; cases h.2; rfl, fun h => by rw [h]; exact ⟨rfl, rfl⟩⟩

theorem pass_0 : pass covTenth covH covR (G 1 0) cov0 = .ok cov1 := by decide +kernel
theorem pass_1 : pass covTenth covH covR (G 1 (-1)) cov1 = .ok cov2 := by decide +kernel
theorem pass_2 : pass covTenth covH covR (G 1 (-2)) cov2 = .ok cov3 := by decide +kernel
theorem pass_3 : pass covTenth covH covR (G 1 (-3)) cov3 = .ok cov4 := by decide +kernel
theorem pass_4 : pass covTenth covH covR (G 1 (-4)) cov4 = .ok cov5 := by decide +kernel
theorem pass_5 : pass covTenth covH covR (G 1 (-5)) cov5 = .ok cov6 := by decide +kernel
theorem pass_6 : pass covTenth covH covR (G 1 (-6)) cov6 = .ok cov7 := by decide +kernel
theorem pass_7 : pass covTenth covH covR (G 1 (-7)) cov7 = .ok cov8 := by decide +kernel
theorem pass_8 : pass covTenth covH covR (G 1 (-8)) cov8 = .ok cov9 := by decide +kernel
theorem pass_9 : pass covTenth covH covR (G 1 (-9)) cov9 = .ok cov10 := by decide +kernel

theorem block_0 : block float (G 0 0) cov0 = .ok covText0 := by decide +kernel
theorem block_1 : block float (G 1 0) cov1 = .ok covText1 := by decide +kernel
theorem block_2 : block float (G 2 0) cov2 = .ok covText2 := by decide +kernel
theorem block_3 : block float (G 3 0) cov3 = .ok covText3 := by decide +kernel
theorem block_4 : block float (G 4 0) cov4 = .ok covText4 := by decide +kernel
theorem block_5 : block float (G 5 0) cov5 = .ok covText5 := by decide +kernel
theorem block_6 : block float (G 6 0) cov6 = .ok covText6 := by decide +kernel
theorem block_7 : block float (G 7 0) cov7 = .ok covText7 := by decide +kernel
theorem block_8 : block float (G 8 0) cov8 = .ok covText8 := by decide +kernel
theorem block_9 : block float (G 9 0) cov9 = .ok covText9 := by decide +kernel

theorem passes_step {T : Type} [CNum T] [CLit T] {elem : T → Text} {more : T → Bool} {tenth dt : T} {H : Mat T 1 2} {R : T} {fuel : ℕ}
    {k t k' t' two : T} {s s' : CovarianceError.State T} {os b : Text} (h1 : more k = true) (h2 : block elem t s = .ok b)
    (h3 : pass tenth H R k s = .ok s') (h4 : (CLit.lit 2 : Res T) = .ok two) (h5 : CNum.div k two = .ok k')
    (h6 : CNum.add t dt = .ok t') :
    passes elem more tenth dt H R (fuel + 1) k t s os = passes elem more tenth dt H R fuel k' t' s' (os ++ b) := by
  rw [passes, if_pos h1, h2, bind_ok]
  dsimp only
  rw [h3, bind_ok, h4, bind_ok, h5, bind_ok, h6, bind_ok]

theorem more_0 : decide (covLimit.val < (G 1 0).val) = true := by decide +kernel
theorem more_1 : decide (covLimit.val < (G 1 (-1)).val) = true := by decide +kernel
theorem more_2 : decide (covLimit.val < (G 1 (-2)).val) = true := by decide +kernel
theorem more_3 : decide (covLimit.val < (G 1 (-3)).val) = true := by decide +kernel
theorem more_4 : decide (covLimit.val < (G 1 (-4)).val) = true := by decide +kernel
theorem more_5 : decide (covLimit.val < (G 1 (-5)).val) = true := by decide +kernel
theorem more_6 : decide (covLimit.val < (G 1 (-6)).val) = true := by decide +kernel
theorem more_7 : decide (covLimit.val < (G 1 (-7)).val) = true := by decide +kernel
theorem more_8 : decide (covLimit.val < (G 1 (-8)).val) = true := by decide +kernel
theorem more_9 : decide (covLimit.val < (G 1 (-9)).val) = true := by decide +kernel
theorem more_10 : decide (covLimit.val < (G 1 (-10)).val) = false := by decide +kernel
theorem lit_2 : (CLit.lit 2 : Res (Flt binary32)) = .ok (G 1 1) := by decide +kernel
theorem half_0 : CNum.div (G 1 0) (G 1 1) = .ok (G 1 (-1)) := by decide +kernel
theorem time_0 : CNum.add (G 0 0) (G 1 0) = .ok (G 1 0) := by decide +kernel
theorem half_1 : CNum.div (G 1 (-1)) (G 1 1) = .ok (G 1 (-2)) := by decide +kernel
theorem time_1 : CNum.add (G 1 0) (G 1 0) = .ok (G 2 0) := by decide +kernel
theorem half_2 : CNum.div (G 1 (-2)) (G 1 1) = .ok (G 1 (-3)) := by decide +kernel
theorem time_2 : CNum.add (G 2 0) (G 1 0) = .ok (G 3 0) := by decide +kernel
theorem half_3 : CNum.div (G 1 (-3)) (G 1 1) = .ok (G 1 (-4)) := by decide +kernel
theorem time_3 : CNum.add (G 3 0) (G 1 0) = .ok (G 4 0) := by decide +kernel
theorem half_4 : CNum.div (G 1 (-4)) (G 1 1) = .ok (G 1 (-5)) := by decide +kernel
theorem time_4 : CNum.add (G 4 0) (G 1 0) = .ok (G 5 0) := by decide +kernel
theorem half_5 : CNum.div (G 1 (-5)) (G 1 1) = .ok (G 1 (-6)) := by decide +kernel
theorem time_5 : CNum.add (G 5 0) (G 1 0) = .ok (G 6 0) := by decide +kernel
theorem half_6 : CNum.div (G 1 (-6)) (G 1 1) = .ok (G 1 (-7)) := by decide +kernel
theorem time_6 : CNum.add (G 6 0) (G 1 0) = .ok (G 7 0) := by decide +kernel
theorem half_7 : CNum.div (G 1 (-7)) (G 1 1) = .ok (G 1 (-8)) := by decide +kernel
theorem time_7 : CNum.add (G 7 0) (G 1 0) = .ok (G 8 0) := by decide +kernel
theorem half_8 : CNum.div (G 1 (-8)) (G 1 1) = .ok (G 1 (-9)) := by decide +kernel
theorem time_8 : CNum.add (G 8 0) (G 1 0) = .ok (G 9 0) := by decide +kernel
theorem half_9 : CNum.div (G 1 (-9)) (G 1 1) = .ok (G 1 (-10)) := by decide +kernel
theorem time_9 : CNum.add (G 9 0) (G 1 0) = .ok (G 10 0) := by decide +kernel
theorem start_dt : Flt.ofRat binary32 1 = .ok (G 1 0) := by decide +kernel
theorem start_meas : (do Flt.ofRat binary32 (← Flt.ofRat binary64 0.14).val) = .ok (G 9395241 (-26)) := by decide +kernel
theorem start_accel : (do Flt.ofRat binary32 (← Flt.ofRat binary64 0.2).val) = .ok (G 13421773 (-26)) := by decide +kernel
theorem start_limit : Flt.ofRat binary64 0.001 = .ok covLimit := by decide +kernel
theorem start_tenth : Flt.ofRat binary32 0.1 = .ok covTenth := by decide +kernel
theorem start_H : (KalmanSim.sysH : Res (Mat (Flt binary32) 1 2)) = .ok covH := by decide +kernel
theorem start_R : CNum.mul (G 9395241 (-26)) (G 9395241 (-26)) = .ok covR := by decide +kernel
theorem start_P : KalmanSim.sysQ ⟨G 1 0, G 9395241 (-26), G 13421773 (-26)⟩ = .ok cov0.P := by decide +kernel
theorem start_k : (CLit.lit 1 : Res (Flt binary32)) = .ok (G 1 0) := by decide +kernel
theorem start_t : (CNum.zero : Flt binary32) = G 0 0 := by decide +kernel

def covMore (k : Flt binary32) : Bool := decide (covLimit.val < k.val)

theorem chain_10 (m : ℕ) (os : Text) : passes float covMore covTenth (G 1 0) covH covR (m + 1) (G 1 (-10)) (G 10 0) cov10 os =
    .ok os := by
  rw [passes, if_neg (by rw [show covMore (G 1 (-10)) = false from more_10]; simp)]
theorem chain_9 (m : ℕ) (os : Text) : passes float covMore covTenth (G 1 0) covH covR (m + 1 + 1) (G 1 (-9)) (G 9 0)
    cov9 os = .ok (os ++ covText9) :=
  (passes_step (more := covMore) more_9 block_9 pass_9 lit_2 half_9 time_9).trans (chain_10 m _)
theorem chain_8 (m : ℕ) (os : Text) : passes float covMore covTenth (G 1 0) covH covR (m + 1 + 1 + 1) (G 1 (-8)) (G 8 0)
    cov8 os = .ok (os ++ covText8 ++ covText9) :=
  (passes_step (more := covMore) more_8 block_8 pass_8 lit_2 half_8 time_8).trans (chain_9 m _)
theorem chain_7 (m : ℕ) (os : Text) : passes float covMore covTenth (G 1 0) covH covR (m + 1 + 1 + 1 + 1) (G 1 (-7)) (G 7 0)
    cov7 os = .ok (os ++ covText7 ++ covText8 ++ covText9) :=
  (passes_step (more := covMore) more_7 block_7 pass_7 lit_2 half_7 time_7).trans (chain_8 m _)
theorem chain_6 (m : ℕ) (os : Text) : passes float covMore covTenth (G 1 0) covH covR (m + 1 + 1 + 1 + 1 + 1) (G 1 (-6)) (G 6 0)
    cov6 os = .ok (os ++ covText6 ++ covText7 ++ covText8 ++ covText9) :=
  (passes_step (more := covMore) more_6 block_6 pass_6 lit_2 half_6 time_6).trans (chain_7 m _)
theorem chain_5 (m : ℕ) (os : Text) : passes float covMore covTenth (G 1 0) covH covR (m + 1 + 1 + 1 + 1 + 1 + 1) (G 1 (-5)) (G 5 0)
    cov5 os = .ok (os ++ covText5 ++ covText6 ++ covText7 ++ covText8 ++ covText9) :=
  (passes_step (more := covMore) more_5 block_5 pass_5 lit_2 half_5 time_5).trans (chain_6 m _)
theorem chain_4 (m : ℕ) (os : Text) : passes float covMore covTenth (G 1 0) covH covR (m + 1 + 1 + 1 + 1 + 1 + 1 + 1) (G 1 (-4)) (G 4 0)
    cov4 os = .ok (os ++ covText4 ++ covText5 ++ covText6 ++ covText7 ++ covText8 ++ covText9) :=
  (passes_step (more := covMore) more_4 block_4 pass_4 lit_2 half_4 time_4).trans (chain_5 m _)
theorem chain_3 (m : ℕ) (os : Text) : passes float covMore covTenth (G 1 0) covH covR (m + 1 + 1 + 1 + 1 + 1 + 1 + 1 + 1) (G 1 (-3)) (G 3 0)
    cov3 os = .ok (os ++ covText3 ++ covText4 ++ covText5 ++ covText6 ++ covText7 ++ covText8 ++ covText9) :=
  (passes_step (more := covMore) more_3 block_3 pass_3 lit_2 half_3 time_3).trans (chain_4 m _)
theorem chain_2 (m : ℕ) (os : Text) : passes float covMore covTenth (G 1 0) covH covR (m + 1 + 1 + 1 + 1 + 1 + 1 + 1 + 1 + 1) (G 1 (-2)) (G 2 0)
    cov2 os = .ok (os ++ covText2 ++ covText3 ++ covText4 ++ covText5 ++ covText6 ++ covText7 ++ covText8 ++ covText9) :=
  (passes_step (more := covMore) more_2 block_2 pass_2 lit_2 half_2 time_2).trans (chain_3 m _)
theorem chain_1 (m : ℕ) (os : Text) : passes float covMore covTenth (G 1 0) covH covR (m + 1 + 1 + 1 + 1 + 1 + 1 + 1 + 1 + 1 + 1) (G 1 (-1)) (G 1 0)
    cov1 os = .ok (os ++ covText1 ++ covText2 ++ covText3 ++ covText4 ++ covText5 ++ covText6 ++ covText7 ++ covText8 ++ covText9) :=
  (passes_step (more := covMore) more_1 block_1 pass_1 lit_2 half_1 time_1).trans (chain_2 m _)
theorem chain_0 (m : ℕ) (os : Text) : passes float covMore covTenth (G 1 0) covH covR (m + 1 + 1 + 1 + 1 + 1 + 1 + 1 + 1 + 1 + 1 + 1) (G 1 0) (G 0 0)
    cov0 os = .ok (os ++ covText0 ++ covText1 ++ covText2 ++ covText3 ++ covText4 ++ covText5 ++ covText6 ++ covText7 ++ covText8 ++ covText9) :=
  (passes_step (more := covMore) more_0 block_0 pass_0 lit_2 half_0 time_0).trans (chain_1 m _)

end DesktopExamples

/-- **C140** The program as written, in `float`: ten blocks, with negative variances from the second on. -/
theorem C140_program {fuel : ℕ} (hf : 10 < fuel) : covarianceProgram fuel = .ok covarianceText := by
  obtain ⟨m, rfl⟩ : ∃ m, fuel = m + 1 + 1 + 1 + 1 + 1 + 1 + 1 + 1 + 1 + 1 + 1 := ⟨fuel - 11, by omega⟩
  obtain ⟨d1, e1, e2⟩ := bind_eq_ok.1 start_meas
  obtain ⟨d3, e3, e4⟩ := bind_eq_ok.1 start_accel
  unfold covarianceProgram covarianceMain
  rw [start_dt, bind_ok, e1, bind_ok, e2, bind_ok, e3, bind_ok, e4, bind_ok, start_limit, bind_ok, start_tenth, bind_ok, start_H,
    bind_ok, start_R, bind_ok, start_P, bind_ok, start_k, bind_ok, start_t]
  exact chain_0 m []

end Verif

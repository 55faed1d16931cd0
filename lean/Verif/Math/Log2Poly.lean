import Verif.Float.Approx
import Verif.Float.Poly
import Mathlib.Analysis.Complex.ExponentialBounds
import Mathlib.Analysis.SpecialFunctions.Log.Deriv

/-!
The polynomial of `fast_log2`: what the `float` evaluation returns, and how far the polynomial is from `log2 (1 + f)` on [0, 1].
-/

namespace Nanostl.Math
open Nanostl.Float

/-- The polynomial of `fast_log2` (nanomath.h:457-466), as evaluated by the code. -/
def log2Poly (f : Nat) : Nat :=
  let f2 := f32.mul f f
  let f4 := f32.mul f2 f2
  let hi := madd f (negLit 931049621349 14) (f32.litNeg 5206469089414 14)
  let lo := madd f (f32.litNeg 47868480909345 14) (negLit 72116591947498 14)
  let hi := madd f hi (negLit 13753123777116 14)
  let hi := madd f hi (f32.litNeg 24187369696082 14)
  let hi := madd f hi (negLit 34730547155299 14)
  let lo := madd f lo (f32.litNeg 1442689881667200 15)
  f32.add (f32.mul f4 hi) (f32.mul f lo)

/-- The polynomial without rounding. -/
noncomputable def PL (f : ℝ) : ℝ :=
  f * f * (f * f) * (f * (f * (f * (f * -(931049621349 / 10 ^ 14) + 5206469089414 / 10 ^ 14) + -(13753123777116 / 10 ^ 14)) +
    24187369696082 / 10 ^ 14) + -(34730547155299 / 10 ^ 14)) +
  f * (f * (f * (47868480909345 / 10 ^ 14) + -(72116591947498 / 10 ^ 14)) + 1442689881667200 / 10 ^ 15)

/-- One step of Horner's rule for an argument in [0, 1]. -/
theorem horner_range {a v c L U : ℝ} (h0 : 0 ≤ a) (h1 : a ≤ 1) (hL : L ≤ v) (hU : v ≤ U) (hL0 : L ≤ 0) (hU0 : 0 ≤ U) : L + c ≤ a * v + c ∧ a * v + c ≤ U + c := by
  constructor <;> nlinarith

theorem log2Poly_ap {x : Nat} {a : ℝ} (h : f32.Is x a) (h0 : 0 ≤ a) (ha : a ≤ 1) : Ap (log2Poly x) (PL a) 2 (87 / 10 ^ 8) := by
  have hx := Ap.of_is h (R := 1) (by rw [abs_le]; constructor <;> linarith)
  unfold log2Poly PL negLit
  have l0 := (Ap.lit 931049621349 14 (by norm_num)).neg
  have l1 := Ap.lit 5206469089414 14 (by norm_num)
  have l2 := (Ap.lit 13753123777116 14 (by norm_num)).neg
  have l3 := Ap.lit 24187369696082 14 (by norm_num)
  have l4 := (Ap.lit 34730547155299 14 (by norm_num)).neg
  have k0 := Ap.lit 47868480909345 14 (by norm_num)
  have k1 := (Ap.lit 72116591947498 14 (by norm_num)).neg
  have k2 := Ap.lit 1442689881667200 15 (by norm_num)
  have f2 := hx.mul hx (6 / 10 ^ 8) (by num) (by num)
  have f4 := f2.mul f2 (19 / 10 ^ 8) (by num) (by num)
  -- ranges
  have r1 := horner_range h0 ha (v := -(931049621349 / 10 ^ 14)) (c := 5206469089414 / 10 ^ 14) le_rfl (U := 0) (by norm_num) (by norm_num) le_rfl
  have r2 := horner_range h0 ha (c := -(13753123777116 / 10 ^ 14)) (L := 0) (le_trans (by norm_num) r1.1) r1.2 le_rfl (by norm_num)
  have r3 := horner_range h0 ha (c := (24187369696082 / 10 ^ 14)) (U := 0) r2.1 (le_trans r2.2 (by norm_num)) (by norm_num) le_rfl
  have r4 := horner_range h0 ha (c := -(34730547155299 / 10 ^ 14)) (L := 0) (le_trans (by norm_num) r3.1) r3.2 le_rfl (by norm_num)
  have s1 := horner_range h0 ha (v := 47868480909345 / 10 ^ 14) (c := -(72116591947498 / 10 ^ 14)) (L := 0) (by norm_num) le_rfl le_rfl (by norm_num)
  have s2 := horner_range h0 ha (c := (1442689881667200 / 10 ^ 15)) (U := 0) s1.1 (le_trans s1.2 (by norm_num)) (by norm_num) le_rfl
  have h1 := (hx.madd l0 l1 (2 / 10 ^ 9) (9 / 10 ^ 9) (by num) (by num) (by num) (by num)).weaken (R' := 53 / 1000) (by
    rw [abs_le]; push_cast; constructor <;> linarith [r1.1, r1.2]) le_rfl
  have h2 := (hx.madd h1 l2 (13 / 10 ^ 9) (34 / 10 ^ 9) (by num) (by num) (by num) (by num)).weaken (R' := 138 / 1000) (by
    rw [abs_le]; push_cast; constructor <;> linarith [r2.1, r2.2]) le_rfl
  have h3 := (hx.madd h2 l3 (43 / 10 ^ 9) (81 / 10 ^ 9) (by num) (by num) (by num) (by num)).weaken (R' := 242 / 1000) (by
    rw [abs_le]; push_cast; constructor <;> linarith [r3.1, r3.2]) le_rfl
  have h4 := (hx.madd h3 l4 (96 / 10 ^ 9) (153 / 10 ^ 9) (by num) (by num) (by num) (by num)).weaken (R' := 348 / 1000) (by
    rw [abs_le]; push_cast; constructor <;> linarith [r4.1, r4.2]) le_rfl
  have g1 := (hx.madd k0 k1 (58 / 10 ^ 9) (173 / 10 ^ 9) (by num) (by num) (by num) (by num)).weaken (R' := 722 / 1000) (by
    rw [abs_le]; push_cast; constructor <;> linarith [s1.1, s1.2]) le_rfl
  have g2 := (hx.madd g1 k2 (217 / 10 ^ 9) (433 / 10 ^ 9) (by num) (by num) (by num) (by num)).weaken (R' := 1443 / 1000) (by
    rw [abs_le]; push_cast; constructor <;> linarith [s2.1, s2.2]) le_rfl
  have m1 := f4.mul h4 (24 / 10 ^ 8) (by num) (by num)
  have m2 := hx.mul g2 (52 / 10 ^ 8) (by num) (by num)
  have s := m1.add m2 (87 / 10 ^ 8) (by num) (by num)
  norm_num at s ⊢
  exact s.weaken (le_trans s.bd (by norm_num)) (by norm_num)

/-- `10^15 PL`. -/
def pL : List ℤ := [0, 1442689881667200, -721165919474980, 478684809093450, -347305471552990, 241873696960820, -137531237771160, 52064690894140,
  -9310496213490]

theorem eval_pL (x : ℝ) : Poly.eval pL x = 10 ^ 15 * PL x := by
  unfold pL PL
  simp only [Poly.eval_cons, Poly.eval_nil]
  push_cast
  ring

/-- `765765` times the first nine terms of the series of `log ((1 + z) / (1 - z)) / 2`. -/
def sL : List ℤ := [0, 765765, 0, 255255, 0, 153153, 0, 109395, 0, 85085, 0, 69615, 0, 58905, 0, 51051, 0, 45045]

theorem eval_sL (z : ℝ) : Poly.eval sL z = 765765 * ∑ i ∈ Finset.range 9, z ^ (2 * i + 1) / (2 * i + 1) := by
  unfold sL
  simp only [Poly.eval_cons, Poly.eval_nil, Finset.sum_range_succ, Finset.sum_range_zero]
  push_cast
  ring

/-- The difference, times `(1 - z)^8` and a constant. -/
def dL : List ℤ := Poly.add (Poly.smul (287209 * 765765) (Poly.subst [0, 2] [1, -1] pL))
  (Poly.smul (-2 * 10 ^ 15 * 414355) (Poly.mul (Poly.pow [1, -1] 8) sL))

def CL : ℤ := 10 ^ 8 * 414355 * 765765

def eL (s : ℤ) : List ℤ := Poly.add (Poly.smul CL (Poly.pow [1, -1] 8)) (Poly.add (Poly.smul s dL) [-CL])

theorem check_eL : Poly.check (eL 1) 1 CL 360 0 1 60 = true ∧ Poly.check (eL (-1)) 1 CL 360 0 1 60 = true := by
  constructor <;> decide +kernel

theorem eval_v (z : ℝ) : Poly.eval [1, -1] z = 1 - z := by
  simp only [Poly.eval_cons, Poly.eval_nil]; push_cast; ring

theorem eval_dL {z : ℝ} (h1 : z ≤ 1 / 3) : Poly.eval dL z = 10 ^ 15 * 414355 * 765765 * (1 - z) ^ 8 *
    (287209 / 414355 * PL (2 * z / (1 - z)) - 2 * ∑ i ∈ Finset.range 9, z ^ (2 * i + 1) / (2 * i + 1)) := by
  have hv : Poly.eval [1, -1] z ≠ 0 := by rw [eval_v]; linarith
  have hs := Poly.eval_subst (u := [0, 2]) hv pL
  have hu : Poly.eval [0, 2] z = 2 * z := by simp only [Poly.eval_cons, Poly.eval_nil]; push_cast; ring
  rw [eval_v, hu, eval_pL] at hs
  have h0 : 1 - z ≠ 0 := by linarith
  have hs' : Poly.eval (Poly.subst [0, 2] [1, -1] pL) z = (1 - z) ^ 8 * (10 ^ 15 * PL (2 * z / (1 - z))) := by
    refine mul_right_cancel₀ h0 (hs.trans ?_)
    rw [show pL.length = 9 from rfl]
    ring
  unfold dL
  rw [Poly.eval_add, Poly.eval_smul, Poly.eval_smul, Poly.eval_mul, Poly.eval_pow, eval_v, hs', eval_sL]
  push_cast
  ring

theorem PL_series {z : ℝ} (h0 : 0 ≤ z) (h1 : z ≤ 1 / 3) :
    |287209 / 414355 * PL (2 * z / (1 - z)) - 2 * ∑ i ∈ Finset.range 9, z ^ (2 * i + 1) / (2 * i + 1)| ≤ 1 / 10 ^ 7 := by
  have e : ∀ s : ℤ, Poly.eval (eL s) z = CL * (1 - z) ^ 8 + (s * Poly.eval dL z - CL) := by
    intro s
    unfold eL
    rw [Poly.eval_add, Poly.eval_add, Poly.eval_smul, Poly.eval_smul, Poly.eval_pow, eval_v]
    simp only [Poly.eval_cons, Poly.eval_nil]
    push_cast
    ring
  have c1 := Poly.check_sound check_eL.1 (x := z) (by norm_num; exact h0) (by norm_num; linarith)
  have c2 := Poly.check_sound check_eL.2 (x := z) (by norm_num; exact h0) (by norm_num; linarith)
  rw [e, eval_dL h1, abs_le] at c1 c2
  have hC : (CL : ℝ) = 10 ^ 8 * 414355 * 765765 := by unfold CL; push_cast; norm_num
  rw [hC] at c1 c2
  have hw : 0 < (1 - z) ^ 8 := pow_pos (by linarith) 8
  generalize 287209 / 414355 * PL (2 * z / (1 - z)) - 2 * ∑ i ∈ Finset.range 9, z ^ (2 * i + 1) / (2 * i + 1) = d at *
  generalize (1 - z) ^ 8 = w at *
  push_cast at c1 c2
  rw [abs_le]
  constructor
  · have : 0 ≤ w * (d + 1 / 10 ^ 7) := by nlinarith [c1.1]
    have := (mul_nonneg_iff_of_pos_left hw).1 this
    linarith
  · have : 0 ≤ w * (1 / 10 ^ 7 - d) := by nlinarith [c2.1]
    have := (mul_nonneg_iff_of_pos_left hw).1 this
    linarith

/-- The polynomial against the logarithm. -/
theorem PL_close {f : ℝ} (h0 : 0 ≤ f) (h1 : f ≤ 1) : |PL f * Real.log 2 - Real.log (1 + f)| ≤ 11 / 10 ^ 8 ∧ |PL f| ≤ 2 := by
  set z := f / (2 + f) with hz
  have hz0 : 0 ≤ z := div_nonneg h0 (by linarith)
  have hz1 : z ≤ 1 / 3 := by rw [hz, div_le_iff₀ (by linarith)]; linarith
  have hf : 2 * z / (1 - z) = f := by
    rw [hz]; field_simp; ring
  have hq : (1 + z) / (1 - z) = 1 + f := by
    rw [hz]; field_simp; ring
  have a := PL_series hz0 hz1
  have b1 := Real.sum_range_le_log_div hz0 (by linarith) 9
  have b2 := Real.log_div_le_sum_range_add hz0 (by linarith) 9
  rw [hf] at a
  rw [hq] at b1 b2
  have hrem : z ^ (2 * 9 + 1) / (1 - z ^ 2) ≤ 1 / 10 ^ 9 := by
    have p1 : z ^ (2 * 9 + 1) ≤ (1 / 3) ^ 19 := pow_le_pow_left₀ hz0 hz1 19
    have p2 : z ^ 2 ≤ (1 / 3) ^ 2 := pow_le_pow_left₀ hz0 hz1 2
    rw [div_le_iff₀ (by linarith)]
    norm_num at p1 p2 ⊢
    linarith
  have hlog : Real.log (1 + f) ≤ 1 := by
    have := Real.log_le_sub_one_of_pos (x := 1 + f) (by linarith)
    linarith
  have hlog0 : 0 ≤ Real.log (1 + f) := Real.log_nonneg (by linarith)
  rw [abs_le] at a
  have hP : |PL f| ≤ 2 := by
    rw [abs_le]
    constructor <;> linarith [a.1, a.2]
  have hL := Real.log_two_near_10
  have hd : |PL f * (Real.log 2 - 287209 / 414355)| ≤ 2 * (1 / 10 ^ 10) := by
    rw [abs_mul]; exact mul_le_mul hP hL (abs_nonneg _) (by norm_num)
  rw [abs_le] at hd
  refine ⟨?_, hP⟩
  rw [abs_le]
  constructor <;> linarith [a.1, a.2, hd.1, hd.2]

end Nanostl.Math

import Verif.Math.Ierf
import Verif.Math.ErfProps
import Verif.Math.CbrtProps

/-! C134: the inverse error function. The specification is `Erf` (ErfReal.lean), and arithmetic of reals. -/

namespace Nanostl.Math
open Nanostl.Float Nanostl.Float.Fmt

/-- The factor of `x` in `ierf(x)`, from `|x|` (nanomath.h:709-733). -/
def ierfP (a : Nat) : Nat :=
  let lim := f32.litNeg 99999994 8
  let a := if f32.lt lim a then lim else a
  let w := f32.neg (log (f32.mul (f32.sub one32 a) (f32.add one32 a)))
  if f32.lt w (f32.litPos 5 0) then
    let w := f32.sub w (f32.litNeg 25 1)
    madd (madd (madd (madd (madd (madd (madd (madd (f32.litNeg 281022636 16) w (f32.litNeg 343273939 15)) w (negLit 35233877 13)) w (negLit 439150654 14)) w (f32.litNeg 21858087 11)) w (negLit 125372503 11)) w (negLit 417768164 11)) w (f32.litNeg 246640727 9)) w
      (f32.litNeg 150140941 8)
  else
    let w := f32.sub (sqrt w) (f32.litPos 3 0)
    madd (madd (madd (madd (madd (madd (madd (madd (negLit 200214257 12) w (f32.litNeg 100950558 12)) w (f32.litNeg 134934322 11)) w (negLit 367342844 11)) w (f32.litNeg 573950773 11)) w (negLit 76224613 10)) w (f32.litNeg 943887047 11)) w (f32.litNeg 100167406 8)) w
      (f32.litNeg 283297682 8)

theorem ierf_eq (x : Nat) : ierf x = f32.mul (ierfP (fabs f32 x)) x := rfl

theorem is_lim : f32.Is (f32.litNeg 99999994 8) (1 - 1 / 2 ^ 24) := by
  refine ⟨16777215 * 2 ^ 125, by decide +kernel, ?_⟩; rw [one32_val]; push_cast; norm_num
theorem is_2m24 : f32.Is 0x33800000 (1 / 2 ^ 24) := by
  refine ⟨2 ^ 125, by decide +kernel, ?_⟩; rw [one32_val]; push_cast; norm_num
theorem is_5 : f32.Is (f32.litPos 5 0) 5 := by
  refine ⟨5 * 2 ^ 149, by decide +kernel, ?_⟩; rw [one32_val]; push_cast; norm_num
theorem is_25 : f32.Is (f32.litNeg 25 1) (5 / 2) := by
  refine ⟨5 * 2 ^ 148, by decide +kernel, ?_⟩; rw [one32_val]; push_cast; norm_num
theorem is_3 : f32.Is (f32.litPos 3 0) 3 := by
  refine ⟨3 * 2 ^ 149, by decide +kernel, ?_⟩; rw [one32_val]; push_cast; norm_num

/-- The argument of the polynomials. -/
theorem ierf_w {a : Nat} {A : ℝ} (h : f32.Is a A) (h0 : 0 ≤ A) (h1 : A ≤ 1 - 1 / 2 ^ 24) :
    ∃ W, f32.Is (f32.neg (log (f32.mul (f32.sub one32 a) (f32.add one32 a)))) W ∧ -(1 / 10 ^ 4) ≤ W ∧ W ≤ 1665 / 100 ∧ |W + Real.log (1 - A ^ 2)| ≤ 5 / 10 ^ 6 := by
  have hone : one32 < f32.size := by decide +kernel
  obtain ⟨S, hS, rS, eS⟩ := is_sub good32 is_one32 h (by rw [bias32, abs_of_nonneg (by norm_num at *; linarith)]; exact le_trans (show 1 - A ≤ 1 by linarith) (by norm_num))
  obtain ⟨T, hT, rT, eT⟩ := is_add good32 is_one32 h (by rw [bias32, abs_of_nonneg (by linarith)]; exact le_trans (show 1 + A ≤ 2 by norm_num at *; linarith) (by norm_num))
  have mb : f32.mb + 1 = 24 := rfl
  have hA1 : 0 ≤ 1 - A := by norm_num at h1; linarith
  rw [mb, abs_of_nonneg hA1] at eS
  rw [mb, abs_of_nonneg (show 0 ≤ 1 + A by linarith)] at eT
  have S1 : 1 / 2 ^ 24 ≤ S := rS.ge _ _ is_2m24 (by linarith)
  have T1 : 1 ≤ T := rT.ge _ _ is_one32 (by linarith)
  have S2 : S ≤ (1 - A) * (1 + 1 / 2 ^ 24) := by have := (abs_le.1 eS).2; linarith
  have T2 : T ≤ (1 + A) * (1 + 1 / 2 ^ 24) := by have := (abs_le.1 eT).2; linarith
  have S0 : 0 ≤ S := le_trans (by norm_num) S1
  have p1 : 1 / 2 ^ 24 ≤ S * T := by have := mul_le_mul S1 T1 (by norm_num) S0; linarith
  have p2 : S * T ≤ 1 + 2 / 10 ^ 7 := by
    have e1 := mul_le_mul S2 T2 (by linarith) (by positivity)
    have e2 : (1 - A) * (1 + 1 / 2 ^ 24) * ((1 + A) * (1 + 1 / 2 ^ 24)) = (1 - A ^ 2) * (1 + 1 / 2 ^ 24 : ℝ) ^ 2 := by ring
    have e3 : (1 - A ^ 2) * (1 + 1 / 2 ^ 24 : ℝ) ^ 2 ≤ 1 * (1 + 1 / 2 ^ 24 : ℝ) ^ 2 := mul_le_mul_of_nonneg_right (by have := sq_nonneg A; linarith) (by positivity)
    have e4 : 1 * (1 + 1 / 2 ^ 24 : ℝ) ^ 2 ≤ 1 + 2 / 10 ^ 7 := by norm_num
    linarith
  have p0 : 0 ≤ S * T := le_trans (by norm_num) p1
  obtain ⟨Q, hQ, rQ⟩ := is_mul good32 hS hT (by rw [bias32, abs_of_nonneg p0]; exact le_trans p2 (by norm_num))
  have q1 : 1 / 2 ^ 24 ≤ Q := rQ.ge _ _ is_2m24 p1
  have q2 : Q ≤ 1 + 1 / 10 ^ 6 := by
    have := (abs_le.1 (rnd32 rQ)).2
    rw [abs_of_nonneg p0] at this
    have e : S * T * ulp ≤ (1 + 2 / 10 ^ 7) * ulp := mul_le_mul_of_nonneg_right p2 (by unfold ulp; positivity)
    have : Q ≤ 1 + 2 / 10 ^ 7 + (1 + 2 / 10 ^ 7) * ulp + tiny := by linarith
    refine le_trans this (by num)
  have Q0 : 0 < Q := lt_of_lt_of_le (by norm_num) q1
  obtain ⟨⟨b, hb, eb, -⟩, -⟩ := c64_log_error_partial (mul_lt good32 _ _) hQ (le_trans (by norm_num) q1)
  have l1 : -(16636 / 1000) ≤ Real.log Q := by
    have e1 : Real.log (1 / 2 ^ 24) ≤ Real.log Q := Real.log_le_log (by norm_num) q1
    have e2 : Real.log (1 / 2 ^ 24) = -(24 * Real.log 2) := by rw [one_div, Real.log_inv, Real.log_pow]; norm_num
    have := Real.log_two_lt_d9
    rw [e2] at e1
    norm_num at this ⊢
    linarith
  have l2 : Real.log Q ≤ 1 / 10 ^ 6 := by have := Real.log_le_sub_one_of_pos Q0; linarith
  have l3 : |Real.log Q| ≤ 17 := by rw [abs_le]; constructor <;> norm_num at * <;> linarith
  have eb' := abs_le.1 (le_trans eb (show 8 / 10 ^ 7 + 2 / 10 ^ 7 * |Real.log Q| ≤ 5 / 10 ^ 6 by norm_num; linarith))
  refine ⟨-b, hb.neg, by norm_num at *; linarith [eb'.1, eb'.2], by norm_num at *; linarith [eb'.1, eb'.2], ?_⟩
  have hd : 0 < 1 - A ^ 2 := by
    have : A < 1 := lt_of_le_of_lt h1 (by norm_num)
    rw [show 1 - A ^ 2 = (1 - A) * (1 + A) by ring]
    exact mul_pos (by linarith) (by linarith)
  have hd' : 1 - A ^ 2 = (1 - A) * (1 + A) := by ring
  have S3 : (1 - A) * (1 - 1 / 2 ^ 24) ≤ S := by have := (abs_le.1 eS).1; linarith
  have T3 : (1 + A) * (1 - 1 / 2 ^ 24) ≤ T := by have := (abs_le.1 eT).1; linarith
  have m1 : (1 - A ^ 2) * (1 - 1 / 2 ^ 24) ^ 2 ≤ S * T := by
    have := mul_le_mul S3 T3 (mul_nonneg (by linarith) (by norm_num)) S0
    rw [hd']; linarith
  have m2 : S * T ≤ (1 - A ^ 2) * (1 + 1 / 2 ^ 24) ^ 2 := by
    have := mul_le_mul S2 T2 (by linarith) (by positivity)
    rw [hd']; linarith
  have eQ := abs_le.1 (rnd32 rQ)
  rw [abs_of_nonneg p0] at eQ
  have n1 : (1 - A ^ 2) * (1 - 3 / 10 ^ 7) ≤ Q := by unfold ulp tiny at eQ; norm_num at *; linarith [eQ.1]
  have n2 : Q ≤ (1 - A ^ 2) * (1 + 3 / 10 ^ 7) := by unfold ulp tiny at eQ; norm_num at *; linarith [eQ.2]
  have o1 := Real.log_le_log (mul_pos hd (by norm_num)) n1
  have o2 := Real.log_le_log Q0 n2
  rw [Real.log_mul hd.ne' (by norm_num)] at o1 o2
  have o3 : -(4 / 10 ^ 7) ≤ Real.log (1 - 3 / 10 ^ 7) := le_trans (by norm_num) (Real.one_sub_inv_le_log_of_pos (show (0 : ℝ) < 1 - 3 / 10 ^ 7 by norm_num))
  have o4 : Real.log (1 + 3 / 10 ^ 7) ≤ 4 / 10 ^ 7 := le_trans (Real.log_le_sub_one_of_pos (by norm_num)) (by norm_num)
  have eb2 := abs_le.1 (le_trans eb (show 8 / 10 ^ 7 + 2 / 10 ^ 7 * |Real.log Q| ≤ 42 / 10 ^ 7 by norm_num; linarith))
  generalize Real.log (1 - 3 / 10 ^ 7) = x1 at *
  generalize Real.log (1 + 3 / 10 ^ 7) = x2 at *
  rw [abs_le]
  constructor <;> norm_num at eb2 o1 o2 o3 o4 ⊢ <;> linarith [eb2.1, eb2.2]

/-- The factor is between 0.82 and 3.97. -/
theorem ierfP_bound {a : Nat} {A : ℝ} (ha : a < f32.size) (h : f32.Is a A) (h0 : 0 ≤ A) : ∃ P, f32.Is (ierfP a) P ∧ 82 / 100 ≤ P ∧ P ≤ 397 / 100 := by
  obtain ⟨A', h', ha', h0', h1'⟩ : ∃ A', f32.Is (if f32.lt (f32.litNeg 99999994 8) a then f32.litNeg 99999994 8 else a) A' ∧ (if f32.lt (f32.litNeg 99999994 8) a then f32.litNeg 99999994 8 else a) < f32.size ∧ 0 ≤ A' ∧ A' ≤ 1 - 1 / 2 ^ 24 := by
    have := Fmt.is_lt is_lim h
    by_cases hl : 1 - 1 / 2 ^ 24 < A
    · rw [if_pos (this.2 hl)]
      exact ⟨_, is_lim, by decide +kernel, by norm_num, le_rfl⟩
    · rw [if_neg (by rw [this]; exact hl)]
      exact ⟨A, h, ha, h0, not_lt.1 hl⟩
  obtain ⟨W, hW, w1, w2, -⟩ := ierf_w h' h0' h1'
  unfold ierfP
  dsimp only
  generalize hw : f32.neg (log (f32.mul (f32.sub one32 (if f32.lt (f32.litNeg 99999994 8) a then f32.litNeg 99999994 8 else a)) (f32.add one32 (if f32.lt (f32.litNeg 99999994 8) a then f32.litNeg 99999994 8 else a)))) = w at hW
  have hws : w < f32.size := by rw [← hw]; exact neg_lt _
  clear hw
  have hlt := Fmt.is_lt hW is_5
  have sml : ∀ y : ℝ, |y| ≤ 20 → |y| ≤ 2 ^ f32.bias := fun y hy => by rw [bias32]; exact le_trans hy (by norm_num)
  have mb : f32.mb + 1 = 24 := rfl
  by_cases h5 : W < 5
  · rw [if_pos (hlt.2 h5)]
    have b1 : |W - 5 / 2| ≤ 2501 / 1000 := by rw [abs_le]; constructor <;> norm_num at * <;> linarith
    obtain ⟨V, hV, -, eV⟩ := is_sub good32 hW is_25 (sml _ (le_trans b1 (by norm_num)))
    rw [mb] at eV
    obtain ⟨Y, hY, eY⟩ := ierfA_bound (w := f32.sub w (f32.litNeg 25 1)) ⟨V, hV, by have := abs_sub_abs_le_abs_sub V (W - 5 / 2); norm_num at *; linarith⟩
    have := abs_le.1 eY
    exact ⟨Y, hY, by norm_num at *; linarith, by norm_num at *; linarith⟩
  · rw [if_neg (by rw [hlt]; exact h5)]
    have h5' := not_lt.1 h5
    obtain ⟨s, hs, es, -⟩ := c66_sqrt_error_partial hws hW (le_trans (by norm_num) h5')
    have r1 : 2236 / 1000 ≤ √W := Real.le_sqrt_of_sq_le (by norm_num; linarith)
    have r2 : √W ≤ 4081 / 1000 := Real.sqrt_le_iff.2 ⟨by norm_num, by norm_num at *; linarith⟩
    have es' := abs_le.1 es
    have b1 : |s - 3| ≤ 10885 / 10000 := by rw [abs_le]; constructor <;> norm_num at * <;> linarith
    obtain ⟨V, hV, -, eV⟩ := is_sub good32 hs is_3 (sml _ (le_trans b1 (by norm_num)))
    rw [mb] at eV
    obtain ⟨Y, hY, eY⟩ := ierfB_bound (w := f32.sub (sqrt w) (f32.litPos 3 0)) ⟨V, hV, by have := abs_sub_abs_le_abs_sub V (s - 3); norm_num at *; linarith⟩
    have := abs_le.1 eY
    exact ⟨Y, hY, by norm_num at *; linarith, by norm_num at *; linarith⟩

/-- **C134.** For every number `ierf` is a number on the side of the argument's sign, of between 0.8 and 4 times its absolute value. -/
theorem c134_range {x : Nat} {r : ℝ} (hx : x < f32.size) (h : f32.Is x r) (hr : |r| ≤ 2 ^ 120) :
    ∃ b, f32.Is (ierf x) b ∧ 0 ≤ b * r ∧ 8 / 10 * |r| - 1 / 2 ^ 149 ≤ |b| ∧ |b| ≤ 4 * |r| + 1 / 2 ^ 149 := by
  obtain ⟨P, hP, p1, p2⟩ := ierfP_bound (fabs_lt hx) (fabs_is h) (abs_nonneg r)
  have P0 : 0 ≤ P := by linarith
  have ha : |P * r| = P * |r| := by rw [abs_mul, abs_of_nonneg P0]
  have r0 := abs_nonneg r
  have b1 : P * |r| ≤ 397 / 100 * |r| := mul_le_mul_of_nonneg_right p2 r0
  have b2 : 82 / 100 * |r| ≤ P * |r| := mul_le_mul_of_nonneg_right p1 r0
  obtain ⟨b, hb, rb⟩ := is_mul good32 hP h (by rw [bias32, ha]; norm_num at *; linarith)
  have e := rnd32 rb
  rw [ha] at e
  have e' : |b - P * r| ≤ P * |r| * (1 / 2 ^ 24) + 1 / 2 ^ 150 := e
  have d1 := abs_sub_abs_le_abs_sub b (P * r)
  have d2 := abs_sub_abs_le_abs_sub (P * r) b
  rw [abs_sub_comm (P * r) b] at d2
  rw [ha] at d1 d2
  refine ⟨b, by rw [ierf_eq]; exact hb, ?_, ?_, ?_⟩
  · rcases le_total 0 r with hr0 | hr0
    · exact mul_nonneg (rb.ge _ _ (is_zero good32) (mul_nonneg P0 hr0)) hr0
    · exact mul_nonneg_of_nonpos_of_nonpos (rb.le _ _ (is_zero good32) (mul_nonpos_of_nonneg_of_nonpos P0 hr0)) hr0
  · norm_num at *; linarith
  · norm_num at *; linarith

/-- At 1/2 it is 0.47694, where the inverse is 0.476936… -/
example : f32.Is 0x3f000000 (1 / 2) ∧ f32.Is (ierf 0x3f000000) (8001663 / 2 ^ 24) := by
  constructor
  · refine ⟨2 ^ 148, by decide +kernel, ?_⟩; rw [one32_val]; push_cast; norm_num
  · refine ⟨8001663 * 2 ^ 125, by decide +kernel, ?_⟩; rw [one32_val]; push_cast; norm_num

theorem mul_neg_right {p x : Nat} {a b : ℝ} (hp : f32.Is p a) (hx : f32.Is x b) : f32.mul p (f32.neg x) = f32.neg (f32.mul p x) := by
  obtain ⟨v, hv, -⟩ := hp
  obtain ⟨w, hw, -⟩ := hx
  have hs : f32.sign (f32.neg x) = !f32.sign x := by unfold Fmt.neg; exact f32.sign_withSign (f32.low_lt x)
  have hm : Nat.min (f32.roundMag (v.natAbs * w.natAbs) f32.one) f32.inf < f32.half := Nat.lt_of_le_of_lt (Nat.min_le_right _ _) f32.inf_lt_half
  have e1 : f32.mul p x = f32.round (f32.sign p != f32.sign x) (v.natAbs * w.natAbs) f32.one := by unfold Fmt.mul; rw [hv, hw]
  have e2 : f32.mul p (f32.neg x) = f32.round (f32.sign p != !f32.sign x) (v.natAbs * w.natAbs) f32.one := by
    unfold Fmt.mul; rw [hv, Good.val_neg hw, hs]; simp only [Int.natAbs_neg]
  rw [e1, e2]
  unfold Fmt.round
  rw [show f32.neg (f32.withSign (f32.sign p != f32.sign x) (Nat.min (f32.roundMag (v.natAbs * w.natAbs) f32.one) f32.inf)) =
    f32.withSign (!f32.sign (f32.withSign (f32.sign p != f32.sign x) (Nat.min (f32.roundMag (v.natAbs * w.natAbs) f32.one) f32.inf))) (f32.low (f32.withSign (f32.sign p != f32.sign x) (Nat.min (f32.roundMag (v.natAbs * w.natAbs) f32.one) f32.inf))) from rfl,
    f32.sign_withSign hm, f32.low_withSign hm]
  cases f32.sign p <;> cases f32.sign x <;> rfl

/-- `|-x|` and `|x|` have the same bits, except for zeros. -/
theorem fabs_neg {x : Nat} {r : ℝ} (hx : x < f32.size) (h : f32.Is x r) (hr : r ≠ 0) : fabs f32 (f32.neg x) = fabs f32 x := by
  have hsn : f32.sign (f32.neg x) = !f32.sign x := by unfold Fmt.neg; exact f32.sign_withSign (f32.low_lt x)
  have hnn : f32.neg (f32.neg x) = x := by
    have h1 : f32.low (f32.neg x) = f32.low x := by unfold Fmt.neg; exact f32.low_withSign (f32.low_lt x)
    have h2 : f32.neg (f32.neg x) = f32.withSign (!f32.sign (f32.neg x)) (f32.low (f32.neg x)) := rfl
    rw [h2, hsn, h1, Bool.not_not]
    exact f32.withSign_self hx
  have l1 : f32.lt x zero = true ↔ r < 0 := Fmt.is_lt h (Fmt.is_zero Fmt.good32)
  have l2 : f32.lt (f32.neg x) zero = true ↔ -r < 0 := Fmt.is_lt h.neg (Fmt.is_zero Fmt.good32)
  unfold fabs
  rcases lt_or_gt_of_ne hr with hr | hr
  · rw [if_neg (by rw [l2]; linarith), if_pos (l1.2 hr)]
  · rw [if_pos (l2.2 (by linarith)), if_neg (by rw [l1]; linarith), hnn]

/-- The function is odd, to the bit, for every finite argument, zeros included. -/
theorem c134_odd {x : Nat} {r : ℝ} (hx : x < f32.size) (h : f32.Is x r) : ierf (f32.neg x) = f32.neg (ierf x) := by
  by_cases hr : r = 0
  · subst hr
    obtain ⟨v, hv, hv0⟩ := h
    rw [zero_mul] at hv0
    have hv1 : v = 0 := by exact_mod_cast hv0
    subst hv1
    have hx2 : x = 0 ∨ x = 0x80000000 := by
      obtain ⟨-, h2⟩ := f32.val_eq_fin hv
      have hm : f32.mag (f32.low x) = 0 := by
        unfold signed at h2; split at h2 <;> omega
      have hl : f32.low x = 0 := f32.mag_eq_zero.1 hm
      have hs : f32.low x = x % 2 ^ 31 := rfl
      rw [size32] at hx
      omega
    rcases hx2 with rfl | rfl <;> decide +kernel
  · obtain ⟨P, hP, -⟩ := ierfP_bound (fabs_lt hx) (fabs_is h) (abs_nonneg r)
    rw [ierf_eq, ierf_eq, fabs_neg hx h hr]
    exact mul_neg_right hP h

example : ierf 0xbf000000 = f32.neg (ierf 0x3f000000) ∧ ierf 0x3f000000 ≠ 0 := by decide +kernel

/-- NaN gives NaN. -/
theorem c134_nan {x : Nat} (h : f32.val x = .nan) : f32.val (ierf x) = .nan := by
  have hq : f32.val f32.qnan = .nan := by decide +kernel
  rw [ierf_eq]
  unfold Fmt.mul
  rw [h]
  cases f32.val (ierfP (fabs f32 x)) <;> exact hq

example : f32.val 0x7fc00000 = .nan := by decide +kernel

/-- Only NaN gives NaN: outside the domain, infinities included, the result is a number or infinite. -/
theorem c134_nan_iff {x : Nat} (hx : x < f32.size) : f32.val (ierf x) = .nan ↔ f32.val x = .nan := by
  refine ⟨fun h => ?_, c134_nan⟩
  cases hv : f32.val x with
  | nan => rfl
  | fin v =>
    exfalso
    have hi : f32.Is x (v / f32.one) := ⟨v, hv, by rw [div_mul_cancel₀ _ (f32.one_posR.ne')]⟩
    obtain ⟨P, ⟨w, hw, -⟩, -⟩ := ierfP_bound (fabs_lt hx) (fabs_is hi) (abs_nonneg _)
    have e1 : ierf x = f32.round (f32.sign (ierfP (fabs f32 x)) != f32.sign x) (w.natAbs * v.natAbs) f32.one := by rw [ierf_eq]; unfold Fmt.mul; rw [hw, hv]
    rw [e1] at h
    unfold Fmt.round at h
    generalize (f32.sign (ierfP (fabs f32 x)) != f32.sign x) = s at h
    rcases Nat.lt_or_ge (f32.roundMag (w.natAbs * v.natAbs) f32.one) f32.inf with hl | hl
    · rw [show Nat.min (f32.roundMag (w.natAbs * v.natAbs) f32.one) f32.inf = f32.roundMag (w.natAbs * v.natAbs) f32.one from Nat.min_eq_left hl.le, f32.val_withSign_fin hl] at h
      cases h
    · rw [show Nat.min (f32.roundMag (w.natAbs * v.natAbs) f32.one) f32.inf = f32.inf from Nat.min_eq_right hl] at h
      cases s <;> exact absurd h (by decide +kernel)
  | inf b =>
    exfalso
    have hx2 : x = 0x7f800000 ∨ x = 0xff800000 := by
      have hl : f32.low x = 0x7f800000 := by
        unfold Fmt.val at hv
        split at hv
        · rename_i he
          split at hv
          · rename_i hm
            have he' : f32.low x / 2 ^ 23 = 255 := he
            have hm' : f32.low x % 2 ^ 23 = 0 := hm
            omega
          · cases hv
        · cases hv
      have hs : f32.low x = x % 2 ^ 31 := rfl
      rw [size32] at hx
      omega
    rcases hx2 with rfl | rfl <;> exact absurd h (by decide +kernel)

example : f32.val (ierf 0x7f800000) ≠ .nan ∧ f32.val (ierf 0x7f7fffff) ≠ .nan := by decide +kernel

/-- `ierf` is not increasing: where it changes from one polynomial to the other, at 0.9966…, it falls by 0.00034 from one number to the next (nanomath.h:711, 722-723; the cause is the error of `sqrt`, C66). -/
theorem c134_monotone_false : ∃ x r r' b b', f32.Is x r ∧ f32.Is (x + 1) r' ∧ r < r' ∧ r' < 1 ∧ f32.Is (ierf x) b ∧ f32.Is (ierf (x + 1)) b' ∧ b' < b - 34 / 10 ^ 5 := by
  refine ⟨1065296598, 16720598 / 2 ^ 24, 16720599 / 2 ^ 24, 34775684 / 2 ^ 24, 34769948 / 2 ^ 24, ⟨16720598 * 2 ^ 125, by decide +kernel, ?_⟩, ⟨16720599 * 2 ^ 125, by decide +kernel, ?_⟩, by norm_num, by norm_num, ⟨34775684 * 2 ^ 125, by decide +kernel, ?_⟩,
    ⟨34769948 * 2 ^ 125, by decide +kernel, ?_⟩, by norm_num⟩ <;> (rw [one32_val]; push_cast; norm_num)

theorem Erf_lt_one (y : ℝ) : Erf y < 1 := by
  have hs : StrictMono Erf := strictMono_of_hasDerivAt_pos Erf_deriv fun x => mul_pos (lt_of_lt_of_le (by norm_num) two_div_sqrt_pi.1) (Real.exp_pos _)
  have h0 := abs_nonneg y
  exact lt_of_lt_of_le (hs (show y < |y| + 1 by have := le_abs_self y; linarith)) (Erf_le_one (by linarith))

/-- From 1 on there is no inverse, yet the result is a number: at most 4 at 1, where the inverse is infinite, and beyond. -/
theorem c134_domain_false {x : Nat} {r : ℝ} (hx : x < f32.size) (h : f32.Is x r) (h1 : 1 ≤ |r|) (hr : |r| ≤ 2 ^ 120) : (∃ b, f32.Is (ierf x) b) ∧ ∀ y, Erf y ≠ r := by
  obtain ⟨b, hb, -⟩ := c134_range hx h hr
  refine ⟨⟨b, hb⟩, fun y e => ?_⟩
  have := Erf_lt_one y
  have h2 := Erf_lt_one (-y)
  rw [Erf_neg] at h2
  rw [← e] at h1
  rcases abs_cases (Erf y) with ⟨h3, -⟩ | ⟨h3, -⟩ <;> rw [h3] at h1 <;> linarith

example : f32.Is (ierf 0x3f800000) (64184696 / 2 ^ 24) := by
  refine ⟨64184696 * 2 ^ 125, by decide +kernel, ?_⟩; rw [one32_val]; push_cast; norm_num

end Nanostl.Math

import Verif.Math.Exp2

/-!
C63: `exp` (nanomath.h:436-441) is defined, positive and finite for every argument, and accurate where `e^x` is a normal float.
-/

namespace Nanostl.Math
open Nanostl.Float

theorem invLn2_val : f64.convert f32 (f64.div (f64.ofInt 1) kM_LN2) = 1069066811 := by decide +kernel

theorem is_invLn2 : f32.Is (f64.convert f32 (f64.div (f64.ofInt 1) kM_LN2)) (12102203 / 2 ^ 23) := by
  rw [invLn2_val]
  refine ⟨12102203 * 2 ^ 126, by decide +kernel, ?_⟩
  rw [one32_val]
  push_cast
  ring

theorem invLn2_near : |(12102203 / 2 ^ 23 : ℝ) * Real.log 2 - 1| ≤ 14 / 10 ^ 9 := by
  have h := abs_le.1 Real.log_two_near_10
  rw [abs_le]
  constructor <;> norm_num at h ⊢ <;> linarith [h.1, h.2]

theorem exp_small {d : ℝ} (h : |d| ≤ 1 / 10 ^ 5) : |Real.exp d - 1| ≤ |d| + 1 / 10 ^ 10 := by
  have h1 := Real.abs_exp_sub_one_sub_id_le (x := d) (le_trans h (by norm_num))
  have h2 : d ^ 2 ≤ 1 / 10 ^ 10 := by
    rw [← sq_abs]
    calc |d| ^ 2 ≤ (1 / 10 ^ 5) ^ 2 := pow_le_pow_left₀ (abs_nonneg _) h 2
      _ = _ := by norm_num
  have h3 := abs_add_le (Real.exp d - 1 - d) d
  rw [sub_add_cancel] at h3
  linarith

/-- C63, for every argument, NaN and infinities included: `exp` is defined and returns a positive finite number. -/
theorem c63_exp_positive (x : Nat) : ∃ y b, exp x = some y ∧ f32.Is y b ∧ 0 < b := by
  obtain ⟨a, y, b, h1, h2, h3, h4, -⟩ := fastExp2_spec (f32.mul x (f64.convert f32 (f64.div (f64.ofInt 1) kM_LN2)))
  exact ⟨y, b, h1, h3, h4⟩

/-- C63, the error: at most 2.4e-5 relative to `e^x`, for all floats from -87 to 87.33. -/
theorem c63_exp_error {x : Nat} {r : ℝ} (hx : f32.Is x r) (hr0 : -87 ≤ r) (hr1 : r ≤ 8733 / 100) :
    ∃ y b, exp x = some y ∧ f32.Is y b ∧ |b - Real.exp r| ≤ 24 / 10 ^ 6 * Real.exp r := by
  have hr : |r| ≤ 8733 / 100 := abs_le.2 ⟨by linarith, hr1⟩
  have hc : |r * (12102203 / 2 ^ 23)| ≤ 1259906 / 10000 := by
    rw [abs_mul, abs_of_pos (by norm_num : (0 : ℝ) < 12102203 / 2 ^ 23)]
    calc |r| * (12102203 / 2 ^ 23) ≤ 8733 / 100 * (12102203 / 2 ^ 23) := mul_le_mul_of_nonneg_right hr (by norm_num)
      _ ≤ _ := by norm_num
  obtain ⟨t, ht, hrnd⟩ := Fmt.is_mul Fmt.good32 hx is_invLn2 (le_trans hc (by rw [bias32]; norm_num))
  have he := rnd32 hrnd
  have he' : |t - r * (12102203 / 2 ^ 23)| ≤ 76 / 10 ^ 7 := by
    refine le_trans he ?_
    have : |r * (12102203 / 2 ^ 23)| * ulp ≤ 1259906 / 10000 * ulp := mul_le_mul_of_nonneg_right hc (by num)
    refine le_trans (add_le_add_left this tiny) ?_
    num
  have htlo : -1259 / 10 ≤ t := by
    have h1 := (abs_le.1 he').1
    have h2 : -87 * (12102203 / 2 ^ 23 : ℝ) ≤ r * (12102203 / 2 ^ 23) := mul_le_mul_of_nonneg_right hr0 (by norm_num)
    norm_num at *
    linarith
  have ht126 : |t| ≤ 126 := by
    have := abs_add_le (t - r * (12102203 / 2 ^ 23)) (r * (12102203 / 2 ^ 23))
    rw [sub_add_cancel] at this
    linarith
  obtain ⟨a, y, b, h1, -, h3, -, -, h5, h6⟩ := fastExp2_spec (f32.mul x (f64.convert f32 (f64.div (f64.ofInt 1) kM_LN2)))
  have ha : a = t := h6 t ht ht126
  subst ha
  have h7 := h5 htlo
  refine ⟨y, b, h1, h3, ?_⟩
  -- the argument in the exponent
  have hL := abs_le.1 Real.log_two_near_10
  have hd : |a * Real.log 2 - r| ≤ 65 / 10 ^ 7 := by
    have e : a * Real.log 2 - r = (a - r * (12102203 / 2 ^ 23)) * Real.log 2 + r * ((12102203 / 2 ^ 23 : ℝ) * Real.log 2 - 1) := by ring
    rw [e]
    refine le_trans (abs_add_le _ _) ?_
    rw [abs_mul, abs_mul]
    have h1 : |Real.log 2| ≤ 69315 / 100000 := by
      rw [abs_le]
      constructor <;> norm_num at hL ⊢ <;> linarith [hL.1, hL.2]
    have p1 : |a - r * (12102203 / 2 ^ 23)| * |Real.log 2| ≤ 76 / 10 ^ 7 * (69315 / 100000) := mul_le_mul he' h1 (abs_nonneg _) (by norm_num)
    have p2 : |r| * |(12102203 / 2 ^ 23 : ℝ) * Real.log 2 - 1| ≤ 8733 / 100 * (14 / 10 ^ 9) := mul_le_mul hr invLn2_near (abs_nonneg _) (by norm_num)
    refine le_trans (add_le_add p1 p2) (by norm_num)
  have hE : (2 : ℝ) ^ a = Real.exp r * Real.exp (a * Real.log 2 - r) := by
    rw [rpow_exp, ← Real.exp_add]; congr 1; ring
  have hs := abs_le.1 (exp_small (le_trans hd (by norm_num)))
  have hq : |Real.exp (a * Real.log 2 - r) - 1| ≤ 66 / 10 ^ 7 := by
    rw [abs_le]
    constructor <;> linarith [hs.1, hs.2]
  have hp := Real.exp_pos r
  have hq' := abs_le.1 hq
  rw [hE] at h7
  generalize Real.exp (a * Real.log 2 - r) = q at *
  generalize Real.exp r = E at *
  have h7' := abs_le.1 h7
  have m1 : E * q ≤ E * (1 + 66 / 10 ^ 7) := mul_le_mul_of_nonneg_left (by linarith [hq'.2]) hp.le
  have m2 : E * (1 - 66 / 10 ^ 7) ≤ E * q := mul_le_mul_of_nonneg_left (by linarith [hq'.1]) hp.le
  rw [abs_le]
  constructor <;> nlinarith [h7'.1, h7'.2, m1, m2, hp]

/-- 1.0 and NaN. -/
example : f32.Is 0x3f800000 1 ∧ -87 ≤ (1 : ℝ) ∧ (1 : ℝ) ≤ 8733 / 100 := ⟨is_one32, by norm_num, by norm_num⟩
example : exp 0x7fc00000 = some 2122317824 := by decide +kernel

end Nanostl.Math

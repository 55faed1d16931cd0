import Verif.Math.Exp2Poly
import Verif.Math.FloorProps

/-!
`fast_exp2` returns a positive finite number for every argument, close to the power of two where the result is normal.
-/

namespace Nanostl.Math
open Nanostl.Float

theorem exp_L {x : ℝ} (hx : |x| ≤ 1) : |Real.exp (x * (287209 / 414355)) - ∑ k ∈ Finset.range 11, (x * (287209 / 414355)) ^ k / (Nat.factorial k)| ≤ 3 / 10 ^ 8 := by
  have h1 : |x * (287209 / 414355)| ≤ 1 := by
    rw [abs_mul, abs_of_pos (by norm_num : (0 : ℝ) < 287209 / 414355)]
    nlinarith [abs_nonneg x]
  refine le_trans (Real.exp_bound h1 (n := 11) (by decide)) ?_
  have h2 : |x * (287209 / 414355)| ^ 11 ≤ 1 := pow_le_one₀ (abs_nonneg _) h1
  have h3 : (0 : ℝ) ≤ (Nat.succ 11 : ℝ) / (Nat.factorial 11 * (11 : ℕ)) := by positivity
  calc _ ≤ 1 * ((Nat.succ 11 : ℝ) / (Nat.factorial 11 * (11 : ℕ))) := mul_le_mul_of_nonneg_right h2 h3
    _ ≤ _ := by norm_num [Nat.factorial]

theorem rpow_exp (x : ℝ) : (2 : ℝ) ^ x = Real.exp (x * Real.log 2) := by
  rw [Real.rpow_def_of_pos (by norm_num), mul_comm]

theorem rpow_L {x : ℝ} (hx : |x| ≤ 1) : |(2 : ℝ) ^ x - Real.exp (x * (287209 / 414355))| ≤ 1 / 10 ^ 9 := by
  have hl := Real.log_two_near_10
  have e1 : (2 : ℝ) ^ x - Real.exp (x * (287209 / 414355)) = Real.exp (x * (287209 / 414355)) * (Real.exp (x * (Real.log 2 - 287209 / 414355)) - 1) := by
    rw [mul_sub, ← Real.exp_add, rpow_exp, mul_one]; ring_nf
  have h1 : |x * (Real.log 2 - 287209 / 414355)| ≤ 1 / 10 ^ 10 := by
    rw [abs_mul]
    calc _ ≤ 1 * (1 / 10 ^ 10 : ℝ) := mul_le_mul hx hl (abs_nonneg _) (by norm_num)
      _ = _ := by ring
  have h2 := Real.abs_exp_sub_one_le (le_trans h1 (by norm_num))
  have h3 : Real.exp (x * (287209 / 414355)) ≤ 3 := by
    have hx' := (abs_le.1 hx).2
    have : Real.exp (x * (287209 / 414355)) ≤ Real.exp 1 := Real.exp_le_exp.2 (by nlinarith)
    have := Real.exp_one_lt_d9
    linarith
  rw [e1, abs_mul, abs_of_pos (Real.exp_pos _)]
  calc _ ≤ 3 * (2 * (1 / 10 ^ 10 : ℝ)) := mul_le_mul h3 (le_trans h2 (by linarith)) (abs_nonneg _) (by norm_num)
    _ ≤ _ := by norm_num

theorem rpow_bounds {x : ℝ} (hx : |x| ≤ 1) : 1 / 2 ≤ (2 : ℝ) ^ x ∧ (2 : ℝ) ^ x ≤ 2 := by
  obtain ⟨h1, h2⟩ := abs_le.1 hx
  have a := Real.rpow_le_rpow_of_exponent_le (x := 2) (by norm_num) h1
  have b := Real.rpow_le_rpow_of_exponent_le (x := 2) (by norm_num) h2
  rw [Real.rpow_neg_one] at a
  rw [Real.rpow_one] at b
  exact ⟨by linarith, b⟩

/-- The polynomial is close to the power of two. -/
theorem P2_close {x : ℝ} (hx : |x| ≤ 1) : |P2 x - (2 : ℝ) ^ x| ≤ 142 / 10 ^ 7 * (2 : ℝ) ^ x := by
  obtain ⟨h1, h2⟩ := abs_le.1 hx
  have a := exp_L hx
  have b := rpow_L hx
  have hb := rpow_bounds hx
  rw [abs_le] at a b
  rcases le_total x 0 with h0 | h0
  · have c := (p2_close x).1 h1 h0
    rw [abs_le] at c ⊢
    constructor <;> linarith [a.1, a.2, b.1, b.2, c.1, c.2]
  · have c := (p2_close x).2 h0 h2
    have : (1 : ℝ) ≤ 2 ^ x := Real.one_le_rpow (by norm_num) h0
    rw [abs_le] at c ⊢
    constructor <;> linarith [a.1, a.2, b.1, b.2, c.1, c.2]

/-- A small change of the exponent. -/
theorem rpow_near {x y : ℝ} (h : |x - y| ≤ 1 / 10 ^ 6) : |(2 : ℝ) ^ x - (2 : ℝ) ^ y| ≤ 2 * |x - y| * (2 : ℝ) ^ y := by
  have e1 : (2 : ℝ) ^ x - (2 : ℝ) ^ y = (2 : ℝ) ^ y * (Real.exp ((x - y) * Real.log 2) - 1) := by
    rw [mul_sub, mul_one, rpow_exp, rpow_exp, ← Real.exp_add]; ring_nf
  have hl := abs_le.1 Real.log_two_near_10
  have hl2 : |Real.log 2| ≤ 1 := by rw [abs_le]; constructor <;> norm_num at hl ⊢ <;> linarith [hl.1, hl.2]
  have h1 : |(x - y) * Real.log 2| ≤ |x - y| * 1 := by
    rw [abs_mul]; exact mul_le_mul_of_nonneg_left hl2 (abs_nonneg _)
  have h2 := Real.abs_exp_sub_one_le (le_trans h1 (by linarith))
  rw [e1, abs_mul, abs_of_pos (Real.rpow_pos_of_pos (by norm_num) _), mul_comm]
  exact mul_le_mul_of_nonneg_right (by linarith) (le_of_lt (Real.rpow_pos_of_pos (by norm_num) _))

end Nanostl.Math

import Verif.Float.Approx
import Verif.Float.Poly
import Mathlib.Analysis.Complex.ExponentialBounds
import Mathlib.Analysis.SpecialFunctions.Pow.Real

/-!
The polynomial of `fast_exp2`: what the `float` evaluation returns, and how far the polynomial is from `2^x` on [-1, 1].
-/

namespace Nanostl.Math
open Nanostl.Float

/-- The polynomial without rounding. -/
noncomputable def P2 (x : ℝ) : ℝ :=
  x * (x * (x * (x * (x * (133336498402 / 10 ^ 14) + 9810352697968 / 10 ^ 15) + 5551834031939 / 10 ^ 14) + 2401793301105 / 10 ^ 13) +
    693144857883 / 10 ^ 12) + 1

theorem exp2Poly_ap {x : Nat} {a : ℝ} (h : f32.Is x a) (ha : |a| ≤ 1) : Ap (exp2Poly x) (P2 a) 3 (4 / 10 ^ 7) := by
  have hx := Ap.of_is h ha
  unfold exp2Poly P2
  have l0 := Ap.lit 133336498402 14 (by norm_num)
  have l1 := Ap.lit 9810352697968 15 (by norm_num)
  have l2 := Ap.lit 5551834031939 14 (by norm_num)
  have l3 := Ap.lit 2401793301105 13 (by norm_num)
  have l4 := Ap.lit 693144857883 12 (by norm_num)
  have l5 := Ap.of_is is_one32 (R := 1) (by norm_num)
  have h1 := hx.madd l0 l1 (2 / 10 ^ 10) (2 / 10 ^ 9) (by num) (by num) (by num) (by num)
  have h2 := hx.madd h1 l2 (4 / 10 ^ 9) (12 / 10 ^ 9) (by num) (by num) (by num) (by num)
  have h3 := hx.madd h2 l3 (20 / 10 ^ 9) (60 / 10 ^ 9) (by num) (by num) (by num) (by num)
  have h4 := hx.madd h3 l4 (100 / 10 ^ 9) (210 / 10 ^ 9) (by num) (by num) (by num) (by num)
  have h5 := hx.madd h4 l5 (28 / 10 ^ 8) (4 / 10 ^ 7) (by num) (by num) (by num) (by num)
  norm_num at h5 ⊢
  exact h5.weaken (le_trans h5.bd (by norm_num)) (by norm_num)


/-- `10^15 (P2 - 1)` and more, as an integer polynomial. -/
def p2 : List ℤ := [10 ^ 15, 693144857883000, 240179330110500, 55518340319390, 9810352697968, 1333364984020]

theorem eval_p2 (x : ℝ) : Poly.eval p2 x = 10 ^ 15 * P2 x := by
  unfold p2 P2
  simp only [Poly.eval_cons, Poly.eval_nil]
  push_cast
  ring

/-- The Taylor polynomial of degree 10 of `exp (L x)`, `L = 287209 / 414355`, times `10! * 414355^10`. -/
def t2 : List ℤ := (List.range 11).map fun k => (287209 : ℤ) ^ k * 414355 ^ (10 - k) * (Nat.factorial 10 / Nat.factorial k : ℕ)

theorem eval_t2 (x : ℝ) : Poly.eval t2 x = 414355 ^ 10 * 3628800 * ∑ k ∈ Finset.range 11, (x * (287209 / 414355)) ^ k / (Nat.factorial k) := by
  have : t2 = [3628800 * 414355 ^ 10, 3628800 * 287209 * 414355 ^ 9, 1814400 * 287209 ^ 2 * 414355 ^ 8, 604800 * 287209 ^ 3 * 414355 ^ 7,
    151200 * 287209 ^ 4 * 414355 ^ 6, 30240 * 287209 ^ 5 * 414355 ^ 5, 5040 * 287209 ^ 6 * 414355 ^ 4, 720 * 287209 ^ 7 * 414355 ^ 3,
    90 * 287209 ^ 8 * 414355 ^ 2, 10 * 287209 ^ 9 * 414355, 287209 ^ 10] := by decide +kernel
  rw [this]
  simp only [Poly.eval_cons, Poly.eval_nil, Finset.sum_range_succ, Finset.sum_range_zero, Nat.factorial]
  push_cast
  ring

theorem p2_close : ∀ x : ℝ, (-1 ≤ x → x ≤ 0 → |P2 x - ∑ k ∈ Finset.range 11, (x * (287209 / 414355)) ^ k / (Nat.factorial k)| ≤ 7 / 10 ^ 6) ∧
    (0 ≤ x → x ≤ 1 → |P2 x - ∑ k ∈ Finset.range 11, (x * (287209 / 414355)) ^ k / (Nat.factorial k)| ≤ 14 / 10 ^ 6) := by
  intro x
  have key : Poly.eval (Poly.add (Poly.smul (414355 ^ 10 * 3628800) p2) (Poly.smul (-10 ^ 15) t2)) x =
      (414355 ^ 10 * 3628800 * 10 ^ 15) * (P2 x - ∑ k ∈ Finset.range 11, (x * (287209 / 414355)) ^ k / (Nat.factorial k)) := by
    rw [Poly.eval_add, Poly.eval_smul, Poly.eval_smul, eval_p2, eval_t2]; push_cast; ring
  have fin : ∀ B : ℝ, |(414355 ^ 10 * 3628800 * 10 ^ 15) * (P2 x - ∑ k ∈ Finset.range 11, (x * (287209 / 414355)) ^ k / (Nat.factorial k))| ≤
      (414355 ^ 10 * 3628800 * 10 ^ 15) * B → |P2 x - ∑ k ∈ Finset.range 11, (x * (287209 / 414355)) ^ k / (Nat.factorial k)| ≤ B := by
    intro B h
    rw [abs_mul, abs_of_pos (by positivity)] at h
    exact le_of_mul_le_mul_left h (by positivity)
  constructor
  · intro h1 h2
    have := Poly.check_sound (p := Poly.add (Poly.smul (414355 ^ 10 * 3628800) p2) (Poly.smul (-10 ^ 15) t2)) (K := 1)
      (B := 414355 ^ 10 * 3628800 * 10 ^ 15 * 7 / 10 ^ 6) (D := 400) (lo := -400) (w := 1) (n := 200) (by decide +kernel) (x := x)
      (by push_cast; linarith) (by push_cast; linarith)
    rw [key] at this
    refine fin _ (le_trans this ?_)
    norm_num
  · intro h1 h2
    have := Poly.check_sound (p := Poly.add (Poly.smul (414355 ^ 10 * 3628800) p2) (Poly.smul (-10 ^ 15) t2)) (K := 1)
      (B := 414355 ^ 10 * 3628800 * 10 ^ 15 * 14 / 10 ^ 6) (D := 400) (lo := 0) (w := 1) (n := 200) (by decide +kernel) (x := x)
      (by push_cast; linarith) (by push_cast; linarith)
    rw [key] at this
    refine fin _ (le_trans this ?_)
    norm_num

end Nanostl.Math

import Verif.Math.TrigReduce
import Verif.Math.SinTail
import Verif.Float.Poly
import Mathlib.Analysis.Complex.Exponential
import Mathlib.Analysis.Complex.Trigonometric

/-!
The polynomials of `sin` and `cos` (nanomath.h:562-566, 586-591): how far they are from the functions, and what the `float` evaluation returns.
-/

namespace Nanostl.Math
open Nanostl.Float

/-- Taylor polynomials of degree 15 for `sin x / x` and of degree 14 for `cos x`, in `s = x^2`. -/
noncomputable def taylorS (s : ℝ) : ℝ := 1 - s / 6 + s ^ 2 / 120 - s ^ 3 / 5040 + s ^ 4 / 362880 - s ^ 5 / 39916800 + s ^ 6 / 6227020800 -
  s ^ 7 / 1307674368000
noncomputable def taylorC (s : ℝ) : ℝ := 1 - s / 2 + s ^ 2 / 24 - s ^ 3 / 720 + s ^ 4 / 40320 - s ^ 5 / 3628800 + s ^ 6 / 479001600 -
  s ^ 7 / 87178291200

theorem taylor (x : ℝ) (h : |x| ≤ 2) : |Real.sin x - x * taylorS (x ^ 2)| ≤ |x| ^ 16 / 10461394944000 ∧
    |Real.cos x - taylorC (x ^ 2)| ≤ |x| ^ 16 / 10461394944000 := by
  have hn : ‖(x : ℂ) * Complex.I‖ = |x| := by simp
  have hb := Complex.exp_bound' (x := (x : ℂ) * Complex.I) (n := 16) (by rw [hn]; norm_num; linarith)
  rw [hn] at hb
  have e : Complex.exp (x * Complex.I) - ∑ m ∈ Finset.range 16, ((x : ℂ) * Complex.I) ^ m / m.factorial =
      ((Real.cos x - taylorC (x ^ 2) : ℝ) : ℂ) + ((Real.sin x - x * taylorS (x ^ 2) : ℝ) : ℂ) * Complex.I := by
    rw [Complex.exp_mul_I, ← Complex.ofReal_cos, ← Complex.ofReal_sin]
    simp only [Finset.sum_range_succ, Finset.sum_range_zero, Nat.factorial, mul_pow]
    have i2 := Complex.I_sq
    have i3 : Complex.I ^ 3 = -Complex.I := Complex.I_pow_three
    have i4 : Complex.I ^ 4 = 1 := Complex.I_pow_four
    have i5 : Complex.I ^ 5 = Complex.I := by rw [pow_succ, i4, one_mul]
    have i6 : Complex.I ^ 6 = -1 := by rw [show 6 = 4 + 2 from rfl, pow_add, i4, i2, one_mul]
    have i7 : Complex.I ^ 7 = -Complex.I := by rw [show 7 = 4 + 3 from rfl, pow_add, i4, i3, one_mul]
    have i8 : Complex.I ^ 8 = 1 := by rw [show 8 = 4 + 4 from rfl, pow_add, i4, one_mul]
    have i9 : Complex.I ^ 9 = Complex.I := by rw [pow_succ, i8, one_mul]
    have i10 : Complex.I ^ 10 = -1 := by rw [show 10 = 8 + 2 from rfl, pow_add, i8, i2, one_mul]
    have i11 : Complex.I ^ 11 = -Complex.I := by rw [show 11 = 8 + 3 from rfl, pow_add, i8, i3, one_mul]
    have i12 : Complex.I ^ 12 = 1 := by rw [show 12 = 8 + 4 from rfl, pow_add, i8, i4, one_mul]
    have i13 : Complex.I ^ 13 = Complex.I := by rw [pow_succ, i12, one_mul]
    have i14 : Complex.I ^ 14 = -1 := by rw [show 14 = 12 + 2 from rfl, pow_add, i12, i2, one_mul]
    have i15 : Complex.I ^ 15 = -Complex.I := by rw [show 15 = 12 + 3 from rfl, pow_add, i12, i3, one_mul]
    rw [i2, i3, i4, i5, i6, i7, i8, i9, i10, i11, i12, i13, i14, i15]
    unfold taylorS taylorC
    push_cast
    ring
  rw [e] at hb
  have hf : |x| ^ 16 / (Nat.factorial 16 : ℝ) * 2 = |x| ^ 16 / 10461394944000 := by
    simp only [Nat.factorial]
    push_cast
    ring
  rw [hf] at hb
  have hre := le_trans (Complex.abs_re_le_norm _) hb
  have him := le_trans (Complex.abs_im_le_norm _) hb
  simp only [Complex.add_re, Complex.add_im, Complex.ofReal_re, Complex.ofReal_im, Complex.re_ofReal_mul, Complex.im_ofReal_mul, Complex.I_re, Complex.I_im,
    mul_zero, mul_one, add_zero, zero_add] at hre him
  exact ⟨him, hre⟩

/-- The polynomials of the code without rounding. -/
noncomputable def PS (s : ℝ) : ℝ := ((11471495 / 2 ^ 42 * s + -(13613803 / 2 ^ 36)) * s + 8947575 / 2 ^ 30) * s + -(11184806 / 2 ^ 26)
noncomputable def PC (s : ℝ) : ℝ := (((-(9563529 / 2 ^ 45) * s + 13633419 / 2 ^ 39) * s + -(11930456 / 2 ^ 33)) * s + 11184810 / 2 ^ 28) * s + -(1 / 2)

/-- `15! 2^45 (1 + s PS - taylorS)`. -/
def ps : List ℤ := Poly.add (Poly.smul (1307674368000 * 8) [2 ^ 42, -11184806 * 2 ^ 16, 8947575 * 2 ^ 12, -13613803 * 2 ^ 6, 11471495])
  (Poly.smul (-(2 ^ 45)) [1307674368000, -217945728000, 10897286400, -259459200, 3603600, -32760, 210, -1])
/-- `14! 2^45 (1 + s PC - taylorC)`. -/
def pc : List ℤ := Poly.add (Poly.smul 87178291200 [2 ^ 45, -2 ^ 44, 11184810 * 2 ^ 17, -11930456 * 2 ^ 12, 13633419 * 2 ^ 6, -9563529])
  (Poly.smul (-(2 ^ 45)) [87178291200, -43589145600, 3632428800, -121080960, 2162160, -24024, 182, -1])

theorem eval_ps (s : ℝ) : Poly.eval ps s = (1307674368000 * 2 ^ 45) * (1 + s * PS s - taylorS s) := by
  unfold ps PS taylorS
  rw [Poly.eval_add, Poly.eval_smul, Poly.eval_smul]
  simp only [Poly.eval_cons, Poly.eval_nil]
  push_cast
  ring

theorem eval_pc (s : ℝ) : Poly.eval pc s = (87178291200 * 2 ^ 45) * (1 + s * PC s - taylorC s) := by
  unfold pc PC taylorC
  rw [Poly.eval_add, Poly.eval_smul, Poly.eval_smul]
  simp only [Poly.eval_cons, Poly.eval_nil]
  push_cast
  ring

theorem ps_close {s : ℝ} (h0 : 0 ≤ s) (h1 : s ≤ 2475 / 1000) : |1 + s * PS s - taylorS s| ≤ 70 / 10 ^ 10 := by
  have := Poly.check_sound (p := ps) (K := 1) (B := 1307674368000 * 2 ^ 45 * 70 / 10 ^ 10) (D := 500) (lo := 0) (w := 1) (n := 619)
    (by decide +kernel) (x := s) (by push_cast; linarith) (by push_cast; linarith)
  rw [eval_ps] at this
  rw [abs_mul, abs_of_pos (by positivity)] at this
  refine le_of_mul_le_mul_left (le_trans this ?_) (show (0 : ℝ) < 1307674368000 * 2 ^ 45 by positivity)
  norm_num

theorem pc_close {s : ℝ} (h0 : 0 ≤ s) (h1 : s ≤ 2475 / 1000) : |1 + s * PC s - taylorC s| ≤ 2300 / 10 ^ 10 := by
  have := Poly.check_sound (p := pc) (K := 1) (B := 87178291200 * 2 ^ 45 * 2300 / 10 ^ 10) (D := 500) (lo := 0) (w := 1) (n := 619)
    (by decide +kernel) (x := s) (by push_cast; linarith) (by push_cast; linarith)
  rw [eval_pc] at this
  rw [abs_mul, abs_of_pos (by positivity)] at this
  refine le_of_mul_le_mul_left (le_trans this ?_) (show (0 : ℝ) < 87178291200 * 2 ^ 45 by positivity)
  norm_num

theorem PS_bound {s : ℝ} (h0 : 0 ≤ s) (h1 : s ≤ 24731 / 10 ^ 4) :
    |11471495 / 2 ^ 42 * s + -(13613803 / 2 ^ 36 : ℝ)| ≤ 13613803 / 2 ^ 36 ∧
    |(11471495 / 2 ^ 42 * s + -(13613803 / 2 ^ 36)) * s + 8947575 / 2 ^ 30| ≤ 8947575 / 2 ^ 30 ∧
    |PS s| ≤ 11184806 / 2 ^ 26 ∧ |PS s| ≤ 11184806 / 2 ^ 26 - s * (78 / 10 ^ 4) := by
  have b0 : 0 ≤ 11471495 / 2 ^ 42 * s := by positivity
  have b1 : 11471495 / 2 ^ 42 * s ≤ 7 / 10 ^ 6 := by linarith
  have k1 : -(13613803 / 2 ^ 36) ≤ 11471495 / 2 ^ 42 * s + -(13613803 / 2 ^ 36 : ℝ) := by linarith
  have k2 : 11471495 / 2 ^ 42 * s + -(13613803 / 2 ^ 36 : ℝ) ≤ 0 := by norm_num at *; linarith
  have c0 : (11471495 / 2 ^ 42 * s + -(13613803 / 2 ^ 36)) * s ≤ 0 := mul_nonpos_of_nonpos_of_nonneg k2 h0
  have c1 : -(13613803 / 2 ^ 36) * (24731 / 10 ^ 4) ≤ (11471495 / 2 ^ 42 * s + -(13613803 / 2 ^ 36)) * s := by
    have := mul_le_mul_of_nonneg_right k1 h0
    nlinarith
  have d1 : 78 / 10 ^ 4 ≤ (11471495 / 2 ^ 42 * s + -(13613803 / 2 ^ 36)) * s + 8947575 / 2 ^ 30 := by norm_num at *; linarith
  have d2 : (11471495 / 2 ^ 42 * s + -(13613803 / 2 ^ 36)) * s + 8947575 / 2 ^ 30 ≤ 8947575 / 2 ^ 30 := by linarith
  have e1 := mul_le_mul_of_nonneg_right d1 h0
  have e2 := mul_le_mul_of_nonneg_right d2 h0
  refine ⟨abs_le.mpr ⟨k1, by norm_num at *; linarith⟩, abs_le.mpr ⟨by norm_num at *; linarith, d2⟩, ?_, ?_⟩
  · unfold PS; rw [abs_le]
    constructor <;> norm_num at * <;> nlinarith
  · unfold PS; rw [abs_le]
    constructor <;> norm_num at * <;> nlinarith

theorem is_lit1 : f32.Is (f32.litNeg 26083159809786593541503 28) (11471495 / 2 ^ 42) := by
  rw [lit1]; have := is_pat (g := false) (m := 11471495) (s := 107) (by decide) (by decide) (by decide)
  convert this using 1; norm_num [signed]
theorem is_lit2 : f32.Is (negLit 1981069071916863322258 25) (-(13613803 / 2 ^ 36)) := by
  rw [lit2]; have := is_pat (g := true) (m := 13613803) (s := 113) (by decide) (by decide) (by decide)
  convert this using 1; norm_num [signed]
theorem is_lit3 : f32.Is (f32.litNeg 833307858556509017944336 26) (8947575 / 2 ^ 30) := by
  rw [lit3]; have := is_pat (g := false) (m := 8947575) (s := 119) (by decide) (by decide) (by decide)
  convert this using 1; norm_num [signed]
theorem is_lit4 : f32.Is (negLit 166666597127914428710938 24) (-(11184806 / 2 ^ 26)) := by
  rw [lit4]; have := is_pat (g := true) (m := 11184806) (s := 123) (by decide) (by decide) (by decide)
  convert this using 1; norm_num [signed]

theorem sq_bound {a : ℝ} (ha : |a| ≤ 15726 / 10 ^ 4) : a * a ≤ 24731 / 10 ^ 4 := by
  have := mul_le_mul ha ha (abs_nonneg _) (by norm_num)
  rw [abs_mul_abs_self] at this
  exact le_trans this (by norm_num)

/-- The polynomial of `sin` before the last addition. -/
theorem sinMul_ap {s x : Nat} {a : ℝ} (hs : Ap s (a * a) (24731 / 10 ^ 4) (1 / 2 ^ 23)) (h : f32.Is x a) (ha : |a| ≤ 15726 / 10 ^ 4) :
    Ap (f32.mul s (f32.mul (madd (madd (madd (f32.litNeg 26083159809786593541503 28) s (negLit 1981069071916863322258 25)) s
      (f32.litNeg 833307858556509017944336 26)) s (negLit 166666597127914428710938 24)) x)) (a * a * (PS (a * a) * a)) (62 / 100) (122 / 10 ^ 9) := by
  have hx := Ap.of_is h ha
  have s0 : 0 ≤ a * a := mul_self_nonneg a
  obtain ⟨B1, B2, B3, B4⟩ := PS_bound s0 (sq_bound ha)
  have l1 := Ap.of_is is_lit1 (R := 11471495 / 2 ^ 42) (by norm_num)
  have l2 := Ap.of_is is_lit2 (R := 13613803 / 2 ^ 36) (by norm_num)
  have l3 := Ap.of_is is_lit3 (R := 8947575 / 2 ^ 30) (by norm_num)
  have l4 := Ap.of_is is_lit4 (R := 11184806 / 2 ^ 26) (by norm_num)
  have p1 := l1.mulH hs (1 / 2 ^ 42) 108 (by norm_num) (by norm_num) (by norm_num)
  have a1 := p1.addH l2 (13613803 / 2 ^ 36) (1 / 2 ^ 37) 113 (by norm_num) (by norm_num) B1 (by norm_num)
  have p2 := a1.mulH hs (1 / 2 ^ 35) 115 (by norm_num) (by norm_num) (by norm_num)
  have a2 := p2.addH l3 (8947575 / 2 ^ 30) (1 / 2 ^ 31) 119 (by norm_num) (by norm_num) B2 (by norm_num)
  have p3 := a2.mulH hs (1 / 2 ^ 30) 120 (by norm_num) (by norm_num) (by norm_num)
  have a3 := p3.addH l4 (11184806 / 2 ^ 26) (1 / 2 ^ 27) 123 (by norm_num) (by norm_num) B3 (by norm_num)
  have T : |PS (a * a) * a| ≤ 249 / 1000 := by
    rw [abs_mul]
    rcases le_total |a| (149 / 100) with hc | hc
    · refine le_trans (mul_le_mul B3 hc (abs_nonneg _) (by norm_num)) (by norm_num)
    · have h2 := mul_le_mul hc hc (by norm_num) (abs_nonneg a)
      rw [abs_mul_abs_self] at h2
      have h3 : |PS (a * a)| ≤ 15 / 100 := by norm_num at *; linarith
      refine le_trans (mul_le_mul h3 ha (abs_nonneg _) (by norm_num)) (by norm_num)
  have p4 := a3.mulT hx (249 / 1000) (1 / 2 ^ 27) 123 (by norm_num) (by norm_num) T (by norm_num)
  have p5 := hs.mulH p4 (1 / 2 ^ 25) 125 (by norm_num) (by norm_num) (by norm_num)
  exact p5.weaken (le_trans p5.bd (by norm_num)) (by norm_num)

end Nanostl.Math

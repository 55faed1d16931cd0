import Verif.Math.IerfInvProps

/-! C134: the relative error of `ierf` against the inverse of the error function. -/

namespace Nanostl.Math
open Nanostl.Float Nanostl.Float.Fmt

/-- Near 0 the error function is steep. -/
theorem Erf_steep {b : ℝ} (h0 : 0 ≤ b) (h1 : b ≤ 112 / 1000) : 1114 / 1000 * b ≤ Erf b := by
  have h := Convex.mul_sub_le_image_sub_of_le_deriv (convex_Icc (0 : ℝ) (112 / 1000)) (f := Erf) (C := 1114 / 1000) (fun x _ => (Erf_deriv x).continuousAt.continuousWithinAt) (fun x _ => (Erf_deriv x).differentiableAt.differentiableWithinAt)
    (fun x hx => by
      have hx := interior_subset hx
      rw [(Erf_deriv x).deriv]
      have e1 := Real.add_one_le_exp (-x ^ 2)
      have e2 : x ^ 2 ≤ (112 / 1000) ^ 2 := pow_le_pow_left₀ hx.1 hx.2 2
      have e3 : 9874 / 10000 ≤ Real.exp (-x ^ 2) := by norm_num at e2; linarith
      exact le_trans (by norm_num) (mul_le_mul two_div_sqrt_pi.1 e3 (by norm_num) (le_trans (by norm_num) two_div_sqrt_pi.1)))
    0 ⟨le_rfl, by norm_num⟩ b ⟨h0, h1⟩ h0
  rw [Erf_zero] at h
  linarith

theorem Erf_flat {b : ℝ} (h0 : 0 ≤ b) : Erf b ≤ 113 / 100 * b := by
  have := (abs_le.1 (Erf_lipschitz b 0)).2
  rw [Erf_zero, sub_zero, sub_zero, abs_of_nonneg h0] at this
  exact this

/-- The first polynomial near 0. -/
theorem PA_small {r : ℝ} (h0 : 0 ≤ r) (h1 : r ≤ 1 / 8) : 8862 / 10000 ≤ PA (wOf r - 5 / 2) ∧ PA (wOf r - 5 / 2) ≤ 89 / 100 := by
  have e0 : 0 ≤ wOf r := by
    have := wOf_mono le_rfl h0 (lt_of_le_of_lt h1 (by norm_num))
    have z : wOf 0 = 0 := by unfold wOf; norm_num
    linarith
  have e1 : wOf r ≤ 158 / 10000 := by
    have a := (log_at (k := 128) (X := 1032) (by norm_num) (by decide +kernel)).2
    have b := wOf_mono (s := (128 : ℕ) / 1024) h0 (le_trans h1 (by norm_num)) (by norm_num)
    refine le_trans b (le_trans a (by norm_num))
  have c : ∀ z : ℝ, 0 ≤ z → z ≤ 158 / 10000 → |z - 5 / 2| ≤ 265 / 100 := fun z z0 z1 => by rw [abs_le]; constructor <;> linarith
  have m1 := PA_mono (c 0 le_rfl (by norm_num)) (c _ e0 e1) (by linarith)
  have m2 := PA_mono (c _ e0 e1) (c (158 / 10000) (by norm_num) le_rfl) (by linarith)
  exact ⟨le_trans (by unfold PA; norm_num) m1, le_trans m2 (by unfold PA; norm_num)⟩

/-- For the arguments from 0 to 1. -/
theorem ierf_relative_nonneg {x : Nat} {r : ℝ} (hx : x < f32.size) (h : f32.Is x r) (h0 : 0 ≤ r) (h1 : r ≤ 1) : ∃ b, f32.Is (ierf x) b ∧ |Erf b - r| ≤ r / 75 + 1 / 2 ^ 149 := by
  rcases le_or_gt r (1 / 8) with h8 | h8
  · have hf := fabs_is h
    rw [abs_of_nonneg h0] at hf
    obtain ⟨P, hP, c⟩ := ierfP_err (fabs_lt hx) hf h0
    rcases c with ⟨-, c⟩ | ⟨c, -⟩
    · obtain ⟨q1, q2⟩ := PA_small h0 h8
      have c' := abs_le.1 c
      have p1 : 8861 / 10000 ≤ P := by norm_num at c' ⊢; linarith
      have p2 : P ≤ 8901 / 10000 := by norm_num at c' ⊢; linarith
      have P0 : 0 ≤ P := by linarith
      have m1 : 8861 / 10000 * r ≤ P * r := mul_le_mul_of_nonneg_right p1 h0
      have m2 : P * r ≤ 8901 / 10000 * r := mul_le_mul_of_nonneg_right p2 h0
      have hPr : |P * r| ≤ 1 := by rw [abs_of_nonneg (mul_nonneg P0 h0)]; linarith
      obtain ⟨b, hb, rb⟩ := is_mul good32 hP h (by rw [bias32]; exact le_trans hPr (by norm_num))
      have b0 : 0 ≤ b := rb.ge _ _ (Fmt.is_zero Fmt.good32) (mul_nonneg P0 h0)
      have e := abs_le.1 (rnd32 rb)
      rw [abs_of_nonneg (mul_nonneg P0 h0)] at e
      have u : P * r * ulp ≤ 1 / 10 ^ 6 * r := by
        have : P * r * ulp ≤ 8901 / 10000 * r * ulp := mul_le_mul_of_nonneg_right m2 (by unfold ulp; positivity)
        unfold ulp at this ⊢
        norm_num at this ⊢
        linarith
      have t : tiny = 1 / 2 ^ 150 := by unfold tiny; norm_num
      rw [t] at e
      refine ⟨b, by rw [ierf_eq]; exact hb, ?_⟩
      have f1 := Erf_flat b0
      have f2 := Erf_steep b0 (by norm_num at e u ⊢; linarith)
      rw [abs_le]
      constructor <;> norm_num at e u ⊢ <;> linarith
    · exfalso; norm_num at c; linarith
  · obtain ⟨b, hb, e⟩ := c134_inverse hx h (abs_le.2 ⟨by linarith, h1⟩)
    exact ⟨b, hb, le_trans e (by norm_num; linarith)⟩

/-- **C134.** For every number from −1 to 1 the error function of the result of `ierf` is the number with a relative error of less than 1.4%, up to the least number above 0. -/
theorem c134_relative {x : Nat} {r : ℝ} (hx : x < f32.size) (h : f32.Is x r) (h1 : |r| ≤ 1) : ∃ b, f32.Is (ierf x) b ∧ |Erf b - r| ≤ |r| / 75 + 1 / 2 ^ 149 := by
  have h1' := abs_le.1 h1
  rcases le_or_gt 0 r with h0 | h0
  · rw [abs_of_nonneg h0]; exact ierf_relative_nonneg hx h h0 h1'.2
  · obtain ⟨b, hb, e⟩ := ierf_relative_nonneg (neg_lt x) h.neg (by linarith) (by linarith)
    rw [c134_odd hx h] at hb
    obtain ⟨b', hb', -⟩ := c134_range hx h (le_trans h1 (by norm_num))
    have hbb : b = -b' := hb.unique hb'.neg
    refine ⟨b', hb', ?_⟩
    rw [hbb, Erf_neg] at e
    rw [abs_of_neg h0]
    rwa [← abs_neg, show -(Erf b' - r) = -Erf b' - -r by ring]

example : (0x3a000000 : Nat) < f32.size ∧ f32.Is 0x3a000000 (1 / 2 ^ 11) ∧ |(1 / 2 ^ 11 : ℝ)| ≤ 1 := by
  refine ⟨by decide +kernel, ⟨2 ^ 138, by decide +kernel, ?_⟩, by rw [abs_of_pos] <;> norm_num⟩
  rw [one32_val]; push_cast; norm_num

/-- **C134.** `erf(ierf(x))` is `x` within 0.0013, for every number from −1 to 1. -/
theorem c134_erf_ierf {x : Nat} {r : ℝ} (hx : x < f32.size) (h : f32.Is x r) (h1 : |r| ≤ 1) : ∃ b, f32.Is (erf (ierf x)) b ∧ |b - r| ≤ 13 / 10 ^ 4 := by
  obtain ⟨c, hc, e⟩ := c134_inverse hx h h1
  obtain ⟨b, hb, e2⟩ := c71_erf_error (mul_lt good32 _ _ : ierf x < f32.size) hc
  refine ⟨b, hb, ?_⟩
  have := abs_add_le (b - Erf c) (Erf c - r)
  rw [show b - Erf c + (Erf c - r) = b - r by ring] at this
  norm_num at e e2 ⊢
  linarith

theorem Erf_steep2 {a b : ℝ} (ha : -(11 / 10) ≤ a) (hab : a ≤ b) (hb : b ≤ 11 / 10) : 3 / 10 * (b - a) ≤ Erf b - Erf a := by
  refine Convex.mul_sub_le_image_sub_of_le_deriv (convex_Icc (-(11 / 10) : ℝ) (11 / 10)) (f := Erf) (C := 3 / 10) (fun x _ => (Erf_deriv x).continuousAt.continuousWithinAt) (fun x _ => (Erf_deriv x).differentiableAt.differentiableWithinAt)
    (fun x hx => ?_) a ⟨ha, le_trans hab hb⟩ b ⟨le_trans ha hab, hb⟩ hab
  have hx := interior_subset hx
  rw [(Erf_deriv x).deriv]
  have e2 : x ^ 2 ≤ (11 / 10) ^ 2 := by rw [← sq_abs x]; exact pow_le_pow_left₀ (abs_nonneg x) (abs_le.2 ⟨hx.1, hx.2⟩) 2
  have e1 : 84875 / 100000 ≤ Real.exp (-x ^ 2 / 8) := le_trans (by norm_num at e2; linarith) (Real.add_one_le_exp (-x ^ 2 / 8))
  have e3 : (84875 / 100000) ^ 8 ≤ Real.exp (-x ^ 2) := by
    have := pow_le_pow_left₀ (by norm_num) e1 8
    rwa [← Real.exp_nat_mul, show ((8 : ℕ) : ℝ) * (-x ^ 2 / 8) = -x ^ 2 by push_cast; ring] at this
  exact le_trans (by norm_num) (mul_le_mul two_div_sqrt_pi.1 e3 (by norm_num) (le_trans (by norm_num) two_div_sqrt_pi.1))

/-- Where the error function is nearly that of a number of at most 1, the argument is near. -/
theorem Erf_close {a c d : ℝ} (hc : |c| ≤ 1) (hd : d ≤ 15 / 1000) (h : |Erf a - Erf c| ≤ d) : |a - c| ≤ d / (3 / 10) := by
  have hc' := abs_le.1 hc
  have h' := abs_le.1 h
  have a1 : a ≤ 11 / 10 := by
    by_contra g
    have g := not_le.1 g
    have m := Erf_mono g.le
    have s := Erf_steep2 (a := c) (b := 11 / 10) (by linarith) (by linarith) le_rfl
    linarith
  have a2 : -(11 / 10) ≤ a := by
    by_contra g
    have g := not_le.1 g
    have m := Erf_mono g.le
    have s := Erf_steep2 (a := -(11 / 10)) (b := c) le_rfl (by linarith) (by linarith)
    linarith
  rw [le_div_iff₀ (by norm_num)]
  rcases le_total a c with g | g
  · have := Erf_steep2 a2 g (by linarith); rw [abs_of_nonpos (by linarith)]; linarith
  · have := Erf_steep2 (by linarith) g a1; rw [abs_of_nonneg (by linarith)]; linarith

/-- **C134.** `ierf(erf(x))` is `x` within 0.005, for every number from −1 to 1. -/
theorem c134_ierf_erf {x : Nat} {r : ℝ} (hx : x < f32.size) (h : f32.Is x r) (h1 : |r| ≤ 1) : ∃ b, f32.Is (ierf (erf x)) b ∧ |b - r| ≤ 5 / 10 ^ 3 := by
  obtain ⟨c, hc, e⟩ := c71_erf_error hx h
  have hn : f32.val x ≠ .nan := by obtain ⟨v, hv, -⟩ := h; rw [hv]; exact Val.noConfusion
  have c1 : |c| ≤ 1 := by
    obtain ⟨c', hc', p1, p2, -⟩ := c71_erf_range hx hn
    rw [hc.unique hc', abs_le]
    cases hs : f32.sign x with
    | false => have := p1 hs; constructor <;> linarith
    | true => have := p2 hs; constructor <;> linarith
  have hsz : erf x < f32.size := by
    obtain ⟨h1, -⟩ := c40_copysign (erfA (fabs f32 x)) x (by rw [size32] at hx; omega)
    rw [size32]
    exact h1
  obtain ⟨b, hb, e2⟩ := c134_inverse hsz hc c1
  refine ⟨b, hb, ?_⟩
  have e3 : |Erf b - Erf r| ≤ 13 / 10 ^ 4 := by
    have := abs_add_le (Erf b - c) (c - Erf r)
    rw [show Erf b - c + (c - Erf r) = Erf b - Erf r by ring] at this
    norm_num at e e2 ⊢
    linarith
  exact le_trans (Erf_close h1 (by norm_num) e3) (by norm_num)

example : (0x3f400000 : Nat) < f32.size ∧ f32.Is 0x3f400000 (3 / 4) ∧ |(3 / 4 : ℝ)| ≤ 1 := by
  refine ⟨by decide +kernel, ⟨3 * 2 ^ 147, by decide +kernel, ?_⟩, by rw [abs_of_pos] <;> norm_num⟩
  rw [one32_val]; push_cast; norm_num

end Nanostl.Math

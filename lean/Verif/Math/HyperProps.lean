import Verif.Math.Hyper

/-! C68: the hyperbolic functions. The specification is Mathlib's `Real.sinh`, `Real.cosh`, `Real.tanh`. -/

namespace Nanostl.Math
open Nanostl.Float Nanostl.Float.Fmt

/-- C68, `cosh`: relative error at most 2.5e-5, for all floats from -87.33 to 87.33. -/
theorem c68_cosh_partial {x : Nat} {r : ℝ} (h : f32.Is x r) (hr : |r| ≤ 8733 / 100) :
    ∃ y b, cosh x = some y ∧ f32.Is y b ∧ |b - Real.cosh r| ≤ 25 / 10 ^ 6 * Real.cosh r := by
  obtain ⟨y, u, v, e1, hu, hv, u1, v1, u2, v2⟩ := halves (fabs_is h) (abs_nonneg r) hr
  have hc : Real.cosh r = Real.exp |r| / 2 + Real.exp (-|r|) / 2 := by
    rw [← Real.cosh_abs, Real.cosh_eq]; ring
  have hsum : |u + v| ≤ 2 ^ 127 := le_trans (abs_add_le _ _) (by norm_num at *; linarith)
  obtain ⟨b, hb, -, hbe⟩ := Fmt.is_add Fmt.good32 hu hv (by rw [bias32]; exact hsum)
  refine ⟨_, b, ?_, hb, ?_⟩
  · unfold cosh
    rw [e1]
    rfl
  · rw [hc]
    have p1 := Real.exp_pos |r|
    have p2 := Real.exp_pos (-|r|)
    generalize Real.exp |r| = E at *
    generalize Real.exp (-|r|) = W at *
    have a1 := abs_le.1 u1
    have a2 := abs_le.1 v1
    have hbe' : |b - (u + v)| ≤ |u + v| / 2 ^ 24 := hbe
    rw [abs_of_pos (show 0 < u + v by norm_num at *; linarith)] at hbe'
    have a3 := abs_le.1 hbe'
    rw [abs_le]
    constructor <;> norm_num at * <;> linarith

/-- C68, `sinh` beyond 1: relative error at most 3.5e-5, up to 87.33. -/
theorem c68_sinh_large_partial {x : Nat} {r : ℝ} (hx : x < f32.size) (h : f32.Is x r) (h1 : 1 < |r|) (hr : |r| ≤ 8733 / 100) :
    ∃ y b, sinh x = some y ∧ f32.Is y b ∧ |b - Real.sinh r| ≤ 35 / 10 ^ 6 * |Real.sinh r| := by
  obtain ⟨y, u, v, e1, hu, hv, u1, v1, u2, v2⟩ := halves (fabs_is h) (abs_nonneg r) hr
  have hs : Real.sinh |r| = Real.exp |r| / 2 - Real.exp (-|r|) / 2 := by
    rw [Real.sinh_eq]; ring
  have hE : 271 / 100 ≤ Real.exp |r| := by
    refine le_trans ?_ (Real.exp_le_exp.2 (le_of_lt h1))
    exact le_trans (by norm_num) (le_of_lt Real.exp_one_gt_d9)
  have hEW : Real.exp |r| * Real.exp (-|r|) = 1 := by rw [← Real.exp_add]; simp
  have hsum : |u + -v| ≤ 2 ^ 127 := by
    refine le_trans (abs_add_le _ _) ?_
    rw [abs_neg]; norm_num at *; linarith
  obtain ⟨b, hb, -, hbe⟩ := Fmt.is_add Fmt.good32 hu hv.neg (by rw [bias32]; exact hsum)
  have hlt : f32.lt one32 (fabs f32 x) = true := (Fmt.is_lt is_one32 (fabs_is h)).2 h1
  have hmain : |b - Real.sinh (|r|)| ≤ 35 / 10 ^ 6 * Real.sinh |r| ∧ 0 < Real.sinh |r| := by
    rw [hs]
    have p2 := Real.exp_pos (-|r|)
    generalize Real.exp |r| = E at *
    generalize Real.exp (-|r|) = W at *
    have hW : W ≤ E * (137 / 1000) := by nlinarith
    have a1 := abs_le.1 u1
    have a2 := abs_le.1 v1
    have hbe' : |b - (u + -v)| ≤ |u + -v| / 2 ^ 24 := hbe
    rw [abs_of_pos (show 0 < u + -v by norm_num at *; linarith)] at hbe'
    have a3 := abs_le.1 hbe'
    rw [abs_le]
    refine ⟨⟨?_, ?_⟩, ?_⟩ <;> norm_num at * <;> linarith
  obtain ⟨c, hc1, hc2, hc3, -⟩ := odd_close Real.sinh Real.sinh_neg hx h hb (le_of_lt hmain.2)
  refine ⟨_, c, ?_, hc1, ?_⟩
  · unfold sinh
    simp only [hlt, if_true, e1]
    rfl
  · rw [hc3]; exact le_trans hc2 hmain.1

/-- C68, `sinh` up to 1: error at most 5e-7. -/
theorem c68_sinh_small_partial {x : Nat} {r : ℝ} (hx : x < f32.size) (h : f32.Is x r) (h1 : |r| ≤ 1) :
    ∃ y b, sinh x = some y ∧ f32.Is y b ∧ |b - Real.sinh r| ≤ 5 / 10 ^ 7 := by
  have hlt : f32.lt one32 (fabs f32 x) = false := by
    cases hc : f32.lt one32 (fabs f32 x)
    · rfl
    · exact absurd ((Fmt.is_lt is_one32 (fabs_is h)).1 hc) (by linarith)
  have ha := crush_one (fabs_is h) (abs_nonneg r) h1
  have l1 := Ap.lit 203945513931 15 (by norm_num)
  have l2 := Ap.lit 832990277558 14 (by norm_num)
  have l3 := Ap.lit 1666673421859 13 (by norm_num)
  have a2 := ha.mul ha (3 / 10 ^ 7) (by num) (by num)
  have r1 := l1.madd a2 l2 (1 / 10 ^ 9) (3 / 10 ^ 9) (by num) (by num) (by num) (by num)
  have r2 := r1.madd a2 l3 (1 / 10 ^ 8) (4 / 10 ^ 8) (by num) (by num) (by num) (by num)
  have r3 := (r2.mul ha (7 / 10 ^ 8) (by num) (by num)).madd a2 ha (16 / 10 ^ 8) (36 / 10 ^ 8) (by num) (by num) (by num) (by num)
  obtain ⟨b, hb, hbe⟩ := r3.ex
  have hps := poly_sinh (abs_nonneg r) h1
  obtain ⟨c, hc1, hc2, -, -⟩ := odd_close Real.sinh Real.sinh_neg hx h hb (Real.sinh_nonneg_iff.2 (abs_nonneg r))
  refine ⟨_, c, ?_, hc1, ?_⟩
  · unfold sinh
    simp only [hlt, Bool.false_eq_true, if_false]
    rfl
  · refine le_trans hc2 ?_
    unfold PH at hps
    push_cast at hbe
    have := abs_add_le _ _ |>.trans (add_le_add hbe hps)
    rw [sub_add_sub_cancel] at this
    exact le_trans this (by norm_num)

/-- C68, `tanh`: for every float, also infinite and NaN, the result is a number of [-1, 1]. -/
theorem c68_tanh_range (x : Nat) (hx : x < f32.size) : ∃ y b, tanh x = some y ∧ f32.Is y b ∧ |b| ≤ 1 := by
  obtain ⟨y, b, e1, e2, e3, e4⟩ := exp_two_up x
  obtain ⟨c, hc, hc1, -⟩ := tanh_tail e2 (by linarith) e4
  obtain ⟨d, hd, hd1⟩ := copysign_abs hc hx
  refine ⟨_, d, ?_, hd, by rw [hd1]; exact hc1⟩
  unfold tanh
  rw [e1]; rfl

/-- C68, `tanh`, the error: at most 1.6e-5 for every finite float. -/
theorem c68_tanh_error {x : Nat} {r : ℝ} (hx : x < f32.size) (h : f32.Is x r) :
    ∃ y b, tanh x = some y ∧ f32.Is y b ∧ |b - Real.tanh r| ≤ 16 / 10 ^ 6 := by
  have key : ∃ y b c, exp (f32.mul (f32.litPos 2 0) (fabs f32 x)) = some y ∧ f32.Is y b ∧
      f32.Is (f32.sub (f32.ofInt 1) (f32.div (f32.ofInt 2) (f32.add (f32.ofInt 1) y))) c ∧ |c - Real.tanh (|r|)| ≤ 16 / 10 ^ 6 := by
    obtain ⟨y, b, e1, e2, e3, e4⟩ := exp_two_up x
    obtain ⟨c, hc, hc1, hc2⟩ := tanh_tail e2 (by linarith) e4
    refine ⟨y, b, c, e1, e2, hc, ?_⟩
    rw [tanh_exp]
    have ha := fabs_is h
    have hs0 := abs_nonneg r
    generalize |r| = s at *
    have fin : ∀ d, |(1 - 2 / (1 + b)) - (1 - 2 / (1 + Real.exp (2 * s)))| ≤ d → d ≤ 15 / 10 ^ 6 → |c - (1 - 2 / (1 + Real.exp (2 * s)))| ≤ 16 / 10 ^ 6 := by
      intro d h1 h2
      have := abs_add_le _ _ |>.trans (add_le_add hc2 h1)
      rw [sub_add_sub_cancel] at this
      refine le_trans this ?_
      norm_num at *; linarith
    rcases le_or_gt s (435 / 10) with hsl | hsl
    · obtain ⟨t, ht, rt⟩ := is_mul good32 is_two32 ha (by
        rw [bias32, abs_of_nonneg (by linarith)]
        exact le_trans (by linarith : 2 * s ≤ 87) (by norm_num))
      have i87 : f32.Is (f32.litPos 87 0) 87 := ⟨87 * f32.one, by decide +kernel, by push_cast; ring⟩
      have ht0 : 0 ≤ t := rt.ge _ _ (is_zero good32) (by linarith)
      have ht87 : t ≤ 87 := rt.le _ _ i87 (by linarith)
      obtain ⟨y', b', f1, f2, f3⟩ := c63_exp_error ht (by linarith) (by linarith)
      rw [e1] at f1
      cases f1
      have hbb := e2.unique f2
      subst hbb
      have et := rnd32 rt
      rw [abs_of_nonneg (show (0 : ℝ) ≤ 2 * s by linarith)] at et
      have et' : |t - 2 * s| ≤ 519 / 10 ^ 8 := by
        refine le_trans et ?_
        have h1 : 2 * s * ulp ≤ 87 * ulp := mul_le_mul_of_nonneg_right (by linarith) (by unfold ulp; positivity)
        have h2 : 87 * ulp + tiny ≤ 519 / 10 ^ 8 := by num
        linarith
      have hE := Real.exp_pos (2 * s)
      have hte : Real.exp t = Real.exp (2 * s) * Real.exp (t - 2 * s) := by rw [← Real.exp_add]; ring_nf
      have hes := abs_le.1 (exp_small (le_trans et' (by norm_num)))
      have hes1 : |Real.exp (t - 2 * s) - 1| ≤ 52 / 10 ^ 7 := by
        rw [abs_le]; norm_num at *; constructor <;> linarith
      have h5 : |Real.exp t - Real.exp (2 * s)| ≤ 52 / 10 ^ 7 * Real.exp (2 * s) := by
        rw [hte, ← mul_sub_one, abs_mul, abs_of_pos hE, mul_comm]
        exact mul_le_mul_of_nonneg_right hes1 hE.le
      have h6 : |b - Real.exp (2 * s)| ≤ 293 / 10 ^ 7 * Real.exp (2 * s) := by
        have g1 := abs_le.1 h5
        have g2 := abs_le.1 f3
        rw [abs_le]
        norm_num at *
        constructor <;> linarith
      exact fin _ (tanh_err hE (by norm_num) h6) (by norm_num)
    · have i87 : f32.Is (f32.litPos 87 0) 87 := ⟨87 * f32.one, by decide +kernel, by push_cast; ring⟩
      have i125 : f32.Is (f32.litPos 125 0) 125 := ⟨125 * f32.one, by decide +kernel, by push_cast; ring⟩
      have u0 : Up (435 / 10) (fabs f32 x) := Or.inl ⟨s, ha, hsl.le⟩
      have u1 : Up 87 (f32.mul (f32.litPos 2 0) (fabs f32 x)) := by
        rw [mul_comm32]
        exact mul_up u0 is_two32 i87 (by norm_num) (by norm_num) (by norm_num)
      have u2 := mul_up u1 is_invLn2 i125 (by norm_num) (by norm_num) (by norm_num)
      obtain ⟨a, y', b', g1, g2, g3, g4, g5⟩ := fastExp2_up u2 (by norm_num) (by norm_num)
      have g1' : exp (f32.mul (f32.litPos 2 0) (fabs f32 x)) = some y' := g1
      rw [e1] at g1'
      cases g1'
      have hbb := e2.unique g2
      subst hbb
      have hp : (2 : ℝ) ^ 125 ≤ (2 : ℝ) ^ a := by
        have := Real.rpow_le_rpow_of_exponent_le (x := 2) (by norm_num) g3
        refine le_trans (le_of_eq ?_) this
        rw [show (125 : ℝ) = ((125 : ℕ) : ℝ) by norm_num, Real.rpow_natCast]
      have hb : (10 : ℝ) ^ 10 ≤ b := by
        have := (abs_le.1 g5).1
        have h1 : (2 : ℝ) ^ 125 * (1 - 17 / 10 ^ 6) ≤ (2 : ℝ) ^ a * (1 - 17 / 10 ^ 6) := mul_le_mul_of_nonneg_right hp (by norm_num)
        have h2 : (10 : ℝ) ^ 10 ≤ (2 : ℝ) ^ 125 * (1 - 17 / 10 ^ 6) := by norm_num
        linarith
      have hE : (10 : ℝ) ^ 10 ≤ Real.exp (2 * s) := by
        have h1 : Real.exp (87 : ℕ) ≤ Real.exp (2 * s) := Real.exp_le_exp.2 (by push_cast; linarith)
        rw [← Real.exp_one_pow] at h1
        have h2 : (2 : ℝ) ^ 87 ≤ Real.exp 1 ^ 87 := pow_le_pow_left₀ (by norm_num) (by linarith [Real.exp_one_gt_d9]) 87
        exact le_trans (le_trans (by norm_num) h2) h1
      have k1 : 2 / (1 + b) ≤ 2 / 10 ^ 10 := div_le_div_of_nonneg_left (by norm_num) (by norm_num) (by linarith)
      have k2 : 2 / (1 + Real.exp (2 * s)) ≤ 2 / 10 ^ 10 := div_le_div_of_nonneg_left (by norm_num) (by norm_num) (by linarith)
      have k3 : 0 ≤ 2 / (1 + b) := div_nonneg (by norm_num) (by linarith)
      have k4 : 0 ≤ 2 / (1 + Real.exp (2 * s)) := div_nonneg (by norm_num) (by linarith [Real.exp_pos (2 * s)])
      refine fin (1 / 10 ^ 9) ?_ (by norm_num)
      rw [abs_le]
      norm_num at *
      constructor <;> linarith
  obtain ⟨y, b, c, e1, e2, e3, e4⟩ := key
  obtain ⟨d, hd, hd1, -⟩ := odd_close Real.tanh Real.tanh_neg hx h e3 (by
    rw [tanh_exp]
    have := Real.one_le_exp (show 0 ≤ 2 * |r| by positivity)
    have : 2 / (1 + Real.exp (2 * |r|)) ≤ 1 := by rw [div_le_one (by linarith)]; linarith
    linarith)
  refine ⟨_, d, ?_, hd, le_trans hd1 e4⟩
  unfold tanh
  rw [e1]; rfl

/-- The hypotheses are met: at 1, 2 and -1/2. -/
example : f32.Is 0x3f800000 1 ∧ sinh 0x3f800000 = some 1066822910 ∧ cosh 0x3f800000 = some 1069908886 ∧ tanh 0x3f800000 = some 1061353444 := by
  refine ⟨⟨2 ^ 149, by decide +kernel, ?_⟩, by decide +kernel, by decide +kernel, by decide +kernel⟩
  rw [one32_val]; push_cast; norm_num

/-- C68 fails from 87.34 on: there `exp` is cut off at 2^126, so that `cosh` and `sinh` of every finite float beyond are too small by more than 0.3%,
though up to 89.4 the true result is representable. -/
theorem c68_cut_false {x : Nat} {r : ℝ} (hx : x < f32.size) (h : f32.Is x r) (hr : 8734 / 100 ≤ |r|) :
    ∃ y b z c, cosh x = some y ∧ f32.Is y b ∧ b < 997 / 1000 * Real.cosh r ∧ sinh x = some z ∧ f32.Is z c ∧ |c| < 997 / 1000 * |Real.sinh r| := by
  have i126 : f32.Is (f32.litPos 126 0) 126 := ⟨126 * f32.one, by decide +kernel, by push_cast; ring⟩
  have u0 : Up (8734 / 100) (fabs f32 x) := Or.inl ⟨|r|, fabs_is h, hr⟩
  have u2 := mul_up u0 is_invLn2 i126 (by norm_num) (by norm_num) (by norm_num)
  obtain ⟨a, y, b, g1, g2, g3, g4, g5⟩ := fastExp2_up u2 (by norm_num) le_rfl
  have ha : a = 126 := le_antisymm g4 g3
  subst ha
  rw [show (126 : ℝ) = ((126 : ℕ) : ℝ) by norm_num, Real.rpow_natCast] at g5
  have g1' : exp (fabs f32 x) = some y := g1
  have b1 := abs_le.1 g5
  have hb0 : 1 ≤ b := by norm_num at *; linarith
  obtain ⟨u, hu, hur⟩ := Fmt.is_mul Fmt.good32 is_half32 g2 (by
    rw [bias32, abs_of_pos (by positivity)]; norm_num at *; linarith)
  obtain ⟨v, hv, hvr⟩ := Fmt.is_div Fmt.good32 is_half32 g2 (by linarith) (by
    rw [bias32, abs_of_pos (by positivity), div_le_iff₀ (by linarith)]; norm_num at *; linarith)
  have u1 := rnd32 hur
  have v1 := rnd32 hvr
  have hw0 : 0 < 1 / 2 / b := by positivity
  have hw1 : 1 / 2 / b ≤ 1 := by rw [div_le_iff₀ (by linarith)]; linarith
  rw [abs_of_pos (show 0 < 1 / 2 * b by positivity)] at u1
  rw [abs_of_pos hw0] at v1
  generalize 1 / 2 / b = w at *
  have a1 := abs_le.1 u1
  have a2 := abs_le.1 v1
  unfold ulp tiny at *
  have hul : 2 ^ 125 * (1 - 2 / 10 ^ 5) ≤ u := by norm_num at *; linarith
  have huu : u ≤ 2 ^ 125 * (1 + 2 / 10 ^ 5) := by norm_num at *; linarith
  have hv2 : |v| ≤ 2 := abs_le.2 ⟨by norm_num at *; linarith, by norm_num at *; linarith⟩
  have hv3 := abs_le.1 hv2
  obtain ⟨p, hp, -, hpe⟩ := Fmt.is_add Fmt.good32 hu hv (by
    rw [bias32]; exact le_trans (abs_add_le _ _) (by rw [abs_of_pos (show 0 < u by norm_num at *; linarith)]; norm_num at *; linarith))
  obtain ⟨q, hq, -, hqe⟩ := Fmt.is_add Fmt.good32 hu hv.neg (by
    rw [bias32]; exact le_trans (abs_add_le _ _) (by rw [abs_neg, abs_of_pos (show 0 < u by norm_num at *; linarith)]; norm_num at *; linarith))
  have hpe' : |p - (u + v)| ≤ |u + v| / 2 ^ 24 := hpe
  have hqe' : |q - (u + -v)| ≤ |u + -v| / 2 ^ 24 := hqe
  rw [abs_of_pos (show 0 < u + v by norm_num at *; linarith)] at hpe'
  rw [abs_of_pos (show 0 < u + -v by norm_num at *; linarith)] at hqe'
  have p1 := abs_le.1 hpe'
  have q1 := abs_le.1 hqe'
  have hpu : p ≤ 2 ^ 125 * (1 + 3 / 10 ^ 5) := by norm_num at *; linarith
  have hqu : q ≤ 2 ^ 125 * (1 + 3 / 10 ^ 5) := by norm_num at *; linarith
  have hq0 : 0 ≤ q := by norm_num at *; linarith
  -- the true values
  have hE : 2 ^ 126 * (1 + 33 / 10 ^ 4) ≤ Real.exp |r| := by
    have hL := abs_le.1 Real.log_two_near_10
    have e1 : Real.exp |r| = 2 ^ 126 * Real.exp (|r| - 126 * Real.log 2) := by
      rw [Real.exp_sub, show Real.exp (126 * Real.log 2) = (2 : ℝ) ^ 126 by
        rw [show (126 : ℝ) = ((126 : ℕ) : ℝ) by norm_num, Real.exp_nat_mul, Real.exp_log (by norm_num)]]
      field_simp
    rw [e1]
    refine mul_le_mul_of_nonneg_left ?_ (by norm_num)
    refine le_trans ?_ (Real.add_one_le_exp _)
    norm_num at hL ⊢
    linarith
  have hW0 := Real.exp_pos (-|r|)
  have hW1 : Real.exp (-|r|) ≤ 1 := Real.exp_le_one_iff.2 (by linarith [abs_nonneg r])
  have hc : Real.cosh r = Real.exp |r| / 2 + Real.exp (-|r|) / 2 := by
    rw [← Real.cosh_abs, Real.cosh_eq]; ring
  have hs : |Real.sinh r| = Real.exp |r| / 2 - Real.exp (-|r|) / 2 := by
    rw [Real.abs_sinh, Real.sinh_eq]; ring
  have hlt : f32.lt one32 (fabs f32 x) = true := (Fmt.is_lt is_one32 (fabs_is h)).2 (by linarith)
  obtain ⟨c, hc1, hc2⟩ := copysign_abs hq hx
  refine ⟨_, p, _, c, ?_, hp, ?_, ?_, hc1, ?_⟩
  · unfold cosh
    rw [g1']; rfl
  · rw [hc]; norm_num at *; linarith
  · unfold sinh
    simp only [hlt, if_true, g1']
    rfl
  · rw [hs, hc2, abs_of_nonneg hq0]
    generalize Real.exp (-|r|) = W at *
    norm_num at *
    linarith

/-- 100 is such a float. -/
example : f32.Is 0x42c80000 100 ∧ 8734 / 100 ≤ |(100 : ℝ)| := by
  refine ⟨⟨100 * 2 ^ 149, by decide +kernel, ?_⟩, by rw [abs_of_pos] <;> norm_num⟩
  rw [one32_val]; push_cast; norm_num

/-- C68 at 88.5, at infinity and at NaN: `exp` is cut off at 2^126, so that `cosh` of 88.5 is 2^125, less than 0.6 times the hyperbolic cosine, which is representable;
infinity gives the same finite result, and NaN gives the numbers 2^125 and 1 for `cosh` and `tanh`. -/
theorem c68_large_false : f32.Is 1118896128 (177 / 2) ∧ cosh 1118896128 = some 2113929216 ∧ f32.Is 2113929216 (2 ^ 125) ∧
    (2 : ℝ) ^ 125 < 6 / 10 * Real.cosh (177 / 2) ∧ Real.cosh (177 / 2) < 3 * 2 ^ 126 ∧
    cosh f32.inf = some 2113929216 ∧ sinh f32.inf = some 2113929216 ∧ cosh f32.qnan = some 2113929216 ∧ tanh f32.qnan = some 1065353216 := by
  have h1 : (2718 / 1000 : ℝ) ^ 88 ≤ Real.exp 1 ^ 88 := pow_le_pow_left₀ (by norm_num) (by linarith [Real.exp_one_gt_d9]) 88
  have h2 : Real.exp 1 ^ 89 ≤ (27183 / 10000 : ℝ) ^ 89 := pow_le_pow_left₀ (Real.exp_pos 1).le (by linarith [Real.exp_one_lt_d9]) 89
  rw [Real.exp_one_pow] at h1 h2
  have h3 : Real.exp ((88 : ℕ) : ℝ) ≤ Real.exp (177 / 2) := Real.exp_le_exp.2 (by push_cast; norm_num)
  have h4 : Real.exp (177 / 2) ≤ Real.exp ((89 : ℕ) : ℝ) := Real.exp_le_exp.2 (by push_cast; norm_num)
  have h5 : Real.exp (-(177 / 2)) ≤ 1 := Real.exp_le_one_iff.2 (by norm_num)
  refine ⟨⟨177 * 2 ^ 148, by decide +kernel, ?_⟩, by decide +kernel, ⟨2 ^ 274, by decide +kernel, ?_⟩, ?_, ?_, by decide +kernel, by decide +kernel,
    by decide +kernel, by decide +kernel⟩
  · rw [one32_val]; push_cast; norm_num
  · rw [one32_val]; push_cast; rw [← pow_add]
  · rw [Real.cosh_eq]
    have k1 := le_trans h1 h3
    have k2 := Real.exp_pos (-(177 / 2))
    have k3 : (2 : ℝ) ^ 125 < 6 / 10 * ((2718 / 1000) ^ 88 / 2) := by norm_num
    linarith
  · rw [Real.cosh_eq]
    have k1 := le_trans h4 h2
    have k3 : ((27183 / 10000 : ℝ) ^ 89 + 1) / 2 < 3 * 2 ^ 126 := by norm_num
    linarith

/-- C68, relative accuracy of `sinh` and `tanh` near 0 fails: 2^-30 gives 0. -/
theorem c68_small_false : f32.Is 0x30800000 (1 / 2 ^ 30) ∧ sinh 0x30800000 = some 0 ∧ tanh 0x30800000 = some 0 := by
  refine ⟨⟨2 ^ 119, by decide +kernel, ?_⟩, by decide +kernel, by decide +kernel⟩
  rw [one32_val]; push_cast; norm_num

end Nanostl.Math

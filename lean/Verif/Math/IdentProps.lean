import Verif.Math.ExpProps
import Verif.Math.LogProps
import Verif.Math.SqrtProps
import Verif.Math.CbrtProps
import Verif.Math.SinCosProps

/-! C135: identities between the elementary functions, in arithmetic of `float`. The specification is arithmetic of reals alone. -/

namespace Nanostl.Math
open Nanostl.Float Nanostl.Float.Fmt

theorem log2_near : 693147 / 10 ^ 6 ≤ Real.log 2 ∧ Real.log 2 ≤ 693148 / 10 ^ 6 := by
  have h1 := Real.log_two_gt_d9
  have h2 := Real.log_two_lt_d9
  constructor <;> norm_num at * <;> linarith

/-- `e^t` for small `t`. -/
theorem exp_near {t d : ℝ} (h : |t| ≤ d) (hd : d ≤ 1 / 10) : |Real.exp t - 1| ≤ d * (12 / 10) := by
  have h' := abs_le.1 h
  have e1 := Real.add_one_le_exp t
  have e2 := Real.add_one_le_exp (-t)
  have e3 : Real.exp t * Real.exp (-t) = 1 := by rw [← Real.exp_add]; simp
  have d0 : 0 ≤ d := le_trans (abs_nonneg t) h
  have e4 : 0 < Real.exp t := Real.exp_pos t
  have e5 : Real.exp t * (1 - d) ≤ 1 := by
    have := mul_le_mul_of_nonneg_left (show 1 - d ≤ Real.exp (-t) by linarith) e4.le
    linarith
  have e6 : Real.exp t ≤ 1 + d * (12 / 10) := by
    have : (1 + d * (12 / 10)) * (1 - d) ≥ 1 := by nlinarith
    by_contra g
    have g := not_le.1 g
    have := mul_lt_mul_of_pos_right g (show 0 < 1 - d by linarith)
    linarith
  rw [abs_le]
  constructor <;> linarith

/-- **C135.** `exp(log(x))` is `x` with a relative error of at most 5e-5. -/
theorem c135_exp_log_partial {x : Nat} {r : ℝ} (hx : x < f32.size) (h : f32.Is x r) (h1 : 1 / 2 ^ 125 ≤ r) (h2 : r ≤ 2 ^ 125) :
    ∃ y b, exp (log x) = some y ∧ f32.Is y b ∧ |b - r| ≤ 5 / 10 ^ 5 * r := by
  have r0 : 0 < r := lt_of_lt_of_le (by norm_num) h1
  obtain ⟨⟨c, hc, ec, -⟩, -⟩ := c64_log_error_partial hx h (le_trans (by norm_num) h1)
  obtain ⟨n1, n2⟩ := log2_near
  have l1 : -(8665 / 100) ≤ Real.log r := by
    have e := Real.log_le_log (by norm_num) h1
    rw [one_div, Real.log_inv, Real.log_pow] at e
    norm_num at e n2 ⊢; linarith
  have l2 : Real.log r ≤ 8665 / 100 := by
    have e := Real.log_le_log r0 h2
    rw [Real.log_pow] at e
    norm_num at e n2 ⊢; linarith
  have l3 : |Real.log r| ≤ 8665 / 100 := abs_le.2 ⟨l1, l2⟩
  have ec2 : |c - Real.log r| ≤ 19 / 10 ^ 6 := le_trans ec (by norm_num at l3 ⊢; linarith)
  have ec3 := abs_le.1 ec2
  obtain ⟨y, b, hy, hb, eb⟩ := c63_exp_error hc (by norm_num at ec3; linarith) (by norm_num at ec3 ⊢; linarith)
  refine ⟨y, b, hy, hb, ?_⟩
  have f1 : Real.exp c = r * Real.exp (c - Real.log r) := by
    rw [Real.exp_sub, Real.exp_log r0]; field_simp
  have f2 := abs_le.1 (exp_near ec2 (by norm_num))
  rw [f1] at eb
  generalize Real.exp (c - Real.log r) = q at *
  have g1 : r * (q - 1) ≤ r * (228 / 10 ^ 7) := mul_le_mul_of_nonneg_left (by norm_num at f2 ⊢; linarith) r0.le
  have g2 : r * (1 - q) ≤ r * (228 / 10 ^ 7) := mul_le_mul_of_nonneg_left (by norm_num at f2 ⊢; linarith) r0.le
  have eb' := abs_le.1 eb
  rw [abs_le]
  constructor <;> norm_num at eb' g1 g2 ⊢ <;> linarith

/-- **C135.** `log(exp(x))` is `x` within 5e-5. -/
theorem c135_log_exp_partial {x : Nat} {r : ℝ} (h : f32.Is x r) (h1 : -87 ≤ r) (h2 : r ≤ 8733 / 100) :
    ∃ y b, exp x = some y ∧ f32.Is (log y) b ∧ |b - r| ≤ 5 / 10 ^ 5 := by
  obtain ⟨y, b, hy, hb, eb⟩ := c63_exp_error h h1 h2
  have hys : y < f32.size := by
    obtain ⟨a, y', b', e1, e2, -⟩ := fastExp2_spec (f32.mul x (f64.convert f32 (f64.div (f64.ofInt 1) kM_LN2)))
    have : y = y' := Option.some.inj (hy.symm.trans e1)
    rw [this]
    exact Nat.lt_trans e2 (by decide +kernel)
  obtain ⟨n1, n2⟩ := log2_near
  have E0 := Real.exp_pos r
  have eb' := abs_le.1 eb
  have b1 : 99 / 100 * Real.exp r ≤ b := by norm_num at eb' ⊢; linarith
  have b0 : 0 < b := lt_of_lt_of_le (by positivity) b1
  have E1 : 13 / 10 * (1 / 2 ^ 126) ≤ Real.exp r := by
    have e1 : Real.exp (-(126 * Real.log 2)) * Real.exp (3 / 10) ≤ Real.exp r := by
      rw [← Real.exp_add]; exact Real.exp_le_exp.2 (by norm_num at n1 ⊢; linarith)
    have e2 : Real.exp (-(126 * Real.log 2)) = 1 / 2 ^ 126 := by
      rw [Real.exp_neg, show (126 : ℝ) = ((126 : ℕ) : ℝ) by norm_num, Real.exp_nat_mul, Real.exp_log (by norm_num), one_div]
    have e3 := Real.add_one_le_exp (3 / 10 : ℝ)
    rw [e2] at e1
    have e4 : (1 / 2 ^ 126 : ℝ) * (13 / 10) ≤ 1 / 2 ^ 126 * Real.exp (3 / 10) := mul_le_mul_of_nonneg_left (by norm_num at e3 ⊢; linarith) (by norm_num)
    linarith
  obtain ⟨⟨c, hc, ec, -⟩, -⟩ := c64_log_error_partial hys hb (by norm_num at E1 b1 ⊢; linarith)
  refine ⟨y, c, hy, hc, ?_⟩
  have u0 : 0 < b / Real.exp r := div_pos b0 E0
  have lb : Real.log b = r + Real.log (b / Real.exp r) := by rw [Real.log_div b0.ne' E0.ne', Real.log_exp]; ring
  have u1 : b / Real.exp r ≤ 1 + 24 / 10 ^ 6 := by rw [div_le_iff₀ E0]; norm_num at eb' ⊢; linarith
  have u2 : 1 - 24 / 10 ^ 6 ≤ b / Real.exp r := by rw [le_div_iff₀ E0]; norm_num at eb' ⊢; linarith
  have v1 : Real.log (b / Real.exp r) ≤ 25 / 10 ^ 6 := le_trans (Real.log_le_sub_one_of_pos u0) (by norm_num at u1 ⊢; linarith)
  have v2 : -(25 / 10 ^ 6) ≤ Real.log (b / Real.exp r) := by
    have := Real.log_le_log (by norm_num) u2
    have e := Real.one_sub_inv_le_log_of_pos (show (0 : ℝ) < 1 - 24 / 10 ^ 6 by norm_num)
    refine le_trans (le_trans (by norm_num) e) this
  rw [lb] at ec
  generalize Real.log (b / Real.exp r) = q at *
  have l3 : |r + q| ≤ 88 := by rw [abs_le]; constructor <;> norm_num at v1 v2 h2 ⊢ <;> linarith
  have ec' := abs_le.1 (le_trans ec (show 8 / 10 ^ 7 + 2 / 10 ^ 7 * |r + q| ≤ 19 / 10 ^ 6 by norm_num; linarith))
  rw [abs_le]
  constructor <;> norm_num at ec' v1 v2 ⊢ <;> linarith

/-- **C135.** `exp(x) * exp(-x)` is 1 within 5e-5. -/
theorem c135_exp_neg_partial {x : Nat} {r : ℝ} (h : f32.Is x r) (h1 : |r| ≤ 87) :
    ∃ y z b, exp x = some y ∧ exp (f32.neg x) = some z ∧ f32.Is (f32.mul y z) b ∧ |b - 1| ≤ 5 / 10 ^ 5 := by
  have h1' := abs_le.1 h1
  obtain ⟨y, p, hy, hp, ep⟩ := c63_exp_error h h1'.1 (by linarith)
  obtain ⟨z, q, hz, hq, eq⟩ := c63_exp_error h.neg (by linarith) (by linarith)
  have E : Real.exp r * Real.exp (-r) = 1 := by rw [← Real.exp_add]; simp
  have E0 := Real.exp_pos r
  have F0 := Real.exp_pos (-r)
  generalize Real.exp r = e at *
  generalize Real.exp (-r) = f at *
  have ep' := abs_le.1 ep
  have eq' := abs_le.1 eq
  have P1 : (1 - 24 / 10 ^ 6) * e ≤ p := by linarith
  have P2 : p ≤ (1 + 24 / 10 ^ 6) * e := by linarith
  have Q1 : (1 - 24 / 10 ^ 6) * f ≤ q := by linarith
  have Q2 : q ≤ (1 + 24 / 10 ^ 6) * f := by linarith
  have p0 : 0 ≤ p := le_trans (mul_nonneg (by norm_num) E0.le) P1
  have q0 : 0 ≤ q := le_trans (mul_nonneg (by norm_num) F0.le) Q1
  have m1 : 1 - 481 / 10 ^ 7 ≤ p * q := by
    have := mul_le_mul P1 Q1 (mul_nonneg (by norm_num) F0.le) p0
    have e2 : (1 - 24 / 10 ^ 6) * e * ((1 - 24 / 10 ^ 6) * f) = (1 - 24 / 10 ^ 6) ^ 2 * (e * f) := by ring
    rw [e2, E] at this
    norm_num at this ⊢; linarith
  have m2 : p * q ≤ 1 + 481 / 10 ^ 7 := by
    have := mul_le_mul P2 Q2 q0 (mul_nonneg (by norm_num) E0.le)
    have e2 : (1 + 24 / 10 ^ 6) * e * ((1 + 24 / 10 ^ 6) * f) = (1 + 24 / 10 ^ 6) ^ 2 * (e * f) := by ring
    rw [e2, E] at this
    norm_num at this ⊢; linarith
  have m3 : |p * q| ≤ 2 := by rw [abs_of_nonneg (mul_nonneg p0 q0)]; norm_num at m2 ⊢; linarith
  obtain ⟨b, hb, rb⟩ := is_mul good32 hp hq (by rw [bias32]; exact le_trans m3 (by norm_num))
  refine ⟨y, z, b, hy, hz, hb, ?_⟩
  have e3 := abs_le.1 (le_trans (rnd32 rb) (show |p * q| * ulp + tiny ≤ 2 / 10 ^ 7 by generalize |p * q| = k at m3; unfold ulp tiny; norm_num; linarith))
  rw [abs_le]
  constructor <;> norm_num at e3 m1 m2 ⊢ <;> linarith

/-- **C135.** `sin(x) * sin(x) + cos(x) * cos(x)` is 1 within 5e-6. -/
theorem c135_sin_cos_partial {x : Nat} {r : ℝ} (h : f32.Is x r) (h1 : |r| ≤ 8192) :
    ∃ y z b, sin x = some y ∧ cos x = some z ∧ f32.Is (f32.add (f32.mul y y) (f32.mul z z)) b ∧ |b - 1| ≤ 5 / 10 ^ 6 := by
  obtain ⟨⟨y, s, hy, hs, s1, es⟩, z, c, hz, hc, c1, ec⟩ := c67_sin_cos_error_partial h h1
  have E := Real.sin_sq_add_cos_sq r
  have S1 := Real.abs_sin_le_one r
  have C1 := Real.abs_cos_le_one r
  generalize Real.sin r = S at *
  generalize Real.cos r = C at *
  have sq : ∀ {a A d : ℝ}, |a| ≤ 1 → |A| ≤ 1 → |a - A| ≤ d → |a * a - A ^ 2| ≤ d * 2 := by
    intro a A d ha hA hd
    rw [show a * a - A ^ 2 = (a - A) * (a + A) by ring, abs_mul]
    exact mul_le_mul hd (le_trans (abs_add_le _ _) (by linarith)) (abs_nonneg _) (le_trans (abs_nonneg _) hd)
  have le1 : ∀ {a : ℝ}, |a| ≤ 1 → |a * a| ≤ 1 := fun ha => by rw [abs_mul]; exact mul_le_one₀ ha (abs_nonneg _) ha
  obtain ⟨m, hm, rm⟩ := is_mul good32 hs hs (by rw [bias32]; exact le_trans (le1 s1) (by norm_num))
  obtain ⟨n, hn, rn⟩ := is_mul good32 hc hc (by rw [bias32]; exact le_trans (le1 c1) (by norm_num))
  have t1 := abs_le.1 (le_trans (rnd32 rm) (show |s * s| * ulp + tiny ≤ 1 / 10 ^ 7 by have := le1 s1; unfold ulp tiny; norm_num at this ⊢; linarith))
  have t2 := abs_le.1 (le_trans (rnd32 rn) (show |c * c| * ulp + tiny ≤ 1 / 10 ^ 7 by have := le1 c1; unfold ulp tiny; norm_num at this ⊢; linarith))
  have q1 := abs_le.1 (sq s1 S1 es)
  have q2 := abs_le.1 (sq c1 C1 ec)
  have k : |m + n| ≤ 2 := by rw [abs_le]; constructor <;> norm_num at t1 t2 q1 q2 ⊢ <;> linarith
  obtain ⟨b, hb, rb, -⟩ := is_add good32 hm hn (by rw [bias32]; exact le_trans k (by norm_num))
  have t3 := abs_le.1 (le_trans (rnd32 rb) (show |m + n| * ulp + tiny ≤ 2 / 10 ^ 7 by unfold ulp tiny; norm_num; linarith))
  refine ⟨y, z, b, hy, hz, hb, ?_⟩
  rw [abs_le]
  constructor <;> norm_num at t1 t2 t3 q1 q2 ⊢ <;> linarith

/-- **C135.** `sqrt(x) * sqrt(x)` is `x` with a relative error of at most 0.36%. -/
theorem c135_sqrt_partial {x : Nat} {r : ℝ} (hx : x < f32.size) (h : f32.Is x r) (h1 : 1 / 2 ^ 126 ≤ r) (h2 : r ≤ 2 ^ 126) :
    ∃ b, f32.Is (f32.mul (sqrt x) (sqrt x)) b ∧ |b - r| ≤ 36 / 10 ^ 4 * r := by
  have r0 : 0 < r := lt_of_lt_of_le (by norm_num) h1
  obtain ⟨s, hs, es, -⟩ := c66_sqrt_error_partial hx h h1
  have q0 := Real.sqrt_nonneg r
  have qq := Real.mul_self_sqrt r0.le
  generalize √r = q at *
  have es' := abs_le.1 es
  have s1 : (1 - 177 / 10 ^ 5) * q ≤ s := by linarith
  have s2 : s ≤ (1 + 177 / 10 ^ 5) * q := by linarith
  have s0 : 0 ≤ s := le_trans (mul_nonneg (by norm_num) q0) s1
  have m1 : (1 - 177 / 10 ^ 5) ^ 2 * r ≤ s * s := by
    have := mul_le_mul s1 s1 (mul_nonneg (by norm_num) q0) s0
    rw [← qq]; linarith
  have m2 : s * s ≤ (1 + 177 / 10 ^ 5) ^ 2 * r := by
    have := mul_le_mul s2 s2 s0 (mul_nonneg (by norm_num) q0)
    rw [← qq]; linarith
  have m0 : 0 ≤ s * s := mul_nonneg s0 s0
  obtain ⟨b, hb, rb⟩ := is_mul good32 hs hs (by rw [bias32, abs_of_nonneg m0]; norm_num at m2 h2 ⊢; linarith)
  refine ⟨b, hb, ?_⟩
  have e := rnd32 rb
  rw [abs_of_nonneg m0] at e
  have e' := abs_le.1 e
  unfold ulp tiny at e'
  rw [abs_le]
  constructor <;> norm_num at e' m1 m2 h1 ⊢ <;> linarith

/-- **C135.** `cbrt(x) * cbrt(x) * cbrt(x)` is `x` with a relative error of at most 6e-6. -/
theorem c135_cbrt_partial {x : Nat} {r : ℝ} (hx : x < f32.size) (h : f32.Is x r) (h1 : 1 / 2 ^ 23 ≤ |r|) (h2 : |r| ≤ 2 ^ 120) :
    ∃ b, f32.Is (f32.mul (f32.mul (cbrt x) (cbrt x)) (cbrt x)) b ∧ |b - r| ≤ 6 / 10 ^ 6 * |r| := by
  obtain ⟨s, c, hs, hc, es⟩ := c69_cbrt_error_partial hx h h1
  have hr : |r| = |c| ^ 3 := by rw [← hc, abs_pow]
  have c0 := abs_nonneg c
  have c1 : 1 / 2 ^ 8 ≤ |c| := by
    by_contra g
    have g := not_le.1 g
    have := pow_lt_pow_left₀ g c0 (n := 3) (by norm_num)
    rw [← hr] at this
    norm_num at this h1
    linarith
  have c2 : |c| ≤ 2 ^ 40 := by
    by_contra g
    have g := not_le.1 g
    have := pow_lt_pow_left₀ g (by norm_num) (n := 3) (by norm_num)
    rw [← hr] at this
    norm_num at this h2
    linarith
  have e0 : 0 ≤ |s - c| := abs_nonneg _
  have s1 : |s| ≤ (1 + 17 / 10 ^ 7) * |c| := by have := abs_sub_abs_le_abs_sub s c; linarith
  have s0 := abs_nonneg s
  have cc : |c| * |c| ≤ 2 ^ 80 := le_trans (mul_le_mul c2 c2 c0 (by norm_num)) (by norm_num)
  have ss : |s * s| ≤ (1 + 17 / 10 ^ 7) ^ 2 * (|c| * |c|) := by
    rw [abs_mul]
    have := mul_le_mul s1 s1 s0 (mul_nonneg (by norm_num) c0)
    linarith
  obtain ⟨m, hm, rm⟩ := is_mul good32 hs hs (by rw [bias32]; norm_num at ss cc ⊢; linarith)
  have k0 : 1 / 2 ^ 16 ≤ |c| * |c| := le_trans (by norm_num) (mul_le_mul c1 c1 (by norm_num) c0)
  have em : |m - s * s| ≤ 7 / 10 ^ 8 * (|c| * |c|) := by
    refine le_trans (rnd32 rm) ?_
    generalize |s * s| = k at *
    unfold ulp tiny
    norm_num at ss k0 ⊢
    linarith
  -- the square against `c * c`
  have e1 : |s * s - c * c| ≤ 35 / 10 ^ 7 * (|c| * |c|) := by
    rw [show s * s - c * c = (s - c) * (s + c) by ring, abs_mul]
    have t : |s + c| ≤ (2 + 17 / 10 ^ 7) * |c| := le_trans (abs_add_le _ _) (by linarith)
    have := mul_le_mul es t (abs_nonneg _) (mul_nonneg (by norm_num) c0)
    rw [show 17 / 10 ^ 7 * |c| * ((2 + 17 / 10 ^ 7) * |c|) = 17 / 10 ^ 7 * (2 + 17 / 10 ^ 7) * (|c| * |c|) by ring] at this
    exact le_trans this (mul_le_mul_of_nonneg_right (by norm_num) (mul_nonneg c0 c0))
  have e2 : |m - c * c| ≤ 36 / 10 ^ 7 * (|c| * |c|) := by
    have := abs_add_le (m - s * s) (s * s - c * c)
    rw [show m - s * s + (s * s - c * c) = m - c * c by ring] at this
    exact le_trans this (le_trans (add_le_add em e1) (by rw [← add_mul]; exact mul_le_mul_of_nonneg_right (by norm_num) (mul_nonneg c0 c0)))
  have m1 : |m| ≤ (1 + 36 / 10 ^ 7) * (|c| * |c|) := by
    have := abs_sub_abs_le_abs_sub m (c * c)
    rw [abs_mul c c] at this
    linarith
  have c3 : |c| * |c| * |c| = |r| := by rw [hr]; ring
  have ms : |m * s| ≤ (1 + 6 / 10 ^ 6) * |r| := by
    rw [abs_mul]
    have := mul_le_mul m1 s1 s0 (mul_nonneg (by norm_num) (mul_nonneg c0 c0))
    rw [show (1 + 36 / 10 ^ 7) * (|c| * |c|) * ((1 + 17 / 10 ^ 7) * |c|) = (1 + 36 / 10 ^ 7) * (1 + 17 / 10 ^ 7) * (|c| * |c| * |c|) by ring, c3] at this
    have z := abs_nonneg r
    norm_num at this ⊢
    linarith
  obtain ⟨b, hb, rb⟩ := is_mul good32 hm hs (by rw [bias32]; generalize |m * s| = k at *; norm_num at ms h2 ⊢; linarith)
  refine ⟨b, hb, ?_⟩
  have eb : |b - m * s| ≤ 7 / 10 ^ 8 * |r| := by
    refine le_trans (rnd32 rb) ?_
    generalize |m * s| = k at *
    unfold ulp tiny
    norm_num at ms h1 ⊢
    linarith
  have e3 : |m * s - r| ≤ 54 / 10 ^ 7 * |r| := by
    rw [show m * s - r = m * (s - c) + (m - c * c) * c by rw [← hc]; ring]
    have t1 : |m * (s - c)| ≤ (1 + 36 / 10 ^ 7) * (17 / 10 ^ 7) * |r| := by
      rw [abs_mul]
      have := mul_le_mul m1 es e0 (mul_nonneg (by norm_num) (mul_nonneg c0 c0))
      rw [← c3]; linarith
    have t2 : |(m - c * c) * c| ≤ 36 / 10 ^ 7 * |r| := by
      rw [abs_mul]
      have := mul_le_mul_of_nonneg_right e2 c0
      rw [← c3]; linarith
    have z := abs_nonneg r
    refine le_trans (abs_add_le _ _) (le_trans (add_le_add t1 t2) ?_)
    norm_num
    linarith
  have := abs_add_le (b - m * s) (m * s - r)
  rw [show b - m * s + (m * s - r) = b - r by ring] at this
  have z := abs_nonneg r
  refine le_trans this (le_trans (add_le_add eb e3) ?_)
  norm_num
  linarith

theorem log_range {r : ℝ} (h1 : 1 / 2 ^ 126 ≤ r) (h2 : r ≤ 2 ^ 126) : |Real.log r| ≤ 88 := by
  have r0 : 0 < r := lt_of_lt_of_le (by norm_num) h1
  obtain ⟨n1, n2⟩ := log2_near
  have e1 := Real.log_le_log (by norm_num) h1
  have e2 := Real.log_le_log r0 h2
  rw [one_div, Real.log_inv, Real.log_pow] at e1
  rw [Real.log_pow] at e2
  rw [abs_le]
  constructor <;> norm_num at e1 e2 n2 ⊢ <;> linarith

/-- **C135.** `log(x * y)` is `log(x) + log(y)` within 1e-4. -/
theorem c135_log_mul_partial {x y : Nat} {r t : ℝ} (hx : x < f32.size) (hy : y < f32.size) (h : f32.Is x r) (h' : f32.Is y t) (h1 : 1 / 2 ^ 126 ≤ r) (h2 : r ≤ 2 ^ 126) (h3 : 1 / 2 ^ 126 ≤ t) (h4 : t ≤ 2 ^ 126)
    (h5 : 1 / 2 ^ 125 ≤ r * t) (h6 : r * t ≤ 2 ^ 125) :
    ∃ b c, f32.Is (log (f32.mul x y)) b ∧ f32.Is (f32.add (log x) (log y)) c ∧ |b - c| ≤ 1 / 10 ^ 4 := by
  have r0 : 0 < r := lt_of_lt_of_le (by norm_num) h1
  have t0 : 0 < t := lt_of_lt_of_le (by norm_num) h3
  have rt0 := mul_pos r0 t0
  obtain ⟨p, hp, rp⟩ := is_mul good32 h h' (by rw [bias32, abs_of_pos rt0]; exact le_trans h6 (by norm_num))
  have ep := rnd32 rp
  rw [abs_of_pos rt0] at ep
  have ep' := abs_le.1 ep
  unfold ulp tiny at ep'
  have p1 : (1 - 1 / 10 ^ 6) * (r * t) ≤ p := by norm_num at ep' h5 ⊢; linarith
  have p2 : p ≤ (1 + 1 / 10 ^ 6) * (r * t) := by norm_num at ep' h5 ⊢; linarith
  have q1 : 1 / 2 ^ 126 ≤ p := by norm_num at p1 h5 ⊢; linarith
  have q2 : p ≤ 2 ^ 126 := by norm_num at p2 h6 ⊢; linarith
  have p0 : 0 < p := lt_of_lt_of_le (by norm_num) q1
  obtain ⟨⟨b, hb, eb, -⟩, -⟩ := c64_log_error_partial (mul_lt good32 x y) hp q1
  obtain ⟨⟨c, hc, ec, -⟩, -⟩ := c64_log_error_partial hx h h1
  obtain ⟨⟨d, hd, ed, -⟩, -⟩ := c64_log_error_partial hy h' h3
  have l1 := log_range q1 q2
  have l2 := log_range h1 h2
  have l3 := log_range h3 h4
  have k1 := Real.log_le_log (mul_pos (by norm_num) rt0) p1
  have k2 := Real.log_le_log p0 p2
  rw [Real.log_mul (by norm_num) rt0.ne', Real.log_mul r0.ne' t0.ne'] at k1 k2
  have k3 : -(2 / 10 ^ 6) ≤ Real.log (1 - 1 / 10 ^ 6) := le_trans (by norm_num) (Real.one_sub_inv_le_log_of_pos (show (0 : ℝ) < 1 - 1 / 10 ^ 6 by norm_num))
  have k4 : Real.log (1 + 1 / 10 ^ 6) ≤ 1 / 10 ^ 6 := le_trans (Real.log_le_sub_one_of_pos (by norm_num)) (by norm_num)
  generalize Real.log (1 - 1 / 10 ^ 6) = u at *
  generalize Real.log (1 + 1 / 10 ^ 6) = v at *
  generalize Real.log p = P at *
  generalize Real.log r = R at *
  generalize Real.log t = T at *
  have err : ∀ {a A : ℝ}, |A| ≤ 88 → |a - A| ≤ 8 / 10 ^ 7 + 2 / 10 ^ 7 * |A| → |a - A| ≤ 19 / 10 ^ 6 := fun hA ha => le_trans ha (by norm_num; linarith)
  have eb' := abs_le.1 (err l1 eb)
  have ec' := abs_le.1 (err l2 ec)
  have ed' := abs_le.1 (err l3 ed)
  have l1' := abs_le.1 l1
  have cd : |c + d| ≤ 90 := by rw [abs_le]; constructor <;> norm_num at ec' ed' k1 k2 k3 k4 ⊢ <;> linarith
  obtain ⟨e, he, re, -⟩ := is_add good32 hc hd (by rw [bias32]; exact le_trans cd (by norm_num))
  have ee := abs_le.1 (le_trans (rnd32 re) (show |c + d| * ulp + tiny ≤ 6 / 10 ^ 6 by unfold ulp tiny; norm_num; linarith))
  refine ⟨b, e, hb, he, ?_⟩
  rw [abs_le]
  constructor <;> norm_num at ee eb' ec' ed' k1 k2 k3 k4 ⊢ <;> linarith

/-- The identities fail outside these ranges. At 10^9 `sin` and `cos` are both 0, and so is the sum of their squares; `exp(log(2^127))` is 2^126. -/
theorem c135_large_false : f32.Is 0x4e6e6b28 (10 ^ 9) ∧ (∃ y z, sin 0x4e6e6b28 = some y ∧ cos 0x4e6e6b28 = some z ∧ f32.Is (f32.add (f32.mul y y) (f32.mul z z)) 0) ∧
    f32.Is 0x7f000000 (2 ^ 127) ∧ ∃ y, exp (log 0x7f000000) = some y ∧ f32.Is y (2 ^ 126) := by
  refine ⟨⟨10 ^ 9 * 2 ^ 149, by decide +kernel, ?_⟩, ⟨0, 0, by decide +kernel, by decide +kernel, ⟨0, by decide +kernel, by norm_num⟩⟩, ⟨2 ^ 276, by decide +kernel, ?_⟩, ⟨0x7e800000, by decide +kernel, ⟨2 ^ 275, by decide +kernel, ?_⟩⟩⟩
  · rw [one32_val]; push_cast; norm_num
  · rw [one32_val, ← pow_add, Int.cast_pow, Int.cast_ofNat]
  · rw [one32_val, ← pow_add, Int.cast_pow, Int.cast_ofNat]

/-- The cube of `cbrt(x)` is 0 for every number of absolute value below 2^-23. -/
theorem c135_small_false {x : Nat} {r : ℝ} (hx : x < f32.size) (h : f32.Is x r) (h1 : |r| < 1 / 2 ^ 23) : f32.Is (f32.mul (f32.mul (cbrt x) (cbrt x)) (cbrt x)) 0 := by
  have hz := c69_cbrt_tiny_false hx h h1
  have z : ∀ {a b : Nat}, f32.Is a 0 → f32.Is b 0 → f32.Is (f32.mul a b) 0 := by
    intro a b ha hb
    obtain ⟨c, hc, rc⟩ := is_mul good32 ha hb (by rw [bias32]; norm_num)
    have e := rc.exact (z := 0) (by rw [mul_zero]; exact Fmt.is_zero Fmt.good32)
    rw [mul_zero] at e
    rwa [e] at hc
  exact z (z hz hz) hz

example : f32.Is 0x30800000 (1 / 2 ^ 30) ∧ |(1 / 2 ^ 30 : ℝ)| < 1 / 2 ^ 23 := by
  refine ⟨⟨2 ^ 119, by decide +kernel, ?_⟩, by rw [abs_of_pos] <;> norm_num⟩
  rw [one32_val]; push_cast; norm_num

example : (0x40400000 : Nat) < f32.size ∧ f32.Is 0x40400000 3 ∧ |(3 : ℝ)| ≤ 87 ∧ 1 / 2 ^ 23 ≤ |(3 : ℝ)| ∧ |(3 : ℝ)| ≤ 2 ^ 120 ∧ (1 / 2 ^ 125 : ℝ) ≤ 3 ∧ (3 : ℝ) ≤ 2 ^ 125 ∧ |(3 : ℝ)| ≤ 8192 := by
  rw [abs_of_pos (by norm_num)]
  refine ⟨by decide +kernel, ⟨3 * 2 ^ 149, by decide +kernel, ?_⟩, by norm_num, by norm_num, by norm_num, by norm_num, by norm_num, by norm_num⟩
  rw [one32_val]; push_cast; norm_num

/-- The hypotheses of `c135_log_mul_partial` on the ranges, with both arguments 3, and of `c135_log_exp_partial`, `c135_sqrt_partial`. -/
example : (1 / 2 ^ 126 : ℝ) ≤ 3 ∧ (3 : ℝ) ≤ 2 ^ 126 ∧ (1 / 2 ^ 125 : ℝ) ≤ 3 * 3 ∧ (3 * 3 : ℝ) ≤ 2 ^ 125 ∧ (-87 : ℝ) ≤ 3 ∧ (3 : ℝ) ≤ 8733 / 100 := by
  norm_num

end Nanostl.Math

import Verif.Math.IerfErr

/-! C134: `ierf` against the inverse of the error function. -/

namespace Nanostl.Math
open Nanostl.Float Nanostl.Float.Fmt

theorem exp5 : (1484 / 10 : ℝ) < Real.exp 5 ∧ Real.exp 5 < 1485 / 10 := by
  rw [show (5 : ℝ) = (5 : ℕ) * 1 by norm_num, Real.exp_nat_mul]
  have h1 := Real.exp_one_gt_d9
  have h2 := Real.exp_one_lt_d9
  exact ⟨lt_of_lt_of_le (by norm_num) (pow_le_pow_left₀ (by norm_num) h1.le 5), lt_of_le_of_lt (pow_le_pow_left₀ (Real.exp_pos _).le h2.le 5) (by norm_num)⟩

/-- Where the argument of the logarithm is small enough for the first polynomial. -/
theorem lt_of_log {A : ℝ} (h1 : A < 1) (h : -(50001 / 10000) ≤ Real.log (1 - A ^ 2)) : A < 997 / 1000 := by
  by_contra hc
  have hc := not_lt.1 hc
  have hA : (997 / 1000 : ℝ) ^ 2 ≤ A ^ 2 := pow_le_pow_left₀ (by norm_num) hc 2
  have hd : 0 < 1 - A ^ 2 := by rw [show 1 - A ^ 2 = (1 - A) * (1 + A) by ring]; exact mul_pos (by linarith) (by linarith)
  have e := Real.log_le_sub_one_of_pos (mul_pos hd (Real.exp_pos 5))
  rw [Real.log_mul hd.ne' (Real.exp_pos 5).ne', Real.log_exp] at e
  have e2 : (1 - A ^ 2) * Real.exp 5 ≤ 6 / 1000 * (1485 / 10) := mul_le_mul (by norm_num at hA ⊢; linarith) exp5.2.le (Real.exp_pos 5).le (by norm_num)
  norm_num at h e e2
  linarith

/-- Where it is not. -/
theorem gt_of_log {A : ℝ} (h0 : 0 ≤ A) (h : Real.log (1 - A ^ 2) ≤ -(49999 / 10000)) : 9966 / 10000 < A := by
  by_contra hc
  have hc := not_lt.1 hc
  have hA : A ^ 2 ≤ (9966 / 10000 : ℝ) ^ 2 := pow_le_pow_left₀ h0 hc 2
  have hd : 0 < 1 - A ^ 2 := by norm_num at hA; linarith
  have e := Real.one_sub_inv_le_log_of_pos (mul_pos hd (Real.exp_pos 5))
  rw [Real.log_mul hd.ne' (Real.exp_pos 5).ne', Real.log_exp] at e
  have e2 : 678 / 100000 * (1484 / 10) ≤ (1 - A ^ 2) * Real.exp 5 := mul_le_mul (by norm_num at hA ⊢; linarith) exp5.1.le (by norm_num) hd.le
  have e3 : ((1 - A ^ 2) * Real.exp 5)⁻¹ ≤ (678 / 100000 * (1484 / 10))⁻¹ := inv_anti₀ (by norm_num) e2
  norm_num at h e e3
  linarith

/-- The factor, in the two ranges of the code. -/
theorem ierfP_err {a : Nat} {A : ℝ} (ha : a < f32.size) (h : f32.Is a A) (h0 : 0 ≤ A) :
    ∃ P, f32.Is (ierfP a) P ∧ ((A < 1021 / 1024 ∧ |P - PA (wOf A - 5 / 2)| ≤ 1 / 10 ^ 5) ∨ (9966 / 10000 < A ∧ 206 / 100 ≤ P ∧ (A ≤ 1021 / 1024 → P ≤ 2117 / 1000) ∧ (1021 / 1024 ≤ A → 2093 / 1000 ≤ P) ∧ (A ≤ 1022 / 1024 → P ≤ 2203 / 1000) ∧ (1022 / 1024 ≤ A → 2181 / 1000 ≤ P) ∧ (A ≤ 1023 / 1024 → P ≤ 2344 / 1000) ∧ (1023 / 1024 ≤ A → 2324 / 1000 ≤ P))) := by
  obtain ⟨A', h', ha', h0', h1', hA, hA'⟩ : ∃ A', f32.Is (if f32.lt (f32.litNeg 99999994 8) a then f32.litNeg 99999994 8 else a) A' ∧ (if f32.lt (f32.litNeg 99999994 8) a then f32.litNeg 99999994 8 else a) < f32.size ∧ 0 ≤ A' ∧ A' ≤ 1 - 1 / 2 ^ 24 ∧ A' ≤ A ∧ (A' = A ∨ A' = 1 - 1 / 2 ^ 24) := by
    have := Fmt.is_lt is_lim h
    by_cases hl : 1 - 1 / 2 ^ 24 < A
    · rw [if_pos (this.2 hl)]
      exact ⟨_, is_lim, by decide +kernel, by norm_num, le_rfl, hl.le, .inr rfl⟩
    · rw [if_neg (by rw [this]; exact hl)]
      exact ⟨A, h, ha, h0, not_lt.1 hl, le_rfl, .inl rfl⟩
  obtain ⟨W, hW, w1, w2, w3⟩ := ierf_w h' h0' h1'
  have w3' := abs_le.1 w3
  have hlt1 : A' < 1 := lt_of_le_of_lt h1' (by norm_num)
  unfold ierfP
  dsimp only
  generalize hw : f32.neg (log (f32.mul (f32.sub one32 (if f32.lt (f32.litNeg 99999994 8) a then f32.litNeg 99999994 8 else a)) (f32.add one32 (if f32.lt (f32.litNeg 99999994 8) a then f32.litNeg 99999994 8 else a)))) = w at hW
  have hws : w < f32.size := by rw [← hw]; exact neg_lt _
  clear hw
  have hlt := Fmt.is_lt hW is_5
  have sml : ∀ y : ℝ, |y| ≤ 20 → |y| ≤ 2 ^ f32.bias := fun y hy => by rw [bias32]; exact le_trans hy (by norm_num)
  have mb : f32.mb + 1 = 24 := rfl
  by_cases h5 : W < 5
  · rw [if_pos (hlt.2 h5)]
    have hA1 : A' < 997 / 1000 := lt_of_log hlt1 (by norm_num at w3' ⊢; linarith)
    have hAA : A' = A := by
      rcases hA' with e | e
      · exact e
      · rw [e] at hA1; norm_num at hA1
    subst hAA
    have b1 : |W - 5 / 2| ≤ 2501 / 1000 := by rw [abs_le]; constructor <;> norm_num at w1 ⊢ <;> linarith
    obtain ⟨V, hV, -, eV⟩ := is_sub good32 hW is_25 (sml _ (le_trans b1 (by norm_num)))
    rw [mb] at eV
    have eV2 : |V - (W - 5 / 2)| ≤ 2 / 10 ^ 7 := le_trans eV (by norm_num at b1 ⊢; linarith)
    have eV3 := abs_le.1 eV2
    have b1' := abs_le.1 b1
    obtain ⟨Y, hY, eY⟩ := ierfA_err (v := wOf A' - 5 / 2) hV (by rw [abs_le]; constructor <;> norm_num at eV3 b1' ⊢ <;> linarith) (by unfold wOf; rw [abs_le]; constructor <;> norm_num at w3' b1' ⊢ <;> linarith)
      (by unfold wOf; rw [abs_le]; constructor <;> norm_num at w3' eV3 ⊢ <;> linarith)
    exact ⟨Y, hY, .inl ⟨lt_trans hA1 (by norm_num), eY⟩⟩
  · rw [if_neg (by rw [hlt]; exact h5)]
    have h5' := not_lt.1 h5
    have hA1 : 9966 / 10000 < A' := gt_of_log h0' (by norm_num at w3' ⊢; linarith)
    obtain ⟨s, hs, es, -⟩ := c66_sqrt_error_partial hws hW (le_trans (by norm_num) h5')
    have r1 : 2236 / 1000 ≤ √W := Real.le_sqrt_of_sq_le (by norm_num; linarith)
    have r2 : √W ≤ 4081 / 1000 := Real.sqrt_le_iff.2 ⟨by norm_num, by norm_num at *; linarith⟩
    have es' := abs_le.1 es
    have b1 : |s - 3| ≤ 10885 / 10000 := by rw [abs_le]; constructor <;> norm_num at * <;> linarith
    have b2 : -(768 / 1000) ≤ s - 3 := by norm_num at es' r1 ⊢; linarith
    obtain ⟨V, hV, -, eV⟩ := is_sub good32 hs is_3 (sml _ (le_trans b1 (by norm_num)))
    rw [mb] at eV
    have eV2 := abs_le.1 (show |V - (s - 3)| ≤ 2 / 10 ^ 7 from le_trans eV (by norm_num at b1 ⊢; linarith))
    have b1' := abs_le.1 b1
    obtain ⟨Y, hY, n1, n2⟩ : ∃ Y, f32.Is (madd (madd (madd (madd (madd (madd (madd (madd (negLit 200214257 12) (f32.sub (sqrt w) (f32.litPos 3 0)) (f32.litNeg 100950558 12)) (f32.sub (sqrt w) (f32.litPos 3 0)) (f32.litNeg 134934322 11)) (f32.sub (sqrt w) (f32.litPos 3 0)) (negLit 367342844 11)) (f32.sub (sqrt w) (f32.litPos 3 0)) (f32.litNeg 573950773 11)) (f32.sub (sqrt w) (f32.litPos 3 0)) (negLit 76224613 10)) (f32.sub (sqrt w) (f32.litPos 3 0)) (f32.litNeg 943887047 11)) (f32.sub (sqrt w) (f32.litPos 3 0)) (f32.litNeg 100167406 8)) (f32.sub (sqrt w) (f32.litPos 3 0)) (f32.litNeg 283297682 8)) Y ∧ (V ≤ 0 → 28329 / 10000 + 1004 / 1000 * V ≤ Y ∧ Y ≤ 2833 / 1000 + 985 / 1000 * V) ∧ (0 < V → 28329 / 10000 ≤ Y) := by
      rcases le_or_gt V 0 with v0 | v0
      · obtain ⟨Y, hY, e⟩ := ierfB_neg hV (by norm_num at eV2 b2 ⊢; linarith) v0
        exact ⟨Y, hY, fun _ => e, fun h => absurd h (not_lt.2 v0)⟩
      · obtain ⟨Y, hY, e⟩ := ierfB_pos hV (by norm_num at eV2 b1' ⊢; linarith) v0.le
        exact ⟨Y, hY, fun h => absurd v0 (not_lt.2 h), fun _ => e⟩
    have lo : ∀ q : ℝ, 0 ≤ q → q ≤ 3 → q ^ 2 ≤ W → 28329 / 10000 + 1004 / 1000 * (q * (99823 / 100000) - 3 - 2 / 10 ^ 7) ≤ Y := by
      intro q q0 q3 hq
      have s1 : q ≤ √W := Real.le_sqrt_of_sq_le hq
      have s2 : q * (99823 / 100000) - 3 - 2 / 10 ^ 7 ≤ V := by norm_num at es' eV2 ⊢; linarith
      rcases le_or_gt V 0 with v0 | v0
      · have := (n1 v0).1; norm_num at s2 this ⊢; linarith
      · have := n2 v0; norm_num at this ⊢; linarith
    have hi : ∀ q : ℝ, 0 ≤ q → q ≤ 29 / 10 → W ≤ q ^ 2 → Y ≤ 2833 / 1000 + 985 / 1000 * (q * (100177 / 100000) - 3 + 2 / 10 ^ 7) := by
      intro q q0 q3 hq
      have s1 : √W ≤ q := Real.sqrt_le_iff.2 ⟨q0, hq⟩
      have s2 : V ≤ q * (100177 / 100000) - 3 + 2 / 10 ^ 7 := by norm_num at es' eV2 ⊢; linarith
      have v0 : V ≤ 0 := by norm_num at s2; linarith
      have := (n1 v0).2; norm_num at s2 this ⊢; linarith
    have up : ∀ {k X : ℕ}, k ≤ 1023 → logTab[k]? = some X → (k : ℝ) / 1024 ≤ A → (X : ℝ) / 2 ^ 16 - 1 / 10 ^ 5 ≤ W := by
      intro k X hk hX hkA
      have hk' : (k : ℝ) / 1024 ≤ 1023 / 1024 := div_le_div_of_nonneg_right (by exact_mod_cast hk) (by norm_num)
      have e1 : (k : ℝ) / 1024 ≤ A' := by
        rcases hA' with e | e
        · rw [e]; exact hkA
        · rw [e]; exact le_trans hk' (by norm_num)
      have e2 := le_trans (log_at (by omega) hX).1 (wOf_mono (by positivity) e1 hlt1)
      unfold wOf at e2
      norm_num at w3' e2 ⊢
      linarith
    have dn : ∀ {k X : ℕ}, k ≤ 1023 → logTab[k]? = some X → A ≤ (k : ℝ) / 1024 → W ≤ (X + 1 : ℕ) / 2 ^ 16 + 1 / 10 ^ 5 := by
      intro k X hk hX hkA
      have hk' : (k : ℝ) / 1024 ≤ 1023 / 1024 := div_le_div_of_nonneg_right (by exact_mod_cast hk) (by norm_num)
      have e2 := le_trans (wOf_mono h0' (le_trans hA hkA) (lt_of_le_of_lt hk' (by norm_num))) (log_at (by omega) hX).2
      unfold wOf at e2
      norm_num at w3' e2 ⊢
      linarith
    have t1 : logTab[1021]? = some 336932 := by decide +kernel
    have t2 : logTab[1022]? = some 363472 := by decide +kernel
    have t3 : logTab[1023]? = some 408866 := by decide +kernel
    refine ⟨Y, hY, .inr ⟨lt_of_lt_of_le hA1 hA, ?_, fun g => ?_, fun g => ?_, fun g => ?_, fun g => ?_, fun g => ?_, fun g => ?_⟩⟩
    · have := lo (2236 / 1000) (by norm_num) (by norm_num) (by norm_num; linarith); norm_num at this ⊢; linarith
    · have e := dn (by norm_num) t1 (by norm_num; exact g)
      have := hi (2268 / 1000) (by norm_num) (by norm_num) (le_trans e (by norm_num)); norm_num at this ⊢; linarith
    · have e := up (by norm_num) t1 (by norm_num; exact g)
      have := lo (22674 / 10000) (by norm_num) (by norm_num) (le_trans (by norm_num) e); norm_num at this ⊢; linarith
    · have e := dn (by norm_num) t2 (by norm_num; norm_num at g; exact g)
      have := hi (2356 / 1000) (by norm_num) (by norm_num) (le_trans e (by norm_num)); norm_num at this ⊢; linarith
    · have e := up (by norm_num) t2 (by norm_num; norm_num at g; exact g)
      have := lo (2355 / 1000) (by norm_num) (by norm_num) (le_trans (by norm_num) e); norm_num at this ⊢; linarith
    · have e := dn (by norm_num) t3 (by norm_num; exact g)
      have := hi (2498 / 1000) (by norm_num) (by norm_num) (le_trans e (by norm_num)); norm_num at this ⊢; linarith
    · have e := up (by norm_num) t3 (by norm_num; exact g)
      have := lo (24977 / 10000) (by norm_num) (by norm_num) (le_trans (by norm_num) e); norm_num at this ⊢; linarith

/-- Values of the error function, by its formula. -/
theorem Erf_ge {b q e : ℝ} (hb : 0 ≤ b) (q0 : 0 < q) (hq : q ≤ RR b) (he : e + 1 / q ^ 16 + 1 / 10 ^ 6 ≤ 1) : e ≤ Erf b := by
  have h := (abs_le.1 (formula_erf hb)).2
  have h3 : 1 / RR b ^ 16 ≤ 1 / q ^ 16 := one_div_le_one_div_of_le (pow_pos q0 16) (pow_le_pow_left₀ q0.le hq 16)
  linarith

theorem Erf_le {b q e : ℝ} (hb : 0 ≤ b) (hq : RR b ≤ q) (he : 1 + 1 / 10 ^ 6 ≤ e + 1 / q ^ 16) : Erf b ≤ e := by
  have h := (abs_le.1 (formula_erf hb)).1
  have r0 : 0 < RR b := lt_of_lt_of_le _root_.one_pos (RR_ge hb)
  have h3 : 1 / q ^ 16 ≤ 1 / RR b ^ 16 := one_div_le_one_div_of_le (pow_pos r0 16) (pow_le_pow_left₀ r0.le hq 16)
  linarith

/-- For the arguments from 0 to 1. -/
theorem ierf_inverse_nonneg {x : Nat} {r : ℝ} (hx : x < f32.size) (h : f32.Is x r) (h0 : 0 ≤ r) (h1 : r ≤ 1) : ∃ b, f32.Is (ierf x) b ∧ |Erf b - r| ≤ 1 / 800 := by
  have hf := fabs_is h
  rw [abs_of_nonneg h0] at hf
  obtain ⟨P, hP, c⟩ := ierfP_err (fabs_lt hx) hf h0
  obtain ⟨P', hP', p1, p2⟩ := ierfP_bound (fabs_lt hx) hf h0
  have hPP : P' = P := hP'.unique hP
  subst hPP
  have hr4 : |P' * r| ≤ 4 := by
    rw [abs_of_nonneg (mul_nonneg (by linarith) h0)]
    exact le_trans (mul_le_mul p2 h1 h0 (by norm_num)) (by norm_num)
  obtain ⟨b, hb, rb⟩ := is_mul good32 hP h (by rw [bias32]; exact le_trans hr4 (by norm_num))
  have eb : |b - P' * r| ≤ 1 / 10 ^ 6 := le_trans (rnd32 rb) (by unfold ulp tiny; norm_num at hr4 ⊢; linarith)
  have b0 : 0 ≤ b := rb.ge _ _ (Fmt.is_zero Fmt.good32) (mul_nonneg (by linarith) h0)
  refine ⟨b, by rw [ierf_eq]; exact hb, ?_⟩
  rcases c with ⟨c1, c2⟩ | ⟨c1, c2, d1, d2, d3, d4, d5, d6⟩
  · refine inv_PA h0 c1 b0 ?_ ?_
    · have := (abs_le.1 c2).2; norm_num at p1 this; linarith
    · rw [show b - r * PA (wOf r - 5 / 2) = (b - P' * r) + (P' - PA (wOf r - 5 / 2)) * r by ring]
      have e1 : |(P' - PA (wOf r - 5 / 2)) * r| ≤ 1 / 10 ^ 5 * 1 := by rw [abs_mul, abs_of_nonneg h0]; exact mul_le_mul c2 h1 h0 (by norm_num)
      have e2 := abs_add_le (b - P' * r) ((P' - PA (wOf r - 5 / 2)) * r)
      refine le_trans e2 (le_trans (add_le_add eb e1) (by norm_num))
  · have eb' := abs_le.1 eb
    have low : ∀ p c z : ℝ, 0 ≤ p → 0 ≤ c → p ≤ P' → c ≤ r → z + 1 / 10 ^ 6 ≤ p * c → z ≤ b := by
      intro p c z p0 c0 hp hc hz
      have := mul_le_mul hp hc c0 (by linarith)
      linarith [eb'.1]
    have high : ∀ p c z : ℝ, 0 ≤ p → P' ≤ p → r ≤ c → p * c + 1 / 10 ^ 6 ≤ z → b ≤ z := by
      intro p c z p0 hp hc hz
      have := mul_le_mul hp hc h0 p0
      linarith [eb'.2]
    have e4 := Erf_le_one b0
    rw [abs_le]
    rcases le_total r (1021 / 1024) with g1 | g1
    · have y1 := low (206 / 100) (9966 / 10000) (20529 / 10000) (by norm_num) (by norm_num) c2 c1.le (by norm_num)
      have y2 := le_trans (Erf_ge (b := 20529 / 10000) (q := 141918 / 100000) (e := 99630 / 100000) (by norm_num) (by norm_num) (by unfold RR; norm_num) (by norm_num)) (Erf_mono y1)
      have y3 := high (2117 / 1000) (1021 / 1024) (21109 / 10000) (by norm_num) (d1 g1) g1 (by norm_num)
      have y4 := le_trans (Erf_mono y3) (Erf_le (b := 21109 / 10000) (q := 144289 / 100000) (e := 99717 / 100000) (by norm_num) (by unfold RR; norm_num) (by norm_num))
      constructor <;> linarith
    rcases le_total r (1022 / 1024) with g2 | g2
    · have y1 := low (2093 / 1000) (1021 / 1024) (20868 / 10000) (by norm_num) (by norm_num) (d2 g1) g1 (by norm_num)
      have y2 := le_trans (Erf_ge (b := 20868 / 10000) (q := 143292 / 100000) (e := 99683 / 100000) (by norm_num) (by norm_num) (by unfold RR; norm_num) (by norm_num)) (Erf_mono y1)
      have y3 := high (2203 / 1000) (1022 / 1024) (21988 / 10000) (by norm_num) (d3 g2) g2 (by norm_num)
      have y4 := le_trans (Erf_mono y3) (Erf_le (b := 21988 / 10000) (q := 148068 / 100000) (e := 99813 / 100000) (by norm_num) (by unfold RR; norm_num) (by norm_num))
      constructor <;> linarith
    rcases le_total r (1023 / 1024) with g3 | g3
    · have y1 := low (2181 / 1000) (1022 / 1024) (21766 / 10000) (by norm_num) (by norm_num) (d4 g2) g2 (by norm_num)
      have y2 := le_trans (Erf_ge (b := 21766 / 10000) (q := 147091 / 100000) (e := 99791 / 100000) (by norm_num) (by norm_num) (by unfold RR; norm_num) (by norm_num)) (Erf_mono y1)
      have y3 := high (2344 / 1000) (1023 / 1024) (23418 / 10000) (by norm_num) (d5 g3) g3 (by norm_num)
      have y4 := le_trans (Erf_mono y3) (Erf_le (b := 23418 / 10000) (q := 154724 / 100000) (e := 99908 / 100000) (by norm_num) (by unfold RR; norm_num) (by norm_num))
      constructor <;> linarith
    have y1 := low (2324 / 1000) (1023 / 1024) (23216 / 10000) (by norm_num) (by norm_num) (d6 g3) g3 (by norm_num)
    have y2 := le_trans (Erf_ge (b := 23216 / 10000) (q := 153743 / 100000) (e := 99897 / 100000) (by norm_num) (by norm_num) (by unfold RR; norm_num) (by norm_num)) (Erf_mono y1)
    constructor <;> linarith

/-- **C134.** For every number from −1 to 1 the error function of the result of `ierf` is within 0.00125 of the number. -/
theorem c134_inverse {x : Nat} {r : ℝ} (hx : x < f32.size) (h : f32.Is x r) (h1 : |r| ≤ 1) : ∃ b, f32.Is (ierf x) b ∧ |Erf b - r| ≤ 1 / 800 := by
  have h1' := abs_le.1 h1
  rcases le_or_gt 0 r with h0 | h0
  · exact ierf_inverse_nonneg hx h h0 h1'.2
  · obtain ⟨b, hb, e⟩ := ierf_inverse_nonneg (neg_lt x) h.neg (by linarith) (by linarith)
    rw [c134_odd hx h] at hb
    obtain ⟨b', hb', -⟩ := c134_range hx h (le_trans h1 (by norm_num))
    have hbb : b = -b' := hb.unique hb'.neg
    refine ⟨b', hb', ?_⟩
    rw [hbb, Erf_neg] at e
    rwa [← abs_neg, show -(Erf b' - r) = -Erf b' - -r by ring]

example : (0x3f000000 : Nat) < f32.size ∧ f32.Is 0x3f000000 (1 / 2) ∧ |(1 / 2 : ℝ)| ≤ 1 := by
  refine ⟨by decide +kernel, ⟨2 ^ 148, by decide +kernel, ?_⟩, by rw [abs_of_pos] <;> norm_num⟩
  rw [one32_val]; push_cast; norm_num

end Nanostl.Math

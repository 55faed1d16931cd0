import Verif.Math.SinPoly

/-!
`sin` and `cos` (nanomath.h:545-595): the pieces put together.
-/

namespace Nanostl.Math
open Nanostl.Float

theorem is_invPi : f32.Is (f64.convert f32 kM_1_PI) (10680707 / 2 ^ 25) := by
  refine ⟨10680707 * 2 ^ 124, by decide +kernel, ?_⟩
  rw [one32_val]; push_cast; norm_num

theorem is_pi2 : f32.Is (f64.convert f32 kM_PI_2) (13176795 / 2 ^ 23) := by
  refine ⟨13176795 * 2 ^ 126, by decide +kernel, ?_⟩
  rw [one32_val]; push_cast; norm_num

theorem pi2_lt : f64.convert f32 kM_PI_2 < f32.size := by decide +kernel

/-- The reduced argument. -/
theorem sincos_arg {x : Nat} {X : ℝ} (h : f32.Is x X) (hX : |X| ≤ 8192) : ∃ (q : ℤ) (a : ℝ),
    fastRint (f32.mul x (f64.convert f32 kM_1_PI)) = some q ∧
    f32.Is (f32.sub (f64.convert f32 kM_PI_2) (f32.sub (f64.convert f32 kM_PI_2) (reduce 4 x (f32.ofInt q)))) a ∧
    |a - (X - q * Real.pi)| ≤ 61 / 10 ^ 8 ∧ |a| ≤ 15726 / 10 ^ 4 := by
  have hpi1 := Real.pi_gt_d20
  have hpi2 := Real.pi_lt_d20
  have hpi0 := Real.pi_pos
  have hz0 : |X * (10680707 / 2 ^ 25)| ≤ 26077 / 10 := by
    rw [abs_mul, abs_of_pos (by norm_num : (0 : ℝ) < 10680707 / 2 ^ 25)]
    refine le_trans (mul_le_mul_of_nonneg_right hX (by norm_num)) (by norm_num)
  obtain ⟨z, hz, hzr⟩ := Fmt.is_mul Fmt.good32 h is_invPi (by rw [bias32]; exact le_trans hz0 (by norm_num))
  have hz1 := rnd32 hzr
  have hz2 : |z - X * (10680707 / 2 ^ 25)| ≤ 16 / 10 ^ 5 := by
    refine le_trans hz1 ?_
    have := mul_le_mul_of_nonneg_right hz0 (show (0 : ℝ) ≤ ulp by num)
    refine le_trans (add_le_add_left this _) ?_
    num
  have hzb : |z| ≤ 26078 / 10 := by
    have := abs_add_le (z - X * (10680707 / 2 ^ 25)) (X * (10680707 / 2 ^ 25))
    rw [sub_add_cancel] at this
    refine le_trans this (le_trans (add_le_add hz2 hz0) (by norm_num))
  obtain ⟨q, hq1, hq2, hq3⟩ := fastRint_spec (Fmt.mul_lt Fmt.good32 _ _) hz (le_trans hzb (by norm_num))
  have hqb : |(q : ℝ)| ≤ 26088 / 10 := by linarith
  have hzq : |z - q| ≤ 1 / 2 + 156 / 10 ^ 6 := by
    refine le_trans hq2 ?_
    have : (|z| + 1) / 2 ^ 24 ≤ (26088 / 10) / 2 ^ 24 := div_le_div_of_nonneg_right (by linarith) (by norm_num)
    refine le_trans (add_le_add_right this _) (by norm_num)
  have hr : |X - q * (Real.pi * 2 ^ 2 / 4)| ≤ 15724 / 10 ^ 4 := by
    have e : X - q * (Real.pi * 2 ^ 2 / 4) = X * (1 - 10680707 / 2 ^ 25 * Real.pi) + Real.pi * (X * (10680707 / 2 ^ 25) - z) + Real.pi * (z - q) := by ring
    have a1 : |1 - 10680707 / 2 ^ 25 * Real.pi| ≤ 41 / 10 ^ 9 := by rw [abs_le]; norm_num at *; constructor <;> linarith
    have t1 : |X * (1 - 10680707 / 2 ^ 25 * Real.pi)| ≤ 8192 * (41 / 10 ^ 9) := by
      rw [abs_mul]; exact mul_le_mul hX a1 (abs_nonneg _) (by norm_num)
    have t2 : |Real.pi * (X * (10680707 / 2 ^ 25) - z)| ≤ (31416 / 10 ^ 4) * (16 / 10 ^ 5) := by
      rw [abs_mul, abs_of_pos hpi0, abs_sub_comm]
      exact mul_le_mul (by norm_num at *; linarith) hz2 (abs_nonneg _) (by norm_num)
    have t3 : |Real.pi * (z - q)| ≤ Real.pi * (1 / 2 + 156 / 10 ^ 6) := by
      rw [abs_mul, abs_of_pos hpi0]
      exact mul_le_mul_of_nonneg_left hzq (le_of_lt hpi0)
    rw [e]
    refine le_trans (abs_add_le _ _) ?_
    refine le_trans (add_le_add_left (abs_add_le _ _) _) ?_
    norm_num at *
    linarith
  have red := reduce_spec (j := 2) (.inr rfl) h (q := q) (by norm_num at *; linarith) hr
  rw [show Real.pi * 2 ^ 2 / 4 = Real.pi by ring] at red hr
  have p2 := Ap.of_is is_pi2 (R := 13176795 / 2 ^ 23) (by norm_num)
  have hr' := abs_le.1 hr
  have s1 := p2.addH red.neg (32 / 10) (1 / 2 ^ 23) 127 (by norm_num) (by norm_num) (by
    refine le_trans (abs_add_le _ _) ?_
    rw [abs_neg]
    refine le_trans (add_le_add_right hr _) ?_
    rw [abs_of_pos (by norm_num)]; norm_num) (by norm_num)
  have e2 : (13176795 / 2 ^ 23 : ℝ) + -(13176795 / 2 ^ 23 + -(X - q * Real.pi)) = X - q * Real.pi := by ring
  have s2 := p2.addH s1.neg (15724 / 10 ^ 4) (1 / 2 ^ 24) 126 (by norm_num) (by norm_num) (by rw [e2]; exact hr) (by norm_num)
  rw [e2] at s2
  obtain ⟨a, ha1, ha2⟩ := s2.ex
  have ha3 : |a - (X - q * Real.pi)| ≤ 61 / 10 ^ 8 := le_trans ha2 (by norm_num)
  refine ⟨q, a, hq1, ha1, ha3, ?_⟩
  have := abs_add_le (a - (X - q * Real.pi)) (X - q * Real.pi)
  rw [sub_add_cancel] at this
  refine le_trans this (le_trans (add_le_add ha3 hr) (by norm_num))

/-- Patterns of numbers next to `pi / 2`. -/
theorem is_window {x : Nat} {a : ℝ} (hx : x < f32.size) (h : f32.Is x a) (h0 : 13172395 / 2 ^ 23 ≤ |a|) (h1 : |a| < 13181195 / 2 ^ 23) :
    ∃ g X, x = pat g X 126 ∧ 13172395 ≤ X ∧ X < 13181195 := by
  obtain ⟨v, hv, hva⟩ := h
  obtain ⟨hlow, hvs⟩ := f32.val_eq_fin hv
  have hone : (f32.one : ℝ) = 2 ^ 149 := by rw [one32_val]
  have hab : (f32.mag (f32.low x) : ℝ) = |a| * 2 ^ 149 := by
    rw [← hone, ← abs_of_pos f32.one_posR, ← abs_mul, ← hva, hvs]
    unfold signed
    split <;> simp
  have m0 : f32.mag (126 * 2 ^ 23 + 13172395) = 13172395 * 2 ^ 126 := pat_mag (by decide) (by decide)
  have m1 : f32.mag (126 * 2 ^ 23 + 13181195) = 13181195 * 2 ^ 126 := pat_mag (by decide) (by decide)
  have l0 : 126 * 2 ^ 23 + 13172395 ≤ f32.low x := by
    rw [← f32.mag_le_iff, m0]
    have : ((13172395 * 2 ^ 126 : Nat) : ℝ) ≤ f32.mag (f32.low x) := by
      rw [hab, Nat.cast_mul, Nat.cast_pow]
      norm_num at *
      linarith
    exact_mod_cast this
  have l1 : f32.low x < 126 * 2 ^ 23 + 13181195 := by
    rw [← f32.mag_lt_iff, m1]
    have : (f32.mag (f32.low x) : ℝ) < ((13181195 * 2 ^ 126 : Nat) : ℝ) := by
      rw [hab, Nat.cast_mul, Nat.cast_pow]
      norm_num at *
      linarith
    exact_mod_cast this
  refine ⟨f32.sign x, f32.low x - 126 * 2 ^ 23, ?_, by omega, by omega⟩
  unfold pat
  rw [show 126 * 2 ^ 23 + (f32.low x - 126 * 2 ^ 23) = f32.low x by omega, f32.withSign_self hx]

/-- How far the polynomials are from the functions. -/
theorem poly_sin {a : ℝ} (ha : |a| ≤ 15726 / 10 ^ 4) : |a * a * (PS (a * a) * a) + a - Real.sin a| ≤ 112 / 10 ^ 10 := by
  have h1 := ps_close (mul_self_nonneg a) (le_trans (sq_bound ha) (by norm_num))
  have h2 := (taylor a (le_trans ha (by norm_num))).1
  have h3 : |a| ^ 16 / 10461394944000 ≤ 14 / 10 ^ 11 := by
    refine le_trans (div_le_div_of_nonneg_right (pow_le_pow_left₀ (abs_nonneg _) ha 16) (by norm_num)) (by norm_num)
  have h4 : |a * (1 + a * a * PS (a * a) - taylorS (a * a))| ≤ 15726 / 10 ^ 4 * (70 / 10 ^ 10) := by
    rw [abs_mul]; exact mul_le_mul ha h1 (abs_nonneg _) (by norm_num)
  rw [sq] at h2
  rw [show a * a * (PS (a * a) * a) + a - Real.sin a = a * (1 + a * a * PS (a * a) - taylorS (a * a)) + -(Real.sin a - a * taylorS (a * a)) by ring]
  refine le_trans (abs_add_le _ _) ?_
  rw [abs_neg]
  refine le_trans (add_le_add h4 (le_trans h2 h3)) (by norm_num)

theorem poly_cos {a : ℝ} (ha : |a| ≤ 15726 / 10 ^ 4) : |PC (a * a) * (a * a) + 1 - Real.cos a| ≤ 2302 / 10 ^ 10 := by
  have h1 := pc_close (mul_self_nonneg a) (le_trans (sq_bound ha) (by norm_num))
  have h2 := (taylor a (le_trans ha (by norm_num))).2
  have h3 : |a| ^ 16 / 10461394944000 ≤ 14 / 10 ^ 11 := by
    refine le_trans (div_le_div_of_nonneg_right (pow_le_pow_left₀ (abs_nonneg _) ha 16) (by norm_num)) (by norm_num)
  rw [sq] at h2
  rw [show PC (a * a) * (a * a) + 1 - Real.cos a = (1 + a * a * PC (a * a) - taylorC (a * a)) + -(Real.cos a - taylorC (a * a)) by ring]
  refine le_trans (abs_add_le _ _) ?_
  rw [abs_neg]
  refine le_trans (add_le_add h1 (le_trans h2 h3)) (by norm_num)

/-- Away from `pi / 2` the sine is below 1. -/
theorem sin_away {a : ℝ} (ha : |a| ≤ 15726 / 10 ^ 4) (h : |a| < 13172395 / 2 ^ 23 ∨ 13181195 / 2 ^ 23 ≤ |a|) : |Real.sin a| ≤ 1 - 1372 / 10 ^ 10 := by
  have hpi1 := Real.pi_gt_d20
  have hpi2 := Real.pi_lt_d20
  have h0 : 0 ≤ |a| := abs_nonneg a
  have e : |Real.sin a| = Real.sin |a| := by
    have hp : 0 ≤ Real.sin |a| := Real.sin_nonneg_of_nonneg_of_le_pi h0 (by norm_num at *; linarith)
    rcases le_total 0 a with hc | hc
    · rw [abs_of_nonneg hc] at hp ⊢; exact abs_of_nonneg hp
    · rw [abs_of_nonpos hc, Real.sin_neg] at hp ⊢; exact abs_of_nonpos (by linarith)
  rw [e, ← Real.cos_sub_pi_div_two, ← Real.cos_abs]
  have hd : (524 / 10 ^ 6 : ℝ) ≤ |(|a|) - Real.pi / 2| := by
    rcases h with h | h
    · rw [abs_of_neg (by norm_num at *; linarith)]; norm_num at *; linarith
    · rw [abs_of_pos (by norm_num at *; linarith)]; norm_num at *; linarith
  have hd' : |(|a|) - Real.pi / 2| ≤ Real.pi := by
    rw [abs_le]; constructor <;> linarith [Real.pi_pos, abs_nonneg a]
  refine le_trans (Real.cos_le_cos_of_nonneg_of_le_pi (by norm_num) hd' hd) ?_
  have := abs_le.1 (Real.cos_bound (x := 524 / 10 ^ 6) (by rw [abs_of_pos (by norm_num)]; norm_num))
  rw [abs_of_pos (by norm_num : (0 : ℝ) < 524 / 10 ^ 6)] at this
  norm_num at this ⊢
  linarith [this.2]

/-- The polynomial of `sin` as evaluated: within 2e-7, and not above 1. -/
theorem sinTail_spec {x : Nat} {a : ℝ} (hx : x < f32.size) (h : f32.Is x a) (ha : |a| ≤ 15726 / 10 ^ 4) :
    ∃ b, f32.Is (sinTail (f32.mul x x) x) b ∧ |b - Real.sin a| ≤ 193 / 10 ^ 9 ∧ |b| ≤ 1 := by
  have hs0 := (Ap.of_is h ha).mulH (Ap.of_is h ha) (1 / 2 ^ 23) 127 (by norm_num) (by norm_num) (by norm_num)
  have hs : Ap (f32.mul x x) (a * a) (24731 / 10 ^ 4) (1 / 2 ^ 23) :=
    hs0.weaken (by rw [abs_of_nonneg (mul_self_nonneg a)]; exact sq_bound ha) (by norm_num)
  have hm := sinMul_ap hs h ha
  have hp := poly_sin ha
  have hsum : |a * a * (PS (a * a) * a) + a| ≤ 1 + 112 / 10 ^ 10 := by
    have := abs_add_le (a * a * (PS (a * a) * a) + a - Real.sin a) (Real.sin a)
    rw [sub_add_cancel] at this
    have := Real.abs_sin_le_one a
    linarith
  have hf := hm.addH (Ap.of_is h ha) (1 + 112 / 10 ^ 10) (1 / 2 ^ 24) 126 (by norm_num) (by norm_num) hsum (by norm_num)
  obtain ⟨b, hb1, hb2⟩ := hf.ex
  refine ⟨b, hb1, ?_, ?_⟩
  · have := abs_add_le (b - (a * a * (PS (a * a) * a) + a)) (a * a * (PS (a * a) * a) + a - Real.sin a)
    rw [sub_add_sub_cancel] at this
    refine le_trans this (le_trans (add_le_add hb2 hp) (by norm_num))
  · by_cases hw : 13172395 / 2 ^ 23 ≤ |a| ∧ |a| < 13181195 / 2 ^ 23
    · obtain ⟨g, X, rfl, hX0, hX1⟩ := is_window hx h hw.1 hw.2
      obtain ⟨b', hb', hle⟩ := sinTail_chk g (by omega) (window hX0 hX1)
      rw [hb1.unique hb']
      exact hle
    · have haw := sin_away ha (by
        by_cases hc : |a| < 13172395 / 2 ^ 23
        · exact .inl hc
        · exact .inr (not_lt.1 fun hc' => hw ⟨not_lt.1 hc, hc'⟩))
      obtain ⟨p, hp1, hp2⟩ := hm.ex
      have hpa : |p + a| ≤ 1 := by
        have h1 := abs_add_le (p - a * a * (PS (a * a) * a)) (a * a * (PS (a * a) * a) + a - Real.sin a)
        have h2 := abs_add_le (p - a * a * (PS (a * a) * a) + (a * a * (PS (a * a) * a) + a - Real.sin a)) (Real.sin a)
        rw [show p - a * a * (PS (a * a) * a) + (a * a * (PS (a * a) * a) + a - Real.sin a) + Real.sin a = p + a by ring] at h2
        refine le_trans h2 (le_trans (add_le_add (le_trans h1 (add_le_add hp2 hp)) haw) (by norm_num))
      obtain ⟨c, hc1, hc2, -⟩ := Fmt.is_add Fmt.good32 hp1 h (by rw [bias32]; exact le_trans hpa (by norm_num))
      rw [abs_le] at hpa
      rw [hb1.unique hc1]
      exact abs_le.mpr ⟨hc2.ge _ _ is_one32.neg hpa.1, hc2.le _ _ is_one32 hpa.2⟩

/-- The polynomial of `cos` (nanomath.h:586-591), as evaluated by the code. -/
def cosMul (s : Nat) : Nat :=
  f32.mul (madd (madd (madd (madd (negLit 271811842367242206819355 30) s (f32.litNeg 247990446951007470488548 28)) s
    (negLit 138888787478208541870117 26)) s (f32.litNeg 416666641831398010253906 25)) s (negLit 5 1)) s

theorem is_litc1 : f32.Is (negLit 271811842367242206819355 30) (-(9563529 / 2 ^ 45)) := by
  refine ⟨-(9563529 * 2 ^ 104), by decide +kernel, ?_⟩
  rw [one32_val]; push_cast; norm_num
theorem is_litc2 : f32.Is (f32.litNeg 247990446951007470488548 28) (13633419 / 2 ^ 39) := by
  refine ⟨13633419 * 2 ^ 110, by decide +kernel, ?_⟩
  rw [one32_val]; push_cast; norm_num
theorem is_litc3 : f32.Is (negLit 138888787478208541870117 26) (-(11930456 / 2 ^ 33)) := by
  refine ⟨-(11930456 * 2 ^ 116), by decide +kernel, ?_⟩
  rw [one32_val]; push_cast; norm_num
theorem is_litc4 : f32.Is (f32.litNeg 416666641831398010253906 25) (11184810 / 2 ^ 28) := by
  refine ⟨11184810 * 2 ^ 121, by decide +kernel, ?_⟩
  rw [one32_val]; push_cast; norm_num
theorem is_litc5 : f32.Is (negLit 5 1) (-(1 / 2)) := by
  refine ⟨-(2 ^ 148), by decide +kernel, ?_⟩
  rw [one32_val]; push_cast; norm_num

theorem PC_bound {s : ℝ} (h0 : 0 ≤ s) (h1 : s ≤ 24731 / 10 ^ 4) :
    |-(9563529 / 2 ^ 45) * s + (13633419 / 2 ^ 39 : ℝ)| ≤ 13633419 / 2 ^ 39 ∧
    |(-(9563529 / 2 ^ 45) * s + 13633419 / 2 ^ 39) * s + -(11930456 / 2 ^ 33)| ≤ 11930456 / 2 ^ 33 ∧
    |((-(9563529 / 2 ^ 45) * s + 13633419 / 2 ^ 39) * s + -(11930456 / 2 ^ 33)) * s + 11184810 / 2 ^ 28| ≤ 11184810 / 2 ^ 28 ∧
    |PC s| ≤ 1 / 2 ∧ PC s ≤ -(39 / 100) := by
  have a1 : 0 ≤ -(9563529 / 2 ^ 45) * s + (13633419 / 2 ^ 39 : ℝ) := by norm_num at *; linarith
  have a2 : -(9563529 / 2 ^ 45) * s + (13633419 / 2 ^ 39 : ℝ) ≤ 13633419 / 2 ^ 39 := by norm_num at *; linarith
  have b1 := mul_nonneg a1 h0
  have b2 := mul_le_mul a2 h1 h0 (by norm_num)
  have c1 : -(11930456 / 2 ^ 33) ≤ (-(9563529 / 2 ^ 45) * s + 13633419 / 2 ^ 39) * s + -(11930456 / 2 ^ 33) := by linarith
  have c2 : (-(9563529 / 2 ^ 45) * s + 13633419 / 2 ^ 39) * s + -(11930456 / 2 ^ 33) ≤ 0 := by
    refine le_trans (add_le_add_left b2 _) (by norm_num)
  have d1 := mul_nonpos_of_nonpos_of_nonneg c2 h0
  have d2 : -(11930456 / 2 ^ 33) * (24731 / 10 ^ 4) ≤ ((-(9563529 / 2 ^ 45) * s + 13633419 / 2 ^ 39) * s + -(11930456 / 2 ^ 33)) * s := by
    have := mul_le_mul_of_nonneg_right c1 h0
    refine le_trans ?_ this
    exact mul_le_mul_of_nonpos_left h1 (by norm_num)
  have e1 : 0 ≤ ((-(9563529 / 2 ^ 45) * s + 13633419 / 2 ^ 39) * s + -(11930456 / 2 ^ 33)) * s + 11184810 / 2 ^ 28 := by
    refine le_trans ?_ (add_le_add_left d2 _)
    norm_num
  have e2 : ((-(9563529 / 2 ^ 45) * s + 13633419 / 2 ^ 39) * s + -(11930456 / 2 ^ 33)) * s + 11184810 / 2 ^ 28 ≤ 11184810 / 2 ^ 28 := by linarith
  have f1 := mul_nonneg e1 h0
  have f2 := mul_le_mul e2 h1 h0 (by norm_num)
  have g : PC s ≤ -(39 / 100) := by
    unfold PC
    refine le_trans (add_le_add_left f2 _) (by norm_num)
  refine ⟨abs_le.mpr ⟨by linarith, a2⟩, abs_le.mpr ⟨c1, by linarith⟩, abs_le.mpr ⟨by linarith, e2⟩, abs_le.mpr ⟨by unfold PC; linarith, by linarith⟩, g⟩

theorem cosMul_ap {s : Nat} {a : ℝ} (hs : Ap s (a * a) (24731 / 10 ^ 4) (1 / 2 ^ 23)) (ha : |a| ≤ 15726 / 10 ^ 4) :
    Ap (cosMul s) (PC (a * a) * (a * a)) (124 / 100) (24 / 10 ^ 8) ∧ ∀ c, f32.Is (cosMul s) c → (∀ b, f32.Is s b → 0 ≤ b) → c ≤ 0 := by
  have s0 : 0 ≤ a * a := mul_self_nonneg a
  obtain ⟨B1, B2, B3, B4, B5⟩ := PC_bound s0 (sq_bound ha)
  have l1 := Ap.of_is is_litc1 (R := 9563529 / 2 ^ 45) (by norm_num)
  have l2 := Ap.of_is is_litc2 (R := 13633419 / 2 ^ 39) (by norm_num)
  have l3 := Ap.of_is is_litc3 (R := 11930456 / 2 ^ 33) (by norm_num)
  have l4 := Ap.of_is is_litc4 (R := 11184810 / 2 ^ 28) (by norm_num)
  have l5 := Ap.of_is is_litc5 (R := 1 / 2) (by norm_num)
  have p1 := l1.mulH hs (1 / 2 ^ 45) 105 (by norm_num) (by norm_num) (by norm_num)
  have a1 := p1.addH l2 (13633419 / 2 ^ 39) (1 / 2 ^ 40) 110 (by norm_num) (by norm_num) B1 (by norm_num)
  have p2 := a1.mulH hs (1 / 2 ^ 38) 112 (by norm_num) (by norm_num) (by norm_num)
  have a2 := p2.addH l3 (11930456 / 2 ^ 33) (1 / 2 ^ 34) 116 (by norm_num) (by norm_num) B2 (by norm_num)
  have p3 := a2.mulH hs (1 / 2 ^ 33) 117 (by norm_num) (by norm_num) (by norm_num)
  have a3 := p3.addH l4 (11184810 / 2 ^ 28) (1 / 2 ^ 29) 121 (by norm_num) (by norm_num) B3 (by norm_num)
  have p4 := a3.mulH hs (1 / 2 ^ 28) 122 (by norm_num) (by norm_num) (by norm_num)
  have a4 := p4.addH l5 (1 / 2) (1 / 2 ^ 25) 125 (by norm_num) (by norm_num) B4 (by norm_num)
  have p5 := a4.mulH hs (1 / 2 ^ 24) 126 (by norm_num) (by norm_num) (by norm_num)
  refine ⟨p5.weaken (le_trans p5.bd (by norm_num)) (by norm_num), ?_⟩
  intro c hc hs1
  obtain ⟨u, hu1, hu2⟩ := a4.ex
  obtain ⟨w, hw1, hw2⟩ := hs.ex
  have hu3 : u ≤ 0 := by
    have := (abs_le.1 hu2).2
    have hPC : PC (a * a) = (((-(9563529 / 2 ^ 45) * (a * a) + 13633419 / 2 ^ 39) * (a * a) + -(11930456 / 2 ^ 33)) * (a * a) + 11184810 / 2 ^ 28) * (a * a) + -(1 / 2) := rfl
    rw [← hPC] at this
    have e : PC (a * a) + 1 / 10 ≤ 0 := by linarith
    refine le_trans ?_ e
    rw [sub_le_iff_le_add'] at this
    refine le_trans this (add_le_add_right ?_ _)
    norm_num
  have hw3 := hs1 w hw1
  have hw4 : w ≤ 3 := by
    have := (abs_le.1 hw2).2
    have := sq_bound ha
    norm_num at *
    linarith
  have hu4 : -1 ≤ u := by
    have := (abs_le.1 hu2).1
    have hPC : PC (a * a) = (((-(9563529 / 2 ^ 45) * (a * a) + 13633419 / 2 ^ 39) * (a * a) + -(11930456 / 2 ^ 33)) * (a * a) + 11184810 / 2 ^ 28) * (a * a) + -(1 / 2) := rfl
    rw [← hPC] at this
    have e : -(1 / 2) ≤ PC (a * a) := (abs_le.1 B4).1
    have e2 : -(1 / 2 : ℝ) ≤ u - PC (a * a) := by
      refine le_trans ?_ this
      norm_num
    linarith
  have hm : u * w ≤ 0 := mul_nonpos_of_nonpos_of_nonneg hu3 hw3
  obtain ⟨d, hd1, hd2⟩ := Fmt.is_mul Fmt.good32 hu1 hw1 (by
    rw [bias32, abs_of_nonpos hm]
    have : -(u * w) ≤ 3 := by nlinarith
    exact le_trans this (by norm_num))
  have : c = d := hc.unique hd1
  rw [this]
  exact hd2.le _ _ (Fmt.is_zero Fmt.good32) hm

/-- The polynomial of `cos` as evaluated: within 6e-7, and not above 1. -/
theorem cosTail_spec {x : Nat} {a : ℝ} (h : f32.Is x a) (ha : |a| ≤ 15726 / 10 ^ 4) :
    ∃ b, f32.Is (f32.add (cosMul (f32.mul x x)) one32) b ∧ |b - Real.cos a| ≤ 54 / 10 ^ 8 ∧ |b| ≤ 1 := by
  have hs0 := (Ap.of_is h ha).mulH (Ap.of_is h ha) (1 / 2 ^ 23) 127 (by norm_num) (by norm_num) (by norm_num)
  have hs : Ap (f32.mul x x) (a * a) (24731 / 10 ^ 4) (1 / 2 ^ 23) :=
    hs0.weaken (by rw [abs_of_nonneg (mul_self_nonneg a)]; exact sq_bound ha) (by norm_num)
  obtain ⟨hm, hneg⟩ := cosMul_ap hs ha
  have hp := poly_cos ha
  obtain ⟨c, hc1, hc2⟩ := hm.ex
  have hc0 : c ≤ 0 := hneg c hc1 (by
    intro b hb
    obtain ⟨d, hd1, hd2⟩ := Fmt.is_mul Fmt.good32 h h (by
      rw [bias32, abs_of_nonneg (mul_self_nonneg a)]
      exact le_trans (sq_bound ha) (by norm_num))
    rw [hb.unique hd1]
    exact hd2.ge _ _ (Fmt.is_zero Fmt.good32) (mul_self_nonneg a))
  have hc3 : -(3 / 2) ≤ c := by
    have h1 := (abs_le.1 hc2).1
    have h2 := (abs_le.1 hm.bd).1
    norm_num at *
    linarith
  have hsum : |c + 1| ≤ 1 := abs_le.mpr ⟨by linarith, by linarith⟩
  obtain ⟨b, hb1, hb2, -⟩ := Fmt.is_add Fmt.good32 hc1 is_one32 (by rw [bias32]; exact le_trans hsum (by norm_num))
  have hh := rnd_half hb2 125 (by norm_num) (h := 1 / 2 ^ 25) (by norm_num) (le_trans hsum (by norm_num))
  refine ⟨b, hb1, ?_, ?_⟩
  · have h1 := abs_add_le (b - (c + 1)) (c - PC (a * a) * (a * a))
    have h2 := abs_add_le (b - (c + 1) + (c - PC (a * a) * (a * a))) (PC (a * a) * (a * a) + 1 - Real.cos a)
    rw [show b - (c + 1) + (c - PC (a * a) * (a * a)) + (PC (a * a) * (a * a) + 1 - Real.cos a) = b - Real.cos a by ring] at h2
    refine le_trans h2 (le_trans (add_le_add (le_trans h1 (add_le_add hh hc2)) hp) (by norm_num))
  · rw [abs_le] at hsum
    exact abs_le.mpr ⟨hb2.ge _ _ is_one32.neg hsum.1, hb2.le _ _ is_one32 hsum.2⟩

end Nanostl.Math

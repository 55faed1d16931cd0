import Verif.Math.Sqrt
import Verif.Math.Hyper

/-!
`cbrt` (nanomath.h:683-696): the first guess from the bit pattern divided by three, and the Newton steps.
-/

namespace Nanostl.Math
open Nanostl.Float Nanostl.Float.Fmt

/-- The tangent of the cube from below. -/
theorem cube_tangent {u v : ℝ} (hu : 0 ≤ u) (hv : 0 ≤ v) : 3 * v ^ 2 * u - 2 * v ^ 3 ≤ u ^ 3 := by
  nlinarith [mul_nonneg (show 0 ≤ u + 2 * v by linarith) (sq_nonneg (u - v))]

/-- The chord of the cube from above. -/
theorem cube_chord {A q w : ℝ} (hA : 0 ≤ A) (h0 : 0 ≤ q) (h1 : q ≤ 1) (hw : 0 ≤ w) (h : w ≤ A + q / 3) :
    w ^ 3 ≤ A ^ 3 + q * ((A + 1 / 3) ^ 3 - A ^ 3) := by
  have h2 : w ^ 3 ≤ (A + q / 3) ^ 3 := pow_le_pow_left₀ hw h 3
  have h3 : 0 ≤ q * (1 - q) := mul_nonneg h0 (by linarith)
  nlinarith [mul_nonneg hA h3, mul_nonneg h0 h3]

/-- The first guess `g` for the cube root of `a`. -/
theorem cbrt_guess {x : Nat} {a : ℝ} (hx : x < f32.size) (h : f32.Is x a) (ha : 1 / 2 ^ 126 ≤ a) :
    ∃ g, f32.Is (u32 (0x2a5137a0 + Int.tdiv (i32 x) 3)) g ∧ 0 < g ∧ 91183 / 10 ^ 5 * a ≤ g ^ 3 ∧ g ^ 3 ≤ 110166 / 10 ^ 5 * a := by
  obtain ⟨p1, p2, p3⟩ := normal_parts hx h ha
  rw [inf32] at p2
  have hi : i32 x = x := by unfold i32; rw [if_pos (by omega)]
  have hU : u32 (0x2a5137a0 + Int.tdiv (i32 x) 3) = 709965728 + x / 3 := by
    rw [hi, Int.tdiv_eq_ediv_of_nonneg (by omega)]; unfold u32; omega
  rw [hU]
  obtain ⟨E, M, hM, rfl⟩ : ∃ E M, M < 2 ^ 23 ∧ x = E * 2 ^ 23 + M := ⟨x / 2 ^ 23, x % 2 ^ 23, by omega, by omega⟩
  rw [show (E * 2 ^ 23 + M) % 2 ^ 23 = M by omega, show (E * 2 ^ 23 + M) / 2 ^ 23 = E by omega] at p3
  have hE : 1 ≤ E ∧ E ≤ 254 := by omega
  have hq0 : (0 : ℝ) ≤ M / 2 ^ 23 := by positivity
  have hMR : (M : ℝ) < 2 ^ 23 := by exact_mod_cast hM
  have hq1 : (M : ℝ) / 2 ^ 23 ≤ 1 := by rw [div_le_iff₀ (by norm_num)]; linarith
  have hK : (0 : ℝ) < (2 : ℝ) ^ ((E : ℤ) - 127) := by positivity
  have key : ∀ (e f : Nat) (k : ℤ), 709965728 + (E * 2 ^ 23 + M) / 3 = e * 2 ^ 23 + f → f < 2 ^ 23 → 1 ≤ e → e ≤ 254 →
      3 * (e : ℤ) - 254 - E = k →
      91183 / 10 ^ 5 * (1 + (M : ℝ) / 2 ^ 23) ≤ (1 + (f : ℝ) / 2 ^ 23) ^ 3 * 2 ^ k → (1 + (f : ℝ) / 2 ^ 23) ^ 3 * 2 ^ k ≤ 110166 / 10 ^ 5 * (1 + (M : ℝ) / 2 ^ 23) →
      ∃ g, f32.Is (709965728 + (E * 2 ^ 23 + M) / 3) g ∧ 0 < g ∧ 91183 / 10 ^ 5 * a ≤ g ^ 3 ∧ g ^ 3 ≤ 110166 / 10 ^ 5 * a := by
    intro e f k h1 h2 h3 h4 h5 h6 h7
    rw [h1]
    obtain ⟨y1, y2, y3, y4⟩ := pattern_parts h2 h3 h4
    have hn := is_normal y1 y2
    rw [y3, y4] at hn
    refine ⟨_, hn, by positivity, ?_⟩
    have hz : ((2 : ℝ) ^ ((e : ℤ) - 127)) ^ 3 = 2 ^ k * (2 : ℝ) ^ ((E : ℤ) - 127) := by
      rw [← zpow_natCast, ← zpow_mul, ← zpow_add₀ (by norm_num)]
      congr 1
      push_cast
      omega
    rw [mul_pow, hz, p3, ← mul_assoc, ← mul_assoc, ← mul_assoc]
    exact ⟨mul_le_mul_of_nonneg_right h6 hK.le, mul_le_mul_of_nonneg_right h7 hK.le⟩
  generalize hq : (M : ℝ) / 2 ^ 23 = q at *
  have hMq : (M : ℝ) = q * 2 ^ 23 := by rw [← hq]; field_simp
  have third : ∀ n : Nat, ∃ ε : ℝ, 0 ≤ ε ∧ ε ≤ 1 ∧ ((n / 3 : Nat) : ℝ) = n / 3 - ε := by
    intro n
    have hd := Nat.div_add_mod n 3
    have hm : n % 3 < 3 := Nat.mod_lt _ (by norm_num)
    have h1 : (3 * (n / 3 : Nat) + (n % 3 : Nat) : ℝ) = n := by exact_mod_cast hd
    have h2 : ((n % 3 : Nat) : ℝ) < 3 := by exact_mod_cast hm
    have h3 : (0 : ℝ) ≤ ((n % 3 : Nat) : ℝ) := Nat.cast_nonneg _
    exact ⟨n / 3 - (n / 3 : Nat), by linarith, by linarith, by ring⟩
  obtain ⟨k, hk | hk | hk⟩ : ∃ k, E = 3 * k ∨ E = 3 * k + 1 ∨ E = 3 * k + 2 := ⟨E / 3, by omega⟩
  · obtain ⟨ε, e0, e1, e2⟩ := third M
    have hf : ((5322656 + M / 3 : Nat) : ℝ) / 2 ^ 23 = 5322656 / 2 ^ 23 + q / 3 - ε / 2 ^ 23 := by
      push_cast; rw [e2, hMq]; ring
    refine key (84 + k) (5322656 + M / 3) (-2) (by omega) (by omega) (by omega) (by omega) (by push_cast; omega) ?_ ?_
    · rw [hf]
      have := cube_tangent (u := 1 + (5322656 / 2 ^ 23 + q / 3 - ε / 2 ^ 23)) (v := 1968 / 1000) (by norm_num; linarith) (by norm_num)
      norm_num at *; linarith
    · rw [hf]
      have := cube_chord (A := 1 + 5322656 / 2 ^ 23) (w := 1 + (5322656 / 2 ^ 23 + q / 3 - ε / 2 ^ 23)) (by norm_num) hq0 hq1 (by norm_num; linarith) (by norm_num; linarith)
      norm_num at *; linarith
  · obtain ⟨ε, e0, e1, e2⟩ := third (2 ^ 23 + M)
    push_cast at e2
    rcases Nat.lt_or_ge (5322656 + (2 ^ 23 + M) / 3) (2 ^ 23) with hc | hc
    · have hf : ((5322656 + (2 ^ 23 + M) / 3 : Nat) : ℝ) / 2 ^ 23 = 5322656 / 2 ^ 23 + 1 / 3 + q / 3 - ε / 2 ^ 23 := by
        push_cast; rw [e2, hMq]; ring
      have hc2 : ((5322656 + (2 ^ 23 + M) / 3 : Nat) : ℝ) / 2 ^ 23 < 1 := by
        rw [div_lt_one (by norm_num)]; exact_mod_cast hc
      rw [hf] at hc2
      refine key (84 + k) (5322656 + (2 ^ 23 + M) / 3) (-3) (by omega) (by omega) (by omega) (by omega) (by push_cast; omega) ?_ ?_
      · rw [hf]
        have := cube_tangent (u := 1 + (5322656 / 2 ^ 23 + 1 / 3 + q / 3 - ε / 2 ^ 23)) (v := 2) (by norm_num; linarith) (by norm_num)
        norm_num at *; linarith
      · rw [hf]
        have := cube_chord (A := 1 + 5322656 / 2 ^ 23 + 1 / 3) (w := 1 + (5322656 / 2 ^ 23 + 1 / 3 + q / 3 - ε / 2 ^ 23)) (by norm_num) hq0 hq1 (by norm_num; linarith) (by norm_num; linarith)
        norm_num at *; linarith
    · obtain ⟨F, hF⟩ : ∃ F, 5322656 + (8388608 + M) / 3 = 8388608 + F := ⟨_, (Nat.add_sub_cancel' hc).symm⟩
      have hFR : (5322656 : ℝ) + ((8388608 + M) / 3 : Nat) = 8388608 + F := by exact_mod_cast hF
      have hf : (F : ℝ) / 2 ^ 23 = 5322656 / 2 ^ 23 - 2 / 3 + q / 3 - ε / 2 ^ 23 := by
        rw [e2, hMq] at hFR
        have : (F : ℝ) = 5322656 + ((8388608 + q * 2 ^ 23) / 3 - ε) - 8388608 := by linarith
        rw [this]; ring
      have hc2 : (0 : ℝ) ≤ (F : ℝ) / 2 ^ 23 := by positivity
      rw [hf] at hc2
      clear hFR
      refine key (85 + k) F 0 (by omega) (by omega) (by omega) (by omega) (by push_cast; omega) ?_ ?_
      · rw [hf]
        have := cube_tangent (u := 1 + (5322656 / 2 ^ 23 - 2 / 3 + q / 3 - ε / 2 ^ 23)) (v := 1) (by norm_num; linarith) (by norm_num)
        norm_num at *; linarith
      · rw [hf]
        have := cube_chord (A := 1 + 5322656 / 2 ^ 23 - 2 / 3) (w := 1 + (5322656 / 2 ^ 23 - 2 / 3 + q / 3 - ε / 2 ^ 23)) (by norm_num) hq0 hq1 (by norm_num; linarith) (by norm_num; linarith)
        norm_num at *; linarith
  · obtain ⟨ε, e0, e1, e2⟩ := third (2 ^ 24 + M)
    push_cast at e2
    have hc : 2 ^ 23 ≤ 5322656 + (2 ^ 24 + M) / 3 := by omega
    obtain ⟨F, hF⟩ : ∃ F, 5322656 + (16777216 + M) / 3 = 8388608 + F := ⟨_, (Nat.add_sub_cancel' hc).symm⟩
    have hFR : (5322656 : ℝ) + ((16777216 + M) / 3 : Nat) = 8388608 + F := by exact_mod_cast hF
    have hf : (F : ℝ) / 2 ^ 23 = 5322656 / 2 ^ 23 - 1 / 3 + q / 3 - ε / 2 ^ 23 := by
      rw [e2, hMq] at hFR
      have : (F : ℝ) = 5322656 + ((16777216 + q * 2 ^ 23) / 3 - ε) - 8388608 := by linarith
      rw [this]; ring
    clear hFR
    refine key (85 + k) F (-1) (by omega) (by omega) (by omega) (by omega) (by push_cast; omega) ?_ ?_
    · rw [hf]
      have := cube_tangent (u := 1 + (5322656 / 2 ^ 23 - 1 / 3 + q / 3 - ε / 2 ^ 23)) (v := 13 / 10) (by norm_num; linarith) (by norm_num)
      norm_num at *; linarith
    · rw [hf]
      have := cube_chord (A := 1 + 5322656 / 2 ^ 23 - 1 / 3) (w := 1 + (5322656 / 2 ^ 23 - 1 / 3 + q / 3 - ε / 2 ^ 23)) (by norm_num) hq0 hq1 (by norm_num; linarith) (by norm_num; linarith)
      norm_num at *; linarith

/-- `x` is `y` up to the relative error `u`. -/
structure Rel (u x y : ℝ) : Prop where
  lo : (1 - u) * y ≤ x
  hi : x ≤ (1 + u) * y

theorem Rel.trans {u v w x y z : ℝ} (h : Rel u x y) (h' : Rel v y z) (hz : 0 ≤ z) (hu : 0 ≤ u) (hu1 : u ≤ 1)
    (h1 : (1 + u) * (1 + v) ≤ 1 + w) (h2 : 1 - w ≤ (1 - u) * (1 - v)) : Rel w x z := by
  constructor
  · calc (1 - w) * z ≤ (1 - u) * (1 - v) * z := mul_le_mul_of_nonneg_right h2 hz
      _ = (1 - u) * ((1 - v) * z) := by ring
      _ ≤ (1 - u) * y := mul_le_mul_of_nonneg_left h'.lo (by linarith)
      _ ≤ x := h.lo
  · calc x ≤ (1 + u) * y := h.hi
      _ ≤ (1 + u) * ((1 + v) * z) := mul_le_mul_of_nonneg_left h'.hi (by linarith)
      _ = (1 + u) * (1 + v) * z := by ring
      _ ≤ (1 + w) * z := mul_le_mul_of_nonneg_right h1 hz

theorem Rel.add {u x y x' y' : ℝ} (h : Rel u x y) (h' : Rel u x' y') : Rel u (x + x') (y + y') :=
  ⟨by linarith [h.lo, h'.lo], by linarith [h.hi, h'.hi]⟩

theorem Rel.weaken {u v x y : ℝ} (h : Rel u x y) (hy : 0 ≤ y) (huv : u ≤ v) : Rel v x y :=
  ⟨by nlinarith [h.lo], by nlinarith [h.hi]⟩

theorem Rel.pos {u x y : ℝ} (h : Rel u x y) (hy : 0 < y) (hu : u < 1) : 0 < x :=
  lt_of_lt_of_le (mul_pos (by linarith) hy) h.lo

theorem Rel.scale {u x y : ℝ} (h : Rel u x y) {k : ℝ} (hk : 0 ≤ k) : Rel u (k * x) (k * y) :=
  ⟨by nlinarith [mul_le_mul_of_nonneg_left h.lo hk], by nlinarith [mul_le_mul_of_nonneg_left h.hi hk]⟩

theorem Rel.inv {u w x y A : ℝ} (h : Rel u x y) (hA : 0 ≤ A) (hy : 0 < y) (hu : 0 ≤ u) (hu1 : u < 1) (h1 : 1 ≤ (1 + w) * (1 - u)) (h2 : (1 - w) * (1 + u) ≤ 1) :
    Rel w (A / x) (A / y) := by
  have hx := h.pos hy hu1
  constructor
  · rw [le_div_iff₀ hx]
    rcases le_or_gt w 1 with hw | hw
    · calc (1 - w) * (A / y) * x ≤ (1 - w) * (A / y) * ((1 + u) * y) := mul_le_mul_of_nonneg_left h.hi (mul_nonneg (by linarith) (by positivity))
        _ = (1 - w) * (1 + u) * A := by field_simp
        _ ≤ 1 * A := mul_le_mul_of_nonneg_right h2 hA
        _ = A := one_mul A
    · have : (1 - w) * (A / y) * x ≤ 0 := mul_nonpos_of_nonpos_of_nonneg (mul_nonpos_of_nonpos_of_nonneg (by linarith) (by positivity)) hx.le
      linarith
  · rw [div_le_iff₀ hx]
    have hw : 0 ≤ 1 + w := by
      by_contra hc
      have : (1 + w) * (1 - u) ≤ 0 := mul_nonpos_of_nonpos_of_nonneg (by linarith) (by linarith)
      linarith
    calc A = 1 * A := (one_mul A).symm
      _ ≤ (1 + w) * (1 - u) * A := mul_le_mul_of_nonneg_right h1 hA
      _ = (1 + w) * (A / y) * ((1 - u) * y) := by field_simp
      _ ≤ (1 + w) * (A / y) * x := mul_le_mul_of_nonneg_left h.lo (by positivity)

/-- Rounding of a number that is not tiny. -/
theorem rnd_rel {e c : ℝ} (h : f32.Rnd e c) (he : 1 / 2 ^ 100 ≤ e) : Rel (597 / 10 ^ 10) c e := by
  have h1 := abs_le.1 (rnd32 h)
  have h0 : 0 < e := lt_of_lt_of_le (by positivity) he
  rw [abs_of_pos h0] at h1
  have h2 : tiny ≤ e * (1 / 2 ^ 50) := by
    calc tiny = 1 / 2 ^ 100 * (1 / 2 ^ 50) := by num
      _ ≤ _ := mul_le_mul_of_nonneg_right he (by positivity)
  have h3 : ulp + 1 / 2 ^ 50 ≤ 597 / 10 ^ 10 := by num
  have h4 : e * (ulp + 1 / 2 ^ 50) ≤ e * (597 / 10 ^ 10) := mul_le_mul_of_nonneg_left h3 h0.le
  constructor <;> linarith [h1.1, h1.2]

theorem is_third : f32.Is (f32.litNeg 333333333 9) (11184811 / 2 ^ 25) := by
  refine ⟨11184811 * 2 ^ 124, by decide +kernel, ?_⟩
  rw [one32_val]; push_cast; norm_num

/-- One Newton step of `cbrt`: the rounding errors sum up to 2.8e-7. -/
theorem cbrt_step {x y : Nat} {A Y : ℝ} (hx : f32.Is x A) (hy : f32.Is y Y) (hA : 1 / 2 ^ 24 ≤ A) (hY : 1 / 2 ^ 10 ≤ Y) (hY1 : Y ≤ 2 ^ 50)
    (hq0 : 1 / 2 ^ 50 ≤ A / (Y * Y)) (hq1 : A / (Y * Y) ≤ 2 ^ 60) :
    ∃ z, f32.Is (f32.mul (f32.litNeg 333333333 9) (f32.add (f32.mul (f32.litPos 2 0) y) (f32.div x (f32.mul y y)))) z ∧
      Rel (28 / 10 ^ 8) z ((2 * Y + A / (Y * Y)) / 3) := by
  have hY0 : 0 < Y := lt_of_lt_of_le (by positivity) hY
  have hA0 : 0 < A := lt_of_lt_of_le (by positivity) hA
  have hYY : Y * Y ≤ 2 ^ 100 := by
    calc Y * Y ≤ 2 ^ 50 * 2 ^ 50 := mul_le_mul hY1 hY1 hY0.le (by norm_num)
      _ = _ := by norm_num
  have hYYl : 1 / 2 ^ 20 ≤ Y * Y := by
    calc (1 / 2 ^ 20 : ℝ) = 1 / 2 ^ 10 * (1 / 2 ^ 10) := by norm_num
      _ ≤ _ := mul_le_mul hY hY (by norm_num) hY0.le
  obtain ⟨s, hs, rs⟩ := is_mul good32 hy hy (by rw [bias32, abs_of_pos (by positivity)]; exact le_trans hYY (by norm_num))
  have Rs := rnd_rel rs (le_trans (by norm_num) hYYl)
  have hs0 := Rs.pos (by positivity) (by norm_num)
  have Rv := Rs.inv (w := 598 / 10 ^ 10) (A := A) hA0.le (by positivity) (by norm_num) (by norm_num) (by norm_num) (by norm_num)
  have hAs0 : 0 < A / s := by positivity
  have hAsl : 1 / 2 ^ 100 ≤ A / s := by
    refine le_trans ?_ Rv.lo
    norm_num at *; linarith
  have hAsu : A / s ≤ 2 ^ 61 := by
    refine le_trans Rv.hi ?_
    norm_num at *; linarith
  obtain ⟨v, hv, rv⟩ := is_div good32 hx hs hs0.ne' (by rw [bias32, abs_of_pos hAs0]; exact le_trans hAsu (by norm_num))
  have Rv2 := (rnd_rel rv hAsl).trans Rv (w := 1196 / 10 ^ 10) (by positivity) (by norm_num) (by norm_num) (by norm_num) (by norm_num)
  obtain ⟨w, hw, rw1⟩ := is_mul good32 is_two32 hy (by
    rw [bias32, abs_of_pos (by positivity)]
    exact le_trans (by linarith : 2 * Y ≤ 2 ^ 51) (by norm_num))
  have Rw := (rnd_rel rw1 (by norm_num at *; linarith)).weaken (v := 1196 / 10 ^ 10) (by positivity) (by norm_num)
  have Rt := Rw.add Rv2
  have hN0 : 0 < 2 * Y + A / (Y * Y) := by positivity
  have hNu : 2 * Y + A / (Y * Y) ≤ 2 ^ 61 := by norm_num at *; linarith
  have hNl : 1 / 2 ^ 50 ≤ 2 * Y + A / (Y * Y) := by linarith
  have ht0 := Rt.pos hN0 (by norm_num)
  have htu : w + v ≤ 2 ^ 62 := le_trans Rt.hi (by norm_num at *; linarith)
  have htl : 1 / 2 ^ 100 ≤ w + v := le_trans (by norm_num at *; linarith) Rt.lo
  obtain ⟨t, ht, rt, -⟩ := is_add good32 hw hv (by rw [bias32, abs_of_pos ht0]; exact le_trans htu (by norm_num))
  have Rt2 := (rnd_rel rt htl).trans Rt (w := 1795 / 10 ^ 10) hN0.le (by norm_num) (by norm_num) (by norm_num) (by norm_num)
  have ht20 := Rt2.pos hN0 (by norm_num)
  have ht2u : t ≤ 2 ^ 62 := le_trans Rt2.hi (by norm_num at *; linarith)
  have ht2l : 1 / 2 ^ 60 ≤ t := le_trans (by norm_num at *; linarith) Rt2.lo
  obtain ⟨z, hz, rz⟩ := is_mul good32 is_third ht (by
    rw [bias32, abs_of_pos (by positivity)]
    norm_num at *; linarith)
  have Rz := rnd_rel rz (by norm_num at *; linarith)
  have R3 : Rel (1 / 2 ^ 25) (11184811 / 2 ^ 25 * t) (t / 3) := ⟨by linarith, by linarith⟩
  have R4 := Rz.trans R3 (w := 896 / 10 ^ 10) (by positivity) (by norm_num) (by norm_num) (by norm_num) (by norm_num)
  have R5 : Rel (1795 / 10 ^ 10) (t / 3) ((2 * Y + A / (Y * Y)) / 3) := ⟨by linarith [Rt2.lo], by linarith [Rt2.hi]⟩
  exact ⟨z, hz, R4.trans R5 (by positivity) (by norm_num) (by norm_num) (by norm_num) (by norm_num)⟩

/-- The exact Newton step: the square of the relative error, up to a factor. -/
theorem newton_cube {c A Y d k : ℝ} (hc : 0 < c) (hA : c ^ 3 = A) (h : Rel d Y c) (hd : d < 1)
    (hk : 3 + 2 * d ≤ 3 * k * (1 - d) ^ 2) (hk1 : 0 ≤ k) : c ≤ (2 * Y + A / (Y * Y)) / 3 ∧ (2 * Y + A / (Y * Y)) / 3 ≤ (1 + k * d ^ 2) * c := by
  obtain ⟨u, hu⟩ : ∃ u, Y = u * c := ⟨Y / c, by field_simp⟩
  have h1 : 1 - d ≤ u := by
    have := h.lo; rw [hu] at this; exact le_of_mul_le_mul_right this hc
  have h2 : u ≤ 1 + d := by
    have := h.hi; rw [hu] at this; exact le_of_mul_le_mul_right this hc
  have hu0 : 0 < u := by linarith
  have he : (2 * Y + A / (Y * Y)) / 3 = (1 + (u - 1) ^ 2 * (2 * u + 1) / (3 * u ^ 2)) * c := by
    rw [hu, ← hA]; field_simp; ring
  rw [he]
  have hsq : (u - 1) ^ 2 ≤ d ^ 2 := by nlinarith
  constructor
  · have : 0 ≤ (u - 1) ^ 2 * (2 * u + 1) / (3 * u ^ 2) := by positivity
    nlinarith
  · apply mul_le_mul_of_nonneg_right _ hc.le
    have : (u - 1) ^ 2 * (2 * u + 1) / (3 * u ^ 2) ≤ k * d ^ 2 := by
      rw [div_le_iff₀ (by positivity)]
      have a1 : 2 * u + 1 ≤ 3 * k * u ^ 2 := by
        have : (1 - d) ^ 2 ≤ u ^ 2 := by nlinarith
        have := mul_le_mul_of_nonneg_left this (show 0 ≤ 3 * k by positivity)
        linarith
      calc (u - 1) ^ 2 * (2 * u + 1) ≤ d ^ 2 * (3 * k * u ^ 2) := mul_le_mul hsq a1 (by linarith) (by positivity)
        _ = _ := by ring
    linarith

end Nanostl.Math

import Verif.Math.SinCos
import Mathlib.Analysis.SpecialFunctions.Trigonometric.Bounds

/-!
C67: `sin` and `cos` (nanomath.h:545-595).
-/

namespace Nanostl.Math
open Nanostl.Float

theorem mul_neg_neg {x : Nat} {a : ℝ} (h : f32.Is x a) : f32.mul (f32.neg x) (f32.neg x) = f32.mul x x := by
  obtain ⟨v, hv, -⟩ := h
  obtain ⟨hl, hs⟩ := f32.val_eq_fin hv
  have hn : f32.val (f32.neg x) = .fin (-v) := by
    unfold Fmt.neg
    rw [f32.val_withSign_fin hl, hs]
    cases f32.sign x <;> simp [signed]
  unfold Fmt.mul
  rw [hn, hv]
  by_cases h0 : v = 0
  · subst h0; simp
  · simp

theorem fabs_is {u : Nat} {b : ℝ} (h : f32.Is u b) : f32.Is (fabs f32 u) |b| := by
  unfold fabs
  have := Fmt.is_lt h (Fmt.is_zero Fmt.good32)
  split
  · rename_i hc
    rw [abs_of_neg (this.1 hc)]; exact h.neg
  · rename_i hc
    rw [abs_of_nonneg (not_lt.1 fun hb => hc (this.2 hb))]; exact h

theorem crush1_id {u : Nat} {b : ℝ} (h : f32.Is u b) (hb : |b| ≤ 1) : crush1 u = u := by
  unfold crush1
  rw [if_neg]
  intro hc
  have := (Fmt.is_lt is_one32 (fabs_is h)).1 hc
  linarith

theorem crush1_range (u : Nat) : f32.val (crush1 u) = .nan ∨ ∃ b, f32.Is (crush1 u) b ∧ |b| ≤ 1 := by
  unfold crush1
  split
  · exact .inr ⟨0, Fmt.is_zero Fmt.good32, by simp⟩
  · rename_i hc
    cases hu : f32.val u with
    | nan => exact .inl rfl
    | inf s =>
      exfalso
      have h1 := (c40_fabs_partial Fmt.good32 u).2.1 s hu
      apply hc
      unfold Fmt.lt
      rw [h1]
      decide +kernel
    | fin v =>
      have hI : f32.Is u (v / f32.one) := ⟨v, hu, by rw [div_mul_cancel₀ _ (ne_of_gt f32.one_posR)]⟩
      refine .inr ⟨_, hI, ?_⟩
      exact not_lt.1 fun h => hc ((Fmt.is_lt is_one32 (fabs_is hI)).2 h)

theorem sin_close (a c : ℝ) : |Real.sin a - Real.sin c| ≤ |a - c| := Real.abs_sin_sub_sin_le a c

theorem cos_close (a c : ℝ) : |Real.cos a - Real.cos c| ≤ |a - c| := by
  rw [← Real.sin_pi_div_two_sub, ← Real.sin_pi_div_two_sub, abs_sub_comm a c]
  refine le_trans (Real.abs_sin_sub_sin_le _ _) (le_of_eq ?_)
  congr 1; ring

/-- C67: for every `float` of magnitude up to 8192, `sin` and `cos` are defined, their results are in [-1, 1], and they are within 8.1e-7 and 1.2e-6
of the sine and cosine. Missing: larger arguments, see `c67_large_false`. -/
theorem c67_sin_cos_error_partial {x : Nat} {r : ℝ} (h : f32.Is x r) (hr : |r| ≤ 8192) :
    (∃ y b, sin x = some y ∧ f32.Is y b ∧ |b| ≤ 1 ∧ |b - Real.sin r| ≤ 81 / 10 ^ 8) ∧
    (∃ y b, cos x = some y ∧ f32.Is y b ∧ |b| ≤ 1 ∧ |b - Real.cos r| ≤ 12 / 10 ^ 7) := by
  obtain ⟨q, a, hq, ha, hae, hab⟩ := sincos_arg h hr
  have hsz : f32.sub (f64.convert f32 kM_PI_2) (f32.sub (f64.convert f32 kM_PI_2) (reduce 4 x (f32.ofInt q))) < f32.size :=
    Fmt.sub_lt Fmt.good32 pi2_lt
  have e1 := le_trans (sin_close a (r - q * Real.pi)) hae
  have e2 := le_trans (cos_close a (r - q * Real.pi)) hae
  constructor
  · unfold sin
    rw [hq]
    simp only [Option.bind_eq_bind, Option.bind_some, Option.pure_def]
    generalize f32.sub (f64.convert f32 kM_PI_2) (f32.sub (f64.convert f32 kM_PI_2) (reduce 4 x (f32.ofInt q))) = t at *
    rw [Real.sin_sub_int_mul_pi] at e1
    by_cases hodd : q % 2 ≠ 0
    · rw [if_pos hodd]
      obtain ⟨b, hb1, hb2, hb3⟩ := sinTail_spec (Fmt.neg_lt t) ha.neg (by rw [abs_neg]; exact hab)
      rw [mul_neg_neg ha] at hb1
      refine ⟨_, b, rfl, ?_, hb3, ?_⟩
      · change f32.Is (crush1 (sinTail (f32.mul t t) (f32.neg t))) b
        rw [crush1_id hb1 hb3]; exact hb1
      · have hO : Odd q := by rw [Int.odd_iff]; omega
        rw [hO.neg_one_zpow] at e1
        rw [Real.sin_neg] at hb2
        have := abs_add_le (b - -Real.sin a) (-(Real.sin a - -1 * Real.sin r))
        rw [abs_neg, show b - -Real.sin a + -(Real.sin a - -1 * Real.sin r) = b - Real.sin r by ring] at this
        refine le_trans this (le_trans (add_le_add hb2 e1) (by norm_num))
    · rw [if_neg hodd]
      obtain ⟨b, hb1, hb2, hb3⟩ := sinTail_spec hsz ha hab
      refine ⟨_, b, rfl, ?_, hb3, ?_⟩
      · change f32.Is (crush1 (sinTail (f32.mul t t) t)) b
        rw [crush1_id hb1 hb3]; exact hb1
      · have hE : Even q := by rw [Int.even_iff]; omega
        rw [hE.neg_one_zpow, one_mul] at e1
        have := abs_add_le (b - Real.sin a) (Real.sin a - Real.sin r)
        rw [sub_add_sub_cancel] at this
        refine le_trans this (le_trans (add_le_add hb2 e1) (by norm_num))
  · unfold cos
    rw [hq]
    simp only [Option.bind_eq_bind, Option.bind_some, Option.pure_def]
    generalize f32.sub (f64.convert f32 kM_PI_2) (f32.sub (f64.convert f32 kM_PI_2) (reduce 4 x (f32.ofInt q))) = t at *
    rw [Real.cos_sub_int_mul_pi] at e2
    obtain ⟨b, hb1, hb2, hb3⟩ := cosTail_spec ha hab
    by_cases hodd : q % 2 ≠ 0
    · rw [if_pos hodd]
      refine ⟨_, -b, rfl, ?_, by rw [abs_neg]; exact hb3, ?_⟩
      · change f32.Is (crush1 (f32.neg (f32.add (cosMul (f32.mul t t)) one32))) (-b)
        rw [crush1_id hb1.neg (by rw [abs_neg]; exact hb3)]; exact hb1.neg
      · have hO : Odd q := by rw [Int.odd_iff]; omega
        rw [hO.neg_one_zpow] at e2
        have := abs_add_le (-(b - Real.cos a)) (-(Real.cos a - -1 * Real.cos r))
        rw [abs_neg, abs_neg, show -(b - Real.cos a) + -(Real.cos a - -1 * Real.cos r) = -b - Real.cos r by ring] at this
        refine le_trans this (le_trans (add_le_add hb2 e2) (by norm_num))
    · rw [if_neg hodd]
      refine ⟨_, b, rfl, ?_, hb3, ?_⟩
      · change f32.Is (crush1 (f32.add (cosMul (f32.mul t t)) one32)) b
        rw [crush1_id hb1 hb3]; exact hb1
      · have hE : Even q := by rw [Int.even_iff]; omega
        rw [hE.neg_one_zpow, one_mul] at e2
        have := abs_add_le (b - Real.cos a) (Real.cos a - Real.cos r)
        rw [sub_add_sub_cancel] at this
        refine le_trans this (le_trans (add_le_add hb2 e2) (by norm_num))

/-- 0x42c80000 is 100.0f. -/
example : f32.Is 0x42c80000 100 ∧ sin 0x42c80000 = some 3204555055 := by
  refine ⟨⟨100 * 2 ^ 149, by decide +kernel, ?_⟩, by decide +kernel⟩
  rw [one32_val]; push_cast; norm_num

/-- C67, all arguments: whenever the call is defined, the result is NaN or in [-1, 1]. -/
theorem c67_range {x y : Nat} (h : sin x = some y ∨ cos x = some y) : f32.val y = .nan ∨ ∃ b, f32.Is y b ∧ |b| ≤ 1 := by
  rcases h with h | h
  · unfold sin at h
    cases hq : fastRint (f32.mul x (f64.convert f32 kM_1_PI)) with
    | none => rw [hq] at h; simp at h
    | some q =>
      rw [hq] at h
      simp only [Option.bind_eq_bind, Option.bind_some, Option.pure_def, Option.some.injEq] at h
      rw [← h]; exact crush1_range _
  · unfold cos at h
    cases hq : fastRint (f32.mul x (f64.convert f32 kM_1_PI)) with
    | none => rw [hq] at h; simp at h
    | some q =>
      rw [hq] at h
      simp only [Option.bind_eq_bind, Option.bind_some, Option.pure_def, Option.some.injEq] at h
      rw [← h]; exact crush1_range _

/-- C67 fails for large arguments: at 10^9 both functions return 0, though the squares of sine and cosine sum to 1; at 7 * 10^9, infinity and NaN the
conversion to `int` is undefined. -/
theorem c67_large_false : f32.Is 0x4e6e6b28 (10 ^ 9) ∧ sin 0x4e6e6b28 = some 0 ∧ cos 0x4e6e6b28 = some 0 ∧
    ¬(|0 - Real.sin (10 ^ 9)| ≤ 1 / 2 ∧ |0 - Real.cos (10 ^ 9)| ≤ 1 / 2) ∧
    sin 0x4fd09dc3 = none ∧ cos 0x4fd09dc3 = none ∧ (∃ v, f32.val 0x4fd09dc3 = .fin v) ∧
    sin f32.inf = none ∧ sin f32.qnan = none := by
  refine ⟨⟨10 ^ 9 * 2 ^ 149, by decide +kernel, ?_⟩, by decide +kernel, by decide +kernel, ?_, by decide +kernel, by decide +kernel, ?_,
    by decide +kernel, by decide +kernel⟩
  · rw [one32_val]; push_cast; norm_num
  · rintro ⟨h1, h2⟩
    rw [zero_sub, abs_neg] at h1 h2
    generalize (10 ^ 9 : ℝ) = t at h1 h2
    have h3 := Real.sin_sq_add_cos_sq t
    rw [← sq_abs (Real.sin _), ← sq_abs (Real.cos _)] at h3
    have h4 := pow_le_pow_left₀ (abs_nonneg _) h1 2
    have h5 := pow_le_pow_left₀ (abs_nonneg _) h2 2
    linarith
  · exact ⟨_, f32.val_of_low_lt (by decide +kernel)⟩

/-- C67, relative accuracy and symmetry fail: the sine of 2^-30 is 0, and `sin(-x)` is not `-sin(x)`, `cos(-x)` not `cos(x)`, for some `x` (about 0.46
and 1.21). -/
theorem c67_small_false : f32.Is 0x30800000 (1 / 2 ^ 30) ∧ sin 0x30800000 = some 0 ∧
    sin 0x3eeb851f = some 1055083820 ∧ sin (f32.neg 0x3eeb851f) = some (f32.neg 1055083816) ∧
    cos 0x3f9ae148 = some 1052032754 ∧ cos (f32.neg 0x3f9ae148) = some 1052032752 := by
  refine ⟨⟨2 ^ 119, by decide +kernel, ?_⟩, by decide +kernel, by decide +kernel, by decide +kernel, by decide +kernel, by decide +kernel⟩
  rw [one32_val]; push_cast; norm_num

end Nanostl.Math

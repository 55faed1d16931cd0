import Verif.Math.Erf

/-! C71: the error function. The specification is `Erf`, the integral 2/√π ∫₀ˣ exp(-t²) dt (ErfReal.lean). -/

namespace Nanostl.Math
open Nanostl.Float Nanostl.Float.Fmt

/-- The specification is what it should be: the integral, and the derivative 2/√π exp(-x²) with value 0 at 0. -/
example (x : ℝ) : Erf x = 2 / √Real.pi * ∫ t in (0 : ℝ)..x, Real.exp (-t ^ 2) := rfl

theorem fabs_ge {x : Nat} {s : Bool} (h : f32.val x = .inf s) : Ge (15 / 4) (fabs f32 x) := by
  unfold fabs Fmt.lt
  rw [h, show f32.val zero = .fin 0 from by decide +kernel]
  cases s
  · exact .inr h
  · exact .inr (val_neg_inf h)

/-- C71, the error: at most 3.5e-6 for every finite float. -/
theorem c71_erf_error {x : Nat} {r : ℝ} (hx : x < f32.size) (h : f32.Is x r) :
    ∃ b, f32.Is (erf x) b ∧ |b - Erf r| ≤ 35 / 10 ^ 7 := by
  obtain ⟨c, hc, -, -, he⟩ := erfA_spec (fabs_is h) (abs_nonneg r)
  obtain ⟨b, hb, hb1, -⟩ := odd_close Erf Erf_neg hx h hc (Erf_nonneg (abs_nonneg r))
  exact ⟨b, hb, le_trans hb1 he⟩

/-- C71, the range: every float that is not NaN, also an infinite one, gives a number of [-1, 1] on the side of the argument's sign;
from 15/4 on it is within 1.8e-7 of 1. -/
theorem c71_erf_range {x : Nat} (hx : x < f32.size) (hn : f32.val x ≠ .nan) :
    ∃ b, f32.Is (erf x) b ∧ (f32.sign x = false → 0 ≤ b ∧ b ≤ 1) ∧ (f32.sign x = true → -1 ≤ b ∧ b ≤ 0) ∧
      ((∃ s, f32.val x = .inf s) ∨ (∃ r, f32.Is x r ∧ 15 / 4 ≤ |r|) → 1 - 3 / 2 ^ 24 ≤ |b|) := by
  have key : ∃ c, f32.Is (erfA (fabs f32 x)) c ∧ 0 ≤ c ∧ c ≤ 1 ∧ ((∃ s, f32.val x = .inf s) ∨ (∃ r, f32.Is x r ∧ 15 / 4 ≤ |r|) → 1 - 3 / 2 ^ 24 ≤ c) := by
    cases hv : f32.val x with
    | nan => exact absurd hv hn
    | inf s =>
      obtain ⟨c, h1, h2, h3⟩ := erfA_big (fabs_ge hv)
      exact ⟨c, h1, le_trans (by norm_num) h2, h3, fun _ => h2⟩
    | fin v =>
      have hi : f32.Is x (v / f32.one) := ⟨v, hv, by have := f32.one_posR; field_simp⟩
      rcases le_or_gt (15 / 4) |(v : ℝ) / f32.one| with hb | hb
      · obtain ⟨c, h1, h2, h3⟩ := erfA_big (.inl ⟨_, fabs_is hi, hb⟩)
        exact ⟨c, h1, le_trans (by norm_num) h2, h3, fun _ => h2⟩
      · obtain ⟨c, h1, h2, h3, -⟩ := erfA_spec (fabs_is hi) (abs_nonneg _)
        refine ⟨c, h1, h2, h3, ?_⟩
        rintro (⟨s, h4⟩ | ⟨r, h4, h5⟩)
        · cases h4
        · rw [h4.unique hi] at h5; linarith
  obtain ⟨c, h1, h2, h3, h4⟩ := key
  refine ⟨_, is_copysign hx h1, ?_, ?_, ?_⟩
  · intro hs; rw [hs]; simp only [Bool.false_eq_true, if_false, abs_of_nonneg h2]; exact ⟨h2, h3⟩
  · intro hs; rw [hs]; simp only [if_true, abs_of_nonneg h2]; constructor <;> linarith
  · intro h; split
    · rw [abs_neg, abs_abs, abs_of_nonneg h2]; exact h4 h
    · rw [abs_abs, abs_of_nonneg h2]; exact h4 h

/-- C71: the function is odd. -/
theorem c71_erf_odd {x : Nat} {r b : ℝ} (hx : x < f32.size) (h : f32.Is x r) (hb : f32.Is (erf x) b) : f32.Is (erf (f32.neg x)) (-b) := by
  obtain ⟨c, hc, c0, -, -⟩ := erfA_spec (fabs_is h) (abs_nonneg r)
  have e := hb.unique (is_copysign hx hc)
  have hsn : f32.sign (f32.neg x) = !f32.sign x := by
    unfold Fmt.neg; exact f32.sign_withSign (f32.low_lt x)
  have key : f32.Is (erfA (fabs f32 (f32.neg x))) c := by
    by_cases hr : r = 0
    · subst hr
      obtain ⟨v, hv, hv0⟩ := h
      rw [zero_mul] at hv0
      have hv1 : v = 0 := by exact_mod_cast hv0
      subst hv1
      have hx2 : x = 0 ∨ x = 0x80000000 := by
        obtain ⟨-, h2⟩ := f32.val_eq_fin hv
        have hm : f32.mag (f32.low x) = 0 := by
          unfold signed at h2; split at h2 <;> omega
        have hl : f32.low x = 0 := f32.mag_eq_zero.1 hm
        have hs : f32.low x = x % 2 ^ 31 := rfl
        rw [size32] at hx
        omega
      have e0 : erfA (fabs f32 0) = erfA (fabs f32 (f32.neg 0)) := by decide +kernel
      have e1 : erfA (fabs f32 0x80000000) = erfA (fabs f32 (f32.neg 0x80000000)) := by decide +kernel
      rcases hx2 with rfl | rfl
      · rw [← e0]; exact hc
      · rw [← e1]; exact hc
    · have hnn : f32.neg (f32.neg x) = x := by
        have h1 : f32.low (f32.neg x) = f32.low x := by unfold Fmt.neg; exact f32.low_withSign (f32.low_lt x)
        have h2 : f32.neg (f32.neg x) = f32.withSign (!f32.sign (f32.neg x)) (f32.low (f32.neg x)) := rfl
        rw [h2, hsn, h1, Bool.not_not]
        exact f32.withSign_self hx
      have : fabs f32 (f32.neg x) = fabs f32 x := by
        have l1 : f32.lt x zero = true ↔ r < 0 := Fmt.is_lt h (Fmt.is_zero Fmt.good32)
        have l2 : f32.lt (f32.neg x) zero = true ↔ -r < 0 := Fmt.is_lt h.neg (Fmt.is_zero Fmt.good32)
        unfold fabs
        rcases lt_or_gt_of_ne hr with hr | hr
        · rw [if_neg (by rw [l2]; linarith), if_pos (l1.2 hr)]
        · rw [if_pos (l2.2 (by linarith)), if_neg (by rw [l1]; linarith), hnn]
      rw [this]; exact hc
  have e2 := is_copysign (f32.neg_lt x) key
  rw [hsn] at e2
  rw [e]
  change f32.Is (copysign (erfA (fabs f32 (f32.neg x))) (f32.neg x)) _
  cases hs : f32.sign x
  · rw [hs] at e2; simpa using e2
  · rw [hs] at e2; simpa using e2

theorem nan_of_low {x y : Nat} (h : f32.low y = f32.low x) (hx : f32.val x = .nan) : f32.val y = .nan := by
  have e1 : ∀ z, f32.expo z = f32.low z / 2 ^ 23 := fun z => rfl
  have e2 : ∀ z, f32.frac z = f32.low z % 2 ^ 23 := fun z => rfl
  unfold Fmt.val at *
  rw [e1, e2] at *
  rw [h]
  split at hx
  · split at hx
    · cases hx
    · rename_i h1 h2
      rw [if_pos h1, if_neg h2]
  · cases hx

/-- C71: NaN gives NaN. -/
theorem c71_erf_nan {x : Nat} (hx : x < f32.size) (h : f32.val x = .nan) : f32.val (erf x) = .nan ∧ f32.val (erfc x) = .nan := by
  have ha : f32.val (fabs f32 x) = .nan := by
    unfold fabs Fmt.lt
    rw [h]
    exact h
  have neg_nan : ∀ {y}, f32.val y = .nan → f32.val (f32.neg y) = .nan := by
    intro y hy
    unfold Fmt.neg
    exact nan_of_low (f32.low_withSign (f32.low_lt y)) hy
  have hs : ∀ {y}, f32.val y = .nan → f32.val (f32.sub one32 y) = .nan := fun hy => add_nan (.inr (neg_nan hy))
  have hm : ∀ {p y z}, f32.val y = .nan → f32.val (madd p y z) = .nan := fun hy => add_nan (.inl (mul_nan (.inr hy)))
  have hq : ∀ {y}, f32.val y = .nan → f32.val (f32.mul y y) = .nan := fun hy => mul_nan (.inl hy)
  have e : f32.val (erfA (fabs f32 x)) = .nan := by
    have hb := hs (hs ha)
    unfold erfA erfR pow16
    exact hs (div_nan (.inr (hq (hq (hq (hq (hm hb)))))))
  have e1 : f32.val (erf x) = .nan := by
    obtain ⟨-, h2, h3⟩ := c40_copysign (erfA (fabs f32 x)) x (by rw [size32] at hx; omega)
    exact nan_of_low h2 e
  exact ⟨e1, hs e1⟩

/-- C71, `erfc`: error at most 3.7e-6 for every finite float. -/
theorem c71_erfc_error {x : Nat} {r : ℝ} (hx : x < f32.size) (h : f32.Is x r) :
    ∃ b, f32.Is (erfc x) b ∧ |b - (1 - Erf r)| ≤ 37 / 10 ^ 7 := by
  obtain ⟨b, hb, he⟩ := c71_erf_error hx h
  have hn : f32.val x ≠ .nan := by obtain ⟨v, hv, -⟩ := h; rw [hv]; exact Val.noConfusion
  obtain ⟨b', hb', p1, p2, -⟩ := c71_erf_range hx hn
  rw [hb'.unique hb] at p1 p2
  have hb1 : -1 ≤ b ∧ b ≤ 1 := by
    cases hs : f32.sign x
    · have := p1 hs; constructor <;> linarith
    · have := p2 hs; constructor <;> linarith
  have h2 : |1 + -b| ≤ 2 := by rw [abs_le]; constructor <;> linarith
  obtain ⟨c, hc, rc, -⟩ := is_add good32 is_one32 hb.neg (by rw [bias32]; exact le_trans h2 (by norm_num))
  refine ⟨c, hc, ?_⟩
  have ce := abs_le.1 (rnd32 rc)
  have he := abs_le.1 he
  have ht : tiny ≤ 1 / 10 ^ 20 := by num
  rw [show ulp = 1 / 2 ^ 24 from rfl] at ce
  rw [abs_le]
  norm_num at *
  constructor <;> linarith

/-- C71, `erfc`: every float that is not NaN gives a number of [0, 2]. -/
theorem c71_erfc_range {x : Nat} (hx : x < f32.size) (hn : f32.val x ≠ .nan) : ∃ b, f32.Is (erfc x) b ∧ 0 ≤ b ∧ b ≤ 2 := by
  obtain ⟨b, hb, p1, p2, -⟩ := c71_erf_range hx hn
  have hb1 : -1 ≤ b ∧ b ≤ 1 := by
    cases hs : f32.sign x
    · have := p1 hs; constructor <;> linarith
    · have := p2 hs; constructor <;> linarith
  have h2 : |1 + -b| ≤ 2 := by rw [abs_le]; constructor <;> linarith
  obtain ⟨c, hc, rc, -⟩ := is_add good32 is_one32 hb.neg (by rw [bias32]; exact le_trans h2 (by norm_num))
  exact ⟨c, hc, rc.ge _ _ (is_zero good32) (by linarith), rc.le _ _ is_two32 (by linarith)⟩

/-- The hypotheses are met: at 1/2, where erf is .5204998..., at the infinities, and at NaN. -/
example : f32.Is 0x3f000000 (1 / 2) ∧ erf 0x3f000000 = 1057308538 ∧ erf f32.inf = one32 ∧ erf (f32.neg f32.inf) = f32.neg one32 ∧
    erfc f32.inf = 0 ∧ erfc (f32.neg f32.inf) = f32.litPos 2 0 ∧ f32.val f32.qnan = .nan := by
  refine ⟨⟨2 ^ 148, by decide +kernel, ?_⟩, by decide +kernel⟩
  rw [one32_val]; push_cast; norm_num

/-- The relative accuracy of `erf` near 0 and of `erfc` far out is lost: 2^-30 gives 0, and `erfc 5` is 0. -/
theorem c71_relative_false : f32.Is 0x30800000 (1 / 2 ^ 30) ∧ erf 0x30800000 = 0 ∧ f32.Is 0x40a00000 5 ∧ erfc 0x40a00000 = 0 := by
  refine ⟨⟨2 ^ 119, by decide +kernel, ?_⟩, by decide +kernel, ⟨5 * 2 ^ 149, by decide +kernel, ?_⟩, by decide +kernel⟩ <;>
  · rw [one32_val]; push_cast; norm_num

end Nanostl.Math

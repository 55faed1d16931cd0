import Verif.Math.IerfProps
import Verif.Math.HyperProps
import Verif.Math.CbrtProps
import Verif.Math.ErfProps
import Verif.Math.SinCosProps

/-! C136: which functions are odd or even. -/

namespace Nanostl.Math
open Nanostl.Float Nanostl.Float.Fmt

/-- `copysign` to the opposite sign is the opposite, for all bits. -/
theorem copysign_neg {x : Nat} (a : Nat) (hx : x < f32.size) : copysign a (f32.neg x) = f32.neg (copysign a x) := by
  have hsn : f32.sign (f32.neg x) = !f32.sign x := by unfold Fmt.neg; exact f32.sign_withSign (f32.low_lt x)
  have hn : f32.neg x < f32.size := Fmt.neg_lt x
  obtain ⟨k1, k2, k3⟩ := c40_copysign a (f32.neg x) (by rw [size32] at hn; omega)
  obtain ⟨-, l2, l3⟩ := c40_copysign a x (by rw [size32] at hx; omega)
  rw [show f32.neg (copysign a x) = f32.withSign (!f32.sign (copysign a x)) (f32.low (copysign a x)) from rfl, l2, l3, ← hsn, ← k3, ← k2]
  exact (f32.withSign_self (by rw [size32]; omega)).symm

/-- The two zeros. -/
theorem zero_cases {x : Nat} (hx : x < f32.size) (h : f32.val x = .fin 0) : x = 0 ∨ x = 0x80000000 := by
  obtain ⟨-, h2⟩ := f32.val_eq_fin h
  have hm : f32.mag (f32.low x) = 0 := by
    unfold signed at h2; split at h2 <;> omega
  have hl : f32.low x = 0 := f32.mag_eq_zero.1 hm
  have hs : f32.low x = x % 2 ^ 31 := rfl
  rw [size32] at hx
  omega

/-- The two infinities. -/
theorem inf_cases {x : Nat} {s : Bool} (hx : x < f32.size) (h : f32.val x = .inf s) : x = 0x7f800000 ∨ x = 0xff800000 := by
  have he : f32.expo x = x % 2 ^ 31 / 2 ^ 23 := rfl
  have hf : f32.frac x = x % 2 ^ 31 % 2 ^ 23 := rfl
  have hm : f32.emax = 255 := rfl
  unfold Fmt.val at h
  rw [size32] at hx
  split at h
  · split at h
    · omega
    · cases h
  · cases h

/-- `|-x|` and `|x|` have the same bits, except for zeros and NaN. -/
theorem sym_cases {x : Nat} (hx : x < f32.size) (hn : f32.val x ≠ .nan) : (x = 0 ∨ x = 0x80000000) ∨ fabs f32 (f32.neg x) = fabs f32 x := by
  cases hv : f32.val x with
  | nan => exact absurd hv hn
  | inf s => rcases inf_cases hx hv with rfl | rfl <;> exact .inr (by decide +kernel)
  | fin v =>
    have hi : f32.Is x (v / f32.one) := ⟨v, hv, by have := f32.one_posR; field_simp⟩
    by_cases h0 : v = 0
    · subst h0; exact .inl (zero_cases hx hv)
    · exact .inr (fabs_neg hx hi (div_ne_zero (by exact_mod_cast h0) f32.one_posR.ne'))

/-- **C136.** `sinh`, `tanh`, `erf` and `cbrt` are odd and `cosh` is even, to the bit, for every number, zeros and infinities included. -/
theorem c136_exact {x : Nat} (hx : x < f32.size) (hn : f32.val x ≠ .nan) :
    sinh (f32.neg x) = (sinh x).map f32.neg ∧ tanh (f32.neg x) = (tanh x).map f32.neg ∧ cosh (f32.neg x) = cosh x ∧
    erf (f32.neg x) = f32.neg (erf x) ∧ cbrt (f32.neg x) = f32.neg (cbrt x) := by
  rcases sym_cases hx hn with (rfl | rfl) | e
  · decide +kernel
  · decide +kernel
  · refine ⟨?_, ?_, ?_, ?_, ?_⟩
    · unfold sinh
      simp only [e, copysign_neg _ hx]
      split
      · cases exp (fabs f32 x) <;> rfl
      · rfl
    · unfold tanh
      simp only [e, copysign_neg _ hx]
      cases exp (f32.mul (f32.litPos 2 0) (fabs f32 x)) <;> rfl
    · unfold cosh
      rw [e]
    · unfold erf
      simp only [e, copysign_neg _ hx]
    · unfold cbrt
      simp only [e, copysign_neg _ hx]

/-- **C136.** `sin(-x)` and `-sin(x)` differ by at most 1.62e-6, and `cos(-x)` and `cos(x)` by at most 2.4e-6, for every number of absolute value up to 8192. Missing: that they are the same, which is false
(`c136_sin_cos_false`), and larger arguments. -/
theorem c136_sin_cos_partial {x : Nat} {r : ℝ} (h : f32.Is x r) (hr : |r| ≤ 8192) :
    (∃ y z b c, sin x = some y ∧ sin (f32.neg x) = some z ∧ f32.Is y b ∧ f32.Is z c ∧ |c + b| ≤ 162 / 10 ^ 8) ∧
    (∃ y z b c, cos x = some y ∧ cos (f32.neg x) = some z ∧ f32.Is y b ∧ f32.Is z c ∧ |c - b| ≤ 24 / 10 ^ 7) := by
  obtain ⟨⟨y, b, e1, hb, -, eb⟩, ⟨y', b', e1', hb', -, eb'⟩⟩ := c67_sin_cos_error_partial h hr
  obtain ⟨⟨z, c, e2, hc, -, ec⟩, ⟨z', c', e2', hc', -, ec'⟩⟩ := c67_sin_cos_error_partial h.neg (by rwa [abs_neg])
  rw [Real.sin_neg] at ec
  rw [Real.cos_neg] at ec'
  rw [abs_le] at eb ec eb' ec'
  refine ⟨⟨y, z, b, c, e1, e2, hb, hc, ?_⟩, ⟨y', z', b', c', e1', e2', hb', hc', ?_⟩⟩ <;> rw [abs_le] <;> constructor <;> linarith [eb.1, eb.2, ec.1, ec.2, eb'.1, eb'.2, ec'.1, ec'.2]

/-- `sin(-0.5f)` is not `-sin(0.5f)`, `cos(-0.5f)` not `cos(0.5f)` and `tan(-0.5f)` not `-tan(0.5f)`: the argument is rounded by subtracting it twice from pi/2 or pi/4, and the two sides are rounded differently. -/
theorem c136_sin_cos_false : f32.Is 0x3f000000 (1 / 2) ∧ sin (f32.neg 0x3f000000) ≠ (sin 0x3f000000).map f32.neg ∧ cos (f32.neg 0x3f000000) ≠ cos 0x3f000000 ∧
    tan (f32.neg 0x3f000000) ≠ (tan 0x3f000000).map f32.neg := by
  refine ⟨⟨2 ^ 148, by decide +kernel, ?_⟩, by decide +kernel, by decide +kernel, by decide +kernel⟩
  rw [one32_val]; push_cast; norm_num

/-- The hypotheses of `c136_exact` at 2 and at infinity, where the results are not zero. -/
example : (0x40000000 : Nat) < f32.size ∧ f32.val 0x40000000 ≠ .nan ∧ f32.val 0x7f800000 ≠ .nan ∧ erf 0x40000000 ≠ 0 ∧ cbrt 0x40000000 ≠ 0 ∧ sinh 0x40000000 ≠ some 0 ∧ tanh 0x7f800000 ≠ some 0 := by
  decide +kernel

end Nanostl.Math

import Verif.Math.Sqrt
import Verif.Math.LogProps
import Verif.Math.Props

/-!
C66: `sqrt` (nanomath.h:294-332).
-/

namespace Nanostl.Math
open Nanostl.Float

theorem normal_lt {x : Nat} {a : ℝ} (hx : x < f32.size) (h : f32.Is x a) (ha : 1 / 2 ^ 126 ≤ a) : a < 2 ^ 128 := by
  obtain ⟨p1, p2, p3⟩ := normal_parts hx h ha
  rw [inf32] at p2
  have hm : x % 2 ^ 23 < 2 ^ 23 := Nat.mod_lt _ (by norm_num)
  have hmR : ((x % 2 ^ 23 : Nat) : ℝ) < 2 ^ 23 := by exact_mod_cast hm
  have hE : ((x / 2 ^ 23 : Nat) : ℤ) - 127 ≤ 127 := by omega
  have h1 : (2 : ℝ) ^ (((x / 2 ^ 23 : Nat) : ℤ) - 127) ≤ 2 ^ (127 : ℤ) := zpow_le_zpow_right₀ (by norm_num) hE
  have h2 : (1 + ((x % 2 ^ 23 : Nat) : ℝ) / 2 ^ 23) < 2 := by
    have : ((x % 2 ^ 23 : Nat) : ℝ) / 2 ^ 23 < 1 := by rw [div_lt_one (by norm_num)]; exact hmR
    linarith
  rw [p3]
  calc _ < 2 * (2 : ℝ) ^ (((x / 2 ^ 23 : Nat) : ℤ) - 127) := mul_lt_mul_of_pos_right h2 (by positivity)
    _ ≤ 2 * 2 ^ (127 : ℤ) := mul_le_mul_of_nonneg_left h1 (by norm_num)
    _ = 2 ^ 128 := by norm_num

/-- C66, as far as it holds: for every positive normal argument the error of `sqrt` is at most 0.00177 of the square root, and none at 1. -/
theorem c66_sqrt_error_partial {x : Nat} {r : ℝ} (hx : x < f32.size) (h : f32.Is x r) (hr : 1 / 2 ^ 126 ≤ r) :
    ∃ b, f32.Is (sqrt x) b ∧ |b - √r| ≤ 177 / 10 ^ 5 * √r ∧ (r = 1 → b = 1) := by
  have hr0 : 0 < r := lt_of_lt_of_le (by norm_num) hr
  obtain ⟨h0, hn⟩ := pos_cases h hr0
  unfold sqrt
  rw [if_neg (fun hc => h0 (log_tests.1 hc)), hn]
  by_cases h1 : x = 0x3f800000
  · have : r = 1 := by rw [h1] at h; exact h.unique is_one32
    subst this
    simp only [h1, beq_self_eq_true, if_true]
    exact ⟨1, is_one32, by simp; norm_num, fun _ => rfl⟩
  · simp only [beq_iff_eq, h1, if_false, Bool.false_and, Bool.false_eq_true]
    obtain ⟨c, hc, he⟩ := sqrt_step hx h hr (normal_lt hx h hr)
    refine ⟨c, hc, he, fun hc1 => ?_⟩
    subst hc1
    have a := (Fmt.is_pos hx h (by norm_num)).2
    have b := (Fmt.is_pos (by decide +kernel) is_one32 (by norm_num)).2
    rw [← b] at a
    exact absurd (f32.mag_inj.1 (by exact_mod_cast a)) h1

/-- C66, special arguments: a zero is its own square root, the square root of a negative finite number and of NaN is NaN. -/
theorem c66_sqrt_special {x : Nat} : (f32.val x = .fin 0 → sqrt x = x) ∧
    (∀ v, f32.val x = .fin v → v < 0 → f32.val (sqrt x) = .nan) ∧ (f32.val x = .nan → f32.val (sqrt x) = .nan) := by
  have hz := val_zero Fmt.good32
  refine ⟨fun h => ?_, fun v h hv => ?_, fun h => ?_⟩
  · unfold sqrt
    rw [if_pos (log_tests.2 h)]
  · have hlt : f32.lt x zero = true := by
      unfold Fmt.lt
      rw [h, hz]
      simpa [Val.lt] using hv
    have h0 : f32.val x ≠ .fin 0 := by rw [h]; intro hc; cases hc; exact absurd hv (lt_irrefl _)
    have hinf : isinf32 x = false := by
      cases hc : isinf32 x
      · rfl
      · obtain ⟨s, hs⟩ := (c39_float x).2.1.1 hc
        rw [h] at hs; cases hs
    have h1 : x ≠ 0x3f800000 := by
      rintro rfl
      revert hlt
      decide +kernel
    unfold sqrt
    rw [if_neg (fun hc => h0 (log_tests.1 hc)), hlt, hinf]
    simp only [beq_iff_eq, h1, if_false, if_true, Bool.and_false, Bool.false_eq_true]
    decide +kernel
  · have hlt : f32.lt x zero = false := by
      unfold Fmt.lt
      rw [h, hz]; rfl
    have h0 : f32.val x ≠ .fin 0 := by rw [h]; simp
    have h1 : x ≠ 0x3f800000 := by
      rintro rfl
      revert h
      decide +kernel
    unfold sqrt
    rw [if_neg (fun hc => h0 (log_tests.1 hc)), hlt]
    simp only [beq_iff_eq, h1, if_false, Bool.false_and, Bool.false_eq_true]
    have hq : f32.val f32.qnan = .nan := by decide +kernel
    have m : ∀ a b, f32.val a = .nan → f32.val (f32.mul a b) = .nan := by
      intro a b ha
      unfold Fmt.mul
      rw [ha]
      exact hq
    exact m _ _ (m _ _ h)

/-- C66 fails at both infinities: the square root of +inf and of -inf is -inf. -/
theorem c66_sqrt_inf_false {x : Nat} {s : Bool} (hx : x < f32.size) (h : f32.val x = .inf s) : f32.val (sqrt x) = .inf true := by
  have hi := (c39_float x).2.1.2 ⟨s, h⟩
  rw [isinf32, Bool.and_eq_true, beq_iff_eq, beq_iff_eq] at hi
  have : x = 0x7f800000 ∨ x = 0xff800000 := by
    rw [mantissa32, exponent32, Nat.shiftRight_eq_div_pow, Nat.and_two_pow_sub_one_eq_mod, Nat.and_two_pow_sub_one_eq_mod] at hi
    rw [size32] at hx
    omega
  rcases this with rfl | rfl <;> decide +kernel

/-- C66 fails for subnormal arguments: the square root of 2^-149 comes out as less than a thousandth of it. -/
theorem c66_sqrt_subnormal_false : ∃ x r b, f32.Is x r ∧ 0 < r ∧ f32.Is (sqrt x) b ∧ b < √r / 1000 := by
  refine ⟨1, 1 / 2 ^ 149, 19817753709685768192 / 2 ^ 149, ⟨1, by decide +kernel, by rw [one32_val]; norm_num⟩, by norm_num,
    ⟨19817753709685768192, by decide +kernel, by rw [one32_val]; norm_num⟩, ?_⟩
  rw [lt_div_iff₀ (by norm_num)]
  apply Real.lt_sqrt_of_sq_lt
  norm_num

/-- 2.0 is positive and normal, -2.0 negative. -/
example : f32.Is 0x40000000 2 ∧ (1 : ℝ) / 2 ^ 126 ≤ 2 ∧ f32.val 0xc0000000 = .fin (-2 * f32.one) :=
  ⟨⟨2 * f32.one, by decide +kernel, by push_cast; ring⟩, by norm_num, by decide +kernel⟩

end Nanostl.Math

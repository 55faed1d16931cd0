import Verif.Math.Cbrt
import Verif.Math.SqrtProps

/-! C69: the cube root. The specification is the real number whose cube is the argument. -/

namespace Nanostl.Math
open Nanostl.Float Nanostl.Float.Fmt

theorem fabs_lt {x : Nat} (hx : x < f32.size) : fabs f32 x < f32.size := by
  unfold fabs
  split
  · exact Fmt.neg_lt _
  · exact hx

theorem exists_cbrt {A : ℝ} (h : 0 < A) : ∃ c, 0 < c ∧ c ^ 3 = A := by
  refine ⟨A ^ (1 / 3 : ℝ), Real.rpow_pos_of_pos h _, ?_⟩
  rw [← Real.rpow_natCast, ← Real.rpow_mul h.le]
  norm_num

/-- The value before the test for tiny arguments. -/
theorem cbrt_core {x : Nat} {A c : ℝ} (hx : x < f32.size) (h : f32.Is x A) (hA : 1 / 2 ^ 23 ≤ A) (hc : 0 < c) (hcA : c ^ 3 = A) :
    let third := f32.litNeg 333333333 9
    let two := f32.litPos 2 0
    let a := u32 (0x2a5137a0 + Int.tdiv (i32 x) 3)
    let a := f32.mul third (f32.add (f32.mul two a) (f32.div x (f32.mul a a)))
    ∃ b, f32.Is (f32.mul third (f32.add (f32.mul two a) (f32.div x (f32.mul a a)))) b ∧ Rel (17 / 10 ^ 7) b c := by
  intro third two
  have hA1 : A < 2 ^ 129 := lt_trans (normal_lt hx h (le_trans (by norm_num) hA)) (by norm_num)
  have hcl : 1 / 2 ^ 8 ≤ c := by
    by_contra hn
    have := pow_lt_pow_left₀ (not_le.1 hn) hc.le (n := 3) (by norm_num)
    norm_num at *; linarith
  have hcu : c ≤ 2 ^ 43 := by
    by_contra hn
    have := pow_lt_pow_left₀ (not_le.1 hn) (by norm_num) (n := 3) (by norm_num)
    norm_num at *; linarith
  obtain ⟨g, hg, g0, g1, g2⟩ := cbrt_guess hx h (le_trans (by norm_num) hA)
  have R0 : Rel (328 / 10 ^ 4) g c := by
    rw [← hcA] at g1 g2
    constructor
    · by_contra hn
      have := pow_lt_pow_left₀ (not_le.1 hn) g0.le (n := 3) (by norm_num)
      rw [mul_pow] at this
      have h3 : (1 - 328 / 10 ^ 4 : ℝ) ^ 3 * c ^ 3 ≤ 91183 / 10 ^ 5 * c ^ 3 := mul_le_mul_of_nonneg_right (by norm_num) (by positivity)
      linarith
    · by_contra hn
      have := pow_lt_pow_left₀ (not_le.1 hn) (by positivity) (n := 3) (by norm_num)
      rw [mul_pow] at this
      have h3 : 110166 / 10 ^ 5 * c ^ 3 ≤ (1 + 328 / 10 ^ 4 : ℝ) ^ 3 * c ^ 3 := mul_le_mul_of_nonneg_right (by norm_num) (by positivity)
      linarith
  have quot : ∀ {d Y : ℝ}, Rel d Y c → d ≤ 1 / 20 → 1 / 2 ^ 10 ≤ Y ∧ Y ≤ 2 ^ 50 ∧ 1 / 2 ^ 50 ≤ A / (Y * Y) ∧ A / (Y * Y) ≤ 2 ^ 60 := by
    intro d Y hR hd
    have hR2 := hR.weaken hc.le hd
    have l := hR2.lo
    have u := hR2.hi
    have hY : 1 / 2 ^ 10 ≤ Y := by norm_num at *; linarith
    have hY0 : 0 < Y := lt_of_lt_of_le (by norm_num) hY
    refine ⟨hY, by norm_num at *; linarith, ?_, ?_⟩
    · rw [le_div_iff₀ (by positivity), ← hcA]
      have h1 : Y * Y ≤ (2 * c) * (2 * c) := mul_le_mul (by linarith) (by linarith) hY0.le (by positivity)
      have h2 : 4 * c ^ 2 * (1 / 2 ^ 8) ≤ 4 * c ^ 2 * c := mul_le_mul_of_nonneg_left hcl (by positivity)
      nlinarith [sq_nonneg c]
    · rw [div_le_iff₀ (by positivity), ← hcA]
      have h1 : (c / 2) * (c / 2) ≤ Y * Y := mul_le_mul (by linarith) (by linarith) (by positivity) hY0.le
      have h2 : c ^ 2 * c ≤ c ^ 2 * 2 ^ 43 := mul_le_mul_of_nonneg_left hcu (by positivity)
      nlinarith [sq_nonneg c]
  obtain ⟨a1, a2, a3, a4⟩ := quot R0 (by norm_num)
  obtain ⟨z, hz, Rz⟩ := cbrt_step h hg (le_trans (by norm_num) hA) a1 a2 a3 a4
  have n1 := newton_cube hc hcA R0 (k := 1093 / 1000) (by norm_num) (by norm_num) (by norm_num)
  have R1 : Rel (1177 / 10 ^ 6) z c := by
    refine Rz.trans (v := 1093 / 1000 * (328 / 10 ^ 4) ^ 2) ⟨?_, n1.2⟩ hc.le (by norm_num) (by norm_num) (by norm_num) (by norm_num)
    have : 0 ≤ 1093 / 1000 * (328 / 10 ^ 4) ^ 2 * c := by positivity
    linarith [n1.1]
  obtain ⟨a1, a2, a3, a4⟩ := quot R1 (by norm_num)
  obtain ⟨b, hb, Rb⟩ := cbrt_step h hz (le_trans (by norm_num) hA) a1 a2 a3 a4
  have n2 := newton_cube hc hcA R1 (k := 10033 / 10000) (by norm_num) (by norm_num) (by norm_num)
  refine ⟨b, hb, Rb.trans (v := 10033 / 10000 * (1177 / 10 ^ 6) ^ 2) ⟨?_, n2.2⟩ hc.le (by norm_num) (by norm_num) (by norm_num) (by norm_num)⟩
  have : 0 ≤ 10033 / 10000 * (1177 / 10 ^ 6) ^ 2 * c := by positivity
  linarith [n2.1]

theorem is_eps32 : f32.Is epsilon32 (1 / 2 ^ 23) := by
  refine ⟨2 ^ 126, by decide +kernel, ?_⟩
  rw [one32_val]; push_cast; norm_num

/-- C69, the error: at most 1.7e-6 relative to the real cube root, for every finite float that is not below 2^-23 in magnitude. -/
theorem c69_cbrt_error_partial {x : Nat} {r : ℝ} (hx : x < f32.size) (h : f32.Is x r) (hr : 1 / 2 ^ 23 ≤ |r|) :
    ∃ b c, f32.Is (cbrt x) b ∧ c ^ 3 = r ∧ |b - c| ≤ 17 / 10 ^ 7 * |c| := by
  have ha := fabs_is h
  obtain ⟨c, hc, hcA⟩ := exists_cbrt (lt_of_lt_of_le (by norm_num) hr)
  obtain ⟨b, hb, hR⟩ := cbrt_core (fabs_lt hx) ha hr hc hcA
  have hlt : f32.lt (fabs f32 (fabs f32 x)) epsilon32 = false := by
    have := Fmt.is_lt (fabs_is ha) is_eps32
    rw [abs_abs] at this
    rw [Bool.eq_false_iff]
    intro hn
    linarith [this.1 hn]
  have hb0 := hR.pos hc (by norm_num)
  have hbc : |b - c| ≤ 17 / 10 ^ 7 * c := abs_le.2 ⟨by linarith [hR.lo], by linarith [hR.hi]⟩
  have hcs : f32.Is (cbrt x) (if f32.sign x = true then -|b| else |b|) := by
    unfold cbrt
    simp only [hlt, Bool.false_eq_true, if_false]
    exact is_copysign hx hb
  refine ⟨_, if f32.sign x = true then -c else c, hcs, ?_, ?_⟩
  · have hsg := sign_cases h
    split
    · rename_i hs
      rw [neg_pow, hcA, abs_of_nonpos (hsg.1 hs)]; ring
    · rename_i hs
      rw [hcA, abs_of_nonneg (hsg.2 (by simpa using hs))]
  · rw [abs_of_pos hb0]
    split
    · rw [abs_neg, abs_of_pos hc, ← neg_sub', abs_neg]; exact hbc
    · rw [abs_of_pos hc]; exact hbc

/-- The hypotheses are met: at -27. -/
example : f32.Is 0xc1d80000 (-27) ∧ cbrt 0xc1d80000 = 0xc0400003 ∧ f32.Is 0xc0400003 (-3 - 3 / 2 ^ 22) := by
  refine ⟨⟨-27 * 2 ^ 149, by decide +kernel, ?_⟩, by decide +kernel, ⟨-12582915 * 2 ^ 127, by decide +kernel, ?_⟩⟩ <;>
  · rw [one32_val]; push_cast; norm_num

/-- C69 fails for every number below 2^-23 in magnitude: the result is zero. -/
theorem c69_cbrt_tiny_false {x : Nat} {r : ℝ} (hx : x < f32.size) (h : f32.Is x r) (hr : |r| < 1 / 2 ^ 23) : f32.Is (cbrt x) 0 := by
  have hlt : f32.lt (fabs f32 (fabs f32 x)) epsilon32 = true :=
    (Fmt.is_lt (fabs_is (fabs_is h)) is_eps32).2 (by rw [abs_abs]; exact hr)
  have h0 : f32.Is (f32.ofInt 0) 0 := ⟨0, by decide +kernel, by simp⟩
  have := is_copysign hx h0
  rw [abs_zero, neg_zero, ite_self] at this
  unfold cbrt
  simp only [hlt, if_true]
  exact this

example : f32.Is 0x33800000 (1 / 2 ^ 24) ∧ cbrt 0x33800000 = 0 := by
  refine ⟨⟨2 ^ 125, by decide +kernel, ?_⟩, by decide +kernel⟩
  rw [one32_val]; push_cast; norm_num

/-- C69 fails for infinities, which give NaN. Zeros keep their sign and NaN gives NaN. -/
theorem c69_cbrt_inf_false : f32.val (cbrt f32.inf) = .nan ∧ f32.val (cbrt (f32.neg f32.inf)) = .nan ∧ f32.val (cbrt f32.qnan) = .nan ∧
    cbrt 0 = 0 ∧ cbrt 0x80000000 = 0x80000000 := by
  decide +kernel

end Nanostl.Math

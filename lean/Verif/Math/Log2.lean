import Verif.Math.Log2Poly
import Verif.Float.RealMore
import Mathlib.Analysis.SpecialFunctions.Log.Base

/-!
`fast_log2` (nanomath.h:443-467): the error of the result for every argument.
-/

namespace Nanostl.Math
open Nanostl.Float

theorem is_floatMin : f32.Is floatMin (1 / 2 ^ 126) := by
  refine ⟨2 ^ 23, by decide +kernel, ?_⟩
  rw [one32_val]; norm_num

theorem is_floatMax : f32.Is floatMax ((2 ^ 24 - 1) * 2 ^ 104) := by
  refine ⟨(2 ^ 24 - 1) * 2 ^ 253, by decide +kernel, ?_⟩
  rw [one32_val]; norm_num

/-- A positive normal value in terms of the fields of its pattern. -/
theorem normal_parts {x : Nat} {a : ℝ} (hx : x < f32.size) (h : f32.Is x a) (ha : 1 / 2 ^ 126 ≤ a) :
    2 ^ 23 ≤ x ∧ x < f32.inf ∧ a = (1 + (x % 2 ^ 23 : Nat) / 2 ^ 23) * (2 : ℝ) ^ (((x / 2 ^ 23 : Nat) : ℤ) - 127) := by
  have hap : 0 < a := lt_of_lt_of_le (by norm_num) ha
  obtain ⟨hlt, hmag⟩ := Fmt.is_pos hx h hap
  have hlow : 2 ^ 23 ≤ x := by
    have m0 : f32.mag (2 ^ 23) = 2 ^ 23 := by decide +kernel
    rw [← f32.mag_le_iff, m0]
    have : (2 ^ 23 : ℝ) ≤ f32.mag x := by
      rw [hmag, one32_val]
      calc (2 : ℝ) ^ 23 = 1 / 2 ^ 126 * 2 ^ 149 := by norm_num
        _ ≤ _ := mul_le_mul_of_nonneg_right ha (by norm_num)
    exact_mod_cast this
  refine ⟨hlow, hlt, ?_⟩
  have hE : 1 ≤ x / 2 ^ 23 := by omega
  have hm : f32.mag x = (2 ^ 23 + x % 2 ^ 23) * 2 ^ (x / 2 ^ 23 - 1) := by
    unfold Fmt.mag
    exact if_neg (by show ¬x / 2 ^ 23 = 0; omega)
  rw [hm, one32_val] at hmag
  generalize x / 2 ^ 23 = E at *
  generalize x % 2 ^ 23 = m at *
  obtain ⟨k, rfl⟩ : ∃ k, E = k + 1 := ⟨E - 1, by omega⟩
  have e1 : (2 : ℝ) ^ (((k + 1 : Nat) : ℤ) - 127) = 2 ^ k / 2 ^ 126 := by
    rw [show ((k + 1 : Nat) : ℤ) - 127 = (k : ℤ) - (126 : Nat) by push_cast; ring, zpow_sub₀ (by norm_num), zpow_natCast, zpow_natCast]
  rw [e1]
  rw [Nat.add_sub_cancel] at hmag
  push_cast at hmag
  have h149 : (2 : ℝ) ^ 149 ≠ 0 := by norm_num
  have : a = (8388608 + m) * 2 ^ k / 2 ^ 149 := by rw [hmag]; field_simp
  rw [this]
  generalize (2 : ℝ) ^ k = q
  ring

/-- The significand field read as a number in [1, 2), less 1. -/
theorem frac_exact {m : Nat} (hm : m < 2 ^ 23) : f32.Is (f32.sub (m ||| 0x3f800000) one32) (m / 2 ^ 23) := by
  have hor : m ||| 0x3f800000 = 127 * 2 ^ 23 + m := by
    rw [Nat.or_comm]
    exact (Nat.two_pow_add_eq_or_of_lt hm 127).symm.trans (by ring)
  have hlt : 127 * 2 ^ 23 + m < f32.inf := by rw [inf32]; omega
  have h1 : f32.Is (m ||| 0x3f800000) (1 + m / 2 ^ 23) := by
    rw [hor]
    have := Fmt.is_of_lt hlt
    have hm' : f32.mag (127 * 2 ^ 23 + m) = (2 ^ 23 + m) * 2 ^ 126 := by
      unfold Fmt.mag
      rw [if_neg (by show ¬(127 * 2 ^ 23 + m) / 2 ^ 23 = 0; omega)]
      show (2 ^ 23 + (127 * 2 ^ 23 + m) % 2 ^ 23) * 2 ^ ((127 * 2 ^ 23 + m) / 2 ^ 23 - 1) = _
      rw [show (127 * 2 ^ 23 + m) % 2 ^ 23 = m by omega, show (127 * 2 ^ 23 + m) / 2 ^ 23 = 127 by omega]
    rw [hm', one32_val] at this
    convert this using 1
    push_cast
    ring
  have hmR : (m : ℝ) < 2 ^ 23 := by exact_mod_cast hm
  have hm0 : (0 : ℝ) ≤ m := Nat.cast_nonneg m
  obtain ⟨c, hc, hr, -⟩ := Fmt.is_sub Fmt.good32 h1 is_one32 (by
    rw [bias32, show (1 + (m : ℝ) / 2 ^ 23 - 1) = m / 2 ^ 23 by ring, abs_of_nonneg (by positivity), div_le_iff₀ (by norm_num)]
    norm_num at hmR ⊢
    linarith)
  obtain ⟨t, ht1, ht2⟩ := Fmt.good32.exists_pattern (m := m) (s := 126) (by show m ≤ 2 ^ 24; omega) (by
    show m * 2 ^ 126 < 2 ^ 23 * 2 ^ 254
    calc m * 2 ^ 126 < 2 ^ 23 * 2 ^ 126 := Nat.mul_lt_mul_of_pos_right hm (by norm_num)
      _ ≤ _ := by norm_num)
  have ht := Fmt.is_of_lt ht1
  rw [ht2, one32_val] at ht
  have e : (1 + (m : ℝ) / 2 ^ 23 - 1) = ((m * 2 ^ 126 : Nat) : ℝ) / 2 ^ 149 := by push_cast; ring
  rw [e] at hr
  have := hr.exact ht
  rw [this] at hc
  convert hc using 1
  push_cast
  ring

theorem floatMin_lt : floatMin < f32.size ∧ floatMax < f32.size := by decide +kernel

/-- The result of `fast_log2`: the logarithm of the argument clamped to the normal positive range. -/
theorem fastLog2_spec {z : Nat} (hz : z < f32.size) : ∃ a c, f32.Is (fastLog2 z) c ∧ 1 / 2 ^ 126 ≤ a ∧ a < 2 ^ 128 ∧
    |c - Real.logb 2 a| ≤ 105 / 10 ^ 8 + |Real.logb 2 a| / 2 ^ 24 ∧ |c| ≤ 129 ∧
    (∀ r, f32.Is z r → 1 / 2 ^ 126 ≤ r → a = r) ∧
    (∀ r, f32.Is z r → r ≤ 1 / 2 ^ 126 → a = 1 / 2 ^ 126) ∧
    ((f32.val z = .nan ∨ f32.val z = .inf false) → a = (2 ^ 24 - 1) * 2 ^ 104) := by
  obtain ⟨a, h1, h2, h3, h4, h4', h5, h6, -, h7⟩ := clamp_spec (z := z) is_floatMin is_floatMax (by norm_num)
  have hsz := h7 hz floatMin_lt.1 floatMin_lt.2
  obtain ⟨p1, p2, p3⟩ := normal_parts hsz h1 h2
  rw [inf32] at p2
  unfold fastLog2
  simp only
  generalize clamp32 z floatMin floatMax = x at *
  have hand : x &&& 0x7fffff = x % 2 ^ 23 := by
    rw [show (0x7fffff : Nat) = 2 ^ 23 - 1 from rfl, Nat.and_two_pow_sub_one_eq_mod]
  rw [hand, Nat.shiftRight_eq_div_pow]
  have hmlt : x % 2 ^ 23 < 2 ^ 23 := Nat.mod_lt _ (by norm_num)
  have hE : x / 2 ^ 23 ≤ 254 := by omega
  generalize hm : x % 2 ^ 23 = m at *
  generalize hE' : x / 2 ^ 23 = E at *
  have hf := frac_exact hmlt
  have hm0 : (0 : ℝ) ≤ m := Nat.cast_nonneg m
  have hmR : (m : ℝ) < 2 ^ 23 := by exact_mod_cast hmlt
  have hf0 : (0 : ℝ) ≤ m / 2 ^ 23 := by positivity
  have hf1 : (m : ℝ) / 2 ^ 23 ≤ 1 := by rw [div_le_iff₀ (by norm_num)]; linarith
  have hap := log2Poly_ap hf hf0 hf1
  generalize hg : f32.sub (m ||| 0x3f800000) one32 = g at *
  obtain ⟨p, hp, hpe⟩ := hap.ex
  obtain ⟨hPL, hPL2⟩ := PL_close hf0 hf1
  generalize hff : (m : ℝ) / 2 ^ 23 = f at *
  have hi := Fmt.is_ofInt Fmt.good32 (by decide) (i := (E : ℤ) - 127) (by show ((E : ℤ) - 127).natAbs ≤ 2 ^ 24; omega)
  have hEb : |(((E : ℤ) - 127 : ℤ) : ℝ)| ≤ 127 := by
    have : |(E : ℤ) - 127| ≤ 127 := by rw [abs_le]; omega
    exact_mod_cast this
  have hpb : |p| ≤ 3 := by
    have := abs_add_le (p - PL f) (PL f)
    rw [sub_add_cancel] at this
    linarith
  obtain ⟨c, hc, -, hce⟩ := Fmt.is_add Fmt.good32 hp hi (by
    rw [bias32]
    refine le_trans (abs_add_le _ _) ?_
    linarith [show (130 : ℝ) ≤ 2 ^ 127 by norm_num])
  have hL := abs_le.1 Real.log_two_near_10
  have hL0 : 69 / 100 ≤ Real.log 2 := by norm_num at hL ⊢; linarith [hL.1]
  have hLpos : 0 < Real.log 2 := by linarith
  -- the logarithm of the argument
  have hlog : Real.logb 2 a = Real.logb 2 (1 + f) + (((E : ℤ) - 127 : ℤ) : ℝ) := by
    rw [p3, Real.logb_mul (by linarith) (zpow_ne_zero _ (by norm_num)), ← Real.rpow_intCast, Real.logb_rpow (by norm_num) (by norm_num)]
  have hpl : |p - Real.logb 2 (1 + f)| ≤ 1031 / 10 ^ 9 := by
    have : |PL f - Real.logb 2 (1 + f)| ≤ 16 / 10 ^ 8 := by
      have e : PL f - Real.logb 2 (1 + f) = (PL f * Real.log 2 - Real.log (1 + f)) / Real.log 2 := by
        unfold Real.logb; field_simp
      rw [e, abs_div, abs_of_pos hLpos, div_le_iff₀ hLpos]
      refine le_trans hPL ?_
      linarith
    have := abs_add_le (p - PL f) (PL f - Real.logb 2 (1 + f))
    rw [sub_add_sub_cancel] at this
    linarith
  have hsum : |p + (((E : ℤ) - 127 : ℤ) : ℝ) - Real.logb 2 a| ≤ 1031 / 10 ^ 9 := by
    rw [hlog, add_sub_add_right_eq_sub]; exact hpl
  have hs2 : |p + (((E : ℤ) - 127 : ℤ) : ℝ)| ≤ |Real.logb 2 a| + 1031 / 10 ^ 9 := by
    have := abs_add_le (p + (((E : ℤ) - 127 : ℤ) : ℝ) - Real.logb 2 a) (Real.logb 2 a)
    rw [sub_add_cancel] at this
    linarith
  have hce' : |c - (p + (((E : ℤ) - 127 : ℤ) : ℝ))| ≤ (|Real.logb 2 a| + 1031 / 10 ^ 9) / 2 ^ 24 := by
    refine le_trans hce ?_
    exact div_le_div_of_nonneg_right hs2 (by norm_num)
  have hmax : (((2 : ℝ) ^ 24 - 1) * 2 ^ 104) < 2 ^ 128 := by norm_num
  refine ⟨a, c, ?_, h2, lt_of_le_of_lt h3 hmax, ?_, ?_, fun r hr hr1 => ?_, fun r hr hr1 => h5 r hr hr1, h6⟩
  · exact hc
  · have := abs_add_le (c - (p + (((E : ℤ) - 127 : ℤ) : ℝ))) (p + (((E : ℤ) - 127 : ℤ) : ℝ) - Real.logb 2 a)
    rw [sub_add_sub_cancel] at this
    refine le_trans this (le_trans (add_le_add hce' hsum) ?_)
    rw [add_div]
    norm_num
    linarith
  · have hl1 : Real.logb 2 (1 + f) ≤ 1 := by
      rw [Real.logb_le_iff_le_rpow (by norm_num) (by linarith), Real.rpow_one]; linarith
    have hl0 : 0 ≤ Real.logb 2 (1 + f) := Real.logb_nonneg (by norm_num) (by linarith)
    have hla : |Real.logb 2 a| ≤ 128 := by
      rw [hlog]
      rw [abs_le] at hEb ⊢
      constructor <;> linarith [hEb.1, hEb.2]
    have := abs_add_le (c - (p + (((E : ℤ) - 127 : ℤ) : ℝ))) (p + (((E : ℤ) - 127 : ℤ) : ℝ))
    rw [sub_add_cancel] at this
    refine le_trans this (le_trans (add_le_add hce' hs2) ?_)
    rw [add_div]
    norm_num
    linarith
  · rcases le_total r ((2 ^ 24 - 1) * 2 ^ 104) with hle | hle
    · exact h4 r hr hr1 hle
    · rw [h4' r hr hle]
      -- nothing finite is above the greatest value
      obtain ⟨s, t, ht, hrt⟩ := Fmt.is_elim hr
      have hmt : f32.mag t ≤ f32.mag floatMax := by
        rw [f32.mag_le_iff]
        have : f32.inf = floatMax + 1 := by decide +kernel
        omega
      have hmm : f32.mag floatMax = 16777215 * 2 ^ 253 := by decide +kernel
      rw [hmm] at hmt
      have hmt' : (f32.mag t : ℝ) ≤ 16777215 * 2 ^ 253 := by exact_mod_cast hmt
      have hst : ((signed s (f32.mag t) : ℤ) : ℝ) ≤ f32.mag t := by
        have hn : (0 : ℝ) ≤ f32.mag t := Nat.cast_nonneg _
        unfold signed
        cases s
        · simp
        · simp
      refine le_antisymm hle ?_
      rw [hrt, div_le_iff₀ f32.one_posR, one32_val]
      refine le_trans hst (le_trans hmt' ?_)
      norm_num

end Nanostl.Math

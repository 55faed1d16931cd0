import Verif.Math.Log2
import Verif.Math.Lemmas

/-!
C64: `log` and `log10` (nanomath.h:469-510): the special cases, and the error for every positive normal argument.
-/

namespace Nanostl.Math
open Nanostl.Float

theorem is_ln2 : f32.Is (f64.convert f32 kM_LN2) (11629080 / 2 ^ 24) := by
  rw [show f64.convert f32 kM_LN2 = 1060205080 by decide +kernel]
  refine ⟨11629080 * 2 ^ 125, by decide +kernel, ?_⟩
  rw [one32_val]; push_cast; ring

theorem is_lg2 : f32.Is (f64.convert f32 (f64.div kM_LN2 kM_LN10)) (10100891 / 2 ^ 25) := by
  rw [show f64.convert f32 (f64.div kM_LN2 kM_LN10) = 1050288283 by decide +kernel]
  refine ⟨10100891 * 2 ^ 124, by decide +kernel, ?_⟩
  rw [one32_val]; push_cast; ring

set_option exponentiation.threshold 50000 in
/-- The decimal logarithm of 2 between two of its convergents. -/
theorem logb_ten_two : 8651 / 28738 ≤ Real.logb 10 2 ∧ Real.logb 10 2 ≤ 12655 / 42039 := by
  have h1 : 10 ^ 8651 ≤ 2 ^ 28738 := by decide +kernel
  have h2 : 2 ^ 42039 ≤ 10 ^ 12655 := by decide +kernel
  have e : ∀ n : ℕ, (n : ℝ) * Real.logb 10 2 = Real.logb 10 ((2 ^ n : ℕ) : ℝ) := by
    intro n; rw [Nat.cast_pow, Real.logb_pow]; norm_num
  have t : ∀ n : ℕ, Real.logb 10 ((10 ^ n : ℕ) : ℝ) = n := by
    intro n; rw [Nat.cast_pow, Real.logb_pow, Nat.cast_ofNat, Real.logb_self_eq_one (by norm_num), mul_one]
  have m : ∀ a b : ℕ, 0 < a → a ≤ b → Real.logb 10 (a : ℝ) ≤ Real.logb 10 (b : ℝ) := by
    intro a b ha hab
    exact Real.logb_le_logb_of_le (by norm_num) (by exact_mod_cast ha) (by exact_mod_cast hab)
  constructor
  · have := m _ _ (Nat.pow_pos (by norm_num)) h1
    rw [t, ← e] at this
    rw [div_le_iff₀ (by norm_num)]
    push_cast at this
    linarith
  · have := m _ _ (Nat.pow_pos (by norm_num)) h2
    rw [t, ← e] at this
    rw [le_div_iff₀ (by norm_num)]
    push_cast at this
    linarith

/-- The product of the binary logarithm with a constant near `L`. -/
theorem log_scaled {x k : Nat} {κ L : ℝ} (hx : x < f32.size) (hk : f32.Is k κ) (hκ : |κ - L| ≤ 5 / 10 ^ 8 * L) (hL0 : 0 < L) (hL1 : L ≤ 7 / 10) :
    ∃ a b, f32.Is (f32.mul (fastLog2 x) k) b ∧ 1 / 2 ^ 126 ≤ a ∧ a < 2 ^ 128 ∧
    |b - Real.logb 2 a * L| ≤ 8 / 10 ^ 7 + |Real.logb 2 a * L| * (2 / 10 ^ 7) ∧
    (∀ r, f32.Is x r → 1 / 2 ^ 126 ≤ r → a = r) ∧ (∀ r, f32.Is x r → r ≤ 1 / 2 ^ 126 → a = 1 / 2 ^ 126) ∧
    ((f32.val x = .nan ∨ f32.val x = .inf false) → a = (2 ^ 24 - 1) * 2 ^ 104) := by
  obtain ⟨a, c, h1, h2, h3, h4, h5, h6, h7, h8⟩ := fastLog2_spec hx
  have hκ' := abs_le.1 hκ
  have hκ1 : κ ≤ 71 / 100 := by nlinarith [hκ'.2]
  have hκ0 : 0 < κ := by nlinarith [hκ'.1]
  have hcκ : |c * κ| ≤ 129 * 1 := by
    rw [abs_mul, abs_of_pos hκ0]
    exact mul_le_mul h5 (by linarith) hκ0.le (by norm_num)
  obtain ⟨b, hb, hr⟩ := Fmt.is_mul Fmt.good32 h1 hk (le_trans hcκ (by rw [bias32]; norm_num))
  refine ⟨a, b, hb, h2, h3, ?_, h6, h7, h8⟩
  have he := rnd32 hr
  set l := Real.logb 2 a with hl
  have hlL : |l * L| = |l| * L := by rw [abs_mul, abs_of_pos hL0]
  -- the product before rounding
  have e1 : |c * κ - l * L| ≤ (105 / 10 ^ 8 + |l| / 2 ^ 24) * κ + |l| * (5 / 10 ^ 8 * L) := by
    have : c * κ - l * L = (c - l) * κ + l * (κ - L) := by ring
    rw [this]
    refine le_trans (abs_add_le _ _) ?_
    rw [abs_mul, abs_mul, abs_of_pos hκ0]
    exact add_le_add (mul_le_mul_of_nonneg_right h4 hκ0.le) (mul_le_mul_of_nonneg_left hκ (abs_nonneg _))
  have e2 : |c * κ| ≤ |l * L| + ((105 / 10 ^ 8 + |l| / 2 ^ 24) * κ + |l| * (5 / 10 ^ 8 * L)) := by
    have := abs_add_le (c * κ - l * L) (l * L)
    rw [sub_add_cancel] at this
    linarith
  have e3 : |b - l * L| ≤ |b - c * κ| + |c * κ - l * L| := by
    have := abs_add_le (b - c * κ) (c * κ - l * L)
    rwa [sub_add_sub_cancel] at this
  have hl0 := abs_nonneg l
  have hκL : |l| * κ ≤ |l| * L * (1 + 5 / 10 ^ 8) := by nlinarith [hκ'.2]
  have e1' : |c * κ - l * L| ≤ 75 / 10 ^ 8 + |l| * L * (11 / 10 ^ 8) := by
    refine le_trans e1 ?_
    have : (105 / 10 ^ 8 + |l| / 2 ^ 24) * κ + |l| * (5 / 10 ^ 8 * L) = 105 / 10 ^ 8 * κ + |l| * κ / 2 ^ 24 + |l| * L * (5 / 10 ^ 8) := by ring
    rw [this]
    have hp : 0 ≤ |l| * L := mul_nonneg hl0 hL0.le
    norm_num at hκL ⊢
    linarith
  have he' : |b - c * κ| ≤ (|l| * L + 75 / 10 ^ 8 + |l| * L * (11 / 10 ^ 8)) * ulp + tiny := by
    refine le_trans he ?_
    have : |c * κ| ≤ |l| * L + 75 / 10 ^ 8 + |l| * L * (11 / 10 ^ 8) := by
      have := abs_add_le (c * κ - l * L) (l * L)
      rw [sub_add_cancel, hlL] at this
      linarith
    have := mul_le_mul_of_nonneg_right this (show (0 : ℝ) ≤ ulp by num)
    linarith
  rw [hlL]
  have hp : 0 ≤ |l| * L := mul_nonneg hl0 hL0.le
  generalize |l| * L = q at *
  unfold ulp tiny at he'
  norm_num at he' ⊢
  linarith

theorem ln2_near : |(11629080 / 2 ^ 24 : ℝ) - Real.log 2| ≤ 5 / 10 ^ 8 * Real.log 2 ∧ 0 < Real.log 2 ∧ Real.log 2 ≤ 7 / 10 := by
  have h := abs_le.1 Real.log_two_near_10
  norm_num at h
  refine ⟨?_, by linarith [h.1], by linarith [h.2]⟩
  rw [abs_le]
  norm_num
  constructor <;> linarith [h.1, h.2]

theorem lg2_near : |(10100891 / 2 ^ 25 : ℝ) - Real.logb 10 2| ≤ 5 / 10 ^ 8 * Real.logb 10 2 ∧ 0 < Real.logb 10 2 ∧ Real.logb 10 2 ≤ 7 / 10 := by
  obtain ⟨h1, h2⟩ := logb_ten_two
  norm_num at h1 h2
  refine ⟨?_, by linarith, by linarith⟩
  rw [abs_le]
  norm_num
  constructor <;> linarith

theorem logb_mul_log (a : ℝ) : Real.logb 2 a * Real.log 2 = Real.log a := by
  unfold Real.logb
  have : Real.log 2 ≠ 0 := ne_of_gt ln2_near.2.1
  field_simp

theorem logb_mul_lg (a : ℝ) : Real.logb 2 a * Real.logb 10 2 = Real.logb 10 a := by
  unfold Real.logb
  have : Real.log 2 ≠ 0 := ne_of_gt ln2_near.2.1
  have : Real.log 10 ≠ 0 := ne_of_gt (Real.log_pos (by norm_num))
  field_simp

/-- The tests at the start of `log` and `log10`. -/
theorem log_tests {x : Nat} :
    ((mantissa32 x == 0 && exponent32 x == 0) = true ↔ f32.val x = .fin 0) := by
  rw [mantissa32_eq, exponent32_eq, (classify Fmt.good32 x).2.2.2.1]
  simp [and_comm]

/-- What `log` and `log10` have in common. -/
theorem log_cases {x : Nat} (h0 : f32.val x ≠ .fin 0) (hn : f32.lt x zero = false) :
    log x = (if x = 0x3f800000 then 0 else f32.mul (fastLog2 x) (f64.convert f32 kM_LN2)) ∧
    log10 x = (if x = 0x3f800000 then 0 else f32.mul (fastLog2 x) (f64.convert f32 (f64.div kM_LN2 kM_LN10))) := by
  unfold log log10
  rw [if_neg (fun h => h0 (log_tests.1 h)), if_neg (fun h => h0 (log_tests.1 h)), hn]
  simp

theorem pos_cases {x : Nat} {r : ℝ} (h : f32.Is x r) (hr : 0 < r) : f32.val x ≠ .fin 0 ∧ f32.lt x zero = false := by
  have hz := Fmt.is_zero Fmt.good32
  constructor
  · intro hc
    obtain ⟨v, h1, h2⟩ := h
    rw [hc] at h1
    cases h1
    have := mul_pos hr f32.one_posR
    rw [← h2] at this
    simp at this
  · have := (Fmt.is_lt h hz)
    cases hl : f32.lt x zero
    · rfl
    · exact absurd (this.1 hl) (by linarith)

/-- C64: for every positive normal argument the error of `log` is at most 8e-7 + 2e-7 |ln r|, of `log10` at most 8e-7 + 2e-7 |log10 r|; at 1 both are
exactly 0. -/
theorem c64_log_error_partial {x : Nat} {r : ℝ} (hx : x < f32.size) (h : f32.Is x r) (hr : 1 / 2 ^ 126 ≤ r) :
    (∃ b, f32.Is (log x) b ∧ |b - Real.log r| ≤ 8 / 10 ^ 7 + 2 / 10 ^ 7 * |Real.log r| ∧ (r = 1 → b = 0)) ∧
    (∃ b, f32.Is (log10 x) b ∧ |b - Real.logb 10 r| ≤ 8 / 10 ^ 7 + 2 / 10 ^ 7 * |Real.logb 10 r| ∧ (r = 1 → b = 0)) := by
  have hr0 : 0 < r := lt_of_lt_of_le (by norm_num) hr
  obtain ⟨h0, hn⟩ := pos_cases h hr0
  obtain ⟨e1, e2⟩ := log_cases h0 hn
  rw [e1, e2]
  by_cases h1 : x = 0x3f800000
  · rw [if_pos h1, if_pos h1]
    have : r = 1 := by rw [h1] at h; exact h.unique is_one32
    subst this
    have hz := Fmt.is_zero Fmt.good32
    exact ⟨⟨0, hz, by simp; norm_num, fun _ => rfl⟩, ⟨0, hz, by simp; norm_num, fun _ => rfl⟩⟩
  · have hr1 : r ≠ 1 := by
      intro hc
      subst hc
      have a := (Fmt.is_pos hx h (by norm_num)).2
      have b := (Fmt.is_pos (by decide +kernel) is_one32 (by norm_num)).2
      rw [← b] at a
      exact h1 (f32.mag_inj.1 (by exact_mod_cast a))
    rw [if_neg h1, if_neg h1]
    constructor
    · obtain ⟨a, b, hb, -, -, he, ha, -⟩ := log_scaled hx is_ln2 ln2_near.1 ln2_near.2.1 ln2_near.2.2
      rw [ha r h hr, logb_mul_log] at he
      exact ⟨b, hb, by linarith, fun hc => absurd hc hr1⟩
    · obtain ⟨a, b, hb, -, -, he, ha, -⟩ := log_scaled hx is_lg2 lg2_near.1 lg2_near.2.1 lg2_near.2.2
      rw [ha r h hr, logb_mul_lg] at he
      exact ⟨b, hb, by linarith, fun hc => absurd hc hr1⟩

/-- C64, zeros: both logarithms of +0 and -0 are -inf. -/
theorem c64_log_zero {x : Nat} (h : f32.val x = .fin 0) : f32.val (log x) = .inf true ∧ f32.val (log10 x) = .inf true := by
  unfold log log10
  rw [if_pos (log_tests.2 h), if_pos (log_tests.2 h)]
  decide +kernel

/-- C64 fails for negative arguments: the result is +inf, not NaN. -/
theorem c64_log_negative_false {x : Nat} (h : f32.lt x zero = true) : f32.val (log x) = .inf false ∧ f32.val (log10 x) = .inf false := by
  have h0 : f32.val x ≠ .fin 0 := by
    intro hc
    unfold Fmt.lt at h
    rw [hc, val_zero Fmt.good32] at h
    simp [Val.lt] at h
  have h1 : x ≠ 0x3f800000 := by
    rintro rfl
    revert h
    decide +kernel
  unfold log log10
  rw [if_neg (fun h => h0 (log_tests.1 h)), if_neg (fun h => h0 (log_tests.1 h)), h]
  simp only [beq_iff_eq, h1, if_false, if_true]
  decide +kernel

/-- C64 fails for NaN and +inf: both logarithms are the finite number that belongs to the greatest float, within 2e-5. -/
theorem c64_log_nan_false {x : Nat} (hx : x < f32.size) (h : f32.val x = .nan ∨ f32.val x = .inf false) :
    (∃ b, f32.Is (log x) b ∧ |b - Real.log ((2 ^ 24 - 1) * 2 ^ 104)| ≤ 2 / 10 ^ 5) ∧
    (∃ b, f32.Is (log10 x) b ∧ |b - Real.logb 10 ((2 ^ 24 - 1) * 2 ^ 104)| ≤ 2 / 10 ^ 5) := by
  have h0 : f32.val x ≠ .fin 0 := by rcases h with h | h <;> rw [h] <;> simp
  have hn : f32.lt x zero = false := by
    unfold Fmt.lt
    rw [val_zero Fmt.good32]
    rcases h with h | h <;> rw [h] <;> rfl
  have h1 : x ≠ 0x3f800000 := by
    rintro rfl
    have : f32.val 0x3f800000 = .fin f32.one := by decide +kernel
    rcases h with h | h <;> rw [this] at h <;> cases h
  obtain ⟨e1, e2⟩ := log_cases h0 hn
  rw [e1, e2, if_neg h1, if_neg h1]
  have hlb : |Real.logb 2 ((2 ^ 24 - 1) * 2 ^ 104)| ≤ 128 := by
    have a1 : Real.logb 2 ((2 ^ 24 - 1) * 2 ^ 104) ≤ 128 := by
      rw [Real.logb_le_iff_le_rpow (by norm_num) (by norm_num)]; norm_num
    have a2 : 0 ≤ Real.logb 2 ((2 ^ 24 - 1) * 2 ^ 104) := Real.logb_nonneg (by norm_num) (by norm_num)
    rw [abs_of_nonneg a2]; exact a1
  have fin : ∀ L : ℝ, 0 < L → L ≤ 7 / 10 → |Real.logb 2 ((2 ^ 24 - 1) * 2 ^ 104) * L| ≤ 90 := by
    intro L hL0 hL
    rw [abs_mul, abs_of_pos hL0]
    calc _ ≤ (128 : ℝ) * (7 / 10) := mul_le_mul hlb hL hL0.le (by norm_num)
      _ ≤ 90 := by norm_num
  constructor
  · obtain ⟨a, b, hb, -, -, he, -, -, ha⟩ := log_scaled hx is_ln2 ln2_near.1 ln2_near.2.1 ln2_near.2.2
    have := fin _ ln2_near.2.1 ln2_near.2.2
    rw [ha h] at he
    rw [logb_mul_log] at he this
    exact ⟨b, hb, le_trans he (le_trans (add_le_add_right (mul_le_mul_of_nonneg_right this (by norm_num)) _) (by norm_num))⟩
  · obtain ⟨a, b, hb, -, -, he, -, -, ha⟩ := log_scaled hx is_lg2 lg2_near.1 lg2_near.2.1 lg2_near.2.2
    have := fin _ lg2_near.2.1 lg2_near.2.2
    rw [ha h] at he
    rw [logb_mul_lg] at he this
    exact ⟨b, hb, le_trans he (le_trans (add_le_add_right (mul_le_mul_of_nonneg_right this (by norm_num)) _) (by norm_num))⟩

/-- 2.0 is positive and normal; -1 is negative; a NaN. -/
example : f32.Is 0x40000000 2 ∧ (1 : ℝ) / 2 ^ 126 ≤ 2 ∧ f32.lt 0xbf800000 zero = true ∧ f32.val 0x7fc00000 = .nan :=
  ⟨⟨2 * f32.one, by decide +kernel, by push_cast; ring⟩, by norm_num, by decide +kernel, by decide +kernel⟩

end Nanostl.Math

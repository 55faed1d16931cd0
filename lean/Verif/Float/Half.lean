import Verif.Float.RealMore
import Verif.Float.Approx
import Mathlib.Algebra.Order.Round
import Mathlib.Algebra.Order.Archimedean.Real.Basic

/-!
The absolute error of a rounded operation: half of the distance of neighbouring values.
-/

namespace Nanostl.Float
open Fmt

/-- The grid of multiples of `2^s` units consists of values, up to `2^(s+24)`. -/
theorem is_grid {m : ℤ} {s : Nat} (hm : m.natAbs ≤ 2 ^ 24) (hs : s ≤ 252) : ∃ z, f32.Is z (m * 2 ^ s / 2 ^ 149) := by
  obtain ⟨t, h1, h2⟩ := Fmt.good32.exists_pattern (m := m.natAbs) (s := s) hm (by
    show m.natAbs * 2 ^ s < 2 ^ 23 * 2 ^ 254
    calc m.natAbs * 2 ^ s ≤ 2 ^ 24 * 2 ^ 252 := Nat.mul_le_mul hm (Nat.pow_le_pow_right (by decide) hs)
      _ < _ := by norm_num)
  refine ⟨_, ⟨_, f32.val_withSign_fin (s := decide (m < 0)) h1, ?_⟩⟩
  rw [h2, Math.one32_val, div_mul_cancel₀ _ (by norm_num)]
  have : signed (decide (m < 0)) (m.natAbs * 2 ^ s) = m * 2 ^ s := by
    have := Fmt.signed_neg_decide m
    unfold signed at this ⊢
    by_cases h : m < 0
    · simp only [h, decide_true, if_true] at this ⊢
      push_cast at this ⊢
      rw [← neg_mul, this]
    · simp only [h, decide_false, Bool.false_eq_true, if_false] at this ⊢
      push_cast at this ⊢
      rw [this]
  rw [this]
  push_cast
  ring

/-- The error of rounding a number up to `2^25 h` is at most `h`. -/
theorem rnd_half {e c h : ℝ} (hr : f32.Rnd e c) (s : Nat) (hs : s ≤ 252) (hh : h = 2 ^ s / 2 ^ 150) (he : |e| ≤ h * 2 ^ 25) : |c - e| ≤ h := by
  have hp : (0 : ℝ) < 2 ^ s / 2 ^ 149 := by positivity
  have h2 : 2 * h = 2 ^ s / 2 ^ 149 := by rw [hh]; ring
  have hh0 : 0 < h := by linarith
  set m := _root_.round (e / (2 * h)) with hm
  have h1 : |e / (2 * h) - m| ≤ 1 / 2 := abs_sub_round _
  have hml : m.natAbs ≤ 2 ^ 24 := by
    have a : |e / (2 * h)| ≤ 2 ^ 24 := by
      rw [abs_div, abs_of_pos (by linarith : 0 < 2 * h), div_le_iff₀ (by linarith)]
      linarith
    have b : |(m : ℝ)| < 2 ^ 24 + 1 := by
      have := abs_add_le ((m : ℝ) - e / (2 * h)) (e / (2 * h))
      rw [sub_add_cancel, abs_sub_comm] at this
      linarith
    have c : |m| < 2 ^ 24 + 1 := by exact_mod_cast b
    rw [Int.abs_eq_natAbs] at c
    omega
  obtain ⟨z, hz⟩ := is_grid (m := m) hml hs
  refine le_trans (hr.near z _ hz) ?_
  have : (m : ℝ) * 2 ^ s / 2 ^ 149 - e = -((e / (2 * h) - m) * (2 * h)) := by
    rw [sub_mul, div_mul_cancel₀ _ (by linarith : 2 * h ≠ 0), h2]
    ring
  rw [this, abs_neg, abs_mul, abs_of_pos (by linarith : 0 < 2 * h)]
  nlinarith

theorem Ap.addH {x y : Nat} {r R e s S d : ℝ} (hx : Ap x r R e) (hy : Ap y s S d) (T h : ℝ) (k : Nat) (hk : k ≤ 252) (hh : h = 2 ^ k / 2 ^ 150)
    (hT : |r + s| ≤ T) (hb : T + e + d ≤ h * 2 ^ 25) : Ap (f32.add x y) (r + s) T (e + d + h) := by
  obtain ⟨a, ha, hae⟩ := hx.ex
  obtain ⟨b, hb', hbd⟩ := hy.ex
  have h1 := abs_add_le (a - r) (b - s)
  have hsum : |a + b| ≤ T + e + d := by
    have h2 := abs_add_le (a - r + (b - s)) (r + s)
    rw [show a - r + (b - s) + (r + s) = a + b by ring] at h2
    linarith
  have hbig : |a + b| ≤ 2 ^ 127 := by
    refine le_trans hsum (le_trans hb ?_)
    rw [hh]
    calc (2 : ℝ) ^ k / 2 ^ 150 * 2 ^ 25 ≤ 2 ^ 252 / 2 ^ 150 * 2 ^ 25 := by
          apply mul_le_mul_of_nonneg_right _ (by norm_num)
          exact div_le_div_of_nonneg_right (pow_le_pow_right₀ (by norm_num) hk) (by norm_num)
      _ = 2 ^ 127 := by norm_num
  obtain ⟨c, hc1, hc2, -⟩ := is_add Fmt.good32 ha hb' (by rw [bias32]; exact hbig)
  have h4 := rnd_half hc2 k hk hh (le_trans hsum hb)
  refine ⟨⟨c, hc1, ?_⟩, hT⟩
  have h5 := abs_add_le (c - (a + b)) (a - r + (b - s))
  rw [show c - (a + b) + (a - r + (b - s)) = c - (r + s) by ring] at h5
  linarith

theorem Ap.mulH {x y : Nat} {r R e s S d : ℝ} (hx : Ap x r R e) (hy : Ap y s S d) (h : ℝ) (k : Nat) (hk : k ≤ 252) (hh : h = 2 ^ k / 2 ^ 150)
    (hb : (R + e) * (S + d) ≤ h * 2 ^ 25) : Ap (f32.mul x y) (r * s) (R * S) (e * (S + d) + R * d + h) := by
  have hR0 := hx.R0
  have he0 := hx.e0
  obtain ⟨a, ha, hae⟩ := hx.ex
  obtain ⟨b, hb', hbd⟩ := hy.ex
  have hR := hx.bd
  have hS := hy.bd
  have haR : |a| ≤ R + e := by
    have := abs_add_le (a - r) r
    rw [sub_add_cancel] at this
    linarith
  have hbS : |b| ≤ S + d := by
    have := abs_add_le (b - s) s
    rw [sub_add_cancel] at this
    linarith
  have hab : |a * b| ≤ (R + e) * (S + d) := by
    rw [abs_mul]
    exact mul_le_mul haR hbS (abs_nonneg _) (by linarith)
  have hbig : |a * b| ≤ 2 ^ 127 := by
    refine le_trans hab (le_trans hb ?_)
    rw [hh]
    calc (2 : ℝ) ^ k / 2 ^ 150 * 2 ^ 25 ≤ 2 ^ 252 / 2 ^ 150 * 2 ^ 25 := by
          apply mul_le_mul_of_nonneg_right _ (by norm_num)
          exact div_le_div_of_nonneg_right (pow_le_pow_right₀ (by norm_num) hk) (by norm_num)
      _ = 2 ^ 127 := by norm_num
  obtain ⟨c, hc1, hc2⟩ := is_mul Fmt.good32 ha hb' (by rw [bias32]; exact hbig)
  refine ⟨⟨c, hc1, ?_⟩, by rw [abs_mul]; exact mul_le_mul hR hS (abs_nonneg _) hR0⟩
  have h4 := rnd_half hc2 k hk hh (le_trans hab hb)
  have h6 : |a * b - r * s| ≤ e * (S + d) + R * d := by
    have := abs_add_le ((a - r) * b) (r * (b - s))
    rw [show (a - r) * b + r * (b - s) = a * b - r * s by ring, abs_mul, abs_mul] at this
    have h7 := mul_le_mul hae hbS (abs_nonneg _) he0
    have h8 := mul_le_mul hR hbd (abs_nonneg _) hR0
    linarith
  have h7 := abs_add_le (c - a * b) (a * b - r * s)
  rw [sub_add_sub_cancel] at h7
  linarith

/-- The same with a bound for the exact product. -/
theorem Ap.mulT {x y : Nat} {r R e s S d : ℝ} (hx : Ap x r R e) (hy : Ap y s S d) (T h : ℝ) (k : Nat) (hk : k ≤ 252) (hh : h = 2 ^ k / 2 ^ 150)
    (hT : |r * s| ≤ T) (hb : T + (e * (S + d) + R * d) ≤ h * 2 ^ 25) : Ap (f32.mul x y) (r * s) T (e * (S + d) + R * d + h) := by
  have hR0 := hx.R0
  have he0 := hx.e0
  obtain ⟨a, ha, hae⟩ := hx.ex
  obtain ⟨b, hb', hbd⟩ := hy.ex
  have hR := hx.bd
  have hS := hy.bd
  have hbS : |b| ≤ S + d := by
    have := abs_add_le (b - s) s
    rw [sub_add_cancel] at this
    linarith
  have h6 : |a * b - r * s| ≤ e * (S + d) + R * d := by
    have := abs_add_le ((a - r) * b) (r * (b - s))
    rw [show (a - r) * b + r * (b - s) = a * b - r * s by ring, abs_mul, abs_mul] at this
    have h7 := mul_le_mul hae hbS (abs_nonneg _) he0
    have h8 := mul_le_mul hR hbd (abs_nonneg _) hR0
    linarith
  have hab : |a * b| ≤ T + (e * (S + d) + R * d) := by
    have := abs_add_le (a * b - r * s) (r * s)
    rw [sub_add_cancel] at this
    linarith
  have hbig : |a * b| ≤ 2 ^ 127 := by
    refine le_trans hab (le_trans hb ?_)
    rw [hh]
    calc (2 : ℝ) ^ k / 2 ^ 150 * 2 ^ 25 ≤ 2 ^ 252 / 2 ^ 150 * 2 ^ 25 := by
          apply mul_le_mul_of_nonneg_right _ (by norm_num)
          exact div_le_div_of_nonneg_right (pow_le_pow_right₀ (by norm_num) hk) (by norm_num)
      _ = 2 ^ 127 := by norm_num
  obtain ⟨c, hc1, hc2⟩ := is_mul Fmt.good32 ha hb' (by rw [bias32]; exact hbig)
  refine ⟨⟨c, hc1, ?_⟩, hT⟩
  have h4 := rnd_half hc2 k hk hh (le_trans hab hb)
  have h7 := abs_add_le (c - a * b) (a * b - r * s)
  rw [sub_add_sub_cancel] at h7
  linarith

end Nanostl.Float

import Verif.Math.Model

/-! Helper lemmas for the property theorems about `nanomath.h`. -/

namespace Nanostl.Math
open Nanostl.Float

theorem mantissa32_eq (x : Nat) : mantissa32 x = f32.frac x := by
  unfold mantissa32 Fmt.frac Fmt.low
  rw [Nat.and_two_pow_sub_one_eq_mod]
  exact (Nat.mod_mod_of_dvd x (by decide)).symm

theorem mantissa64_eq (x : Nat) : mantissa64 x = f64.frac x := by
  unfold mantissa64 Fmt.frac Fmt.low
  rw [Nat.and_two_pow_sub_one_eq_mod]
  exact (Nat.mod_mod_of_dvd x (by decide)).symm

theorem exponent32_eq (x : Nat) : exponent32 x = f32.expo x := by
  unfold exponent32 Fmt.expo Fmt.low
  rw [Nat.and_two_pow_sub_one_eq_mod, Nat.shiftRight_eq_div_pow]
  simp only [f32, Fmt.half]
  omega

theorem exponent64_eq (x : Nat) : exponent64 x = f64.expo x := by
  unfold exponent64 Fmt.expo Fmt.low
  rw [Nat.and_two_pow_sub_one_eq_mod, Nat.shiftRight_eq_div_pow]
  simp only [f64, Fmt.half]
  omega

/-- Magnitude below the least normal one: exponent field zero. -/
theorem mag_lt_normal {φ : Fmt} (x : Nat) : φ.mag (φ.low x) < 2 ^ φ.mb ↔ φ.expo x = 0 := by
  have h := φ.mag_of (2 ^ φ.mb) 0 (by rw [Nat.pow_succ]; omega) (fun h => absurd rfl h)
  rw [Nat.pow_zero, Nat.mul_one, Nat.zero_mul, Nat.zero_add] at h
  conv_lhs => rhs; rw [← h]
  rw [φ.mag_lt_iff, Fmt.expo, Nat.div_eq_zero_iff]
  have := Nat.two_pow_pos φ.mb
  omega

theorem low_eq_zero {φ : Fmt} (x : Nat) : φ.low x = 0 ↔ φ.expo x = 0 ∧ φ.frac x = 0 := by
  have h := φ.low_eq x
  constructor
  · intro h0
    rw [h0] at h
    have hp := Nat.two_pow_pos φ.mb
    constructor
    · rcases Nat.eq_zero_or_pos (φ.expo x) with h1 | h1
      · exact h1
      · have := Nat.mul_pos h1 hp
        omega
    · omega
  · rintro ⟨h1, h2⟩
    rw [h, h1, h2]; simp

/-- Classification of patterns by their fields, any format. -/
theorem classify {φ : Fmt} (g : φ.Good) (x : Nat) :
    (φ.val x = .nan ↔ φ.expo x = φ.emax ∧ φ.frac x ≠ 0) ∧
    ((∃ s, φ.val x = .inf s) ↔ φ.expo x = φ.emax ∧ φ.frac x = 0) ∧
    ((∃ v, φ.val x = .fin v) ↔ φ.expo x ≠ φ.emax) ∧
    (φ.val x = .fin 0 ↔ φ.expo x = 0 ∧ φ.frac x = 0) ∧
    ((∃ v, φ.val x = .fin v ∧ v ≠ 0 ∧ v.natAbs < 2 ^ φ.mb) ↔ φ.expo x = 0 ∧ φ.frac x ≠ 0) ∧
    ((∃ v, φ.val x = .fin v ∧ 2 ^ φ.mb ≤ v.natAbs) ↔ φ.expo x ≠ 0 ∧ φ.expo x ≠ φ.emax) := by
  have he : φ.emax ≠ 0 := by rw [g.emax]; omega
  have hz := low_eq_zero (φ := φ) x
  have hn := mag_lt_normal (φ := φ) x
  have hm : φ.mag (φ.low x) = 0 ↔ φ.low x = 0 := φ.mag_eq_zero
  have hs : signed (φ.sign x) (φ.mag (φ.low x)) = 0 ↔ φ.mag (φ.low x) = 0 := by
    unfold signed; cases φ.sign x <;> simp
  unfold Fmt.val
  by_cases h : φ.expo x = φ.emax
  · rw [if_pos h]
    by_cases hf : φ.frac x = 0 <;> simp [h, hf, he]
  · rw [if_neg h]
    simp only [h, false_and, reduceCtorEq, not_false_eq_true, Val.fin.injEq, exists_eq', exists_false, exists_eq_left', ne_eq,
      true_and, and_true, Fmt.natAbs_signed, hs, hm]
    refine ⟨hz, ?_, ?_⟩
    · rw [hz, hn]
      constructor
      · rintro ⟨a, b⟩; exact ⟨b, fun c => a ⟨b, c⟩⟩
      · rintro ⟨a, b⟩; exact ⟨fun c => b c.2, a⟩
    · rw [← Nat.not_lt, hn]

/-! ### Values of operations -/

theorem val_zero {φ : Fmt} (g : φ.Good) : φ.val zero = .fin 0 := by
  have h0' : (0 : Nat) < φ.inf := by
    unfold Fmt.inf; rw [g.emax]; exact Nat.mul_pos (by omega) (Nat.two_pow_pos _)
  have h : φ.withSign false 0 = zero := rfl
  rw [← h, φ.val_withSign_fin h0', φ.mag_zero]
  rfl

theorem lt_fin {φ : Fmt} {x y : Nat} {v w : Int} (hx : φ.val x = .fin v) (hy : φ.val y = .fin w) : φ.lt x y = true ↔ v < w := by
  unfold Fmt.lt
  rw [hx, hy]
  simp [Val.lt]

theorem val_fabs {φ : Fmt} (g : φ.Good) {x : Nat} {v : Int} (h : φ.val x = .fin v) : φ.val (fabs φ x) = .fin v.natAbs := by
  have hlt := lt_fin h (val_zero g)
  unfold fabs
  by_cases h0 : v < 0
  · rw [if_pos (hlt.2 h0), Fmt.Good.val_neg h]
    congr 1; omega
  · rw [if_neg (fun c => h0 (hlt.1 c)), h]
    congr 1; omega

/-- Significand and shift of a finite magnitude. -/
theorem mag_shape {φ : Fmt} (t : Nat) : ∃ m s, φ.mag t = m * 2 ^ s ∧ m < 2 ^ (φ.mb + 1) := by
  have hp := Nat.two_pow_pos φ.mb
  have hm := Nat.mod_lt t hp
  unfold Fmt.mag
  split
  · rename_i h
    refine ⟨t, 0, by simp, ?_⟩
    have := (Nat.div_eq_zero_iff.1 h)
    rw [Nat.pow_succ]; omega
  · exact ⟨_, _, rfl, by rw [Nat.pow_succ]; omega⟩

/-- Integer and fractional part of a finite magnitude are representable; the integer part is small if there is a fraction. -/
theorem parts {φ : Fmt} (g : φ.Good) {t : Nat} (ht : t < φ.inf) :
    (∃ a, a < φ.inf ∧ φ.mag a = φ.mag t / φ.one * φ.one) ∧
    (∃ a, a < φ.inf ∧ φ.mag a = φ.mag t % φ.one) ∧
    (φ.mag t % φ.one ≠ 0 → φ.mag t / φ.one < 2 ^ φ.mb) ∧
    (φ.mag t % φ.one ≠ 0 → φ.one ≤ φ.mag t → 2 ^ (φ.bias - 1) ≤ φ.mag t % φ.one) := by
  obtain ⟨m, s, h1, h2⟩ := mag_shape (φ := φ) t
  have hlt : φ.mag t < φ.mag φ.inf := φ.mag_lt_iff.2 ht
  rw [g.mag_inf] at hlt
  have hmb := g.mb
  have hle := g.le
  have hb : φ.one = 2 ^ (φ.bias + φ.mb - 1) := rfl
  generalize hP : φ.bias + φ.mb - 1 = P at hb
  by_cases hs : P ≤ s
  · -- an integer
    obtain ⟨k, rfl⟩ : ∃ k, s = P + k := ⟨s - P, by omega⟩
    have hdvd : φ.mag t = (m * 2 ^ k) * φ.one := by rw [h1, hb, Nat.pow_add]; ring
    have hpos : 0 < φ.one := by rw [hb]; exact Nat.two_pow_pos _
    have e1 : φ.mag t % φ.one = 0 := by rw [hdvd, Nat.mul_mod_left]
    have e2 : φ.mag t / φ.one * φ.one = φ.mag t := Nat.div_mul_cancel (Nat.dvd_of_mod_eq_zero e1)
    refine ⟨⟨t, ht, e2.symm⟩, ⟨0, by omega, by rw [e1, φ.mag_zero]⟩, fun h => absurd e1 h, fun h => absurd e1 h⟩
  · obtain ⟨k, rfl⟩ : ∃ k, P = s + (k + 1) := ⟨P - s - 1, by omega⟩
    have hpos : 0 < 2 ^ s := Nat.two_pow_pos _
    have hk : 0 < 2 ^ (k + 1) := Nat.two_pow_pos _
    have hone : φ.one = 2 ^ (k + 1) * 2 ^ s := by rw [hb, Nat.pow_add]; ring
    have e1 : φ.mag t / φ.one = m / 2 ^ (k + 1) := by
      rw [h1, hone, Nat.mul_div_mul_right _ _ hpos]
    have e2 : φ.mag t % φ.one = (m % 2 ^ (k + 1)) * 2 ^ s := by
      rw [h1, hone, Nat.mul_mod_mul_right]
    have e3 : m / 2 ^ (k + 1) < 2 ^ φ.mb := by
      rw [Nat.div_lt_iff_lt_mul hk, ← Nat.pow_add]
      exact Nat.lt_of_lt_of_le h2 (Nat.pow_le_pow_right (by decide) (by omega))
    refine ⟨?_, ?_, fun _ => by rw [e1]; exact e3, ?_⟩
    · obtain ⟨a, ha, hm⟩ := g.exists_pattern (m := m / 2 ^ (k + 1)) (s := s + (k + 1))
        (Nat.le_of_lt (Nat.lt_of_lt_of_le e3 (Nat.pow_le_pow_right (by decide) (by omega)))) (by
        rw [← hb, ← e1]; exact Nat.lt_of_le_of_lt (Nat.div_mul_le_self _ _) hlt)
      exact ⟨a, ha, by rw [hm, e1, ← hb]⟩
    · obtain ⟨a, ha, hm⟩ := g.exists_pattern (m := m % 2 ^ (k + 1)) (s := s)
        (Nat.le_of_lt (Nat.lt_of_le_of_lt (Nat.mod_le _ _) h2)) (by
          rw [← e2]; exact Nat.lt_of_le_of_lt (Nat.mod_le _ _) hlt)
      exact ⟨a, ha, by rw [hm, e2]⟩
    · intro hne hge
      rw [e2] at hne ⊢
      have hm0 : 1 ≤ m % 2 ^ (k + 1) := by
        rcases Nat.eq_zero_or_pos (m % 2 ^ (k + 1)) with h | h
        · rw [h] at hne; simp at hne
        · exact h
      have hs' : φ.bias - 1 ≤ s := by
        by_contra hcon
        have hlt' : φ.mag t < φ.one := by
          rw [h1, hb]
          calc m * 2 ^ s < 2 ^ (φ.mb + 1) * 2 ^ s := Nat.mul_lt_mul_of_pos_right h2 hpos
            _ = 2 ^ (φ.mb + 1 + s) := (Nat.pow_add ..).symm
            _ ≤ 2 ^ (s + (k + 1)) := Nat.pow_le_pow_right (by decide) (by omega)
        omega
      calc 2 ^ (φ.bias - 1) ≤ 2 ^ s := Nat.pow_le_pow_right (by decide) hs'
        _ = 1 * 2 ^ s := (Nat.one_mul _).symm
        _ ≤ _ := Nat.mul_le_mul_right _ hm0

end Nanostl.Math

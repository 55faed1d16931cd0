import Verif.Ryu.D2dBest

/-!
The short cut for small integers, and with it the decimal that is printed for every finite nonzero double.
-/

namespace Nanostl.Ryu
open Nanostl.Float

/-- A decimal without trailing zeros that is exactly an integer, where the format is at least as fine as the integers, is best. -/
theorem decBest_int {φ : Fmt} {t v o z : Nat} (ht : 0 < t) (hv : 0 < v) (hmag : φ.mag t = v * φ.one) (hup : φ.mag (t + 1) ≤ φ.mag t + φ.one)
    (hlo : φ.mag t ≤ φ.mag (t - 1) + φ.one) (ho : v = o * 10 ^ z) (h10 : o % 10 ≠ 0) : DecBest φ t o (z : Int) := by
  have hone := one_pos φ
  have hden : decDen (z : Int) = 1 := by unfold decDen; rw [show (-(z : Int)).toNat = 0 by omega, Nat.pow_zero]
  have hnum : decNum φ o (z : Int) = φ.mag t := by unfold decNum; rw [Int.toNat_natCast, ← ho, hmag]
  have key : ∀ c k, DecNearest φ c k t → (2 * v - 1) * decDen k ≤ 2 * (c * 10 ^ k.toNat) ∧ 2 * (c * 10 ^ k.toNat) ≤ (2 * v + 1) * decDen k := by
    intro c k h
    rw [DecNearest, nearest_interval φ (decDen_pos k) ht] at h
    have h1 : (φ.mag (t - 1) + φ.mag t) * decDen k ≤ 2 * decNum φ c k ∧ 2 * decNum φ c k ≤ (φ.mag t + φ.mag (t + 1)) * decDen k := by
      split at h
      · exact h
      · exact ⟨h.1.le, h.2.le⟩
    unfold decNum at h1
    constructor
    · refine Nat.le_of_mul_le_mul_right ?_ hone
      calc (2 * v - 1) * decDen k * φ.one = ((2 * v - 1) * φ.one) * decDen k := by ring
        _ ≤ (φ.mag (t - 1) + φ.mag t) * decDen k := by
          refine Nat.mul_le_mul_right _ ?_
          rw [Nat.sub_mul, Nat.mul_assoc, ← hmag]
          omega
        _ ≤ _ := h1.1
        _ = _ := by ring
    · refine Nat.le_of_mul_le_mul_right ?_ hone
      calc 2 * (c * 10 ^ k.toNat) * φ.one = 2 * (c * 10 ^ k.toNat * φ.one) := by ring
        _ ≤ (φ.mag t + φ.mag (t + 1)) * decDen k := h1.2
        _ ≤ ((2 * v + 1) * φ.one) * decDen k := by
          refine Nat.mul_le_mul_right _ ?_
          rw [Nat.add_mul, Nat.mul_assoc, ← hmag]
          omega
        _ = _ := by ring
  refine ⟨?_, ?_, ?_⟩
  · unfold DecNearest
    rw [hden, hnum]
    exact φ.nearest_exact (by omega) (by omega)
  · intro c k n hc hn
    refine Nat.lt_of_le_of_lt ?_ hn
    obtain ⟨k1, k2⟩ := key c k hc
    rcases Int.lt_or_le k 0 with hk | hk
    · obtain ⟨j, hj⟩ : ∃ j : Nat, (-k).toNat = j + 1 := ⟨(-k).toNat - 1, by omega⟩
      rw [decDen, hj, show k.toNat = 0 by omega, Nat.pow_zero, Nat.mul_one] at k1
      have h1 : v * (10 * 10 ^ j) ≤ (2 * v - 1) * 10 ^ (j + 1) := by
        rw [Nat.pow_succ, Nat.mul_comm 10]; exact Nat.mul_le_mul_right _ (by omega)
      have h2 : 1 ≤ 10 ^ j := Nat.pow_pos (by decide)
      have h3 : v * 10 * 1 ≤ v * 10 * 10 ^ j := Nat.mul_le_mul_left _ h2
      have h4 : o * 1 ≤ o * 10 ^ z := Nat.mul_le_mul_left _ (Nat.pow_pos (by decide))
      have h5 : v * (10 * 10 ^ j) = v * 10 * 10 ^ j := by ring
      omega
    · rw [decDen, show (-k).toNat = 0 by omega, Nat.pow_zero, Nat.mul_one] at k1 k2
      have h1 : c * 10 ^ k.toNat = o * 10 ^ z := by omega
      rcases Nat.lt_or_ge z k.toNat with h2 | h2
      · exfalso
        obtain ⟨j, hj⟩ : ∃ j, k.toNat = j + 1 + z := ⟨k.toNat - 1 - z, by omega⟩
        rw [hj, Nat.pow_add, ← Nat.mul_assoc] at h1
        have h3 := Nat.eq_of_mul_eq_mul_right (Nat.pow_pos (by decide)) h1
        rw [Nat.pow_succ, ← Nat.mul_assoc] at h3
        omega
      · obtain ⟨j, hj⟩ : ∃ j, z = j + k.toNat := ⟨z - k.toNat, by omega⟩
        rw [hj, Nat.pow_add, ← Nat.mul_assoc] at h1
        have h3 := Nat.eq_of_mul_eq_mul_right (Nat.pow_pos (by decide)) h1
        rw [h3]
        have : o * 1 ≤ o * 10 ^ j := Nat.mul_le_mul_left _ (Nat.pow_pos (by decide))
        omega
  · intro c k _ _
    unfold DecCloser
    have : φ.dist (decNum φ o (z : Int)) (decDen (z : Int)) t = 0 := by unfold Fmt.dist; rw [hden, hnum]; omega
    rw [this, Nat.zero_mul]
    exact Nat.zero_le _

theorem trimLoop_eq (p : Bool) : ∀ f v (k : Int), 0 < v → v < 18446744073709551616 → v < 10 ^ f →
    ∃ o z : Nat, trimLoop p f (v, k) = some (o, k + z) ∧ v = o * 10 ^ z ∧ o % 10 ≠ 0
  | 0, v, _, h0, _, h => absurd h (by rw [Nat.pow_zero]; omega)
  | f + 1, v, k, h0, hv, h => by
    rw [trimLoop]
    simp only
    rw [mod10_eq p hv, div10_eq p hv]
    by_cases hr : v % 10 = 0
    · rw [if_neg (by omega)]
      rw [Nat.pow_succ] at h
      obtain ⟨o, z, h1, h2, h3⟩ := trimLoop_eq p f (v / 10) (k + 1) (by omega) (by omega) (by omega)
      refine ⟨o, z + 1, ?_, ?_, h3⟩
      · rw [h1]; congr 2; push_cast; ring
      · rw [Nat.pow_succ, ← Nat.mul_assoc, ← h2]; omega
    · rw [if_pos hr]
      exact ⟨v, 0, by simp, by simp, hr⟩

/-- When the short cut applies it finds the exact value. -/
theorem d2dSmallInt_some {m e v : Nat} {k : Int} (hm : m < 4503599627370496) (h : d2dSmallInt m e = some (v, k)) :
    k = 0 ∧ ∃ j, e = 1075 - j ∧ j ≤ 52 ∧ 4503599627370496 + m = v * 2 ^ j := by
  unfold d2dSmallInt at h
  simp only at h
  rw [sig_or64 hm] at h
  by_cases h1 : (e : Int) - 1023 - 52 > 0
  · rw [if_pos h1] at h; exact absurd h (by simp)
  rw [if_neg h1] at h
  by_cases h2 : (e : Int) - 1023 - 52 < -52
  · rw [if_pos h2] at h; exact absurd h (by simp)
  rw [if_neg h2] at h
  obtain ⟨j, hj⟩ : ∃ j : Nat, (-((e : Int) - 1023 - 52)).toNat = j := ⟨_, rfl⟩
  rw [hj] at h
  have hj2 : j ≤ 52 := by omega
  have hw : w64 (1 <<< j) = 2 ^ j := by
    rw [Nat.one_shiftLeft]
    exact w64_of_lt (Nat.lt_of_le_of_lt (Nat.pow_le_pow_right (by decide) hj2) (by norm_num))
  rw [hw, Nat.and_two_pow_sub_one_eq_mod, Nat.shiftRight_eq_div_pow] at h
  by_cases h3 : (2 ^ 52 + m) % 2 ^ j ≠ 0
  · rw [if_pos h3] at h; exact absurd h (by simp)
  rw [if_neg h3] at h
  simp only [Option.some.injEq, Prod.mk.injEq] at h
  refine ⟨h.2.symm, j, by omega, hj2, ?_⟩
  rw [← h.1]
  have := Nat.div_add_mod (2 ^ 52 + m) (2 ^ j)
  rw [Nat.mul_comm] at this
  rw [show (4503599627370496 : Nat) = 2 ^ 52 by norm_num]
  omega

theorem pat_gap {φ : Fmt} {t m2 E mm mp A : Nat} (h : Pat φ t m2 E mm mp) (hA : 2 ^ E ≤ A) : φ.mag (t + 1) ≤ φ.mag t + A ∧ φ.mag t ≤ φ.mag (t - 1) + A := by
  obtain ⟨_, h1, h2, h3, h4, h5⟩ := h
  have h6 := Nat.mul_le_mul_right (2 ^ E) h4
  rw [h5] at h3
  rw [Nat.add_mul, Nat.mul_assoc, ← h1] at h3 h6
  omega

theorem d2sDecimal_best (p : Bool) {m e : Nat} (hm : m < 4503599627370496) (he : e < 2047) (h0 : 0 < e * 4503599627370496 + m) :
    ∃ o k, d2sDecimal p m e = some (o, k) ∧ DecBest f64 (e * 4503599627370496 + m) o k ∧ o < 100000000000000000 := by
  unfold d2sDecimal
  rcases hs : d2dSmallInt m e with _ | ⟨v, k⟩
  · exact d2d_best p hm he h0
  · obtain ⟨hk, j, hj, hj2, hv⟩ := d2dSmallInt_some hm hs
    subst hk
    have hp : 1 ≤ 2 ^ j := Nat.two_pow_pos _
    have hv0 : 0 < v := by
      rcases Nat.eq_zero_or_pos v with h | h
      · rw [h] at hv; omega
      · exact h
    have hv1 : v < 9007199254740992 := by
      have : v * 1 ≤ v * 2 ^ j := Nat.mul_le_mul_left _ hp
      omega
    obtain ⟨o, z, h1, h2, h3⟩ := trimLoop_eq p 20 v 0 hv0 (by omega) (Nat.lt_of_lt_of_le hv1 (by norm_num))
    refine ⟨o, z, by simpa using h1, ?_, ?_⟩
    · have hpat := pat_of f64 (m := m) (e := e) (t := e * 4503599627370496 + m) (by exact hm) rfl h0
      have hsig : sig f64.mb m e = v * 2 ^ j := by unfold sig; rw [if_neg (by omega), ← hv]; rfl
      have hE : 2 ^ j * 2 ^ (e - 1) = f64.one := by
        rw [← Nat.pow_add]; unfold Fmt.one; congr 1; show j + (e - 1) = 1074; omega
      have hle : 2 ^ (e - 1) ≤ f64.one := by
        rw [← hE]
        have : 1 * 2 ^ (e - 1) ≤ 2 ^ j * 2 ^ (e - 1) := Nat.mul_le_mul_right _ hp
        omega
      refine decBest_int h0 hv0 ?_ (pat_gap hpat hle).1 (pat_gap hpat hle).2 h2 h3
      rw [hpat.mag, hsig, Nat.mul_assoc, hE]
    · have : o * 1 ≤ o * 10 ^ z := Nat.mul_le_mul_left _ (Nat.pow_pos (by decide))
      omega

end Nanostl.Ryu

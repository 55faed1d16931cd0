import Verif.Float.Ieee

/-! Rounding to nearest even, executable, and proof that it is what the specification asks for. Used as the meaning of floating-point
arithmetic of the machine. -/

namespace Nanostl.Float
namespace Fmt
variable (φ : Fmt)

/-- Between two neighbours, the lower one is nearest. -/
theorem nearest_lo {n d t : Nat} (h1 : φ.mag t * d ≤ n) (h2 : n ≤ φ.mag (t + 1) * d)
    (h3 : 2 * n < φ.mag t * d + φ.mag (t + 1) * d ∨ 2 * n = φ.mag t * d + φ.mag (t + 1) * d ∧ t % 2 = 0) : φ.Nearest n d t := by
  intro t'
  unfold dist
  by_cases h : t' ≤ t
  · have := Nat.mul_le_mul_right d (φ.mag_le_iff.2 h)
    refine ⟨by omega, fun he hne => ?_⟩
    rcases h3 with h3 | h3
    · have hlt := φ.mag_lt_iff.2 (show t' < t by omega)
      rcases Nat.eq_zero_or_pos d with rfl | hd
      · simp at *
      · have := Nat.mul_lt_mul_of_pos_right hlt hd
        omega
    · exact h3.2
  · have := Nat.mul_le_mul_right d (φ.mag_le_iff.2 (show t + 1 ≤ t' by omega))
    refine ⟨by omega, fun he hne => ?_⟩
    omega

/-- Between two neighbours, the upper one is nearest. -/
theorem nearest_hi {n d t : Nat} (h1 : φ.mag t * d ≤ n) (h2 : n ≤ φ.mag (t + 1) * d)
    (h3 : φ.mag t * d + φ.mag (t + 1) * d < 2 * n ∨ 2 * n = φ.mag t * d + φ.mag (t + 1) * d ∧ t % 2 = 1) :
    φ.Nearest n d (t + 1) := by
  intro t'
  unfold dist
  by_cases h : t' ≤ t
  · have := Nat.mul_le_mul_right d (φ.mag_le_iff.2 h)
    exact ⟨by omega, fun he hne => by omega⟩
  · have := Nat.mul_le_mul_right d (φ.mag_le_iff.2 (show t + 1 ≤ t' by omega))
    refine ⟨by omega, fun he hne => ?_⟩
    rcases h3 with h3 | h3
    · have hlt := φ.mag_lt_iff.2 (show t + 1 < t' by omega)
      rcases Nat.eq_zero_or_pos d with rfl | hd
      · simp at *
        omega
      · have := Nat.mul_lt_mul_of_pos_right hlt hd
        omega
    · omega

/-- Exact values are their own rounding. -/
theorem nearest_exact {n d t : Nat} (hd : 0 < d) (h : n = φ.mag t * d) : φ.Nearest n d t := by
  have hlt := Nat.mul_lt_mul_of_pos_right (φ.mag_succ t) hd
  exact φ.nearest_lo (by omega) (by omega) (Or.inl (by omega))

/-- Rounding `n / d` to nearest even, exponent unbounded. -/
def roundMag (n d : Nat) : Nat :=
  let s := if n / d < 2 ^ (φ.mb + 1) then 0 else Nat.log2 (n / d) - φ.mb
  let q := n / (d * 2 ^ s)
  let r := n % (d * 2 ^ s)
  s * 2 ^ φ.mb + if 2 * r < d * 2 ^ s ∨ 2 * r = d * 2 ^ s ∧ q % 2 = 0 then q else q + 1

theorem roundMag_nearest (hmb : 1 ≤ φ.mb) {n d : Nat} (hd : 0 < d) : φ.Nearest n d (φ.roundMag n d) := by
  unfold roundMag
  generalize hs : (if n / d < 2 ^ (φ.mb + 1) then 0 else Nat.log2 (n / d) - φ.mb) = s
  have hD : 0 < d * 2 ^ s := Nat.mul_pos hd (Nat.two_pow_pos _)
  have hqeq : n / (d * 2 ^ s) = n / d / 2 ^ s := (Nat.div_div_eq_div_mul ..).symm
  have hq : n / (d * 2 ^ s) < 2 ^ (φ.mb + 1) ∧ (s ≠ 0 → 2 ^ φ.mb ≤ n / (d * 2 ^ s)) := by
    rw [hqeq]
    split at hs
    · subst hs
      exact ⟨by simpa using ‹_›, fun h => absurd rfl h⟩
    · rename_i hge
      have hne : n / d ≠ 0 := by
        intro h
        rw [h] at hge
        exact hge (Nat.two_pow_pos _)
      have l1 := Nat.log2_self_le hne
      have l2 := Nat.lt_log2_self (n := n / d)
      have hle : φ.mb + 1 ≤ Nat.log2 (n / d) := (Nat.le_log2 hne).2 (by omega)
      have e1 : Nat.log2 (n / d) = φ.mb + s := by omega
      rw [e1] at l1 l2
      constructor
      · rw [Nat.div_lt_iff_lt_mul (Nat.two_pow_pos _), ← Nat.pow_add]
        rwa [show φ.mb + 1 + s = φ.mb + s + 1 by omega]
      · intro _
        rw [Nat.le_div_iff_mul_le (Nat.two_pow_pos _), ← Nat.pow_add]
        exact l1
  obtain ⟨hq1, hq2⟩ := hq
  have hdm := Nat.div_add_mod n (d * 2 ^ s)
  have hr := Nat.mod_lt n hD
  simp only
  generalize n / (d * 2 ^ s) = q at *
  generalize n % (d * 2 ^ s) = r at *
  have m0 : φ.mag (s * 2 ^ φ.mb + q) * d = d * 2 ^ s * q := by
    rw [φ.mag_of q s (by omega) hq2]; ring
  have m1 : φ.mag (s * 2 ^ φ.mb + q + 1) * d = d * 2 ^ s * q + d * 2 ^ s := by
    rw [Nat.add_assoc, φ.mag_of (q + 1) s (by omega) (fun h => Nat.le_succ_of_le (hq2 h))]; ring
  have par : (s * 2 ^ φ.mb + q) % 2 = q % 2 := by
    obtain ⟨k, hk⟩ : ∃ k, φ.mb = k + 1 := ⟨φ.mb - 1, by omega⟩
    rw [hk, Nat.pow_succ, ← Nat.mul_assoc]
    omega
  split
  · rename_i h
    apply φ.nearest_lo
    · omega
    · omega
    · rw [par]; omega
  · rename_i h
    rw [← Nat.add_assoc]
    apply φ.nearest_hi
    · omega
    · omega
    · rw [par]; omega

/-- The rounding is determined by the specification. -/
theorem nearest_iff (hmb : 1 ≤ φ.mb) {n d t : Nat} (hd : 0 < d) : φ.Nearest n d t ↔ φ.roundMag n d = t :=
  ⟨fun h => φ.nearest_unique (φ.roundMag_nearest hmb hd) h hd, fun h => h ▸ φ.roundMag_nearest hmb hd⟩

end Fmt
end Nanostl.Float

import Verif.FastFloat.Model
import Verif.Ryu.Logs
import Mathlib.Data.Nat.ModEq
import Mathlib.Data.Nat.Prime.Basic

/-!
What the table of powers of five holds, checked entry by entry over the whole table and lifted to all powers: `5^q` is `pnum q / pden q` times
`2^(expo q - 127)` with the fraction in `[2^127, 2^128)`, and the entry is that fraction rounded down, except for `-27 ≤ q < 0`, where it is
rounded up; it is exact for `0 ≤ q ≤ 55`.
-/

namespace Nanostl.FastFloat
open Nanostl.Ryu (allBelow allBelow_sound)

/-- The exponent of the leading bit of `5^q`, as the code computes it. -/
def expo (q : Int) : Int := power q - 63 - q

/-- `5^q * 2^(127 - expo q)` as a fraction. -/
def pnum (q : Int) : Nat := 5 ^ q.toNat * 2 ^ (127 - expo q).toNat
def pden (q : Int) : Nat := 5 ^ (-q).toNat * 2 ^ (expo q - 127).toNat

/-- The meaning of the entry for `q`. -/
structure Entry (q : Int) (hi lo : Nat) : Prop where
  hi_lt : hi < 2 ^ 64
  lo_lt : lo < 2 ^ 64
  le : 2 ^ 127 * pden q ≤ pnum q
  lt : pnum q < 2 ^ 128 * pden q
  down : q < -27 ∨ 0 ≤ q → (hi * 2 ^ 64 + lo) * pden q ≤ pnum q ∧ pnum q < (hi * 2 ^ 64 + lo + 1) * pden q
  exact : 0 ≤ q → q ≤ 55 → (hi * 2 ^ 64 + lo) * pden q = pnum q
  up : -27 ≤ q → q < 0 → pnum q ≤ (hi * 2 ^ 64 + lo) * pden q ∧ (hi * 2 ^ 64 + lo) * pden q < pnum q + pden q ∧ 1 ≤ lo
  rest : 0 ≤ q → q ≤ 27 → lo = 0

instance (q : Int) (hi lo : Nat) : Decidable (Entry q hi lo) :=
  decidable_of_iff (hi < 2 ^ 64 ∧ lo < 2 ^ 64 ∧ 2 ^ 127 * pden q ≤ pnum q ∧ pnum q < 2 ^ 128 * pden q ∧
    (q < -27 ∨ 0 ≤ q → (hi * 2 ^ 64 + lo) * pden q ≤ pnum q ∧ pnum q < (hi * 2 ^ 64 + lo + 1) * pden q) ∧
    (0 ≤ q → q ≤ 55 → (hi * 2 ^ 64 + lo) * pden q = pnum q) ∧
    (-27 ≤ q → q < 0 → pnum q ≤ (hi * 2 ^ 64 + lo) * pden q ∧ (hi * 2 ^ 64 + lo) * pden q < pnum q + pden q ∧ 1 ≤ lo) ∧
    (0 ≤ q → q ≤ 27 → lo = 0))
    ⟨fun ⟨a, b, c, d, e, f, g, h⟩ => ⟨a, b, c, d, e, f, g, h⟩, fun ⟨a, b, c, d, e, f, g, h⟩ => ⟨a, b, c, d, e, f, g, h⟩⟩

/-- The check along the table. -/
def tableOK : Int → List Nat → Bool
  | q, hi :: lo :: r => decide (Entry q hi lo) && tableOK (q + 1) r
  | _, [] => true
  | _, [_] => false

theorem table_ok : tableOK (-342) powerOfFive128 = true := by decide +kernel

theorem table_length : powerOfFive128.length = 1302 := by decide +kernel

theorem tableOK_get : ∀ (l : List Nat) (q : Int) (j : Nat), tableOK q l = true → 2 * j + 1 < l.length →
    ∃ hi lo, l[2 * j]? = some hi ∧ l[2 * j + 1]? = some lo ∧ Entry (q + j) hi lo
  | [], _, _, _, hj => by simp at hj
  | [_], _, _, h, _ => by simp [tableOK] at h
  | hi :: lo :: r, q, j, h, hj => by
    rw [tableOK, Bool.and_eq_true, decide_eq_true_eq] at h
    cases j with
    | zero => exact ⟨hi, lo, rfl, rfl, by simpa using h.1⟩
    | succ j =>
      obtain ⟨a, b, h1, h2, h3⟩ := tableOK_get r (q + 1) j h.2 (by simp only [List.length_cons] at hj; omega)
      refine ⟨a, b, ?_, ?_, ?_⟩
      · rw [show 2 * (j + 1) = (2 * j) + 1 + 1 by ring, List.getElem?_cons_succ, List.getElem?_cons_succ]; exact h1
      · rw [show 2 * (j + 1) + 1 = (2 * j + 1) + 1 + 1 by ring, List.getElem?_cons_succ, List.getElem?_cons_succ]; exact h2
      · rw [show q + ((j + 1 : Nat) : Int) = q + 1 + j by push_cast; ring]; exact h3

/-- Every power in the range has its entry. -/
theorem tab_entry {q : Int} (h1 : -342 ≤ q) (h2 : q ≤ 308) :
    ∃ hi lo, tab (2 * (q - -342)) = some hi ∧ tab (2 * (q - -342) + 1) = some lo ∧ Entry q hi lo := by
  have hl : 2 * (q + 342).toNat + 1 < powerOfFive128.length := by rw [table_length]; omega
  obtain ⟨hi, lo, a, b, c⟩ := tableOK_get powerOfFive128 (-342) (q + 342).toNat table_ok hl
  refine ⟨hi, lo, ?_, ?_, ?_⟩
  · rw [tab, if_pos (by omega), ← a]; congr 1; omega
  · rw [tab, if_pos (by omega), ← b]; congr 1; omega
  · rwa [show (-342 : Int) + ((q + 342).toNat : Int) = q by omega] at c

/-! ### Products that look like ties but are none -/

/-- Inverse of an odd number modulo `M`, a power of two, by Newton's iteration. -/
def inv (M x : Nat) : Nat → Nat
  | 0 => 1
  | f + 1 => let y := inv M x f; y * (M + 2 - x * y % M) % M

/-- For `hi`, the high word of the entry: no word times `hi` is 0 or 1 modulo `2^(64 + K)`. -/
def noTie (K hi : Nat) : Bool :=
  decide (hi % 2 ^ (K + 1) ≠ 0) &&
  (decide (hi % 2 = 0) || decide (hi * inv (2 ^ (64 + K)) hi 7 % 2 ^ (64 + K) = 1 ∧ 2 ^ 64 ≤ inv (2 ^ (64 + K)) hi 7 ∧
    inv (2 ^ (64 + K)) hi 7 < 2 ^ (64 + K)))

theorem noTie_sound {K hi w : Nat} (h : noTie K hi = true) (h0 : 0 < w) (hw : w < 2 ^ 64) :
    w * hi % 2 ^ (64 + K) ≠ 0 ∧ w * hi % 2 ^ (64 + K) ≠ 1 := by
  rw [noTie, Bool.and_eq_true, Bool.or_eq_true, decide_eq_true_eq, decide_eq_true_eq, decide_eq_true_eq] at h
  obtain ⟨ha, hb⟩ := h
  have h2 : 2 ∣ 2 ^ (64 + K) := dvd_pow_self 2 (by omega)
  constructor
  · intro hc
    -- the power of two in `hi` is at most `K`, so 64 are left for `w`
    have hd : 2 ^ (64 + K) ∣ w * hi := Nat.dvd_of_mod_eq_zero hc
    obtain ⟨a, b, hab, hab2, hab3⟩ := (Nat.dvd_mul).1 hd
    obtain ⟨i, _, rfl⟩ := (Nat.dvd_prime_pow Nat.prime_two).1 (Dvd.intro _ hab3)
    obtain ⟨j, _, rfl⟩ := (Nat.dvd_prime_pow Nat.prime_two).1 (Dvd.intro_left _ hab3)
    rw [← pow_add] at hab3
    have hij := Nat.pow_right_injective (le_refl 2) hab3
    have hjK : j ≤ K := by
      by_contra hjK
      exact ha (Nat.mod_eq_zero_of_dvd (dvd_trans (pow_dvd_pow 2 (by omega)) hab2))
    have : 2 ^ 64 ≤ w := le_trans (Nat.pow_le_pow_right (by decide) (by omega)) (Nat.le_of_dvd h0 hab)
    omega
  · intro hc
    rcases hb with hb | ⟨hb1, hb2, hb3⟩
    · have e : w * hi % 2 = 1 := by
        have := Nat.mod_mod_of_dvd (w * hi) h2
        rw [hc] at this
        omega
      rw [Nat.mul_mod, hb] at e
      simp at e
    · generalize inv (2 ^ (64 + K)) hi 7 = r at *
      have e1 : w * hi ≡ 1 [MOD 2 ^ (64 + K)] := by
        rw [Nat.ModEq, hc, Nat.mod_eq_of_lt]
        exact Nat.one_lt_two_pow (by omega)
      have e2 : hi * r ≡ 1 [MOD 2 ^ (64 + K)] := by
        rw [Nat.ModEq, hb1, Nat.mod_eq_of_lt]
        exact Nat.one_lt_two_pow (by omega)
      have e3 : w ≡ r [MOD 2 ^ (64 + K)] := by
        calc w = w * 1 := (Nat.mul_one w).symm
          _ ≡ w * (hi * r) [MOD 2 ^ (64 + K)] := (Nat.ModEq.mul_left w e2.symm)
          _ = w * hi * r := (Nat.mul_assoc ..).symm
          _ ≡ 1 * r [MOD 2 ^ (64 + K)] := Nat.ModEq.mul_right r e1
          _ = r := Nat.one_mul r
      have hlt : w < 2 ^ (64 + K) := lt_of_lt_of_le hw (Nat.pow_le_pow_right (by decide) (by omega))
      rw [Nat.ModEq, Nat.mod_eq_of_lt hlt, Nat.mod_eq_of_lt hb3] at e3
      omega

/-- The check for the negative powers at which a `double` (`K = 9`) or `float` (`K = 38`) may be a tie. -/
theorem noTie64 : allBelow 4 (fun i => (powerOfFive128[2 * (342 - 4 + i)]?.map (noTie 9)).getD false) = true := by decide +kernel
theorem noTie32 : allBelow 17 (fun i => (powerOfFive128[2 * (342 - 17 + i)]?.map (noTie 38)).getD false) = true := by decide +kernel


/-- The high words are even where a tie has a nonnegative power. -/
theorem even64 : allBelow 24 (fun i => (powerOfFive128[2 * (342 + i)]?.map fun h => decide (h % 2 = 0)).getD false) = true := by decide +kernel

end Nanostl.FastFloat

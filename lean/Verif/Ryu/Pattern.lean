import Verif.Ryu.Link

/-!
Fields of a pattern and the scale used by `f2d` and `d2d`, for any format.
-/

namespace Nanostl.Ryu
open Nanostl.Float

/-- Significand with the implicit bit. -/
def sig (mb m e : Nat) : Nat := if e = 0 then m else 2 ^ mb + m
/-- One unless the lower neighbour has a smaller exponent. -/
def shOf (m e : Nat) : Nat := if m ≠ 0 ∨ e ≤ 1 then 1 else 0

theorem sig_add {mb m e : Nat} : e * 2 ^ mb + m = (e - 1) * 2 ^ mb + sig mb m e := by
  unfold sig
  split
  · rename_i h; subst h; rfl
  · obtain ⟨k, rfl⟩ : ∃ k, e = k + 1 := ⟨e - 1, by omega⟩
    rw [Nat.add_sub_cancel, Nat.add_mul]; omega

theorem pat_of (φ : Fmt) {m e t : Nat} (hm : m < 2 ^ φ.mb) (ht : t = e * 2 ^ φ.mb + m) (h0 : 0 < t) :
    Pat φ t (sig φ.mb m e) (e - 1) (4 * sig φ.mb m e - 1 - shOf m e) (4 * sig φ.mb m e + 2) := by
  have hp : 0 < 2 ^ φ.mb := Nat.two_pow_pos _
  have hs : 2 ^ (φ.mb + 1) = 2 * 2 ^ φ.mb := by rw [Nat.pow_succ]; omega
  rw [sig_add] at ht
  have hm2 : sig φ.mb m e < 2 ^ (φ.mb + 1) := by unfold sig; split <;> omega
  have hpos : 0 < sig φ.mb m e := by
    unfold sig
    split
    · rename_i h; subst h
      rw [show (0 : Nat) - 1 = 0 by omega, Nat.zero_mul, sig, if_pos rfl] at ht
      omega
    · omega
  have hbig : e - 1 ≠ 0 → 2 ^ φ.mb ≤ sig φ.mb m e := by intro h; unfold sig; rw [if_neg (by omega)]; omega
  have e1 : φ.mag t = sig φ.mb m e * 2 ^ (e - 1) := by rw [ht]; exact φ.mag_of _ _ (by omega) hbig
  have e2 : φ.mag (t + 1) = (sig φ.mb m e + 1) * 2 ^ (e - 1) := by
    rw [ht, Nat.add_assoc]; exact φ.mag_of _ _ (by omega) (fun h => by have := hbig h; omega)
  refine ⟨h0, e1, ?_, ?_, ?_, rfl⟩
  · by_cases hc : m ≠ 0 ∨ e ≤ 1
    · have e3 : φ.mag (t - 1) = (sig φ.mb m e - 1) * 2 ^ (e - 1) := by
        rw [ht, Nat.add_sub_assoc hpos]
        refine φ.mag_of _ _ (by omega) (fun h => ?_)
        unfold sig; rw [if_neg (by omega)]; omega
      rw [e1, e3, shOf, if_pos hc, ← Nat.add_mul, ← Nat.mul_assoc]
      congr 1; omega
    · have hm0 : m = 0 := by omega
      have hsg : sig φ.mb m e = 2 ^ φ.mb := by unfold sig; rw [if_neg (by omega), hm0]; omega
      obtain ⟨k, hk⟩ : ∃ k, e = k + 2 := ⟨e - 2, by omega⟩
      have e3 : φ.mag (t - 1) = (2 ^ (φ.mb + 1) - 1) * 2 ^ k := by
        rw [show t - 1 = k * 2 ^ φ.mb + (2 ^ (φ.mb + 1) - 1) by
          rw [ht, hsg, hk, show k + 2 - 1 = k + 1 by omega, Nat.add_mul]; omega]
        exact φ.mag_of _ _ (by omega) (fun _ => by omega)
      rw [e1, e3, shOf, if_neg hc, hsg, hk, show k + 2 - 1 = k + 1 by omega, Nat.pow_succ 2 k, hs]
      obtain ⟨y, hy⟩ : ∃ y, 2 ^ φ.mb = y + 1 := ⟨2 ^ φ.mb - 1, by omega⟩
      rw [hy, show 2 * (y + 1) - 1 = 2 * y + 1 by omega, show 4 * (y + 1) - 1 - 0 = 4 * y + 3 by omega]
      ring
  · rw [e1, e2, ← Nat.add_mul, ← Nat.mul_assoc]
    congr 1; omega
  · unfold shOf; split <;> omega

theorem parity_of (φ : Fmt) (hmb : 1 ≤ φ.mb) {m e t : Nat} (ht : t = e * 2 ^ φ.mb + m) : t % 2 = sig φ.mb m e % 2 := by
  rw [sig_add] at ht
  obtain ⟨k, hk⟩ : ∃ k, φ.mb = k + 1 := ⟨φ.mb - 1, by omega⟩
  have : (e - 1) * 2 ^ φ.mb = 2 * ((e - 1) * 2 ^ k) := by rw [hk, Nat.pow_succ]; ring
  omega

theorem ten (n : Nat) : 10 ^ n = 2 ^ n * 5 ^ n := by rw [← Nat.mul_pow]

theorem scaled_pos (φ : Fmt) {L E e q : Nat} (hL : φ.one = 2 ^ L) (hE : E = e + L + 2) (hq : q ≤ e) :
    Scaled φ E (2 ^ (e - q)) (5 ^ q) (q : Int) := by
  unfold Scaled
  rw [show (-(q : Int)).toNat = 0 by omega, Int.toNat_natCast, Nat.pow_zero, Nat.mul_one, hL, hE, ten]
  calc 2 ^ (e - q) * (2 ^ q * 5 ^ q) * (4 * 2 ^ L) = (2 ^ (e - q) * 2 ^ q) * 2 ^ L * 2 ^ 2 * 5 ^ q := by ring
    _ = _ := by rw [← Nat.pow_add, ← Nat.pow_add, ← Nat.pow_add]; congr 2; omega

theorem scaled_neg (φ : Fmt) {L E e q : Nat} (hL : φ.one = 2 ^ L) (hE : E + e = L + 2) (hq : q ≤ e) :
    Scaled φ E (5 ^ (e - q)) (2 ^ q) ((q : Int) + -(e : Int)) := by
  unfold Scaled
  rw [show ((q : Int) + -(e : Int)).toNat = 0 by omega, show (-((q : Int) + -(e : Int))).toNat = e - q by omega, Nat.pow_zero, Nat.mul_one, hL, ten]
  calc 5 ^ (e - q) * (4 * 2 ^ L) = 2 ^ L * 2 ^ 2 * 5 ^ (e - q) := by ring
    _ = 2 ^ E * 2 ^ q * 2 ^ (e - q) * 5 ^ (e - q) := by
      rw [← Nat.pow_add, ← Nat.pow_add, ← Nat.pow_add]; congr 2; omega
    _ = _ := by ring

end Nanostl.Ryu

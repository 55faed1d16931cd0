import Verif.Ryu.D2dMul
import Verif.Ryu.F2dNeg

/-!
The products of step 3 of `d2d` (double) are exact floors: one finite check per exponent.
-/

namespace Nanostl.Ryu

/-- Everything that has to be checked for one exponent, `C / 2^i` in place of `N / D`. -/
structure Scale64 (q N D C i : Nat) : Prop where
  hD : 0 < D
  hND : D ≤ N
  hN10 : q ≠ 0 → 10 * D ≤ N
  hN : N < 100 * D
  hi : 65 < i ∧ i < 128
  hC0 : 18446744073709551616 ≤ C
  hC : C < 18446744073709551616 * 4611686018427387904
  hmid : C / 2048 % 18446744073709551616 ≠ 18446744073709551615
  exact : ∀ m, m ≤ 2 ^ 55 → m * C / 2 ^ i = m * N / D

def scaleChk64 (q N D C i : Nat) : Bool :=
  Nat.ble D N && Nat.blt N (100 * D) && Nat.blt 0 D && Nat.blt 65 i && Nat.blt i 128 && Nat.ble 18446744073709551616 C &&
  Nat.blt C (18446744073709551616 * 4611686018427387904) && (!Nat.beq (C / 2048 % 18446744073709551616) 18446744073709551615) &&
  (Nat.beq q 0 || Nat.ble (10 * D) N) && exactOK (2 ^ 55) C (2 ^ i) N D

theorem scaleChk64_sound {q N D C i : Nat} (h : scaleChk64 q N D C i = true) : Scale64 q N D C i := by
  simp only [scaleChk64, Bool.and_eq_true, Bool.or_eq_true, Nat.ble_eq, Nat.blt_eq, Nat.beq_eq, Bool.not_eq_true'] at h
  obtain ⟨⟨⟨⟨⟨⟨⟨⟨⟨h1, h2⟩, h3⟩, h4⟩, h5⟩, h6⟩, h7⟩, h8⟩, h9⟩, h10⟩ := h
  refine ⟨h3, h1, fun hq => h9.resolve_left hq, h2, ⟨h4, h5⟩, h6, h7, fun h => ?_, exactOK_sound (Nat.two_pow_pos _) h3 h10⟩
  rw [h] at h8
  exact absurd h8 (by decide)

def posQ64 (e : Nat) : Nat := e * 78913 / 2 ^ 18 - (if 3 < e then 1 else 0)

def posChk64 (e : Nat) : Bool :=
  force (posQ64 e) fun q =>
  Nat.ble q e && Nat.blt q 342 && Nat.ble e (q + 125 + lg q) && (Nat.ble e 3 || Nat.blt 0 (e * 78913 / 2 ^ 18)) &&
  scaleChk64 q (2 ^ (e - q)) (5 ^ q) (invEntry q) (q + 125 + lg q - e)

theorem posChk64_all : allBelow 970 posChk64 = true := by decide +kernel

def negQ64 (e : Nat) : Nat := e * 732923 / 2 ^ 20 - (if 1 < e then 1 else 0)

def negChk64 (e : Nat) : Bool :=
  Nat.beq e 0 ||
  (force (negQ64 e) fun q =>
  Nat.blt q e && Nat.blt (e - q) 326 && Nat.ble (lg (e - q) + 1) (q + 125) && (Nat.ble e 1 || Nat.blt 0 (e * 732923 / 2 ^ 20)) &&
  scaleChk64 q (5 ^ (e - q)) (2 ^ q) (powEntry (e - q)) (q + 125 - (lg (e - q) + 1)))

theorem negChk64_all : allBelow 1077 negChk64 = true := by decide +kernel

end Nanostl.Ryu

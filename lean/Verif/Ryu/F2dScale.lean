import Verif.Ryu.F2dBase

/-!
The products of step 3 of `f2d` (float) are exact floors: one finite check per exponent.
-/

namespace Nanostl.Ryu

def lg (q : Nat) : Nat := q * 1217359 / 2 ^ 19

/-- Everything that has to be checked for one exponent, `C / 2^i` in place of `N / D`, and `C' / 2^i'` in place of `10 N / D`. -/
structure Scale32 (q N D C i C' i' : Nat) : Prop where
  hD : 0 < D
  hND : D ≤ N
  hN : N < 10 * D
  hi : 32 < i ∧ i < 96
  hC : C < 18446744073709551616
  exact : ∀ m, m ≤ 2 ^ 26 → m * C / 2 ^ i = m * N / D
  hi' : q ≠ 0 → 32 < i' ∧ i' < 96
  hC' : q ≠ 0 → C' < 18446744073709551616
  exact' : q ≠ 0 → ∀ m, m ≤ 2 ^ 24 → m * (4 * C') / 2 ^ i' = m * (40 * N) / D

def scaleChk32 (q N D C i C' i' : Nat) : Bool :=
  Nat.ble D N && Nat.blt N (10 * D) && Nat.blt 0 D && Nat.blt 32 i && Nat.blt i 96 && Nat.blt C 18446744073709551616 &&
  exactOK (2 ^ 26) C (2 ^ i) N D &&
  (Nat.beq q 0 || (Nat.blt 32 i' && Nat.blt i' 96 && Nat.blt C' 18446744073709551616 && exactOK (2 ^ 24) (4 * C') (2 ^ i') (40 * N) D))

theorem scaleChk32_sound {q N D C i C' i' : Nat} (h : scaleChk32 q N D C i C' i' = true) : Scale32 q N D C i C' i' := by
  simp only [scaleChk32, Bool.and_eq_true, Bool.or_eq_true, Nat.ble_eq, Nat.blt_eq, Nat.beq_eq] at h
  obtain ⟨⟨⟨⟨⟨⟨⟨h1, h2⟩, h3⟩, h4⟩, h5⟩, h6⟩, h7⟩, h8⟩ := h
  refine ⟨h3, h1, h2, ⟨h4, h5⟩, h6, exactOK_sound (Nat.two_pow_pos _) h3 h7, fun hq => ?_, fun hq => ?_, fun hq => ?_⟩ <;>
    rcases h8 with h8 | ⟨⟨⟨a, b⟩, c⟩, d⟩
  · exact absurd h8 hq
  · exact ⟨a, b⟩
  · exact absurd h8 hq
  · exact c
  · exact absurd h8 hq
  · exact exactOK_sound (Nat.two_pow_pos _) h3 d

/-! The two tables of checks. -/

def posQ (e : Nat) : Nat := e * 78913 / 2 ^ 18
def posC (q : Nat) : Nat := invEntry q / 18446744073709551616 + 1

def posChk32 (e : Nat) : Bool :=
  force (posQ e) fun q =>
  Nat.ble q e && Nat.blt q 342 && Nat.ble e (q + 61 + lg q) && (Nat.beq q 0 || Nat.ble e (q - 1 + 61 + lg (q - 1))) &&
  scaleChk32 q (2 ^ (e - q)) (5 ^ q) (posC q) (q + 61 + lg q - e) (posC (q - 1)) (q - 1 + 61 + lg (q - 1) - e)

theorem posChk32_all : allBelow 103 posChk32 = true := by decide +kernel

def negQ (e : Nat) : Nat := e * 732923 / 2 ^ 20
def negC (i : Nat) : Nat := powEntry i / 18446744073709551616

def negChk32 (e : Nat) : Bool :=
  Nat.beq e 0 ||
  (force (negQ e) fun q =>
  Nat.blt q e && Nat.blt (e - q + 1) 326 && Nat.ble (lg (e - q) + 1) (q + 61) && (Nat.beq q 0 || Nat.ble (lg (e - q + 1) + 1) (q - 1 + 61)) &&
  scaleChk32 q (5 ^ (e - q)) (2 ^ q) (negC (e - q)) (q + 61 - (lg (e - q) + 1)) (negC (e - q + 1)) (q - 1 + 61 - (lg (e - q + 1) + 1)))

theorem negChk32_all : allBelow 152 negChk32 = true := by decide +kernel

/-- Significand of a float and the bounds derived from it. -/
structure Mant32 (acc : Bool) (m2 mm mv mp : Nat) (mmShift : Nat) : Prop where
  pos : 0 < m2
  lt : m2 < 16777216
  hmv : mv = 4 * m2
  hmp : mp = 4 * m2 + 2
  hmm : mm = 4 * m2 - 1 - mmShift
  hsh : mmShift = 1 ∨ (mmShift = 0 ∧ m2 = 8388608)
  hacc : acc = decide (m2 % 2 = 0)

theorem lookup_inv {q : Nat} (hq : q < 342) : ∃ t, invSplit[q]? = some t ∧ w64 (t.2 + 1) = posC q % 18446744073709551616 := by
  obtain ⟨t, ht, h1, h2, h3⟩ := inv_get hq
  refine ⟨t, ht, ?_⟩
  have : t.2 = invEntry q / 18446744073709551616 := by
    rw [← h3, ← show (2 : Nat) ^ 64 = 18446744073709551616 by norm_num, divB h1]
  rw [w64_eq, this, posC]

theorem lookup_pow {q : Nat} (hq : q < 326) : ∃ t, powSplit[q]? = some t ∧ t.2 = negC q := by
  obtain ⟨t, ht, h1, h2, h3⟩ := pow_get hq
  refine ⟨t, ht, ?_⟩
  rw [negC, ← h3, ← show (2 : Nat) ^ 64 = 18446744073709551616 by norm_num, divB h1]

theorem mulInv_eq (p : Bool) {m q : Nat} {j : Int} (hq : q < 342) (hC : posC q < 18446744073709551616) (hm : m < 4294967296) (h1 : 32 < j)
    (h2 : j < 96) (h3 : m * posC q / 2 ^ j.toNat < 4294967296) : mulPow5InvDivPow2 p m q j = some (m * posC q / 2 ^ j.toNat) := by
  obtain ⟨t, ht, hw⟩ := lookup_inv hq
  rw [mulPow5InvDivPow2, ht, some_bind, hw, Nat.mod_eq_of_lt hC, mulShift32_eq p hm hC h1 h2 h3]

theorem mulPow_eq (p : Bool) {m q : Nat} {j : Int} (hq : q < 326) (hC : negC q < 18446744073709551616) (hm : m < 4294967296) (h1 : 32 < j)
    (h2 : j < 96) (h3 : m * negC q / 2 ^ j.toNat < 4294967296) : mulPow5divPow2 p m q j = some (m * negC q / 2 ^ j.toNat) := by
  obtain ⟨t, ht, hw⟩ := lookup_pow hq
  rw [mulPow5divPow2, ht, some_bind, hw, mulShift32_eq p hm hC h1 h2 h3]

section
variable {q N D C i C' i' m2 mm mv mp sh : Nat} {acc : Bool}

theorem Scale32.bound (h : Scale32 q N D C i C' i') {m : Nat} (hm : m ≤ 2 ^ 26) : m * N / D < 671088640 + 1 := by
  have h1 : m * N ≤ 671088640 * D := by
    calc m * N ≤ 2 ^ 26 * (10 * D) := Nat.mul_le_mul hm (Nat.le_of_lt h.hN)
      _ = 671088640 * D := by ring
  rw [Nat.lt_succ_iff]
  exact Nat.div_le_of_le_mul (by rw [Nat.mul_comm D]; exact h1)

/-- Bound on the product that gives the hidden digit, when it is computed. -/
theorem Scale32.hidden_lt (h : Scale32 q N D C i C' i') (hmt : Mant32 acc m2 mm mv mp sh)
    (hc : (mp * N / D - 1) / 10 ≤ mm * N / D / 10) : 10 * (mv * N) / D < 4294967296 := by
  have hD := h.hD
  have h1 : mp * N / D ≤ mm * N / D + 10 := by omega
  have h2 := Nat.div_mul_le_self (mm * N) D
  have h3 := Nat.lt_mul_div_succ (mp * N) hD
  have h4 : (mm + 3) * N ≤ mp * N := Nat.mul_le_mul_right _ (by
    have := hmt.hmp; have := hmt.hmm; have := hmt.pos; have := hmt.hsh; omega)
  have h5 : D * (mp * N / D + 1) ≤ D * (mm * N / D + 11) := Nat.mul_le_mul_left _ (by omega)
  have h6 : D * (mm * N / D + 11) = mm * N / D * D + 11 * D := by ring
  have h7 : (mm + 3) * N = mm * N + 3 * N := by ring
  have h8 : 3 * N < 11 * D := by omega
  rw [Nat.div_lt_iff_lt_mul hD]
  have h9 : mv ≤ 67108864 := by have := hmt.hmv; have := hmt.lt; omega
  have h10 : mv * (3 * N) ≤ 67108864 * (11 * D) := Nat.mul_le_mul h9 (Nat.le_of_lt h8)
  have h11 : mv * (3 * N) = 3 * (mv * N) := by ring
  omega

theorem Scale32.hidden (h : Scale32 q N D C i C' i') (hq : q ≠ 0) (hmt : Mant32 acc m2 mm mv mp sh) :
    mv * C' / 2 ^ i' = 10 * (mv * N) / D := by
  have := h.exact' hq m2 (by have := hmt.lt; omega)
  rw [hmt.hmv, show 4 * m2 * C' = m2 * (4 * C') by ring, this]
  congr 1; ring
end


end Nanostl.Ryu

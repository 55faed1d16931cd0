import Verif.Ryu.F2dScale
import Verif.Ryu.D2d

/-!
The products in the decimal parsers are exact floors: two finite checks per exponent, one for significands with the largest number of bits and one
for all others, which after multiplication by a power of two have one bit less. There is one exception: for `float`, the significand 614426533
with exponents -25 and -26.
-/

namespace Nanostl.Ryu

/-- `C / 2^S` in place of `N / D`, for significands up to `M`, brought to `K + 1` bits. -/
structure Exact2 (K M N D C S bad : Nat) : Prop where
  hC : C < 18446744073709551616 * 4611686018427387904
  a : ∀ m, m ≤ M → m ≠ bad → m * C / 2 ^ S = m * N / D
  b : ∀ m, m ≤ 2 ^ K → m * C / 2 ^ (S - 1) = m * (2 * N) / D

def exact2 (K M N D C S : Nat) : Bool :=
  Nat.blt C (18446744073709551616 * 4611686018427387904) && exactOK M C (2 ^ S) N D && exactOK (2 ^ K) C (2 ^ (S - 1)) (2 * N) D

theorem exact2_sound {K M N D C S : Nat} (h : exact2 K M N D C S = true) (hD : 0 < D) : Exact2 K M N D C S 0 := by
  simp only [exact2, Bool.and_eq_true, Nat.blt_eq] at h
  exact ⟨h.1.1, fun m hm _ => exactOK_sound (Nat.two_pow_pos _) hD h.1.2 m hm, exactOK_sound (Nat.two_pow_pos _) hD h.2⟩

theorem Exact2.floor {K M N D C S bad m l : Nat} (h : Exact2 K M N D C S bad) (hM : m ≤ M) (hl : l ≤ K) (hlt : m < 2 ^ (l + 1)) (hS : K < S)
    (hbad : l = K → m ≠ bad) : m * C / 2 ^ (S - K + l) = m * 2 ^ (K - l) * N / D := by
  rcases Nat.eq_or_lt_of_le hl with he | he
  · rw [he, Nat.sub_self, Nat.pow_zero, Nat.mul_one, show S - K + K = S by omega]
    exact h.a m hM (hbad he)
  · have hb := h.b (m * 2 ^ (K - 1 - l)) (by
      calc m * 2 ^ (K - 1 - l) ≤ 2 ^ (l + 1) * 2 ^ (K - 1 - l) := Nat.mul_le_mul_right _ (Nat.le_of_lt hlt)
        _ = 2 ^ K := by rw [← Nat.pow_add]; congr 1; omega)
    have e1 : m * 2 ^ (K - 1 - l) * (2 * N) = m * 2 ^ (K - l) * N := by
      rw [show K - l = K - 1 - l + 1 by omega, Nat.pow_succ]; ring
    have e2 : m * 2 ^ (K - 1 - l) * C / 2 ^ (S - 1) = m * C / 2 ^ (S - K + l) := by
      rw [show S - 1 = (S - K + l) + (K - 1 - l) by omega, Nat.pow_add, show m * 2 ^ (K - 1 - l) * C = m * C * 2 ^ (K - 1 - l) by ring,
        Nat.mul_div_mul_right _ _ (Nat.two_pow_pos _)]
    rw [← e2, hb, e1]

/-! ### `double` -/

def parsePosChk64 (e : Nat) : Bool := exact2 56 (10 ^ 17) (5 ^ e) (2 ^ (lg e + 3)) (powEntry e) 127
theorem parsePosChk64_all : allBelow 309 parsePosChk64 = true := by decide +kernel

def parseNegChk64 (e : Nat) : Bool := exact2 56 (10 ^ 17) (2 ^ (lg e + 1)) (8 * 5 ^ e) (invEntry e) 127
theorem parseNegChk64_all : allBelow 341 parseNegChk64 = true := by decide +kernel

theorem parsePos64 {e : Nat} (h : e < 309) : Exact2 56 (10 ^ 17) (5 ^ e) (2 ^ (lg e + 3)) (powEntry e) 127 0 :=
  exact2_sound (allBelow_sound parsePosChk64_all e h) (Nat.two_pow_pos _)

theorem parseNeg64 {e : Nat} (h : e < 341) : Exact2 56 (10 ^ 17) (2 ^ (lg e + 1)) (8 * 5 ^ e) (invEntry e) 127 0 :=
  exact2_sound (allBelow_sound parseNegChk64_all e h) (Nat.mul_pos (by decide) (Nat.pow_pos (by decide)))

/-- The product. -/
theorem mulShift64_eq {m C0 C1 C : Nat} {j : Int} (hm : m < 144115188075855872) (hC0 : C0 < 18446744073709551616) (hC1 : C1 < 18446744073709551616)
    (hCd : C1 * 18446744073709551616 + C0 = C) (hC : C < 18446744073709551616 * 4611686018427387904) (hj1 : 65 < j) (hj2 : j < 128)
    (hfit : m * C / 2 ^ j.toNat < 18446744073709551616) : mulShift64 m (C0, C1) j = some (m * C / 2 ^ j.toNat) := by
  have hC1' : C1 < 4611686018427387904 := by omega
  have hA : m * C0 < 18446744073709551616 * 18446744073709551616 := Nat.lt_trans (mul_lt_of hm hC0) (by norm_num)
  have hB : m * C1 < 18446744073709551616 * 4611686018427387904 := Nat.lt_trans (mul_lt_of hm hC1') (by norm_num)
  have hmid := mulMid hA hB
  have eX : m * C1 * 18446744073709551616 + m * C0 = m * C := by rw [← hCd]; ring
  rw [eX] at hmid
  have hmw : m < 18446744073709551616 := by omega
  have q1 := umul128_aux _ _ hmw hC1
  have q0 := umul128_aux _ _ hmw hC0
  rw [mulShift64]
  simp only
  rw [q1, q0]
  simp only
  have hsel : (if w64 (m * C0 / 18446744073709551616 + m * C1 % 18446744073709551616) < m * C0 / 18446744073709551616 then
      w64 (m * C1 / 18446744073709551616 + 1) else m * C1 / 18446744073709551616) =
      w64 (m * C1 / 18446744073709551616 + b2n (w64 (m * C0 / 18446744073709551616 + m * C1 % 18446744073709551616) < m * C0 / 18446744073709551616)) := by
    unfold b2n
    split
    · rfl
    · rw [Nat.add_zero, w64_of_lt]; omega
  rw [hsel]
  exact sr2 hj1 hj2 (w64_lt _) hmid hfit

/-! ### `float` -/

def parsePosChk32 (e : Nat) : Bool := exact2 29 (10 ^ 9) (5 ^ e) (2 ^ (lg e + 5)) (negC e) 65 && Nat.blt (negC e) 18446744073709551616
theorem parsePosChk32_all : allBelow 39 parsePosChk32 = true := by decide +kernel

def parseNegChk32 (e : Nat) : Bool :=
  exact2 29 (bif Nat.beq e 25 || Nat.beq e 26 then 614426532 else 10 ^ 9) (2 ^ (lg e + 1)) (32 * 5 ^ e) (posC e) 65 && Nat.blt (posC e) 18446744073709551616
theorem parseNegChk32_all : allBelow 55 parseNegChk32 = true := by decide +kernel

/-- All fractions between `N / D` and `C / 2^S` with denominators up to `M` are equal to `p0 / m0`. -/
def except (M N D C S p0 m0 a b c d : Nat) : Bool :=
  Nat.ble (a * D) (N * b) && Nat.beq (b * p0) (a * m0 + 1) && Nat.blt M (b + m0) && Nat.blt (C * d) (c * 2 ^ S) && Nat.beq (m0 * c) (p0 * d + 1) &&
  Nat.blt M (m0 + d) && Nat.blt M (2 * m0) && Nat.ble (N * 2 ^ S) (C * D)

theorem except_sound {M N D C S p0 m0 a b c d : Nat} (hD : 0 < D) (h : except M N D C S p0 m0 a b c d = true) :
    ∀ m, m ≤ M → m ≠ m0 → m * C / 2 ^ S = m * N / D := by
  simp only [except, Bool.and_eq_true, Nat.ble_eq, Nat.blt_eq, Nat.beq_eq] at h
  obtain ⟨⟨⟨⟨⟨⟨⟨h1, h2⟩, h3⟩, h4⟩, h5⟩, h6⟩, h7⟩, h8⟩ := h
  intro m hm hne
  refine Nat.le_antisymm ?_ (floor_le hD (Nat.two_pow_pos _) h8)
  by_contra hcon
  have hcon : m * N / D < m * C / 2 ^ S := by omega
  generalize hp : m * C / 2 ^ S = p at hcon
  have hlo : N * m < p * D := by rw [Nat.mul_comm N m]; exact (Nat.div_lt_iff_lt_mul hD).mp hcon
  have hhi : p * 2 ^ S ≤ C * m := by rw [← hp, Nat.mul_comm C m]; exact Nat.div_mul_le_self _ _
  rcases Nat.lt_trichotomy (p * m0) (p0 * m) with hlt | heq | hgt
  · have hc : cert M N D p m a b p0 m0 = true := by
      simp only [cert, Bool.and_eq_true, Nat.ble_eq, Nat.blt_eq, Nat.beq_eq]
      exact ⟨⟨⟨h1, hlt⟩, h2⟩, h3⟩
    have := cert_sound hc p m hlo (Nat.le_refl _)
    omega
  · have hco : Nat.Coprime m0 p0 := by
      have hdv : Nat.gcd m0 p0 ∣ 1 := by
        have e1 : Nat.gcd m0 p0 ∣ a * m0 + 1 := h2 ▸ Dvd.dvd.mul_left (Nat.gcd_dvd_right m0 p0) b
        exact (Nat.dvd_add_right (Dvd.dvd.mul_left (Nat.gcd_dvd_left m0 p0) a)).1 e1
      exact Nat.eq_one_of_dvd_one hdv
    have hd : m0 ∣ m := hco.dvd_of_dvd_mul_left (heq ▸ Nat.dvd_mul_left m0 p)
    obtain ⟨k, hk⟩ := hd
    rcases k with _ | _ | k
    · rw [Nat.mul_zero] at hk
      rw [hk] at hhi
      have : p = 0 := by
        rcases Nat.eq_zero_or_pos p with h | h
        · exact h
        · have := Nat.mul_pos h (Nat.two_pow_pos S); omega
      rw [this] at hcon
      exact absurd hcon (Nat.not_lt_zero _)
    · omega
    · have : m0 * (k + 1 + 1) = 2 * m0 + m0 * k := by ring
      omega
  · have hc : cert M p0 m0 C (2 ^ S) p0 m0 c d = true := by
      simp only [cert, Bool.and_eq_true, Nat.ble_eq, Nat.blt_eq, Nat.beq_eq]
      exact ⟨⟨⟨Nat.le_refl _, h4⟩, h5⟩, h6⟩
    have := cert_sound hc p m hgt hhi
    omega

theorem except26 : except (10 ^ 9) (2 ^ (lg 26 + 1)) (32 * 5 ^ 26) (posC 26) 65 29711844 614426533 41358803 855280000 47776729 987999599 = true := by decide +kernel
theorem except25 : except (10 ^ 9) (2 ^ (lg 25 + 1)) (32 * 5 ^ 25) (posC 25) 65 37139805 614426533 41358803 684224000 70060612 1159055599 = true := by decide +kernel

theorem parsePos32 {e : Nat} (h : e < 39) : Exact2 29 (10 ^ 9) (5 ^ e) (2 ^ (lg e + 5)) (negC e) 65 0 ∧ negC e < 18446744073709551616 := by
  have := allBelow_sound parsePosChk32_all e h
  rw [parsePosChk32, Bool.and_eq_true, Nat.blt_eq] at this
  exact ⟨exact2_sound this.1 (Nat.two_pow_pos _), this.2⟩

theorem parseNeg32 {e : Nat} (h : e < 55) :
    Exact2 29 (10 ^ 9) (2 ^ (lg e + 1)) (32 * 5 ^ e) (posC e) 65 (if e = 25 ∨ e = 26 then 614426533 else 0) ∧ posC e < 18446744073709551616 := by
  have := allBelow_sound parseNegChk32_all e h
  rw [parseNegChk32, Bool.and_eq_true, Nat.blt_eq] at this
  refine ⟨?_, this.2⟩
  have hD : 0 < 32 * 5 ^ e := Nat.mul_pos (by decide) (Nat.pow_pos (by decide))
  have q := exact2_sound this.1 hD
  by_cases he : e = 25 ∨ e = 26
  · rw [if_pos he]
    refine ⟨q.hC, ?_, q.b⟩
    rcases he with rfl | rfl
    · exact except_sound hD except25
    · exact except_sound hD except26
  · rw [if_neg he]
    have : (Nat.beq e 25 || Nat.beq e 26) = false := by
      rw [Bool.or_eq_false_iff, ← Bool.not_eq_true, ← Bool.not_eq_true, Nat.beq_eq, Nat.beq_eq]; exact not_or.1 he
    rw [this] at q
    exact q

end Nanostl.Ryu

import Verif.Ryu.Core
import Verif.Float.Decimal
import Mathlib.Data.Nat.Log

/-!
From the scaled interval to the rounding interval: what the digit removal finds is the best decimal in the sense of `DecBest`.
-/

namespace Nanostl.Ryu
open Nanostl.Float

/-- The pattern `t` has significand `m2` and exponent `E`; `mm`, `mp` are four times the midpoints to the neighbours. -/
structure Pat (φ : Fmt) (t m2 E mm mp : Nat) : Prop where
  ht : 0 < t
  mag : φ.mag t = m2 * 2 ^ E
  lo : 2 * (φ.mag (t - 1) + φ.mag t) = mm * 2 ^ E
  hi : 2 * (φ.mag t + φ.mag (t + 1)) = mp * 2 ^ E
  hmm : 4 * m2 ≤ mm + 2
  hmp : mp = 4 * m2 + 2

/-- `N / D` is the scale `2^E / (4 * one) / 10^e10`. -/
def Scaled (φ : Fmt) (E N D : Nat) (e10 : Int) : Prop := N * 10 ^ e10.toNat * (4 * φ.one) = 2 ^ E * D * 10 ^ (-e10).toNat

section
variable {φ : Fmt} {t m2 E mm mp N D o r : Nat} {e10 : Int} {acc : Bool}

/-- Both scales differ by constant factors. -/
theorem factors (hs : Scaled φ E N D e10) (hD : 0 < D) (r : Nat) : ∃ P Q, 0 < P ∧ 0 < Q ∧
    (∀ x, P * (x * N) = Q * (x * 2 ^ E * decDen (e10 + r))) ∧ ∀ y, P * (y * (D * 10 ^ r)) = Q * (4 * decNum φ y (e10 + r)) := by
  refine ⟨10 ^ e10.toNat * (4 * φ.one) * decDen (e10 + r), D * 10 ^ (-e10).toNat, ?_, ?_, ?_, ?_⟩
  · exact Nat.mul_pos (Nat.mul_pos (Nat.pow_pos (by decide)) (Nat.mul_pos (by decide) (one_pos φ))) (decDen_pos _)
  · exact Nat.mul_pos hD (Nat.pow_pos (by decide))
  · intro x
    unfold Scaled at hs
    calc 10 ^ e10.toNat * (4 * φ.one) * decDen (e10 + r) * (x * N) = N * 10 ^ e10.toNat * (4 * φ.one) * (decDen (e10 + r) * x) := by ring
      _ = _ := by rw [hs]; ring
  · intro y
    unfold decDen decNum
    have h : 10 ^ e10.toNat * 10 ^ (-(e10 + r)).toNat * 10 ^ r = 10 ^ (e10 + r).toNat * 10 ^ (-e10).toNat := by
      rw [← Nat.pow_add, ← Nat.pow_add, ← Nat.pow_add]; congr 1; omega
    calc 10 ^ e10.toNat * (4 * φ.one) * 10 ^ (-(e10 + r)).toNat * (y * (D * 10 ^ r))
        = (10 ^ e10.toNat * 10 ^ (-(e10 + r)).toNat * 10 ^ r) * (4 * φ.one * y * D) := by ring
      _ = _ := by rw [h]; ring

theorem inI_scale {P a b y : Nat} (hP : 0 < P) : InI acc (P * a) (P * b) (P * y) ↔ InI acc a b y := by
  unfold InI
  cases acc <;> simp only [Bool.false_eq_true, if_false, if_true, Nat.mul_le_mul_left_iff hP, Nat.mul_lt_mul_left hP]

theorem inI_iff (hp : Pat φ t m2 E mm mp) (hacc : acc = decide (t % 2 = 0)) (hs : Scaled φ E N D e10) (hD : 0 < D) (c r : Nat) :
    InI acc (mm * N) (mp * N) (c * (D * 10 ^ r)) ↔ DecNearest φ c (e10 + r) t := by
  obtain ⟨P, Q, hP, hQ, h1, h2⟩ := factors hs hD r
  rw [← inI_scale hP, h1, h1, h2, inI_scale hQ, ← hp.lo, ← hp.hi, DecNearest, nearest_interval φ (decDen_pos _) hp.ht]
  generalize decNum φ c (e10 + r) = n
  rw [Nat.mul_assoc, Nat.mul_assoc]
  generalize (φ.mag (t - 1) + φ.mag t) * decDen (e10 + r) = A
  generalize (φ.mag t + φ.mag (t + 1)) * decDen (e10 + r) = B
  rw [hacc, InI]
  simp only [decide_eq_true_eq]
  split <;> omega

theorem ndist_natAbs (x y : Nat) : ndist x y = ((x : Int) - (y : Int)).natAbs := by unfold ndist; omega

theorem ndist_mul (P x y : Nat) : ndist (P * x) (P * y) = P * ndist x y := by
  rw [ndist_natAbs, ndist_natAbs]
  push_cast
  rw [← Int.mul_sub, Int.natAbs_mul, Int.natAbs_natCast]

/-- The distances compare the same way. -/
theorem ndist_iff (hp : Pat φ t m2 E mm mp) (hs : Scaled φ E N D e10) (hD : 0 < D) {a b r : Nat}
    (h : ndist (a * (D * 10 ^ r)) (4 * m2 * N) ≤ ndist (b * (D * 10 ^ r)) (4 * m2 * N)) : DecCloser φ a (e10 + r) b (e10 + r) t := by
  obtain ⟨P, Q, hP, hQ, h1, h2⟩ := factors hs hD r
  rw [← Nat.mul_le_mul_left_iff hP, ← ndist_mul, ← ndist_mul, h1, h2, h2, ndist_mul, ndist_mul, Nat.mul_le_mul_left_iff hQ,
    show 4 * m2 * 2 ^ E * decDen (e10 + r) = 4 * (m2 * 2 ^ E * decDen (e10 + r)) by ring, ndist_mul, ndist_mul,
    Nat.mul_le_mul_left_iff (by decide), ← hp.mag, ndist_natAbs, ndist_natAbs] at h
  exact Nat.mul_le_mul_right _ h

/-- For the nine least values, where the relative width of the interval is large. -/
def SmallOK (φ : Fmt) (t o : Nat) (e : Int) : Prop :=
  10 ≤ o ∨ decNum φ o e ≤ φ.mag t * decDen e ∨ decNum φ (10 * o + 9) (e - 1) ≤ 2 * (φ.mag t * decDen (e - 1))

instance (φ : Fmt) (t o : Nat) (e : Int) : Decidable (SmallOK φ t o e) := by unfold SmallOK; exact inferInstance

theorem no_pow (h : ∀ c, ¬DecNearest φ c (e10 + (r + 1 : Nat)) t) (n : Nat) (hn : 0 < n) : ¬DecNearest φ (10 ^ n) (e10 + r) t := by
  intro hc
  obtain ⟨m, rfl⟩ : ∃ m, n = m + 1 := ⟨n - 1, by omega⟩
  refine h (10 ^ m) ?_
  rw [Nat.pow_add, decNearest_shift] at hc
  have : e10 + (r : Int) + ((1 : Nat) : Int) = e10 + ((r + 1 : Nat) : Int) := by omega
  rwa [this] at hc

theorem decBest_of_best (hp : Pat φ t m2 E mm mp) (hacc : acc = decide (t % 2 = 0)) (hs : Scaled φ E N D e10) (hD : 0 < D)
    (hb : Best acc (mm * N) (4 * m2 * N) (mp * N) D o r) (hsmall : m2 ≤ 9 → SmallOK φ t o (e10 + r)) : DecBest φ t o (e10 + r) := by
  have ht := hp.ht
  have hmem : DecNearest φ o (e10 + r) t := (inI_iff hp hacc hs hD o r).1 hb.mem
  have hno : ∀ c, ¬DecNearest φ c (e10 + (r + 1 : Nat)) t := fun c h => hb.shortest c ((inI_iff hp hacc hs hD c (r + 1)).2 h)
  have ho : o ≠ 0 := by rintro rfl; exact dec_zero ht hmem
  have short : ∀ c k n, DecNearest φ c k t → c < 10 ^ n → o < 10 ^ n := by
    intro c k n hc hcn
    have hc0 : c ≠ 0 := by rintro rfl; exact dec_zero ht hc
    by_contra hon
    by_cases hk : e10 + r + 1 ≤ k
    · obtain ⟨j, hj⟩ : ∃ j : Nat, k = e10 + (r + 1 : Nat) + j := ⟨(k - (e10 + r + 1)).toNat, by omega⟩
      rw [hj, ← decNearest_shift] at hc
      exact hno _ hc
    · obtain ⟨j, hj⟩ : ∃ j : Nat, e10 + r = k + j := ⟨(e10 + r - k).toNat, by omega⟩
      have hn0 : 0 < n := by
        rcases Nat.eq_zero_or_pos n with rfl | h
        · rw [Nat.pow_zero] at hcn; omega
        · exact h
      refine no_pow hno n hn0 ?_
      have hm' := hmem
      rw [hj, ← decNearest_shift] at hm' ⊢
      have hj1 : 1 ≤ 10 ^ j := Nat.one_le_pow _ _ (by decide)
      exact dec_convex ht hc hm' (Nat.le_trans (Nat.le_of_lt hcn) (Nat.le_mul_of_pos_right _ hj1)) (Nat.mul_le_mul_right _ (by omega))
  refine ⟨hmem, short, ?_⟩
  intro c k hc hdig
  have hc0 : c ≠ 0 := by rintro rfl; exact dec_zero ht hc
  by_cases hk : e10 + r ≤ k
  · obtain ⟨j, hj⟩ : ∃ j : Nat, k = e10 + r + j := ⟨(k - (e10 + r)).toNat, by omega⟩
    subst hj
    rw [← closer_congr_right (dec_cross φ c j (e10 + r))]
    rw [← decNearest_shift] at hc
    exact ndist_iff hp hs hD (hb.closest _ ((inI_iff hp hacc hs hD _ r).2 hc))
  · obtain ⟨j, hj⟩ : ∃ j : Nat, e10 + r = k + (j + 1 : Nat) := ⟨(e10 + r - k - 1).toNat, by omega⟩
    have hm' := hmem
    rw [hj, ← decNearest_shift] at hm'
    by_cases h10 : 10 ≤ o
    · exfalso
      -- the leading power of ten lies between
      obtain ⟨n, hn1, hn2⟩ : ∃ n, 10 ^ n ≤ o ∧ o < 10 ^ (n + 1) :=
        ⟨Nat.log 10 o, Nat.pow_log_le_self 10 ho, Nat.lt_pow_succ_log_self (by decide) o⟩
      have hn0 : 0 < n := by
        rcases Nat.eq_zero_or_pos n with rfl | h
        · rw [Nat.zero_add, Nat.pow_one] at hn2; omega
        · exact h
      refine no_pow hno n hn0 ?_
      rw [hj, ← decNearest_shift]
      have hcn := hdig _ hn2
      refine dec_convex ht hc hm' ?_ (Nat.mul_le_mul_right _ hn1)
      calc c ≤ 10 ^ (n + 1) := Nat.le_of_lt hcn
        _ = 10 ^ n * 10 := Nat.pow_succ _ _
        _ ≤ 10 ^ n * 10 ^ (j + 1) := Nat.mul_le_mul_left _ (by rw [Nat.pow_succ]; have := Nat.one_le_pow j 10 (by decide); omega)
    · have hc10 : c < 10 := by
        have := hdig 1 (by omega)
        omega
      have hj1 : 1 ≤ 10 ^ j := Nat.one_le_pow _ _ (by decide)
      have hk1 : k + (j : Int) = e10 + r - 1 := by omega
      have e9 : DecNearest φ 9 (e10 + r - 1) t := by
        rw [← hk1, ← decNearest_shift]
        refine dec_convex ht hc hm' (by omega) ?_
        rw [Nat.pow_succ]
        calc 9 * 10 ^ j ≤ 1 * (10 ^ j * 10) := by omega
          _ ≤ o * (10 ^ j * 10) := Nat.mul_le_mul_right _ (by omega)
      have e10' : DecNearest φ 10 (e10 + r - 1) t := by
        rw [← hk1, ← decNearest_shift]
        refine dec_convex ht hc hm' (by omega) ?_
        rw [Nat.pow_succ]
        calc 10 * 10 ^ j = 1 * (10 ^ j * 10) := by omega
          _ ≤ o * (10 ^ j * 10) := Nat.mul_le_mul_right _ (by omega)
      have hm9 : m2 ≤ 9 := by
        rw [DecNearest, nearest_interval φ (decDen_pos _) ht] at e9 e10'
        have f9 : (φ.mag (t - 1) + φ.mag t) * decDen (e10 + r - 1) ≤ 2 * decNum φ 9 (e10 + r - 1) := by split at e9 <;> omega
        have f10 : 2 * decNum φ 10 (e10 + r - 1) ≤ (φ.mag t + φ.mag (t + 1)) * decDen (e10 + r - 1) := by split at e10' <;> omega
        have g9 : decNum φ 9 (e10 + r - 1) = 9 * decNum φ 1 (e10 + r - 1) := by unfold decNum; ring
        have g10 : decNum φ 10 (e10 + r - 1) = 10 * decNum φ 1 (e10 + r - 1) := by unfold decNum; ring
        have k1 : mm * 2 ^ E * decDen (e10 + r - 1) = 2 * ((φ.mag (t - 1) + φ.mag t) * decDen (e10 + r - 1)) := by rw [← hp.lo]; ring
        have k2 : mp * 2 ^ E * decDen (e10 + r - 1) = 2 * ((φ.mag t + φ.mag (t + 1)) * decDen (e10 + r - 1)) := by rw [← hp.hi]; ring
        have hX : 0 < 2 ^ E * decDen (e10 + r - 1) := Nat.mul_pos (Nat.two_pow_pos _) (decDen_pos _)
        rw [Nat.mul_assoc] at k1 k2
        generalize 2 ^ E * decDen (e10 + r - 1) = X at *
        have : 10 * mm * X ≤ 9 * mp * X := by
          rw [Nat.mul_assoc, Nat.mul_assoc, k1, k2]; omega
        have := Nat.le_of_mul_le_mul_right this hX
        have := hp.hmm; have := hp.hmp
        omega
      -- compare at exponent `e10 + r - 1`
      have hcle : decNum φ c k * decDen (e10 + r - 1) ≤ decNum φ 9 (e10 + r - 1) * decDen k := by
        rw [← hk1, ← dec_cross]
        exact Nat.mul_le_mul_right _ (decNum_mono φ (by omega) k)
      have hol : decNum φ 10 (e10 + r - 1) * decDen k ≤ decNum φ (10 * o) (e10 + r - 1) * decDen k :=
        Nat.mul_le_mul_right _ (decNum_mono φ (by omega) _)
      have hoc : decNum φ (o * 10 ^ 1) (e10 + r - 1) * decDen (e10 + r) = decNum φ o (e10 + r) * decDen (e10 + r - 1) := by
        have := dec_cross φ o 1 (e10 + r - 1)
        rwa [show e10 + (r : Int) - 1 + ((1 : Nat) : Int) = e10 + r by omega] at this
      rw [← closer_congr_left hoc]
      rw [Nat.pow_one, Nat.mul_comm o] at *
      have h910 : decNum φ 9 (e10 + r - 1) ≤ decNum φ 10 (e10 + r - 1) := decNum_mono φ (by omega) _
      unfold DecCloser Fmt.dist
      have hS := hsmall hm9
      have hdk := decDen_pos k
      have hde := decDen_pos (e10 + r - 1)
      have hde' := decDen_pos (e10 + r)
      have hS' : decNum φ (10 * o) (e10 + r - 1) ≤ φ.mag t * decDen (e10 + r - 1) ∨
          decNum φ (10 * o) (e10 + r - 1) + decNum φ 9 (e10 + r - 1) ≤ 2 * (φ.mag t * decDen (e10 + r - 1)) := by
        rcases hS with h | h | h
        · omega
        · left
          refine Nat.le_of_mul_le_mul_right ?_ hde'
          rw [hoc, show φ.mag t * decDen (e10 + r - 1) * decDen (e10 + r) = φ.mag t * decDen (e10 + r) * decDen (e10 + r - 1) by ring]
          exact Nat.mul_le_mul_right _ h
        · right
          refine Nat.le_trans (Nat.le_of_eq ?_) h
          unfold decNum; ring
      have e1 : ((decNum φ (10 * o) (e10 + r - 1) : Int) - (φ.mag t * decDen (e10 + r - 1) : Nat)).natAbs * decDen k =
          ndist (decNum φ (10 * o) (e10 + r - 1) * decDen k) (φ.mag t * decDen (e10 + r - 1) * decDen k) := by
        rw [Nat.mul_comm _ (decDen k), Nat.mul_comm _ (decDen k), Nat.mul_comm _ (decDen k), ndist_mul, ndist_natAbs]
      have e2 : ((decNum φ c k : Int) - (φ.mag t * decDen k : Nat)).natAbs * decDen (e10 + r - 1) =
          ndist (decNum φ c k * decDen (e10 + r - 1)) (φ.mag t * decDen (e10 + r - 1) * decDen k) := by
        rw [show φ.mag t * decDen (e10 + r - 1) * decDen k = decDen (e10 + r - 1) * (φ.mag t * decDen k) by ring,
          Nat.mul_comm _ (decDen (e10 + r - 1)), Nat.mul_comm _ (decDen (e10 + r - 1)), ndist_mul, ndist_natAbs]
      rw [e1, e2]
      have h9 := Nat.mul_le_mul_right (decDen k) h910
      have hS2 : decNum φ (10 * o) (e10 + r - 1) * decDen k ≤ φ.mag t * decDen (e10 + r - 1) * decDen k ∨
          decNum φ (10 * o) (e10 + r - 1) * decDen k + decNum φ 9 (e10 + r - 1) * decDen k ≤ 2 * (φ.mag t * decDen (e10 + r - 1) * decDen k) := by
        rcases hS' with h | h
        · exact Or.inl (Nat.mul_le_mul_right _ h)
        · right
          have := Nat.mul_le_mul_right (decDen k) h
          rwa [Nat.add_mul, Nat.mul_assoc] at this
      unfold ndist
      omega

end

end Nanostl.Ryu

import Verif.Float.Arith
import Mathlib.Tactic.Ring

/-!
`float` operations on numbers given by significand and exponent: `+-m 2^s` units with `2^23 <= m <= 2^24`.
-/

namespace Nanostl.Float
open Fmt

/-- `n / 2^j` rounded to an integer, ties to even. -/
def rn (n j : Nat) : Nat :=
  bif Nat.blt (2 * (n % 2 ^ j)) (2 ^ j) then n / 2 ^ j else bif Nat.blt (2 ^ j) (2 * (n % 2 ^ j)) then n / 2 ^ j + 1 else n / 2 ^ j + n / 2 ^ j % 2

/-- The pattern of `+-m 2^s` units. -/
def pat (g : Bool) (m s : Nat) : Nat := f32.withSign g (s * 2 ^ 23 + m)

theorem pat_lt_inf {m s : Nat} (h1 : m ≤ 2 ^ 24) (hs : s ≤ 252) : s * 2 ^ 23 + m < f32.inf := by
  have : f32.inf = 2139095040 := by decide +kernel
  omega

theorem pat_mag {m s : Nat} (h0 : 2 ^ 23 ≤ m) (h1 : m ≤ 2 ^ 24) : f32.mag (s * 2 ^ 23 + m) = m * 2 ^ s :=
  f32.mag_of m s h1 (fun _ => h0)

theorem pat_val {g : Bool} {m s : Nat} (h0 : 2 ^ 23 ≤ m) (h1 : m ≤ 2 ^ 24) (hs : s ≤ 252) : f32.val (pat g m s) = .fin (signed g (m * 2 ^ s)) := by
  unfold pat
  rw [f32.val_withSign_fin (pat_lt_inf h1 hs), pat_mag h0 h1]

theorem pat_sign {g : Bool} {m s : Nat} (h1 : m ≤ 2 ^ 24) (hs : s ≤ 252) : f32.sign (pat g m s) = g :=
  f32.sign_withSign (lt_trans (pat_lt_inf h1 hs) f32.inf_lt_half)

theorem neg_pat {g : Bool} {m s : Nat} (h1 : m ≤ 2 ^ 24) (hs : s ≤ 252) : f32.neg (pat g m s) = pat (!g) m s := by
  unfold Fmt.neg
  rw [pat_sign h1 hs]
  unfold pat
  rw [f32.low_withSign (lt_trans (pat_lt_inf h1 hs) f32.inf_lt_half)]

theorem rn_range {n j : Nat} (h0 : 2 ^ 23 ≤ n / 2 ^ j) (h1 : n / 2 ^ j < 2 ^ 24) : 2 ^ 23 ≤ rn n j ∧ rn n j ≤ 2 ^ 24 := by
  unfold rn
  have := Nat.mod_lt (n / 2 ^ j) (show 0 < 2 by decide)
  cases Nat.blt (2 * (n % 2 ^ j)) (2 ^ j) <;> cases Nat.blt (2 ^ j) (2 * (n % 2 ^ j)) <;> simp only [cond_true, cond_false] <;> omega

theorem roundMag_rn {n d s N j : Nat} (hd : 0 < d) (hN : n * 2 ^ j = N * (d * 2 ^ s)) (h0 : 2 ^ 23 ≤ N / 2 ^ j) (h1 : N / 2 ^ j < 2 ^ 24) :
    f32.roundMag n d = s * 2 ^ 23 + rn N j := by
  have hj : 0 < 2 ^ j := Nat.two_pow_pos _
  have hs : 0 < 2 ^ s := Nat.two_pow_pos _
  have hD : 0 < d * 2 ^ s := Nat.mul_pos hd hs
  have hq : n / (d * 2 ^ s) = N / 2 ^ j := by
    rw [← Nat.mul_div_mul_right n (d * 2 ^ s) hj, hN, Nat.mul_comm N, Nat.mul_div_mul_left _ _ hD]
  have hr : n % (d * 2 ^ s) * 2 ^ j = N % 2 ^ j * (d * 2 ^ s) := by
    have a := Nat.mul_mod_mul_right (2 ^ j) n (d * 2 ^ s)
    have b := Nat.mul_mod_mul_left (d * 2 ^ s) N (2 ^ j)
    rw [← a, hN, Nat.mul_comm N, b, Nat.mul_comm]
  have hdiv : n / d / 2 ^ s = N / 2 ^ j := by rw [Nat.div_div_eq_div_mul, hq]
  have hlo : 2 ^ 23 * 2 ^ s ≤ n / d := by
    have := (Nat.le_div_iff_mul_le hs).1 (by rw [hdiv]; exact h0 : 2 ^ 23 ≤ n / d / 2 ^ s)
    exact this
  have hhi : n / d < 2 ^ 24 * 2 ^ s := (Nat.div_lt_iff_lt_mul hs).1 (by rw [hdiv]; exact h1)
  have hsh : (if n / d < 2 ^ (f32.mb + 1) then 0 else Nat.log2 (n / d) - f32.mb) = s := by
    show (if n / d < 2 ^ 24 then 0 else Nat.log2 (n / d) - 23) = s
    have hl : Nat.log2 (n / d) = 23 + s := by
      have hne : n / d ≠ 0 := by
        have : 0 < 2 ^ 23 * 2 ^ s := Nat.mul_pos (by decide) hs
        omega
      apply le_antisymm
      · have : Nat.log2 (n / d) < 24 + s := (Nat.log2_lt hne).2 (by rw [Nat.pow_add]; exact hhi)
        omega
      · exact (Nat.le_log2 hne).2 (by rw [Nat.pow_add]; exact hlo)
    split
    · rename_i hc
      rcases Nat.eq_zero_or_pos s with h | h
      · exact h.symm
      · exfalso
        have : 2 ^ 1 ≤ 2 ^ s := Nat.pow_le_pow_right (by decide) h
        omega
    · omega
  unfold Fmt.roundMag
  simp only [hsh, hq]
  show s * 2 ^ 23 + _ = _
  congr 1
  have e1 : 2 * (n % (d * 2 ^ s)) < d * 2 ^ s ↔ 2 * (N % 2 ^ j) < 2 ^ j := by
    rw [← Nat.mul_lt_mul_right hj, Nat.mul_assoc, hr, ← Nat.mul_assoc, Nat.mul_comm (d * 2 ^ s), Nat.mul_lt_mul_right hD]
  have e2 : 2 * (n % (d * 2 ^ s)) = d * 2 ^ s ↔ 2 * (N % 2 ^ j) = 2 ^ j := by
    constructor
    · intro h
      have : 2 * (N % 2 ^ j) * (d * 2 ^ s) = 2 ^ j * (d * 2 ^ s) := by rw [Nat.mul_assoc, ← hr, ← Nat.mul_assoc, h, Nat.mul_comm]
      exact Nat.eq_of_mul_eq_mul_right hD this
    · intro h
      have : 2 * (n % (d * 2 ^ s)) * 2 ^ j = d * 2 ^ s * 2 ^ j := by rw [Nat.mul_assoc, hr, ← Nat.mul_assoc, h, Nat.mul_comm]
      exact Nat.eq_of_mul_eq_mul_right hj this
  simp only [e1, e2]
  unfold rn
  rcases Nat.lt_trichotomy (2 * (N % 2 ^ j)) (2 ^ j) with h | h | h
  · have b : Nat.blt (2 * (N % 2 ^ j)) (2 ^ j) = true := by rw [Nat.blt_eq]; exact h
    rw [if_pos (.inl h), b]; rfl
  · have b : Nat.blt (2 * (N % 2 ^ j)) (2 ^ j) = false := by rw [← Bool.not_eq_true, Nat.blt_eq]; omega
    have b' : Nat.blt (2 ^ j) (2 * (N % 2 ^ j)) = false := by rw [← Bool.not_eq_true, Nat.blt_eq]; omega
    rw [b, b']
    simp only [cond_false]
    by_cases hp : N / 2 ^ j % 2 = 0
    · rw [if_pos (.inr ⟨h, hp⟩)]; omega
    · rw [if_neg (by omega)]; omega
  · have b : Nat.blt (2 * (N % 2 ^ j)) (2 ^ j) = false := by rw [← Bool.not_eq_true, Nat.blt_eq]; omega
    have b' : Nat.blt (2 ^ j) (2 * (N % 2 ^ j)) = true := by rw [Nat.blt_eq]; exact h
    rw [b, b', if_neg (by omega)]; rfl

theorem round_rn {g : Bool} {n d s N j : Nat} (hd : 0 < d) (hN : n * 2 ^ j = N * (d * 2 ^ s)) (h0 : 2 ^ 23 ≤ N / 2 ^ j) (h1 : N / 2 ^ j < 2 ^ 24)
    (hs : s ≤ 252) : f32.round g n d = pat g (rn N j) s := by
  unfold Fmt.round
  rw [roundMag_rn hd hN h0 h1]
  have := pat_lt_inf (rn_range h0 h1).2 hs
  rw [show Nat.min (s * 2 ^ 23 + rn N j) f32.inf = s * 2 ^ 23 + rn N j from Nat.min_eq_left (Nat.le_of_lt this)]
  rfl

/-- The product. -/
theorem mul_pat {g g' : Bool} {m m' s s' j t : Nat} (hm : 2 ^ 23 ≤ m ∧ m ≤ 2 ^ 24) (hm' : 2 ^ 23 ≤ m' ∧ m' ≤ 2 ^ 24) (hs : s ≤ 252) (hs' : s' ≤ 252)
    (ht : t ≤ 252) (he : s + s' + j = 149 + t) (h0 : 2 ^ 23 ≤ m * m' / 2 ^ j) (h1 : m * m' / 2 ^ j < 2 ^ 24) :
    f32.mul (pat g m s) (pat g' m' s') = pat (g != g') (rn (m * m') j) t := by
  unfold Fmt.mul
  rw [pat_val hm.1 hm.2 hs, pat_val hm'.1 hm'.2 hs']
  have a1 : signed g (m * 2 ^ s) ≠ 0 := by
    have : 0 < m * 2 ^ s := Nat.mul_pos (by omega) (Nat.two_pow_pos _)
    unfold signed; split <;> omega
  have hone : f32.one = 2 ^ 149 := by decide +kernel
  simp only [pat_sign hm.2 hs, pat_sign hm'.2 hs', natAbs_signed]
  refine round_rn (by rw [hone]; exact Nat.two_pow_pos _) ?_ h0 h1 ht
  rw [hone]
  calc m * 2 ^ s * (m' * 2 ^ s') * 2 ^ j = m * m' * 2 ^ (s + s' + j) := by rw [Nat.pow_add, Nat.pow_add]; ring
    _ = m * m' * (2 ^ 149 * 2 ^ t) := by rw [he, Nat.pow_add]

/-- The sum with a smaller number of the other sign. -/
theorem add_pat {g : Bool} {m m' s s' k j t : Nat} (hm : 2 ^ 23 ≤ m ∧ m ≤ 2 ^ 24) (hm' : 2 ^ 23 ≤ m' ∧ m' ≤ 2 ^ 24) (hs : s ≤ 252) (hs' : s' ≤ 252)
    (ht : t ≤ 252) (hk : s = s' + k) (he : s' + j = t) (hlt : m' < m * 2 ^ k) (h0 : 2 ^ 23 ≤ (m * 2 ^ k - m') / 2 ^ j)
    (h1 : (m * 2 ^ k - m') / 2 ^ j < 2 ^ 24) :
    f32.add (pat g m s) (pat (!g) m' s') = pat g (rn (m * 2 ^ k - m') j) t ∧ f32.add (pat (!g) m' s') (pat g m s) = pat g (rn (m * 2 ^ k - m') j) t := by
  have hsum : signed g (m * 2 ^ s) + signed (!g) (m' * 2 ^ s') = signed g ((m * 2 ^ k - m') * 2 ^ s') := by
    have e : ((m * 2 ^ k - m' : Nat) : ℤ) = m * 2 ^ k - m' := by rw [Nat.cast_sub (Nat.le_of_lt hlt)]; push_cast; rfl
    subst hk
    cases g
    · simp only [signed, Bool.not_false, if_true, Bool.false_eq_true, if_false]
      rw [Nat.cast_mul (m * 2 ^ k - m'), e]
      push_cast
      rw [Int.pow_add]
      ring
    · simp only [signed, Bool.not_true, if_true, Bool.false_eq_true, if_false]
      rw [Nat.cast_mul (m * 2 ^ k - m'), e]
      push_cast
      rw [Int.pow_add]
      ring
  have hpos : 0 < (m * 2 ^ k - m') * 2 ^ s' := Nat.mul_pos (by omega) (Nat.two_pow_pos _)
  have hsum0 : signed g ((m * 2 ^ k - m') * 2 ^ s') ≠ 0 := by unfold signed; split <;> omega
  have hsg : decide (signed g ((m * 2 ^ k - m') * 2 ^ s') < 0) = g := by
    generalize (m * 2 ^ k - m') * 2 ^ s' = w at hpos
    cases g <;> simp only [signed, if_true, Bool.false_eq_true, if_false, decide_eq_true_eq, decide_eq_false_iff_not] <;> omega
  have key : f32.round g ((m * 2 ^ k - m') * 2 ^ s') 1 = pat g (rn (m * 2 ^ k - m') j) t := by
    refine round_rn (by decide) ?_ h0 h1 ht
    rw [← he, Nat.pow_add]; ring
  constructor
  · unfold Fmt.add
    rw [pat_val hm.1 hm.2 hs, pat_val hm'.1 hm'.2 hs']
    simp only
    rw [hsum, if_neg hsum0, hsg, natAbs_signed]
    exact key
  · unfold Fmt.add
    rw [pat_val hm.1 hm.2 hs, pat_val hm'.1 hm'.2 hs']
    simp only
    rw [Int.add_comm, hsum, if_neg hsum0, hsg, natAbs_signed]
    exact key

end Nanostl.Float

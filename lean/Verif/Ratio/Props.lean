import Verif.Ratio.Model
import Mathlib.Data.Int.GCD
import Mathlib.Tactic.Ring

/-! Property theorem C36. -/

namespace Nanostl.Ratio

theorem gcdF_eq : ∀ (f a b : Nat), b < f → gcdF f a b = some (if a = 0 ∧ b = 0 then 1 else (Nat.gcd a b : Int))
  | 0, _, _, h => absurd h (Nat.not_lt_zero _)
  | f + 1, a, b, h => by
    unfold gcdF
    by_cases hb : b = 0
    · subst hb
      by_cases ha : a = 0
      · subst ha; simp
      · simp [ha]
    · have hb' : (b : Int) ≠ 0 := by omega
      rw [if_neg hb', show Int.tmod (a : Int) b = ((a % b : Nat) : Int) from (Int.ofNat_tmod a b).symm]
      have hlt := Nat.mod_lt a (Nat.pos_of_ne_zero hb)
      rw [gcdF_eq f b (a % b) (by omega)]
      rw [if_neg (by simp [hb]), if_neg (by simp [hb]), Nat.gcd_comm b, ← Nat.gcd_rec, Nat.gcd_comm]

theorem nanogcd_eq (a b : Nat) (h : ¬(a = 0 ∧ b = 0)) : nanogcd a b = some (Nat.gcd a b : Int) := by
  unfold nanogcd
  rw [gcdF_eq _ _ _ (by simp), if_neg h]

theorem ck_eq {v : Int} (h1 : -2 ^ 63 ≤ v) (h2 : v < 2 ^ 63) : ck v = some v := if_pos ⟨h1, h2⟩

theorem ck_nat {m : Nat} (h : m < 2 ^ 63) : ck (m : Int) = some (m : Int) := ck_eq (by omega) (by omega)

theorem tdiv_nat (a b : Nat) : Int.tdiv (a : Int) (b : Nat) = ((a / b : Nat) : Int) := (Int.ofNat_tdiv ..).symm

theorem tdiv_sign {s : Int} (hs : s = 0 ∨ s = 1 ∨ s = -1) (n d : Nat) : Int.tdiv (s * (n : Int)) (d : Nat) = s * ((n / d : Nat) : Int) := by
  rcases hs with rfl | rfl | rfl
  · simp
  · rw [Int.one_mul, Int.one_mul, tdiv_nat]
  · rw [Int.neg_mul, Int.neg_mul, Int.one_mul, Int.one_mul, Int.neg_tdiv, tdiv_nat]

theorem ck_signed {s : Int} (hs : s = 0 ∨ s = 1 ∨ s = -1) {n : Nat} (h : n < 2 ^ 63) : ck (s * (n : Int)) = some (s * (n : Int)) := by
  rcases hs with rfl | rfl | rfl <;> exact ck_eq (by omega) (by omega)

theorem nanoabs_eq {v : Int} (h1 : -2 ^ 63 < v) (h2 : v < 2 ^ 63) : nanoabs v = some (v.natAbs : Int) := by
  unfold nanoabs
  split
  · rw [ck_eq (by omega) (by omega)]; congr 1; omega
  · congr 1; omega

theorem sign_mul (N D : Int) (hD : D ≠ 0) :
    (nanosign N * nanosign D = 0 ∧ N = 0) ∨ (nanosign N * nanosign D = 1 ∧ (0 < N ∧ 0 < D ∨ N < 0 ∧ D < 0)) ∨
    (nanosign N * nanosign D = -1 ∧ (0 < N ∧ D < 0 ∨ N < 0 ∧ 0 < D)) := by
  unfold nanosign
  by_cases h1 : N = 0
  · left; simp [h1]
  · rcases (by omega : N < 0 ∨ 0 < N) with h2 | h2 <;> rcases (by omega : D < 0 ∨ 0 < D) with h3 | h3
    · right; left; rw [if_neg h1, if_pos h2, if_neg hD, if_pos h3]; exact ⟨rfl, .inr ⟨h2, h3⟩⟩
    · right; right; rw [if_neg h1, if_pos h2, if_neg hD, if_neg (by omega)]; exact ⟨rfl, .inr ⟨h2, h3⟩⟩
    · right; right; rw [if_neg h1, if_neg (by omega), if_neg hD, if_pos h3]; exact ⟨rfl, .inl ⟨h2, h3⟩⟩
    · right; left; rw [if_neg h1, if_neg (by omega), if_neg hD, if_neg (by omega)]; exact ⟨rfl, .inl ⟨h2, h3⟩⟩

/-- The components computed by `ratio`. -/
theorem ratio_eq {N D : Int} (hD : D ≠ 0) (hN1 : -2 ^ 63 < N) (hN2 : N < 2 ^ 63) (hD1 : -2 ^ 63 < D) (hD2 : D < 2 ^ 63) :
    ratio N D = some (nanosign N * nanosign D * ((N.natAbs / Nat.gcd N.natAbs D.natAbs : Nat) : Int),
      ((D.natAbs / Nat.gcd N.natAbs D.natAbs : Nat) : Int)) := by
  have q1 : N.natAbs / Nat.gcd N.natAbs D.natAbs ≤ N.natAbs := Nat.div_le_self _ _
  have q2 : D.natAbs / Nat.gcd N.natAbs D.natAbs ≤ D.natAbs := Nat.div_le_self _ _
  have hs := sign_mul N D hD
  have hgc := nanogcd_eq N.natAbs D.natAbs (by omega)
  have e0 : ratio N D = (nanoabs N).bind fun nabs => (nanoabs D).bind fun dabs => (ck (nanosign N * nanosign D)).bind fun ss =>
      (nanogcd nabs dabs).bind fun g => (ck (ss * nabs)).bind fun p => (ck (Int.tdiv p g)).bind fun num =>
      (ck (Int.tdiv dabs g)).bind fun den => some (num, den) := by
    unfold ratio; rw [if_neg hD]; rfl
  rw [e0, nanoabs_eq hN1 hN2, Option.bind_some, nanoabs_eq hD1 hD2, Option.bind_some]
  generalize nanosign N * nanosign D = s at hs ⊢
  have hs' : s = 0 ∨ s = 1 ∨ s = -1 := by omega
  have c1 : ck s = some s := ck_eq (by omega) (by omega)
  have c2 : ck (s * (N.natAbs : Int)) = some (s * (N.natAbs : Int)) := ck_signed hs' (by omega)
  have c3 : ck (s * ((N.natAbs / Nat.gcd N.natAbs D.natAbs : Nat) : Int)) = some (s * ((N.natAbs / Nat.gcd N.natAbs D.natAbs : Nat) : Int)) :=
    ck_signed hs' (by omega)
  have c4 : ck ((D.natAbs / Nat.gcd N.natAbs D.natAbs : Nat) : Int) = some ((D.natAbs / Nat.gcd N.natAbs D.natAbs : Nat) : Int) :=
    ck_nat (by omega)
  rw [c1, Option.bind_some, hgc, Option.bind_some, c2, Option.bind_some, tdiv_sign hs', c3, Option.bind_some, tdiv_nat, c4, Option.bind_some]

/-- C36. For all 64-bit `N` and `D` but the least value, `D ≠ 0`: `num / den = N / D`, the denominator is positive, the fraction is in
lowest terms, and `type` is a fixed point. These conditions determine `num` and `den`. -/
theorem c36_ratio {N D : Int} (hD : D ≠ 0) (hN1 : -2 ^ 63 < N) (hN2 : N < 2 ^ 63) (hD1 : -2 ^ 63 < D) (hD2 : D < 2 ^ 63) :
    ∃ num den : Int, ratio N D = some (num, den) ∧ num * D = N * den ∧ 0 < den ∧ Int.gcd num den = 1 ∧
      ratioType N D = some (num, den) ∧ ratio num den = some (num, den) := by
  have hg : 0 < Nat.gcd N.natAbs D.natAbs := Nat.gcd_pos_of_pos_right _ (by omega)
  obtain ⟨n', hn⟩ := Nat.gcd_dvd_left N.natAbs D.natAbs
  obtain ⟨d', hd⟩ := Nat.gcd_dvd_right N.natAbs D.natAbs
  have hco : Nat.gcd (N.natAbs / Nat.gcd N.natAbs D.natAbs) (D.natAbs / Nat.gcd N.natAbs D.natAbs) = 1 :=
    Nat.gcd_div_gcd_div_gcd_of_pos_right (by omega)
  have hr := ratio_eq hD hN1 hN2 hD1 hD2
  have e1 : N.natAbs / Nat.gcd N.natAbs D.natAbs = n' := Nat.div_eq_of_eq_mul_right hg hn
  have e2 : D.natAbs / Nat.gcd N.natAbs D.natAbs = d' := Nat.div_eq_of_eq_mul_right hg hd
  rw [e1, e2] at hr hco
  generalize Nat.gcd N.natAbs D.natAbs = g at hn hd hg
  have hs := sign_mul N D hD
  have hd0 : 0 < d' := by
    rcases Nat.eq_zero_or_pos d' with h | h
    · rw [h] at hd; omega
    · exact h
  have hn' : n' ≤ N.natAbs := by rw [hn]; exact Nat.le_mul_of_pos_left _ hg
  have hd' : d' ≤ D.natAbs := by rw [hd]; exact Nat.le_mul_of_pos_left _ hg
  have hz : N = 0 ↔ n' = 0 := by
    constructor
    · intro h
      rw [h] at hn
      rcases Nat.mul_eq_zero.1 hn.symm with h | h
      · omega
      · exact h
    · intro h
      rw [h] at hn; simpa using hn
  have habs : (nanosign N * nanosign D * (n' : Int)).natAbs = n' := by
    rcases hs with ⟨a, b⟩ | ⟨a, b⟩ | ⟨a, b⟩ <;> rw [a]
    · rw [hz.1 b]; rfl
    · simp
    · simp
  have hcop : Int.gcd (nanosign N * nanosign D * (n' : Int)) d' = 1 := by
    rw [Int.gcd, habs]; exact hco
  have hself : ratio (nanosign N * nanosign D * (n' : Int)) d' = some (nanosign N * nanosign D * (n' : Int), (d' : Int)) := by
    have l1 : -2 ^ 63 < nanosign N * nanosign D * (n' : Int) ∧ nanosign N * nanosign D * (n' : Int) < 2 ^ 63 := by
      omega
    rw [ratio_eq (by omega) l1.1 l1.2 (by omega) (by omega), habs]
    have : Nat.gcd n' ((d' : Nat) : Int).natAbs = 1 := hco
    rw [this, Nat.div_one, Nat.div_one]
    congr 2
    have hsd : nanosign (d' : Int) = 1 := by unfold nanosign; rw [if_neg (by omega), if_neg (by omega)]
    rw [hsd, Int.mul_one]
    rcases hs with ⟨a, b⟩ | ⟨a, b⟩ | ⟨a, b⟩ <;> rw [a]
    · rw [hz.1 b]; simp
    · have : 0 < n' := by omega
      unfold nanosign; rw [if_neg (by omega), if_neg (by omega)]
    · have : 0 < n' := by omega
      unfold nanosign; rw [if_neg (by omega), if_pos (by omega)]
  refine ⟨_, _, hr, ?_, by omega, hcop, by unfold ratioType; rw [hr]; exact hself, hself⟩
  have hnI : (N.natAbs : Int) = g * n' := by exact_mod_cast hn
  have hdI : (D.natAbs : Int) = g * d' := by exact_mod_cast hd
  rcases hs with ⟨a, b⟩ | ⟨a, b⟩ | ⟨a, b⟩ <;> rw [a]
  · rw [b]; simp
  · rcases b with ⟨b1, b2⟩ | ⟨b1, b2⟩
    · rw [show N = g * n' by omega, show D = g * d' by omega]; ring
    · rw [show N = -(g * n') by omega, show D = -(g * d') by omega]; ring
  · rcases b with ⟨b1, b2⟩ | ⟨b1, b2⟩
    · rw [show N = g * n' by omega, show D = -(g * d') by omega]; ring
    · rw [show N = -(g * n') by omega, show D = g * d' by omega]; ring

example : ratio (-6) 8 = some (-3, 4) ∧ ratio 6 (-8) = some (-3, 4) ∧ ratio 0 (-5) = some (0, 1) := by decide

/-- C36. The excluded arguments are compile-time errors, never wrong constants. -/
theorem c36_errors (N D : Int) (h : D = 0 ∨ N = -2 ^ 63 ∨ D = -2 ^ 63) : ratio N D = none := by
  unfold ratio
  split
  · rfl
  · rename_i hD
    have habs : nanoabs (-2 ^ 63) = none := by decide
    rcases h with h | h | h
    · exact absurd h hD
    · rw [h, habs]; rfl
    · rw [h, habs]
      cases nanoabs N <;> rfl

/-- C36. `nanolcm` of natural numbers, not both zero, is the least common multiple, if that fits. -/
theorem c36_lcm (a b : Nat) (h : ¬(a = 0 ∧ b = 0)) (hf : Nat.lcm a b < 2 ^ 63) : nanolcm a b = some (Nat.lcm a b : Int) := by
  have e : Int.tdiv (a : Int) (Nat.gcd a b : Nat) * b = ((Nat.lcm a b : Nat) : Int) := by
    rw [tdiv_nat, ← Int.natCast_mul, Nat.div_mul_right_comm (Nat.gcd_dvd_left a b), ← Nat.lcm]
  have e2 : ck ((Nat.lcm a b : Nat) : Int) = some (Nat.lcm a b : Int) := ck_nat hf
  have e3 : nanolcm a b = (nanogcd a b).bind fun g => ck (Int.tdiv a g * b) := rfl
  rw [e3, nanogcd_eq a b h, Option.bind_some, e, e2]

example : nanolcm 12 18 = some 36 ∧ Nat.lcm 12 18 < 2 ^ 63 := by decide

/-- C36. The predefined ratios are the SI powers of ten. -/
theorem c36_si : atto = some (1, 10 ^ 18) ∧ femto = some (1, 10 ^ 15) ∧ pico = some (1, 10 ^ 12) ∧ nano = some (1, 10 ^ 9) ∧
    micro = some (1, 10 ^ 6) ∧ milli = some (1, 10 ^ 3) ∧ centi = some (1, 10 ^ 2) ∧ deci = some (1, 10) ∧ deca = some (10, 1) ∧
    hecto = some (10 ^ 2, 1) ∧ kilo = some (10 ^ 3, 1) ∧ mega = some (10 ^ 6, 1) ∧ giga = some (10 ^ 9, 1) ∧ tera = some (10 ^ 12, 1) ∧
    peta = some (10 ^ 15, 1) ∧ exa = some (10 ^ 18, 1) := by
  decide +kernel

end Nanostl.Ratio

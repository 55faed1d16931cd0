import Verif.Math.Lemmas

/-! Property theorems C42 (floor and ceil) and C44 (numeric_limits). -/

namespace Nanostl.Math
open Nanostl.Float

theorem tdiv_signed (s : Bool) (m d : Nat) : Int.tdiv (signed s m) d = signed s (m / d) := by
  cases s <;> simp [signed, Int.neg_tdiv]

/-- Truncation of a finite value, and the difference from it, are computed exactly. -/
theorem trunc_exact {φ : Fmt} (g : φ.Good) {x : Nat} {v : Int} (h : φ.val x = .fin v) :
    φ.val (φ.ofInt (Int.tdiv v φ.one)) = .fin (Int.tdiv v φ.one * φ.one) ∧
    φ.val (φ.sub x (φ.ofInt (Int.tdiv v φ.one))) = .fin (v - Int.tdiv v φ.one * φ.one) ∧
    φ.val (φ.sub (φ.ofInt (Int.tdiv v φ.one)) x) = .fin (Int.tdiv v φ.one * φ.one - v) ∧
    (v - Int.tdiv v φ.one * φ.one).natAbs = v.natAbs % φ.one := by
  obtain ⟨hlt, hv⟩ := φ.val_eq_fin h
  obtain ⟨⟨a, ha, hma⟩, ⟨b, hb, hmb⟩, -, -⟩ := parts g hlt
  have hi : Int.tdiv v φ.one = signed (φ.sign x) (φ.mag (φ.low x) / φ.one) := by rw [hv, tdiv_signed]
  have h1 : φ.val (φ.ofInt (Int.tdiv v φ.one)) = .fin (Int.tdiv v φ.one * φ.one) :=
    g.val_ofInt ha (by rw [hma, hi, Fmt.natAbs_signed])
  have hdm := Nat.div_add_mod (φ.mag (φ.low x)) φ.one
  have hdm' : ((φ.mag (φ.low x) / φ.one : Nat) : Int) * φ.one + (φ.mag (φ.low x) % φ.one : Nat) = φ.mag (φ.low x) := by
    rw [← Int.natCast_mul, ← Int.natCast_add, Nat.mul_comm, hdm]
  have hf : v - Int.tdiv v φ.one * φ.one = signed (φ.sign x) (φ.mag (φ.low x) % φ.one) := by
    rw [hi, hv]
    unfold signed
    cases φ.sign x
    · simp only [Bool.false_eq_true, if_false]; omega
    · simp only [if_true, Int.neg_mul]; omega
  have hna : (v - Int.tdiv v φ.one * φ.one).natAbs = φ.mag (φ.low x) % φ.one := by rw [hf, Fmt.natAbs_signed]
  refine ⟨h1, ?_, ?_, ?_⟩
  · exact g.val_add (t := b) h (Fmt.Good.val_neg h1) hb (by rw [hmb, ← hna]; rfl)
  · refine g.val_add (t := b) h1 (Fmt.Good.val_neg h) hb ?_
    rw [hmb, ← hna]; omega
  · rw [hna, hv, Fmt.natAbs_signed]

/-- `toInt` when the truncation is in range. -/
theorem toInt_eq {φ : Fmt} {x : Nat} {v : Int} (h : φ.val x = .fin v) (h1 : -2 ^ 31 ≤ Int.tdiv v φ.one) (h2 : Int.tdiv v φ.one < 2 ^ 31) :
    φ.toInt x = some (Int.tdiv v φ.one) := by
  unfold Fmt.toInt
  rw [h]
  simp only
  rw [if_pos ⟨h1, h2⟩]

theorem one_pos (φ : Fmt) : 0 < φ.one := Nat.two_pow_pos _

/-- The test `fabs(diff) < epsilon`: true of integers and of nothing else outside (-eps, eps). -/
theorem eps_test {φ : Fmt} (g : φ.Good) {x eps : Nat} {v : Int} (h : φ.val x = .fin v) (he : φ.val eps = .fin (2 ^ (φ.bias - 1) : Nat)) :
    (φ.lt (fabs φ (φ.sub x (φ.ofInt (Int.tdiv v φ.one)))) eps = true ↔ v.natAbs % φ.one = 0 ∨ v.natAbs < 2 ^ (φ.bias - 1)) ∧
    (φ.lt (fabs φ (φ.sub (φ.ofInt (Int.tdiv v φ.one)) x)) eps = true ↔ v.natAbs % φ.one = 0 ∨ v.natAbs < 2 ^ (φ.bias - 1)) := by
  obtain ⟨-, h2, h3, h4⟩ := trunc_exact g h
  have h4' : (Int.tdiv v φ.one * φ.one - v).natAbs = v.natAbs % φ.one := by rw [← h4]; omega
  obtain ⟨hlt, hv⟩ := φ.val_eq_fin h
  obtain ⟨-, -, -, p4⟩ := parts g hlt
  have hvm : v.natAbs = φ.mag (φ.low x) := by rw [hv, Fmt.natAbs_signed]
  rw [← hvm] at p4
  have hle : 2 ^ (φ.bias - 1) ≤ φ.one := Nat.pow_le_pow_right (by decide) (by have := g.mb; omega)
  have hpos : 0 < 2 ^ (φ.bias - 1) := Nat.two_pow_pos _
  have key : v.natAbs % φ.one < 2 ^ (φ.bias - 1) ↔ v.natAbs % φ.one = 0 ∨ v.natAbs < 2 ^ (φ.bias - 1) := by
    constructor
    · intro hl
      by_cases hz : v.natAbs % φ.one = 0
      · exact .inl hz
      · right
        by_contra hc
        by_cases hge : φ.one ≤ v.natAbs
        · have := p4 hz hge; omega
        · rw [Nat.mod_eq_of_lt (by omega)] at hl; omega
    · rintro (hl | hl)
      · omega
      · exact Nat.lt_of_le_of_lt (Nat.mod_le _ _) hl
  rw [lt_fin (val_fabs g h2) he, lt_fin (val_fabs g h3) he, h4, h4', Int.ofNat_lt, key]
  exact ⟨Iff.rfl, Iff.rfl⟩

/-- Conversion of the neighbouring integer, when there is a fraction. -/
theorem next_exact {φ : Fmt} (g : φ.Good) {x : Nat} {v : Int} (h : φ.val x = .fin v) (hf : v.natAbs % φ.one ≠ 0) (i : Int)
    (hi : i.natAbs = v.natAbs / φ.one + 1) : φ.val (φ.ofInt i) = .fin (i * φ.one) := by
  obtain ⟨hlt, hv⟩ := φ.val_eq_fin h
  obtain ⟨-, -, p3, -⟩ := parts g hlt
  have hvm : v.natAbs = φ.mag (φ.low x) := by rw [hv, Fmt.natAbs_signed]
  rw [← hvm] at p3
  have hsm := p3 hf
  have hmb := g.mb
  have hle := g.le
  obtain ⟨t, ht, hm⟩ := g.exists_pattern (m := i.natAbs) (s := φ.bias + φ.mb - 1) (by rw [hi, Nat.pow_succ]; omega) (by
    rw [hi]
    calc (v.natAbs / φ.one + 1) * 2 ^ (φ.bias + φ.mb - 1) ≤ 2 ^ φ.mb * 2 ^ (φ.bias + φ.mb - 1) := Nat.mul_le_mul_right _ (by omega)
      _ < 2 ^ φ.mb * 2 ^ (2 * φ.bias) :=
        Nat.mul_lt_mul_of_pos_left (Nat.pow_lt_pow_right (by decide) (by omega)) (Nat.two_pow_pos _))
  exact g.val_ofInt ht hm

/-! ### C42 -/

/-- `k` is the least integer not below the value `v` (in units, `φ.one` units are 1). -/
def IsCeil (φ : Fmt) (v k : Int) : Prop := v ≤ k * φ.one ∧ ∀ j : Int, v ≤ j * φ.one → k ≤ j
/-- `k` is the greatest integer not above `v`. -/
def IsFloor (φ : Fmt) (v k : Int) : Prop := k * φ.one ≤ v ∧ ∀ j : Int, j * φ.one ≤ v → j ≤ k

theorem isCeil_lt {φ : Fmt} {v k : Int} (h : IsCeil φ v k) : (k - 1) * φ.one < v := by
  by_contra hc
  have := h.2 (k - 1) (by omega)
  omega

theorem isFloor_lt {φ : Fmt} {v k : Int} (h : IsFloor φ v k) : v < (k + 1) * φ.one := by
  by_contra hc
  have := h.2 (k + 1) (by omega)
  omega

theorem mul_cancel_lt {a b : Int} {c : Nat} (h : a * c < b * c) : a < b :=
  Int.lt_of_mul_lt_mul_right h (Int.natCast_nonneg c)

/-- Truncation in terms of quotient and remainder. -/
theorem tdiv_cases (v : Int) (d : Nat) (_ : 0 < d) :
    (0 ≤ v → Int.tdiv v d * d + (v.natAbs % d : Nat) = v ∧ Int.tdiv v d = (v.natAbs / d : Nat)) ∧
    (v ≤ 0 → Int.tdiv v d * d - (v.natAbs % d : Nat) = v ∧ Int.tdiv v d = -(v.natAbs / d : Nat)) := by
  have hdm := Nat.div_add_mod v.natAbs d
  have hdm' : ((v.natAbs / d : Nat) : Int) * d + (v.natAbs % d : Nat) = v.natAbs := by
    rw [← Int.natCast_mul, ← Int.natCast_add, Nat.mul_comm, hdm]
  constructor <;> intro h
  · have e : Int.tdiv v d = (v.natAbs / d : Nat) := by
      have := tdiv_signed false v.natAbs d
      simp only [signed, Bool.false_eq_true, if_false] at this
      rw [show ((v.natAbs : Nat) : Int) = v by omega] at this
      exact this
    exact ⟨by rw [e]; omega, e⟩
  · have e : Int.tdiv v d = -(v.natAbs / d : Nat) := by
      have := tdiv_signed true v.natAbs d
      simp only [signed, if_true] at this
      rw [show (-((v.natAbs : Nat) : Int)) = v by omega] at this
      exact this
    exact ⟨by rw [e, Int.neg_mul]; omega, e⟩

/-- C42, part, `ceil`: exact for every finite value whose ceiling is an `int`, except those strictly between 0 and epsilon (missing,
see `c42_ceil_false`). -/
theorem c42_ceil_partial {φ : Fmt} (g : φ.Good) {x eps : Nat} {v k : Int} (he : φ.val eps = .fin (2 ^ (φ.bias - 1) : Nat))
    (h : φ.val x = .fin v) (hk : IsCeil φ v k) (h1 : -2 ^ 31 ≤ k) (h2 : k < 2 ^ 31) (hne : ¬(0 < v ∧ v < (2 ^ (φ.bias - 1) : Nat))) :
    ∃ y, ceil φ eps x = some y ∧ φ.val y = .fin (k * φ.one) := by
  have hp := one_pos φ
  obtain ⟨c1, c2⟩ := tdiv_cases v φ.one hp
  obtain ⟨e1, -, -, -⟩ := trunc_exact g h
  obtain ⟨e4, -⟩ := eps_test g h he
  have hmod := Nat.mod_lt v.natAbs hp
  have hkl := isCeil_lt hk
  have hku := hk.1
  have hz := lt_fin (val_zero g) h
  -- the ceiling in terms of the truncation
  have hcase : (k = Int.tdiv v φ.one ∧ (v ≤ 0 ∨ v.natAbs % φ.one = 0)) ∨ (k = Int.tdiv v φ.one + 1 ∧ 0 < v ∧ v.natAbs % φ.one ≠ 0) := by
    generalize Int.tdiv v φ.one = i at *
    have up : i * φ.one ≤ v → v - i * φ.one < φ.one → v - i * φ.one ≠ 0 → k = i + 1 := by
      intro a b c
      have l1 : (k - 1) * φ.one < (i + 1) * φ.one := by rw [Int.add_mul]; omega
      have l2 : i * φ.one < k * φ.one := by omega
      have := mul_cancel_lt l1
      have := mul_cancel_lt l2
      omega
    have eq : v ≤ i * φ.one → i * φ.one - v < φ.one → k = i := by
      intro a b
      have l1 : (k - 1) * φ.one < i * φ.one := by omega
      have l2 : (i - 1) * φ.one < k * φ.one := by rw [Int.sub_mul]; omega
      have := mul_cancel_lt l1
      have := mul_cancel_lt l2
      omega
    rcases (by omega : 0 < v ∨ v ≤ 0) with hv | hv
    · obtain ⟨a, b⟩ := c1 (by omega)
      by_cases hr : v.natAbs % φ.one = 0
      · exact .inl ⟨eq (by omega) (by omega), .inr hr⟩
      · exact .inr ⟨up (by omega) (by omega) (by omega), hv, hr⟩
    · obtain ⟨a, b⟩ := c2 hv
      exact .inl ⟨eq (by omega) (by omega), .inl hv⟩
  have hpos : 0 < v → 0 ≤ Int.tdiv v φ.one := fun hv => by
    rw [(c1 (by omega)).2]; exact Int.natCast_nonneg _
  have hti : φ.toInt x = some (Int.tdiv v φ.one) := by
    apply toInt_eq h
    · rcases hcase with ⟨a, -⟩ | ⟨a, b, -⟩
      · omega
      · have := hpos b; omega
    · rcases hcase with ⟨a, -⟩ | ⟨a, b, -⟩ <;> omega
  unfold ceil
  rw [hti]
  simp only [Option.bind_eq_bind, Option.bind_some]
  rcases hcase with ⟨a, b⟩ | ⟨a, b, c⟩
  · have hA : (if φ.lt zero x = true then
        if Int.tdiv v φ.one + 1 < 2 ^ 31 then pure (φ.ofInt (Int.tdiv v φ.one + 1)) else none
        else pure (φ.ofInt (Int.tdiv v φ.one)) : Option Nat) = some (φ.ofInt (Int.tdiv v φ.one)) ∨ v.natAbs % φ.one = 0 := by
      rcases b with b | b
      · left
        rw [if_neg (by rw [hz]; omega)]; rfl
      · exact .inr b
    refine ⟨φ.ofInt (Int.tdiv v φ.one), ?_, by rw [a]; exact e1⟩
    by_cases ht : φ.lt (fabs φ (φ.sub x (φ.ofInt (Int.tdiv v φ.one)))) eps = true
    · rw [if_pos ht]; rfl
    · rw [if_neg ht]
      rcases hA with hA | hA
      · exact hA
      · exact absurd (e4.2 (.inl hA)) ht
  · refine ⟨φ.ofInt (Int.tdiv v φ.one + 1), ?_, ?_⟩
    · have ht : ¬ φ.lt (fabs φ (φ.sub x (φ.ofInt (Int.tdiv v φ.one)))) eps = true := by
        rw [e4]
        rintro (hh | hh)
        · exact c hh
        · exact hne ⟨b, by omega⟩
      rw [if_neg ht, if_pos (hz.2 b), if_pos (by omega)]; rfl
    · rw [a]
      refine next_exact g h c _ ?_
      have := (c1 (by omega)).2
      omega

/-- C42, part, `floor`: exact for every finite value whose floor is an `int`, except those strictly between -epsilon and 0. -/
theorem c42_floor_partial {φ : Fmt} (g : φ.Good) {x eps : Nat} {v k : Int} (he : φ.val eps = .fin (2 ^ (φ.bias - 1) : Nat))
    (h : φ.val x = .fin v) (hk : IsFloor φ v k) (h1 : -2 ^ 31 ≤ k) (h2 : k < 2 ^ 31) (hne : ¬(v < 0 ∧ -(2 ^ (φ.bias - 1) : Nat) < v)) :
    ∃ y, floor φ eps x = some y ∧ φ.val y = .fin (k * φ.one) := by
  have hp := one_pos φ
  obtain ⟨c1, c2⟩ := tdiv_cases v φ.one hp
  obtain ⟨e1, -, -, -⟩ := trunc_exact g h
  obtain ⟨-, e4⟩ := eps_test g h he
  have hmod := Nat.mod_lt v.natAbs hp
  have hku := isFloor_lt hk
  have hkl := hk.1
  have hge : φ.ge x zero = true ↔ 0 ≤ v := by
    unfold Fmt.ge
    rw [Bool.or_eq_true, lt_fin (val_zero g) h]
    unfold Fmt.eq
    rw [h, val_zero g]
    simp only [Val.eq, decide_eq_true_eq, Val.fin.injEq]
    omega
  have hcase : (k = Int.tdiv v φ.one ∧ (0 ≤ v ∨ v.natAbs % φ.one = 0)) ∨ (k = Int.tdiv v φ.one - 1 ∧ v < 0 ∧ v.natAbs % φ.one ≠ 0) := by
    generalize Int.tdiv v φ.one = i at *
    have dn : v < i * φ.one → i * φ.one - v < φ.one → k = i - 1 := by
      intro a b
      have l1 : k * φ.one < i * φ.one := by omega
      have l2 : (i - 1) * φ.one < (k + 1) * φ.one := by rw [Int.sub_mul]; omega
      have := mul_cancel_lt l1
      have := mul_cancel_lt l2
      omega
    have eq : i * φ.one ≤ v → v - i * φ.one < φ.one → k = i := by
      intro a b
      have l1 : i * φ.one < (k + 1) * φ.one := by omega
      have l2 : k * φ.one < (i + 1) * φ.one := by rw [Int.add_mul]; omega
      have := mul_cancel_lt l1
      have := mul_cancel_lt l2
      omega
    rcases (by omega : v < 0 ∨ 0 ≤ v) with hv | hv
    · obtain ⟨a, b⟩ := c2 (by omega)
      by_cases hr : v.natAbs % φ.one = 0
      · exact .inl ⟨eq (by omega) (by omega), .inr hr⟩
      · exact .inr ⟨dn (by omega) (by omega), hv, hr⟩
    · obtain ⟨a, b⟩ := c1 hv
      exact .inl ⟨eq (by omega) (by omega), .inl hv⟩
  have hneg : v < 0 → Int.tdiv v φ.one ≤ 0 := fun hv => by
    have := Int.natCast_nonneg (v.natAbs / φ.one)
    rw [(c2 (by omega)).2]
    exact Int.neg_nonpos_of_nonneg this
  have hti : φ.toInt x = some (Int.tdiv v φ.one) := by
    apply toInt_eq h
    · rcases hcase with ⟨a, -⟩ | ⟨a, b, -⟩ <;> omega
    · rcases hcase with ⟨a, -⟩ | ⟨a, b, -⟩
      · omega
      · have := hneg b; omega
  unfold floor
  rw [hti]
  simp only [Option.bind_eq_bind, Option.bind_some]
  rcases hcase with ⟨a, b⟩ | ⟨a, b, c⟩
  · refine ⟨φ.ofInt (Int.tdiv v φ.one), ?_, by rw [a]; exact e1⟩
    by_cases hg : φ.ge x zero = true
    · rw [if_pos hg]; rfl
    · rw [if_neg hg]
      have hr : v.natAbs % φ.one = 0 := by
        rcases b with b | b
        · exact absurd (hge.2 b) hg
        · exact b
      rw [if_pos (e4.2 (.inl hr))]; rfl
  · refine ⟨φ.ofInt (Int.tdiv v φ.one - 1), ?_, ?_⟩
    · have ht : ¬ φ.lt (fabs φ (φ.sub (φ.ofInt (Int.tdiv v φ.one)) x)) eps = true := by
        rw [e4]
        rintro (hh | hh)
        · exact c hh
        · exact hne ⟨b, by omega⟩
      rw [if_neg (by rw [hge]; omega), if_neg ht, if_pos (by omega)]; rfl
    · rw [a]
      refine next_exact g h c _ ?_
      have := (c2 (by omega)).2
      omega

/-- The two epsilons are `2^-23` and `2^-52`. -/
theorem epsilon_val : f32.val epsilon32 = .fin (2 ^ (f32.bias - 1) : Nat) ∧ f64.val epsilon64 = .fin (2 ^ (f64.bias - 1) : Nat) := by
  decide +kernel

/-- C42 fails for all values strictly between 0 and epsilon: `ceil` gives 0 although the ceiling is 1. -/
theorem c42_ceil_false {φ : Fmt} (g : φ.Good) {x eps : Nat} {v : Int} (he : φ.val eps = .fin (2 ^ (φ.bias - 1) : Nat))
    (h : φ.val x = .fin v) (h0 : 0 < v) (h1 : v < (2 ^ (φ.bias - 1) : Nat)) :
    IsCeil φ v 1 ∧ ∃ y, ceil φ eps x = some y ∧ φ.val y = .fin 0 := by
  have hp := one_pos φ
  have hle : 2 ^ (φ.bias - 1) ≤ φ.one := Nat.pow_le_pow_right (by decide) (by have := g.mb; omega)
  refine ⟨⟨by omega, fun j hj => ?_⟩, ?_⟩
  · have : 0 * (φ.one : Int) < j * φ.one := by omega
    have := mul_cancel_lt this
    omega
  · obtain ⟨e4, -⟩ := eps_test g h he
    obtain ⟨e1, -, -, -⟩ := trunc_exact g h
    have hi : Int.tdiv v φ.one = 0 := by
      rw [((tdiv_cases v φ.one hp).1 (by omega)).2, Nat.div_eq_of_lt (by omega)]; rfl
    rw [hi] at e4 e1
    refine ⟨φ.ofInt 0, ?_, by simpa using e1⟩
    unfold ceil
    rw [toInt_eq h (by rw [hi]; decide) (by rw [hi]; decide), hi]
    simp only [Option.bind_eq_bind, Option.bind_some]
    rw [if_pos (e4.2 (.inr (by omega)))]; rfl

/-- C42 fails for all values strictly between -epsilon and 0: `floor` gives 0 although the floor is -1. -/
theorem c42_floor_false {φ : Fmt} (g : φ.Good) {x eps : Nat} {v : Int} (he : φ.val eps = .fin (2 ^ (φ.bias - 1) : Nat))
    (h : φ.val x = .fin v) (h0 : v < 0) (h1 : -(2 ^ (φ.bias - 1) : Nat) < v) :
    IsFloor φ v (-1) ∧ ∃ y, floor φ eps x = some y ∧ φ.val y = .fin 0 := by
  have hp := one_pos φ
  have hle : 2 ^ (φ.bias - 1) ≤ φ.one := Nat.pow_le_pow_right (by decide) (by have := g.mb; omega)
  refine ⟨⟨by omega, fun j hj => ?_⟩, ?_⟩
  · have : j * (φ.one : Int) < 0 * φ.one := by omega
    have := mul_cancel_lt this
    omega
  · obtain ⟨-, e4⟩ := eps_test g h he
    obtain ⟨e1, -, -, -⟩ := trunc_exact g h
    have hi : Int.tdiv v φ.one = 0 := by
      rw [((tdiv_cases v φ.one hp).2 (by omega)).2, Nat.div_eq_of_lt (by omega)]; rfl
    rw [hi] at e4 e1
    refine ⟨φ.ofInt 0, ?_, by simpa using e1⟩
    have hge : ¬ φ.ge x zero = true := by
      unfold Fmt.ge
      rw [Bool.or_eq_true, lt_fin (val_zero g) h]
      unfold Fmt.eq
      rw [h, val_zero g]
      simp only [Val.eq, decide_eq_true_eq, Val.fin.injEq]
      omega
    unfold floor
    rw [toInt_eq h (by rw [hi]; decide) (by rw [hi]; decide), hi]
    simp only [Option.bind_eq_bind, Option.bind_some]
    rw [if_neg hge, if_pos (e4.2 (.inr (by omega)))]; rfl

/-- Instances: -2.5f has floor -3, and 2^-30 meets the hypotheses of the negative result. -/
example : ∃ v k, f32.val 0xc0200000 = .fin v ∧ IsFloor f32 v k ∧ k = -3 ∧ ¬(v < 0 ∧ -(2 ^ (f32.bias - 1) : Nat) < v) := by
  refine ⟨-(5 * 2 ^ 148 : Nat), -3, by decide +kernel, ⟨by decide +kernel, fun j hj => ?_⟩, rfl, by decide +kernel⟩
  have e : (f32.one : Int) = 2 ^ 149 := by decide +kernel
  rw [e] at hj
  omega
example : ∃ v, f32.val 0x30800000 = .fin v ∧ 0 < v ∧ v < (2 ^ (f32.bias - 1) : Nat) := ⟨2 ^ 119, by decide +kernel⟩

end Nanostl.Math

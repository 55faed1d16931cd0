import Verif.Float.Arith
import Mathlib.Data.Real.Basic
import Mathlib.Tactic.Linarith
import Mathlib.Tactic.FieldSimp
import Mathlib.Tactic.Ring
import Mathlib.Tactic.Positivity
import Mathlib.Algebra.Order.Field.Basic

/-!
The built-in operations as operations on real numbers: the result is the exact one rounded, rounding is monotone and has a small relative error.
-/

namespace Nanostl.Float
namespace Fmt
variable {φ : Fmt}

/-- The distance to the next magnitude is one unit or small in comparison. -/
theorem mag_gap (φ : Fmt) (t : Nat) : ∃ g, φ.mag (t + 1) = φ.mag t + g ∧ (g = 1 ∨ 2 ^ φ.mb * g ≤ φ.mag t) := by
  unfold mag
  have hp : 0 < 2 ^ φ.mb := Nat.two_pow_pos _
  have h1 := Nat.div_add_mod t (2 ^ φ.mb)
  have h2 := Nat.mod_lt t hp
  set e := t / 2 ^ φ.mb with he
  set m := t % 2 ^ φ.mb with hm
  by_cases hc : m + 1 < 2 ^ φ.mb
  · have e1 : (t + 1) / 2 ^ φ.mb = e := by
      rw [show t + 1 = (m + 1) + 2 ^ φ.mb * e by omega, Nat.add_mul_div_left _ _ hp, Nat.div_eq_of_lt hc, Nat.zero_add]
    have m1 : (t + 1) % 2 ^ φ.mb = m + 1 := by
      rw [show t + 1 = (m + 1) + 2 ^ φ.mb * e by omega, Nat.add_mul_mod_self_left, Nat.mod_eq_of_lt hc]
    rw [e1, m1]
    by_cases h0 : e = 0
    · simp only [h0, if_true]; exact ⟨1, rfl, .inl rfl⟩
    · simp only [h0, if_false]
      exact ⟨2 ^ (e - 1), by ring, .inr (Nat.mul_le_mul_right _ (by omega))⟩
  · have hm' : m + 1 = 2 ^ φ.mb := by omega
    have e1 : (t + 1) / 2 ^ φ.mb = e + 1 := by
      rw [show t + 1 = 2 ^ φ.mb * (e + 1) by rw [Nat.mul_add]; omega, Nat.mul_div_cancel_left _ hp]
    have m1 : (t + 1) % 2 ^ φ.mb = 0 := by
      rw [show t + 1 = 2 ^ φ.mb * (e + 1) by rw [Nat.mul_add]; omega, Nat.mul_mod_right]
    rw [e1, m1, if_neg (Nat.succ_ne_zero e), Nat.add_zero, Nat.add_sub_cancel]
    by_cases h0 : e = 0
    · simp only [h0, if_true]
      rw [h0] at h1
      exact ⟨1, by omega, .inl rfl⟩
    · simp only [h0, if_false]
      obtain ⟨k, hk⟩ : ∃ k, e = k + 1 := Nat.exists_eq_succ_of_ne_zero h0
      rw [hk, Nat.add_sub_cancel]
      refine ⟨2 ^ k, ?_, .inr (Nat.mul_le_mul_right _ (by omega))⟩
      rw [← hm', Nat.pow_succ]
      ring

theorem roundMag_le (hmb : 1 ≤ φ.mb) {n d t : Nat} (hd : 0 < d) (h : n ≤ φ.mag t * d) : φ.roundMag n d ≤ t := by
  by_contra hc
  have hr := (φ.roundMag_nearest hmb (n := n) hd t).1
  have : φ.mag t * d < φ.mag (φ.roundMag n d) * d := Nat.mul_lt_mul_of_pos_right (φ.mag_lt_iff.2 (by omega)) hd
  unfold dist at hr
  omega

theorem le_roundMag (hmb : 1 ≤ φ.mb) {n d t : Nat} (hd : 0 < d) (h : φ.mag t * d ≤ n) : t ≤ φ.roundMag n d := by
  by_contra hc
  have hr := (φ.roundMag_nearest hmb (n := n) hd t).1
  have : φ.mag (φ.roundMag n d) * d < φ.mag t * d := Nat.mul_lt_mul_of_pos_right (φ.mag_lt_iff.2 (by omega)) hd
  unfold dist at hr
  omega

theorem roundMag_err (hmb : 1 ≤ φ.mb) {n d : Nat} (hd : 0 < d) :
    2 * φ.dist n d (φ.roundMag n d) ≤ d ∨ 2 ^ (φ.mb + 1) * φ.dist n d (φ.roundMag n d) ≤ n := by
  have hr := φ.roundMag_nearest hmb (n := n) hd
  generalize φ.roundMag n d = r at hr
  have key : ∀ t, φ.mag t * d ≤ n → n ≤ φ.mag (t + 1) * d → 2 * φ.dist n d r ≤ d ∨ 2 ^ (φ.mb + 1) * φ.dist n d r ≤ n := by
    intro t h1 h2
    obtain ⟨g, hg, hs⟩ := φ.mag_gap t
    have a := (hr t).1
    have b := (hr (t + 1)).1
    have hsum : φ.dist n d t + φ.dist n d (t + 1) = g * d := by
      have : φ.mag (t + 1) * d = φ.mag t * d + g * d := by rw [hg, Nat.add_mul]
      unfold dist
      omega
    have h2r : 2 * φ.dist n d r ≤ g * d := by omega
    rcases hs with rfl | hs
    · left; omega
    · right
      calc 2 ^ (φ.mb + 1) * φ.dist n d r = 2 ^ φ.mb * (2 * φ.dist n d r) := by rw [Nat.pow_succ]; ring
        _ ≤ 2 ^ φ.mb * (g * d) := Nat.mul_le_mul_left _ h2r
        _ = 2 ^ φ.mb * g * d := by ring
        _ ≤ φ.mag t * d := Nat.mul_le_mul_right _ hs
        _ ≤ n := h1
  rcases Nat.le_total (φ.mag r * d) n with h | h
  · refine key r h ?_
    by_contra hc
    have := (hr (r + 1)).1
    have h3 := φ.mag_succ r
    have : φ.mag r * d < φ.mag (r + 1) * d := Nat.mul_lt_mul_of_pos_right h3 hd
    unfold dist at *
    omega
  · rcases Nat.eq_zero_or_pos r with h0 | h0
    · subst h0
      rw [φ.mag_zero, Nat.zero_mul] at h
      left
      have : n = 0 := by omega
      unfold dist
      rw [this, φ.mag_zero]
      simp
    · obtain ⟨k, rfl⟩ : ∃ k, r = k + 1 := ⟨r - 1, by omega⟩
      refine key k ?_ h
      by_contra hc
      have := (hr k).1
      have h3 := φ.mag_succ k
      have : φ.mag k * d < φ.mag (k + 1) * d := Nat.mul_lt_mul_of_pos_right h3 hd
      unfold dist at *
      omega

/-! ### Reals -/

/-- The pattern `x` is finite and denotes `r`. -/
def Is (φ : Fmt) (x : Nat) (r : ℝ) : Prop := ∃ v : Int, φ.val x = .fin v ∧ (v : ℝ) = r * φ.one

/-- `c` is `e` rounded. -/
structure Rnd (φ : Fmt) (e c : ℝ) : Prop where
  le : ∀ z r, φ.Is z r → e ≤ r → c ≤ r
  ge : ∀ z r, φ.Is z r → r ≤ e → r ≤ c
  err : |c - e| ≤ |e| / 2 ^ (φ.mb + 1) + 1 / (2 * φ.one)
  near : ∀ z r, φ.Is z r → |c - e| ≤ |r - e|

theorem one_posR (φ : Fmt) : (0 : ℝ) < φ.one := by
  have : 0 < φ.one := Nat.two_pow_pos _
  exact_mod_cast this

theorem Is.unique {x : Nat} {a b : ℝ} (h : φ.Is x a) (h' : φ.Is x b) : a = b := by
  obtain ⟨v, h1, h2⟩ := h
  obtain ⟨w, h3, h4⟩ := h'
  rw [h1] at h3
  cases h3
  have := φ.one_posR
  exact mul_right_cancel₀ (ne_of_gt this) (h2.symm.trans h4)

theorem Is.neg {x : Nat} {a : ℝ} (h : φ.Is x a) : φ.Is (φ.neg x) (-a) := by
  obtain ⟨v, h1, h2⟩ := h
  exact ⟨-v, Good.val_neg h1, by push_cast; rw [h2]; ring⟩

theorem is_zero (g : φ.Good) : φ.Is 0 0 := by
  refine ⟨0, ?_, by simp⟩
  have h0 : (0 : Nat) < φ.inf := by
    unfold inf; rw [g.emax]; exact Nat.mul_pos (by omega) (Nat.two_pow_pos _)
  have := φ.val_withSign_fin (s := false) h0
  rw [φ.mag_zero] at this
  exact this

theorem is_lt {x y : Nat} {a b : ℝ} (hx : φ.Is x a) (hy : φ.Is y b) : φ.lt x y = true ↔ a < b := by
  obtain ⟨v, h1, h2⟩ := hx
  obtain ⟨w, h3, h4⟩ := hy
  unfold Fmt.lt
  rw [h1, h3]
  simp only [Val.lt, decide_eq_true_eq]
  have := φ.one_posR
  constructor
  · intro h
    have : (v : ℝ) < w := by exact_mod_cast h
    rw [h2, h4] at this
    exact lt_of_mul_lt_mul_right this (le_of_lt φ.one_posR)
  · intro h
    have : (v : ℝ) < w := by rw [h2, h4]; exact mul_lt_mul_of_pos_right h φ.one_posR
    exact_mod_cast this

theorem is_eq {x y : Nat} {a b : ℝ} (hx : φ.Is x a) (hy : φ.Is y b) : φ.eq x y = true ↔ a = b := by
  obtain ⟨v, h1, h2⟩ := hx
  obtain ⟨w, h3, h4⟩ := hy
  unfold Fmt.eq
  rw [h1, h3]
  simp only [Val.eq, decide_eq_true_eq, Val.fin.injEq]
  constructor
  · intro h
    subst h
    exact mul_right_cancel₀ (ne_of_gt φ.one_posR) (h2.symm.trans h4)
  · intro h
    subst h
    have : (v : ℝ) = w := by rw [h2, h4]
    exact_mod_cast this

/-- The largest power of two. -/
theorem exists_big (g : φ.Good) : ∃ t, t < φ.inf ∧ φ.mag t = 2 ^ φ.bias * φ.one := by
  have hb : 1 ≤ φ.bias := le_trans g.mb g.le
  have hmb := g.mb
  obtain ⟨t, h1, h2⟩ := g.exists_pattern (m := 1) (s := φ.bias + (φ.bias + φ.mb - 1)) Nat.one_le_two_pow (by
    rw [Nat.one_mul, ← Nat.pow_add]
    exact Nat.pow_lt_pow_right (by decide) (by omega))
  exact ⟨t, h1, by rw [h2, one, Nat.one_mul, Nat.pow_add]⟩

theorem is_pattern {s : Bool} {t : Nat} (h : t < φ.inf) : φ.Is (φ.withSign s t) ((signed s (φ.mag t) : ℤ) / φ.one) :=
  ⟨_, φ.val_withSign_fin h, by rw [div_mul_cancel₀ _ (ne_of_gt φ.one_posR)]⟩

theorem is_elim {x : Nat} {a : ℝ} (h : φ.Is x a) : ∃ s t, t < φ.inf ∧ a = (signed s (φ.mag t) : ℤ) / φ.one := by
  obtain ⟨v, h1, h2⟩ := h
  obtain ⟨h3, h4⟩ := φ.val_eq_fin h1
  exact ⟨φ.sign x, φ.low x, h3, by rw [← h4, h2, mul_div_assoc, div_self (ne_of_gt φ.one_posR), mul_one]⟩

/-- Rounding of a signed fraction. -/
theorem is_round (g : φ.Good) {s : Bool} {n d : Nat} (hd : 0 < d) {e : ℝ} (he : e = (signed s n : ℤ) / (d * φ.one)) (hb : |e| ≤ 2 ^ φ.bias) :
    ∃ c, φ.Is (φ.round s n d) c ∧ φ.Rnd e c ∧ (d = 1 → |c - e| ≤ |e| / 2 ^ (φ.mb + 1)) := by
  have h1 := φ.one_posR
  have hdR : (0 : ℝ) < d := by exact_mod_cast hd
  have habs : |e| = n / (d * φ.one) := by
    rw [he, abs_div, abs_of_pos (mul_pos hdR h1)]
    congr 1
    unfold signed
    cases s <;> simp
  obtain ⟨T, hT, hTm⟩ := exists_big g
  have hnT : n ≤ φ.mag T * d := by
    rw [habs, div_le_iff₀ (mul_pos hdR h1)] at hb
    have : (n : ℝ) ≤ ((2 ^ φ.bias * φ.one * d : Nat) : ℝ) := by push_cast; linarith
    rw [hTm]
    exact_mod_cast this
  have hrT : φ.roundMag n d ≤ T := roundMag_le g.mb hd hnT
  have hri : φ.roundMag n d < φ.inf := by omega
  have hround : φ.round s n d = φ.withSign s (φ.roundMag n d) := by
    rw [Fmt.round, show Nat.min (φ.roundMag n d) φ.inf = φ.roundMag n d from Nat.min_eq_left (Nat.le_of_lt hri)]
  have hIs := is_pattern (s := s) hri
  have hdist : ∀ t, |((signed s (φ.mag t) : ℤ) : ℝ) / φ.one - e| = (φ.dist n d t : ℝ) / (d * φ.one) := by
    intro t
    have hx : ((signed s (φ.mag t) : ℤ) : ℝ) / φ.one - e = ((signed s (φ.mag t) * d - signed s n : ℤ) : ℝ) / (d * φ.one) := by
      rw [he]; push_cast; field_simp
    rw [hx, abs_div, abs_of_pos (mul_pos hdR h1), ← Int.cast_abs, Int.abs_eq_natAbs]
    congr 1
    have : (signed s (φ.mag t) * d - signed s n).natAbs = φ.dist n d t := by
      unfold dist
      cases s <;> simp only [signed, if_true, if_false, Bool.false_eq_true]
      · push_cast; omega
      · rw [Int.neg_mul]; push_cast; omega
    rw [this]
    simp
  have hce := hdist (φ.roundMag n d)
  have herr := roundMag_err g.mb (n := n) hd
  refine ⟨_, hround ▸ hIs, ⟨?_, ?_, ?_, ?_⟩, ?_⟩
  · -- upper bounds
    intro z r hz her
    obtain ⟨s', t, ht, rfl⟩ := is_elim hz
    rw [he] at her
    apply div_le_div_of_nonneg_right _ (le_of_lt h1)
    have her' : ((signed s n : ℤ) : ℝ) ≤ (signed s' (φ.mag t) : ℤ) * d := by
      rw [div_le_div_iff₀ (mul_pos hdR h1) h1] at her
      have := le_of_mul_le_mul_right (by linarith : ((signed s n : ℤ) : ℝ) * φ.one ≤ ((signed s' (φ.mag t) : ℤ) * d) * φ.one) h1
      exact this
    have her2 : signed s n ≤ signed s' (φ.mag t) * d := by exact_mod_cast her'
    have : signed s (φ.mag (φ.roundMag n d)) ≤ signed s' (φ.mag t) := by
      cases s <;> cases s' <;> simp only [signed, if_true, if_false, Bool.false_eq_true] at her2 ⊢
      · exact_mod_cast φ.mag_le_iff.2 (roundMag_le g.mb hd (by exact_mod_cast her2))
      · have : (n : ℤ) ≤ -((φ.mag t * d : Nat) : ℤ) := by push_cast; linarith
        have hn : n ≤ φ.mag 0 * d := by omega
        have hr0 := roundMag_le g.mb hd hn
        have hm0 : φ.mag t * d = 0 := by omega
        have hm : φ.mag t = 0 := by rcases Nat.mul_eq_zero.1 hm0 with h | h <;> omega
        rw [Nat.le_zero.1 hr0, φ.mag_zero, hm]
        simp
      · have a : (0 : ℤ) ≤ φ.mag t := Int.natCast_nonneg _
        have b : (0 : ℤ) ≤ φ.mag (φ.roundMag n d) := Int.natCast_nonneg _
        omega
      · have : ((φ.mag t * d : Nat) : ℤ) ≤ n := by push_cast; linarith
        have := φ.mag_le_iff.2 (le_roundMag g.mb hd (by exact_mod_cast this))
        omega
    exact_mod_cast this
  · intro z r hz her
    obtain ⟨s', t, ht, rfl⟩ := is_elim hz
    rw [he] at her
    apply div_le_div_of_nonneg_right _ (le_of_lt h1)
    have her' : ((signed s' (φ.mag t) : ℤ) : ℝ) * d ≤ (signed s n : ℤ) := by
      rw [div_le_div_iff₀ h1 (mul_pos hdR h1)] at her
      exact le_of_mul_le_mul_right (by linarith : ((signed s' (φ.mag t) : ℤ) * d : ℝ) * φ.one ≤ ((signed s n : ℤ) : ℝ) * φ.one) h1
    have her2 : signed s' (φ.mag t) * d ≤ signed s n := by exact_mod_cast her'
    have : signed s' (φ.mag t) ≤ signed s (φ.mag (φ.roundMag n d)) := by
      cases s <;> cases s' <;> simp only [signed, if_true, if_false, Bool.false_eq_true] at her2 ⊢
      · exact_mod_cast φ.mag_le_iff.2 (le_roundMag g.mb hd (by exact_mod_cast her2))
      · have a : (0 : ℤ) ≤ φ.mag t := Int.natCast_nonneg _
        have b : (0 : ℤ) ≤ φ.mag (φ.roundMag n d) := Int.natCast_nonneg _
        omega
      · have : ((φ.mag t * d : Nat) : ℤ) ≤ -(n : ℤ) := by push_cast; linarith
        have hn : n ≤ φ.mag 0 * d := by omega
        have hr0 := roundMag_le g.mb hd hn
        have hm0 : φ.mag t * d = 0 := by omega
        have hm : φ.mag t = 0 := by rcases Nat.mul_eq_zero.1 hm0 with h | h <;> omega
        rw [Nat.le_zero.1 hr0, φ.mag_zero, hm]
        simp
      · have : (n : ℤ) ≤ ((φ.mag t * d : Nat) : ℤ) := by push_cast; linarith
        have := φ.mag_le_iff.2 (roundMag_le g.mb hd (by exact_mod_cast this))
        omega
    exact_mod_cast this
  · rw [hce, habs]
    have hpos : (0 : ℝ) < d * φ.one := mul_pos hdR h1
    have hP : (0 : ℝ) < 2 ^ (φ.mb + 1) := by positivity
    rcases herr with h | h
    · have hR : 2 * (φ.dist n d (φ.roundMag n d) : ℝ) ≤ d := by exact_mod_cast h
      have a : (φ.dist n d (φ.roundMag n d) : ℝ) / (d * φ.one) ≤ 1 / (2 * φ.one) := by
        rw [div_le_div_iff₀ hpos (by positivity)]
        nlinarith
      have b : (0 : ℝ) ≤ n / (d * φ.one) / 2 ^ (φ.mb + 1) := by positivity
      linarith
    · have hR : 2 ^ (φ.mb + 1) * (φ.dist n d (φ.roundMag n d) : ℝ) ≤ n := by exact_mod_cast h
      have a : (φ.dist n d (φ.roundMag n d) : ℝ) / (d * φ.one) ≤ n / (d * φ.one) / 2 ^ (φ.mb + 1) := by
        rw [div_right_comm (n : ℝ)]
        apply div_le_div_of_nonneg_right _ (le_of_lt hpos)
        rw [le_div_iff₀ hP]
        linarith
      have b : (0 : ℝ) ≤ 1 / (2 * φ.one) := by positivity
      linarith
  · -- the nearest
    intro z r hz
    obtain ⟨s', t, ht, rfl⟩ := is_elim hz
    have hpos : (0 : ℝ) < d * φ.one := mul_pos hdR h1
    have hle : ∀ t', |((signed s (φ.mag (φ.roundMag n d)) : ℤ) : ℝ) / φ.one - e| ≤ |((signed s (φ.mag t') : ℤ) : ℝ) / φ.one - e| := by
      intro t'
      rw [hdist, hdist]
      apply div_le_div_of_nonneg_right _ (le_of_lt hpos)
      exact_mod_cast (φ.roundMag_nearest g.mb (n := n) hd t').1
    by_cases hss : s' = s
    · rw [hss]; exact hle t
    · refine le_trans (hle 0) ?_
      have h0 : ((signed s (φ.mag 0) : ℤ) : ℝ) / φ.one - e = -e := by
        rw [φ.mag_zero]; cases s <;> simp [signed]
      rw [h0, abs_neg]
      have hm : (0 : ℝ) ≤ (φ.mag t : ℝ) / φ.one := by positivity
      have hn : (0 : ℝ) ≤ (n : ℝ) / (d * φ.one) := by positivity
      have hs' : s' = !s := by cases s <;> cases s' <;> simp_all
      rw [hs']
      cases s
      · simp only [signed, Bool.not_false, if_true, Bool.false_eq_true, if_false] at he ⊢
        push_cast at he ⊢
        rw [neg_div]
        rw [he, abs_of_nonneg hn, abs_of_nonpos (by linarith)]
        linarith
      · simp only [signed, Bool.not_true, if_true, Bool.false_eq_true, if_false] at he ⊢
        push_cast at he ⊢
        rw [neg_div] at he
        rw [he, abs_neg, abs_of_nonneg hn, abs_of_nonneg (by linarith)]
        linarith
  · intro hd1
    rw [hce, habs]
    subst hd1
    have hpos : (0 : ℝ) < (1 : Nat) * φ.one := mul_pos hdR h1
    have hP : (0 : ℝ) < 2 ^ (φ.mb + 1) := by positivity
    rcases herr with h | h
    · have : φ.dist n 1 (φ.roundMag n 1) = 0 := by omega
      rw [this]
      have b : (0 : ℝ) ≤ n / ((1 : Nat) * φ.one) / 2 ^ (φ.mb + 1) := by positivity
      simpa using b
    · have hR : 2 ^ (φ.mb + 1) * (φ.dist n 1 (φ.roundMag n 1) : ℝ) ≤ n := by exact_mod_cast h
      rw [div_right_comm (n : ℝ)]
      apply div_le_div_of_nonneg_right _ (le_of_lt hpos)
      rw [le_div_iff₀ hP]
      linarith

theorem is_add (g : φ.Good) {x y : Nat} {a b : ℝ} (hx : φ.Is x a) (hy : φ.Is y b) (hb : |a + b| ≤ 2 ^ φ.bias) :
    ∃ c, φ.Is (φ.add x y) c ∧ φ.Rnd (a + b) c ∧ |c - (a + b)| ≤ |a + b| / 2 ^ (φ.mb + 1) := by
  obtain ⟨v, h1, h2⟩ := hx
  obtain ⟨w, h3, h4⟩ := hy
  have ho := φ.one_posR
  have hsum : ((v + w : ℤ) : ℝ) = (a + b) * φ.one := by push_cast; rw [h2, h4]; ring
  have hadd : φ.add x y = if v + w = 0 then φ.withSign (φ.sign x && φ.sign y) 0 else φ.round (decide (v + w < 0)) (v + w).natAbs 1 := by
    unfold add; rw [h1, h3]
  rw [hadd]
  by_cases h0 : v + w = 0
  · rw [if_pos h0]
    have hab : a + b = 0 := by
      rw [h0, Int.cast_zero] at hsum
      exact (mul_eq_zero.1 hsum.symm).resolve_right (ne_of_gt ho)
    have h0' : (0 : Nat) < φ.inf := by
      unfold inf; rw [g.emax]; exact Nat.mul_pos (by omega) (Nat.two_pow_pos _)
    refine ⟨0, ⟨0, ?_, by simp⟩, ⟨fun z r _ h => by rw [hab] at h; exact h, fun z r _ h => by rw [hab] at h; exact h, by rw [hab]; simp,
      fun z r _ => by rw [hab]; simp⟩, by rw [hab]; simp⟩
    rw [φ.val_withSign_fin h0', φ.mag_zero]
    cases (φ.sign x && φ.sign y) <;> rfl
  · rw [if_neg h0]
    obtain ⟨c, hc1, hc2, hc3⟩ := is_round g (s := decide (v + w < 0)) (n := (v + w).natAbs) (d := 1) (by decide) (e := a + b)
      (by rw [signed_neg_decide, hsum]; push_cast; field_simp) hb
    exact ⟨c, hc1, hc2, hc3 rfl⟩

theorem is_sub (g : φ.Good) {x y : Nat} {a b : ℝ} (hx : φ.Is x a) (hy : φ.Is y b) (hb : |a - b| ≤ 2 ^ φ.bias) :
    ∃ c, φ.Is (φ.sub x y) c ∧ φ.Rnd (a - b) c ∧ |c - (a - b)| ≤ |a - b| / 2 ^ (φ.mb + 1) := by
  have := is_add g hx hy.neg (by rwa [← sub_eq_add_neg])
  rwa [← sub_eq_add_neg] at this

theorem is_mul (g : φ.Good) {x y : Nat} {a b : ℝ} (hx : φ.Is x a) (hy : φ.Is y b) (hb : |a * b| ≤ 2 ^ φ.bias) :
    ∃ c, φ.Is (φ.mul x y) c ∧ φ.Rnd (a * b) c := by
  obtain ⟨v, h1, h2⟩ := hx
  obtain ⟨w, h3, h4⟩ := hy
  have ho := φ.one_posR
  have hmul : φ.mul x y = φ.round (φ.sign x != φ.sign y) (v.natAbs * w.natAbs) φ.one := by
    unfold mul; rw [h1, h3]
  have hv := (φ.val_eq_fin h1).2
  have hw := (φ.val_eq_fin h3).2
  rw [hmul]
  have hs : signed (φ.sign x != φ.sign y) (v.natAbs * w.natAbs) = v * w := by
    rw [hv, hw, natAbs_signed, natAbs_signed]
    unfold signed
    cases φ.sign x <;> cases φ.sign y <;> simp
  obtain ⟨c, hc1, hc2, _⟩ := is_round g (s := φ.sign x != φ.sign y) (n := v.natAbs * w.natAbs) (d := φ.one) (Nat.two_pow_pos _) (e := a * b)
    (by rw [hs]; push_cast; rw [h2, h4]; field_simp) hb
  exact ⟨c, hc1, hc2⟩

end Fmt
end Nanostl.Float

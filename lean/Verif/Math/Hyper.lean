import Verif.Math.ExpProps
import Verif.Math.SinCosProps
import Verif.Float.Poly
import Mathlib.Analysis.SpecialFunctions.Trigonometric.DerivHyp

/-!
C68: `sinh`, `cosh`, `tanh` (nanomath.h:626-659).
-/

namespace Nanostl.Math
open Nanostl.Float Nanostl.Float.Fmt

/-- Relative errors of the two halves of `cosh` and `sinh`. -/
theorem halves {x : Nat} {r : ℝ} (h : f32.Is x r) (h0 : 0 ≤ r) (h1 : r ≤ 8733 / 100) : ∃ y u v, exp x = some y ∧
    f32.Is (f32.mul (f32.litNeg 5 1) y) u ∧ f32.Is (f32.div (f32.litNeg 5 1) y) v ∧
    |u - Real.exp r / 2| ≤ 242 / 10 ^ 7 * (Real.exp r / 2) ∧ |v - Real.exp (-r) / 2| ≤ 242 / 10 ^ 7 * (Real.exp (-r) / 2) ∧ |u| ≤ 2 ^ 126 ∧ |v| ≤ 1 := by
  obtain ⟨y, b, e1, e2, e3⟩ := c63_exp_error h (by linarith) h1
  have hE1 : 1 ≤ Real.exp r := Real.one_le_exp h0
  have hE2 : Real.exp r ≤ 2 ^ 126 := by
    have hL := abs_le.1 Real.log_two_near_10
    rw [show (2 : ℝ) ^ 126 = Real.exp (126 * Real.log 2) by
      rw [show (126 : ℝ) = ((126 : ℕ) : ℝ) by norm_num, Real.exp_nat_mul, Real.exp_log (by norm_num)]]
    refine Real.exp_le_exp.2 ?_
    norm_num at hL
    linarith
  obtain ⟨E, hE⟩ : ∃ E, E = Real.exp r := ⟨_, rfl⟩
  rw [← hE] at hE1 hE2 e3
  have hI : Real.exp (-r) = 1 / E := by rw [Real.exp_neg, hE, one_div]
  rw [hI, ← hE]
  have hE0 : 0 < E := by linarith
  have e4 := abs_le.1 e3
  have hb0 : 0 < b := by nlinarith
  have hb1 : 999 / 1000 ≤ b := by nlinarith
  have hb2 : b ≤ 2 ^ 126 * (1001 / 1000) := by nlinarith
  obtain ⟨u, hu, hur⟩ := Fmt.is_mul Fmt.good32 is_half32 e2 (by
    rw [bias32, abs_of_pos (by positivity)]; norm_num at *; linarith)
  obtain ⟨v, hv, hvr⟩ := Fmt.is_div Fmt.good32 is_half32 e2 (ne_of_gt hb0) (by
    rw [bias32, abs_of_pos (by positivity), div_le_iff₀ hb0]; norm_num at *; linarith)
  have u1 := rnd32 hur
  have v1 := rnd32 hvr
  rw [abs_of_pos (show 0 < 1 / 2 * b by positivity)] at u1
  rw [abs_of_pos (show 0 < 1 / 2 / b by positivity)] at v1
  have hw : 1 / 2 / b = 1 / b / 2 := by ring
  rw [hw] at v1
  have hwW : |1 / b - 1 / E| ≤ 24 / 10 ^ 6 * (1 / b) := by
    have : 1 / b - 1 / E = (E - b) * (1 / b * (1 / E)) := by field_simp
    rw [this, abs_mul, abs_sub_comm, abs_of_pos (show 0 < 1 / b * (1 / E) by positivity)]
    refine le_trans (mul_le_mul_of_nonneg_right e3 (by positivity)) (le_of_eq ?_)
    field_simp
  have hW : 1 / 2 ^ 126 ≤ 1 / E := one_div_le_one_div_of_le hE0 hE2
  have hW1 : 1 / E ≤ 1 := by rw [div_le_one hE0]; exact hE1
  generalize 1 / b = w at *
  generalize 1 / E = W at *
  have a1 := abs_le.1 u1
  have a2 := abs_le.1 v1
  have a3 := abs_le.1 hwW
  unfold ulp tiny at *
  refine ⟨y, u, v, e1, hu, hv, abs_le.2 ⟨?_, ?_⟩, abs_le.2 ⟨?_, ?_⟩, abs_le.2 ⟨?_, ?_⟩, abs_le.2 ⟨?_, ?_⟩⟩ <;> norm_num at * <;> linarith

/-- An odd function, computed from the absolute value with `copysign`. -/
theorem odd_close {x w : Nat} {r b : ℝ} (f : ℝ → ℝ) (hf : ∀ t, f (-t) = -f t) (hx : x < f32.size) (h : f32.Is x r) (hw : f32.Is w b) (h0 : 0 ≤ f |r|) :
    ∃ c, f32.Is (copysign w x) c ∧ |c - f r| ≤ |b - f (|r|)| ∧ |f r| = f |r| ∧ |c| = |b| := by
  have hcs := is_copysign hx hw
  have h3 : |(|b|) - f (|r|)| ≤ |b - f (|r|)| := by
    have := abs_abs_sub_abs_le_abs_sub b (f |r|)
    rwa [abs_of_nonneg h0] at this
  refine ⟨_, hcs, ?_⟩
  cases hsg : f32.sign x
  · have := (sign_cases h).2 hsg
    simp only [Bool.false_eq_true, if_false]
    rw [abs_of_nonneg this] at *
    exact ⟨h3, abs_of_nonneg h0, abs_abs b⟩
  · have := (sign_cases h).1 hsg
    simp only [if_true]
    rw [abs_of_nonpos this, hf] at *
    refine ⟨?_, abs_of_nonpos (by linarith), by rw [abs_neg, abs_abs]⟩
    rw [show -|b| - f r = -(|b| - -f r) by ring, abs_neg]
    exact h3

/-- The polynomial of `sinh` (nanomath.h:638-641) without rounding, divided by the argument. -/
noncomputable def PH (s : ℝ) : ℝ := (203945513931 / 10 ^ 15 * s + 832990277558 / 10 ^ 14) * s + 1666673421859 / 10 ^ 13

/-- `11! 10^15 (s PH - Taylor)`. -/
def ph : List ℤ := Poly.add (Poly.smul 39916800 [0, 166667342185900, 8329902775580, 203945513931])
  (Poly.smul (-(10 ^ 15)) [0, 6652800, 332640, 7920, 110, 1])

theorem ph_close {s : ℝ} (h0 : 0 ≤ s) (h1 : s ≤ 1) :
    |1 + s * PH s - (1 + s / 6 + s ^ 2 / 120 + s ^ 3 / 5040 + s ^ 4 / 362880 + s ^ 5 / 39916800)| ≤ 5 / 10 ^ 8 := by
  have := Poly.check_sound (p := ph) (K := 1) (B := 39916800 * 10 ^ 15 * 5 / 10 ^ 8) (D := 200) (lo := 0) (w := 1) (n := 100)
    (by decide +kernel) (x := s) (by push_cast; linarith) (by push_cast; linarith)
  have e : Poly.eval ph s = (39916800 * 10 ^ 15) *
      (1 + s * PH s - (1 + s / 6 + s ^ 2 / 120 + s ^ 3 / 5040 + s ^ 4 / 362880 + s ^ 5 / 39916800)) := by
    unfold ph PH
    rw [Poly.eval_add, Poly.eval_smul, Poly.eval_smul]
    simp only [Poly.eval_cons, Poly.eval_nil]
    push_cast
    ring
  rw [e, abs_mul, abs_of_pos (by positivity)] at this
  refine le_of_mul_le_mul_left (le_trans this ?_) (show (0 : ℝ) < 39916800 * 10 ^ 15 by positivity)
  norm_num

theorem sinh_taylor {a : ℝ} (h0 : 0 ≤ a) (h1 : a ≤ 1) :
    |Real.sinh a - a * (1 + a ^ 2 / 6 + (a ^ 2) ^ 2 / 120 + (a ^ 2) ^ 3 / 5040 + (a ^ 2) ^ 4 / 362880 + (a ^ 2) ^ 5 / 39916800)| ≤ 3 / 10 ^ 9 := by
  have p := Real.exp_bound (x := a) (by rw [abs_of_nonneg h0]; exact h1) (n := 12) (by norm_num)
  have m := Real.exp_bound (x := -a) (by rw [abs_neg, abs_of_nonneg h0]; exact h1) (n := 12) (by norm_num)
  have hb : |a| ^ 12 * (((12 : Nat).succ : ℝ) / ((Nat.factorial 12 : ℝ) * (12 : Nat))) ≤ 3 / 10 ^ 9 := by
    have : |a| ^ 12 ≤ 1 := pow_le_one₀ (abs_nonneg _) (by rw [abs_of_nonneg h0]; exact h1)
    have h2 : (((12 : Nat).succ : ℝ) / ((Nat.factorial 12 : ℝ) * (12 : Nat))) ≤ 3 / 10 ^ 9 := by
      simp only [Nat.factorial]; norm_num
    refine le_trans (mul_le_mul this h2 (by positivity) (by norm_num)) (by norm_num)
  rw [abs_neg] at m
  have p' := abs_le.1 (le_trans p hb)
  have m' := abs_le.1 (le_trans m hb)
  simp only [Finset.sum_range_succ, Finset.sum_range_zero, Nat.factorial] at p' m'
  norm_num at p' m'
  rw [Real.sinh_eq, abs_le]
  constructor <;> ring_nf at * <;> linarith [p'.1, p'.2, m'.1, m'.2]

theorem poly_sinh {a : ℝ} (h0 : 0 ≤ a) (h1 : a ≤ 1) : |PH (a * a) * a * (a * a) + a - Real.sinh a| ≤ 6 / 10 ^ 8 := by
  have p := ph_close (mul_self_nonneg a) (by nlinarith)
  have q := sinh_taylor h0 h1
  rw [sq] at q
  have e : PH (a * a) * a * (a * a) + a - Real.sinh a =
    a * (1 + a * a * PH (a * a) - (1 + (a * a) / 6 + (a * a) ^ 2 / 120 + (a * a) ^ 3 / 5040 + (a * a) ^ 4 / 362880 + (a * a) ^ 5 / 39916800)) +
    -(Real.sinh a - a * (1 + (a * a) / 6 + (a * a) ^ 2 / 120 + (a * a) ^ 3 / 5040 + (a * a) ^ 4 / 362880 + (a * a) ^ 5 / 39916800)) := by ring
  rw [e]
  refine le_trans (abs_add_le _ _) ?_
  rw [abs_mul, abs_neg, abs_of_nonneg h0]
  have := mul_le_mul h1 p (abs_nonneg _) (by norm_num)
  refine le_trans (add_le_add this q) (by norm_num)

/-- `1.0f - (1.0f - a)`. -/
theorem crush_one {w : Nat} {a : ℝ} (h : f32.Is w a) (h0 : 0 ≤ a) (h1 : a ≤ 1) :
    Ap (f32.sub one32 (f32.sub one32 w)) a 1 (1 / 10 ^ 7) := by
  have o := Ap.of_is is_one32 (R := 1) (by norm_num)
  have s1 := o.addH (Ap.of_is h (R := 1) (by rw [abs_of_nonneg h0]; exact h1)).neg 1 (1 / 2 ^ 25) 125 (by norm_num) (by norm_num)
    (by rw [abs_le]; constructor <;> linarith) (by norm_num)
  have e : 1 + -(1 + -a) = a := by ring
  have s2 := o.addH s1.neg 1 (1 / 2 ^ 24) 126 (by norm_num) (by norm_num) (by rw [e, abs_of_nonneg h0]; exact h1) (by norm_num)
  rw [e] at s2
  exact s2.weaken s2.bd (by norm_num)

theorem val_inf (s : Bool) : f32.val (f32.withSign s f32.inf) = .inf s := by cases s <;> decide +kernel

theorem val_qnan32 : f32.val f32.qnan = .nan := by decide +kernel

/-- A number that is at least `L`, or infinity, or NaN. -/
def Up (L : ℝ) (z : Nat) : Prop := (∃ c, f32.Is z c ∧ L ≤ c) ∨ f32.val z = .inf false ∨ f32.val z = .nan

theorem mul_up_fin {x y w : Nat} {a b L : ℝ} (hx : f32.Is x a) (hy : f32.Is y b) (hw : f32.Is w L) (hL0 : 0 ≤ L) (hL : L ≤ a * b) : Up L (f32.mul x y) := by
  have h0 := le_trans hL0 hL
  rcases le_or_gt (a * b) (2 ^ 127) with hs | hs
  · obtain ⟨c, hc, hr⟩ := is_mul good32 hx hy (by rw [bias32, abs_of_nonneg h0]; exact hs)
    exact Or.inl ⟨c, hc, hr.ge _ _ hw hL⟩
  · obtain ⟨v, h1, h2⟩ := hx
    obtain ⟨u, h3, h4⟩ := hy
    have ho := f32.one_posR
    have hvw : 0 < v * u := by
      have : (0 : ℝ) < ((v * u : ℤ) : ℝ) := by
        push_cast; rw [h2, h4]
        have : 0 < a * b := lt_trans (by norm_num) hs
        have e : a * f32.one * (b * f32.one) = a * b * (f32.one * f32.one) := by ring
        rw [e]; positivity
      exact_mod_cast this
    have hsg : (f32.sign x != f32.sign y) = false := by
      rw [(f32.val_eq_fin h1).2, (f32.val_eq_fin h3).2] at hvw
      revert hvw
      unfold signed
      cases f32.sign x <;> cases f32.sign y <;> simp
      · positivity
      · positivity
    have hmul : f32.mul x y = f32.round false (v.natAbs * u.natAbs) f32.one := by
      rw [← hsg]; unfold Fmt.mul; rw [h1, h3]
    rw [hmul]
    obtain ⟨s, t, ht, hLt⟩ := is_elim hw
    have hmt : f32.mag t * f32.one ≤ v.natAbs * u.natAbs := by
      have e1 : ((v.natAbs * u.natAbs : ℕ) : ℝ) = a * f32.one * (b * f32.one) := by
        have : ((v.natAbs * u.natAbs : ℕ) : ℤ) = v * u := by
          rw [← Int.natAbs_mul, Int.natAbs_of_nonneg hvw.le]
        have e : ((v.natAbs * u.natAbs : ℕ) : ℝ) = ((v * u : ℤ) : ℝ) := by
          rw [← this]; exact (Int.cast_natCast _).symm
        rw [e]; push_cast; rw [h2, h4]
      have e2 : (f32.mag t : ℝ) = L * f32.one := by
        have hm : (0 : ℝ) ≤ f32.mag t := Nat.cast_nonneg _
        cases s
        · rw [hLt]; unfold signed; simp only [Bool.false_eq_true, if_false]; push_cast; field_simp
        · have : (f32.mag t : ℝ) = 0 := by
            unfold signed at hLt
            simp only [if_true] at hLt
            push_cast at hLt
            have : 0 ≤ -(f32.mag t : ℝ) := by
              rw [hLt] at hL0
              by_contra h
              rw [not_le] at h
              exact absurd hL0 (not_le.2 (div_neg_of_neg_of_pos h ho))
            linarith
          unfold signed at hLt
          simp only [if_true] at hLt
          push_cast at hLt
          rw [this] at hLt ⊢
          rw [hLt]; simp
      have : (f32.mag t * f32.one : ℝ) ≤ ((v.natAbs * u.natAbs : ℕ) : ℝ) := by
        rw [e1, e2]
        have : L * (f32.one * f32.one) ≤ a * b * (f32.one * f32.one) := mul_le_mul_of_nonneg_right hL (by positivity)
        linarith
      exact_mod_cast this
    have hr := le_roundMag (by decide) (Nat.two_pow_pos _) hmt
    unfold Fmt.round
    rcases Nat.lt_or_ge (f32.roundMag (v.natAbs * u.natAbs) f32.one) f32.inf with hi | hi
    · left
      have : Nat.min (f32.roundMag (v.natAbs * u.natAbs) f32.one) f32.inf = f32.roundMag (v.natAbs * u.natAbs) f32.one := Nat.min_eq_left hi.le
      rw [this]
      refine ⟨(f32.mag (f32.roundMag (v.natAbs * u.natAbs) f32.one) : ℝ) / f32.one, ⟨_, f32.val_withSign_fin hi, ?_⟩, ?_⟩
      · unfold signed; simp only [Bool.false_eq_true, if_false]; push_cast; field_simp
      · rw [hLt]
        apply div_le_div_of_nonneg_right _ ho.le
        have h5 := f32.mag_le_iff.2 hr
        have h6 : (f32.mag t : ℝ) ≤ f32.mag (f32.roundMag (v.natAbs * u.natAbs) f32.one) := by exact_mod_cast h5
        have hm : (0 : ℝ) ≤ f32.mag t := Nat.cast_nonneg _
        unfold signed
        cases s
        · simp only [Bool.false_eq_true, if_false]; push_cast; exact h6
        · simp only [if_true]; push_cast; linarith
    · right; left
      have : Nat.min (f32.roundMag (v.natAbs * u.natAbs) f32.one) f32.inf = f32.inf := Nat.min_eq_right hi
      rw [this]
      exact val_inf false


/-- Multiplication of such a number by a positive number. -/
theorem mul_up {x y w : Nat} {b K L : ℝ} (hx : Up K x) (hy : f32.Is y b) (hw : f32.Is w L) (hb : 0 < b) (hL0 : 0 ≤ L) (hL : L ≤ K * b) : Up L (f32.mul x y) := by
  have hyv := hy
  obtain ⟨u, h3, h4⟩ := hyv
  have hu : 0 < u := by
    have : (0 : ℝ) < u := by rw [h4]; exact mul_pos hb f32.one_posR
    exact_mod_cast this
  rcases hx with ⟨c, hc, hc2⟩ | hx | hx
  · exact mul_up_fin hc hy hw hL0 (le_trans hL (mul_le_mul_of_nonneg_right hc2 hb.le))
  · right; left
    have hs : f32.sign x = false := by
      have := hx
      unfold Fmt.val at this
      split at this
      · split at this
        · exact Val.inf.inj this
        · cases this
      · cases this
    have hs2 : f32.sign y = false := by
      have := (f32.val_eq_fin h3).2
      unfold signed at this
      cases h : f32.sign y
      · rfl
      · rw [h] at this; simp only [if_true] at this; omega
    unfold Fmt.mul
    rw [hx, h3, hs, hs2]
    split <;> simp_all
    exact val_inf false
  · right; right
    unfold Fmt.mul
    rw [hx]
    exact val_qnan32

theorem mul_comm32 (x y : Nat) : f32.mul x y = f32.mul y x := by
  unfold Fmt.mul
  have hs : (f32.sign x != f32.sign y) = (f32.sign y != f32.sign x) := by cases f32.sign x <;> cases f32.sign y <;> rfl
  rw [hs]
  generalize f32.val x = v, f32.val y = w, (f32.sign y != f32.sign x) = s
  cases v with
  | nan => cases w <;> rfl
  | inf a =>
    cases w with
    | nan => rfl
    | inf _ => rfl
    | fin w =>
      by_cases h : w = 0
      · subst h; rfl
      · split <;> simp_all
  | fin v =>
    cases w with
    | nan => rfl
    | inf a =>
      by_cases h : v = 0
      · subst h; rfl
      · split <;> simp_all
    | fin w => simp only [Nat.mul_comm]

theorem fabs_up (x : Nat) : Up 0 (fabs f32 x) := by
  cases hv : f32.val x with
  | fin v =>
    left
    have : f32.Is x (v / f32.one) := ⟨v, hv, by have := f32.one_posR; field_simp⟩
    exact ⟨_, fabs_is this, abs_nonneg _⟩
  | inf s =>
    right; left
    have hsg : f32.sign x = s := by
      have := hv
      unfold Fmt.val at this
      split at this
      · split at this
        · exact Val.inf.inj this
        · cases this
      · cases this
    have hz : f32.val zero = .fin 0 := by decide +kernel
    unfold fabs Fmt.lt
    rw [hv, hz]
    cases s
    · exact hv
    · show f32.val (f32.neg x) = _
      have hlow : f32.low x = f32.inf := by
        have := hv
        unfold Fmt.val at this
        split at this
        · rename_i h1
          split at this
          · rename_i h2
            have := Nat.div_add_mod (f32.low x) (2 ^ f32.mb)
            unfold Fmt.expo at h1
            unfold Fmt.frac at h2
            rw [h1, h2] at this
            rw [← this]; rfl
          · cases this
        · cases this
      unfold Fmt.neg
      rw [hsg, hlow]
      exact val_inf false
  | nan =>
    right; right
    unfold fabs Fmt.lt
    rw [hv]
    exact hv


/-- `fast_exp2` of such a number. -/
theorem fastExp2_up {z : Nat} {L : ℝ} (hz : Up L z) (h0 : 0 ≤ L) (h1 : L ≤ 126) : ∃ a y b, fastExp2 z = some y ∧ f32.Is y b ∧ L ≤ a ∧ a ≤ 126 ∧
    |b - (2 : ℝ) ^ a| ≤ 17 / 10 ^ 6 * (2 : ℝ) ^ a := by
  obtain ⟨a, k1, k2, k3, k4, k5, _, k6, _⟩ := clamp_spec (z := z) is_lit126.neg is_lit126 (by norm_num)
  obtain ⟨m, y, b, c1, c2, c3, c4, c5, c6⟩ := exp2_core k1 (abs_le.2 ⟨k2, k3⟩)
  have ha : L ≤ a := by
    rcases hz with ⟨c, hc, hc2⟩ | hz | hz
    · rcases le_or_gt c 126 with h | h
      · rw [k4 c hc (by linarith) h]; exact hc2
      · rw [k5 c hc h.le]; exact h1
    · rw [k6 (Or.inr hz)]; exact h1
    · rw [k6 (Or.inl hz)]; exact h1
  refine ⟨a, y, b, ?_, c4, ha, k3, c6 (by linarith)⟩
  unfold fastExp2
  simp only [bind, Option.bind, c1, pure]
  rw [c2]

theorem is_two32 : f32.Is (f32.litPos 2 0) 2 := ⟨2 * f32.one, by decide +kernel, by push_cast; ring⟩

/-- `exp(2 |x|)` for any pattern: at least 1 up to the error, at most 2^126 up to the error. -/
theorem exp_two_up (x : Nat) : ∃ y b, exp (f32.mul (f32.litPos 2 0) (fabs f32 x)) = some y ∧ f32.Is y b ∧ 9 / 10 ≤ b ∧ b ≤ 2 ^ 126 * (1 + 2 / 10 ^ 5) := by
  have u1 : Up 0 (f32.mul (f32.litPos 2 0) (fabs f32 x)) := by
    rw [mul_comm32]
    exact mul_up (fabs_up x) is_two32 (is_zero good32) (by norm_num) le_rfl (by norm_num)
  have u2 := mul_up u1 is_invLn2 (is_zero good32) (by norm_num) le_rfl (by norm_num)
  obtain ⟨a, y, b, e1, e2, e3, e4, e5⟩ := fastExp2_up u2 le_rfl (by norm_num)
  have h1 : (1 : ℝ) ≤ 2 ^ a := Real.one_le_rpow (by norm_num) e3
  have h2 : (2 : ℝ) ^ a ≤ 2 ^ 126 := by
    have := Real.rpow_le_rpow_of_exponent_le (x := 2) (by norm_num) e4
    refine le_trans this (le_of_eq ?_)
    rw [show (126 : ℝ) = ((126 : ℕ) : ℝ) by norm_num, Real.rpow_natCast]
  refine ⟨y, b, e1, e2, ?_, ?_⟩
  · have := (abs_le.1 e5).1
    linarith
  · have := (abs_le.1 e5).2
    have h3 : (2 : ℝ) ^ a * (1 + 17 / 10 ^ 6) ≤ 2 ^ 126 * (1 + 17 / 10 ^ 6) := mul_le_mul_of_nonneg_right h2 (by norm_num)
    have h4 : (2 : ℝ) ^ 126 * (1 + 17 / 10 ^ 6) ≤ 2 ^ 126 * (1 + 2 / 10 ^ 5) := by norm_num
    linarith

/-- The last steps of `tanh`: with `b` the exponential, 1 - 2/(1+b) up to 3.1e-7, and in [-1, 1]. -/
theorem tanh_tail {y : Nat} {b : ℝ} (hy : f32.Is y b) (h0 : 0 < b) (h1 : b ≤ 2 ^ 126 * (1 + 2 / 10 ^ 5)) :
    ∃ c, f32.Is (f32.sub (f32.ofInt 1) (f32.div (f32.ofInt 2) (f32.add (f32.ofInt 1) y))) c ∧ |c| ≤ 1 ∧ |c - (1 - 2 / (1 + b))| ≤ 31 / 10 ^ 8 := by
  have i1 : f32.Is (f32.ofInt 1) 1 := ⟨f32.one, by decide +kernel, by push_cast; ring⟩
  have i2 : f32.Is (f32.ofInt 2) 2 := ⟨2 * f32.one, by decide +kernel, by push_cast; ring⟩
  obtain ⟨w, hw, rw1, ew⟩ := is_add good32 i1 hy (by
    rw [bias32, abs_of_pos (by linarith)]
    calc 1 + b ≤ 1 + 2 ^ 126 * (1 + 2 / 10 ^ 5) := by linarith
      _ ≤ _ := by norm_num)
  have hw1 : 1 ≤ w := rw1.ge _ _ i1 (by linarith)
  have hq0 : 0 < 2 / w := by positivity
  have hq2 : 2 / w ≤ 2 := by rw [div_le_iff₀ (by linarith)]; linarith
  obtain ⟨q, hq, rq⟩ := is_div good32 i2 hw (by linarith) (by
    rw [bias32, abs_of_pos hq0]; exact le_trans hq2 (by norm_num))
  have q0 : 0 ≤ q := rq.ge _ _ (is_zero good32) hq0.le
  have q2 : q ≤ 2 := rq.le _ _ i2 hq2
  obtain ⟨c, hc, rc, ec⟩ := is_add good32 i1 hq.neg (by
    rw [bias32]
    exact le_trans (abs_le.2 ⟨by linarith, by linarith⟩ : |1 + -q| ≤ 1) (by norm_num))
  refine ⟨c, hc, abs_le.2 ⟨rc.ge _ _ i1.neg (by linarith), rc.le _ _ i1 (by linarith)⟩, ?_⟩
  have hmb : f32.mb = 23 := rfl
  rw [hmb] at ew ec
  have eq := rnd32 rq
  have e1 : |c - (1 + -q)| ≤ 6 / 10 ^ 8 := by
    refine le_trans ec ?_
    have : |1 + -q| ≤ 1 := abs_le.2 ⟨by linarith, by linarith⟩
    norm_num at *; linarith
  have e2 : |q - 2 / w| ≤ 121 / 10 ^ 9 := by
    refine le_trans eq ?_
    rw [abs_of_pos hq0]
    have : ulp ≤ 6 / 10 ^ 8 := by unfold ulp; norm_num
    have : tiny ≤ 1 / 10 ^ 10 := by unfold tiny; norm_num
    nlinarith
  have e3 : |2 / w - 2 / (1 + b)| ≤ 12 / 10 ^ 8 := by
    have hd : 2 / w - 2 / (1 + b) = 2 * ((1 + b) - w) / (w * (1 + b)) := by
      field_simp
    rw [hd, abs_div, abs_mul, abs_sub_comm, abs_of_pos (show 0 < w * (1 + b) by positivity), abs_of_pos (show (0 : ℝ) < 2 by norm_num),
      div_le_iff₀ (by positivity)]
    rw [abs_of_pos (show 0 < 1 + b by linarith)] at ew
    have : 1 * (1 + b) ≤ w * (1 + b) := mul_le_mul_of_nonneg_right hw1 (by linarith)
    norm_num at *; linarith
  have := abs_le.1 e1
  have := abs_le.1 e2
  have := abs_le.1 e3
  rw [abs_le]
  constructor <;> linarith


/-- `copysign` for any second argument, also infinite or NaN. -/
theorem copysign_abs {x w : Nat} {b : ℝ} (hw : f32.Is w b) (hx : x < f32.size) : ∃ c, f32.Is (copysign w x) c ∧ |c| = |b| := by
  have := is_copysign hx hw
  refine ⟨_, this, ?_⟩
  split
  · rw [abs_neg, abs_abs]
  · rw [abs_abs]

theorem tanh_exp (r : ℝ) : Real.tanh r = 1 - 2 / (1 + Real.exp (2 * r)) := by
  rw [Real.tanh_eq_sinh_div_cosh, Real.sinh_eq, Real.cosh_eq]
  have h1 := Real.exp_pos r
  have h2 : Real.exp (2 * r) = Real.exp r * Real.exp r := by rw [← Real.exp_add]; ring_nf
  rw [h2, Real.exp_neg]
  field_simp
  ring

/-- An error of the exponential is halved at least. -/
theorem tanh_err {E b d : ℝ} (hE : 0 < E) (hd : d ≤ 1 / 10 ^ 4) (h : |b - E| ≤ d * E) : |(1 - 2 / (1 + b)) - (1 - 2 / (1 + E))| ≤ d * (5001 / 10000) := by
  have hb := abs_le.1 h
  have hd0 : 0 ≤ d := by
    by_contra hc
    have : d * E < 0 := mul_neg_of_neg_of_pos (not_le.1 hc) hE
    linarith [abs_nonneg (b - E)]
  have hdE : d * E ≤ 1 / 10 ^ 4 * E := mul_le_mul_of_nonneg_right hd hE.le
  have hbE : (9999 / 10000) * E ≤ b := by norm_num at *; linarith
  have hb0 : 0 < b := lt_of_lt_of_le (by positivity) hbE
  have he : (1 - 2 / (1 + b)) - (1 - 2 / (1 + E)) = 2 * (b - E) / ((1 + b) * (1 + E)) := by
    field_simp
    ring
  have hp : 0 < (1 + b) * (1 + E) := by positivity
  rw [he, abs_div, abs_mul, abs_of_pos hp, abs_of_pos (show (0 : ℝ) < 2 by norm_num), div_le_iff₀ hp]
  have h4 : 4 * (9999 / 10000) * E ≤ (1 + b) * (1 + E) := by
    have : (1 + 9999 / 10000 * E) * (1 + E) ≤ (1 + b) * (1 + E) := mul_le_mul_of_nonneg_right (by linarith) (by linarith)
    nlinarith [sq_nonneg (1 - E)]
  have : d * (5001 / 10000) * (4 * (9999 / 10000) * E) ≤ d * (5001 / 10000) * ((1 + b) * (1 + E)) := mul_le_mul_of_nonneg_left h4 (by positivity)
  nlinarith [mul_nonneg hd0 hE.le]

end Nanostl.Math

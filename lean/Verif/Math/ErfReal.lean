import Verif.Float.Poly
import Mathlib.Analysis.Calculus.MeanValue
import Mathlib.Analysis.SpecialFunctions.Gaussian.GaussianIntegral
import Mathlib.MeasureTheory.Integral.IntervalIntegral.FundThmCalculus
import Mathlib.Analysis.Real.Pi.Bounds
import Mathlib.Tactic.NormNum

/-!
The error function over the reals, as the specification of `erf` (nanomath.h:661-680), and the formula of Abramowitz and Stegun (7.1.28) that the code
uses, without rounding.
-/

namespace Nanostl.Math
open MeasureTheory

/-- The error function. -/
noncomputable def Erf (x : ℝ) : ℝ := 2 / √Real.pi * ∫ t in (0 : ℝ)..x, Real.exp (-t ^ 2)

theorem gauss_cont : Continuous fun t : ℝ => Real.exp (-t ^ 2) := by fun_prop

theorem gauss_deriv (x : ℝ) : HasDerivAt (fun x : ℝ => ∫ t in (0 : ℝ)..x, Real.exp (-t ^ 2)) (Real.exp (-x ^ 2)) x :=
  intervalIntegral.integral_hasDerivAt_right (gauss_cont.intervalIntegrable _ _) (gauss_cont.stronglyMeasurableAtFilter _ _) gauss_cont.continuousAt

theorem Erf_zero : Erf 0 = 0 := by simp [Erf]

theorem Erf_neg (x : ℝ) : Erf (-x) = -Erf x := by
  unfold Erf
  have := intervalIntegral.integral_comp_neg (a := 0) (b := x) (fun t => Real.exp (-t ^ 2))
  simp only [neg_sq, neg_zero] at this
  rw [this, intervalIntegral.integral_symm]
  ring

theorem two_div_sqrt_pi : 11283791670955125 / 10 ^ 16 ≤ 2 / √Real.pi ∧ 2 / √Real.pi ≤ 11283791670955127 / 10 ^ 16 := by
  have h1 := Real.pi_gt_d20
  have h2 := Real.pi_lt_d20
  have hs : 0 < √Real.pi := Real.sqrt_pos.2 Real.pi_pos
  have hl : 177245385090551602 / 10 ^ 17 ≤ √Real.pi := by
    apply Real.le_sqrt_of_sq_le
    norm_num at *; linarith
  have hu : √Real.pi ≤ 177245385090551603 / 10 ^ 17 := by
    rw [Real.sqrt_le_left (by norm_num)]
    norm_num at *; linarith
  constructor
  · rw [le_div_iff₀ hs]
    norm_num at *; linarith
  · rw [div_le_iff₀ hs]
    norm_num at *; linarith

theorem Erf_deriv (x : ℝ) : HasDerivAt Erf (2 / √Real.pi * Real.exp (-x ^ 2)) x := (gauss_deriv x).const_mul _

theorem Erf_lipschitz (x y : ℝ) : |Erf x - Erf y| ≤ 113 / 100 * |x - y| := by
  have := Convex.norm_image_sub_le_of_norm_hasDerivWithin_le (f := Erf) (f' := fun z => 2 / √Real.pi * Real.exp (-z ^ 2)) (C := 113 / 100) (s := Set.univ)
    (x := y) (y := x) (fun z _ => (Erf_deriv z).hasDerivWithinAt) (fun z _ => by
      obtain ⟨c1, c2⟩ := two_div_sqrt_pi
      have h0 : 0 ≤ 2 / √Real.pi := le_trans (by norm_num) c1
      rw [Real.norm_eq_abs, abs_of_nonneg (mul_nonneg h0 (Real.exp_pos _).le)]
      have : Real.exp (-z ^ 2) ≤ 1 := Real.exp_le_one_iff.2 (by have := sq_nonneg z; linarith)
      refine le_trans (mul_le_of_le_one_right h0 this) (le_trans c2 (by norm_num))) convex_univ (Set.mem_univ _) (Set.mem_univ _)
  rwa [Real.norm_eq_abs, Real.norm_eq_abs] at this

theorem Erf_mono : Monotone Erf := by
  apply monotone_of_hasDerivAt_nonneg Erf_deriv
  intro x
  have h0 : 0 ≤ 2 / √Real.pi := le_trans (by norm_num) two_div_sqrt_pi.1
  exact mul_nonneg h0 (Real.exp_pos _).le

theorem Erf_nonneg {x : ℝ} (h : 0 ≤ x) : 0 ≤ Erf x := by rw [← Erf_zero]; exact Erf_mono h

theorem Erf_le_one {x : ℝ} (h : 0 ≤ x) : Erf x ≤ 1 := by
  have hi := integral_gaussian_Ioi 1
  have hint : IntegrableOn (fun t : ℝ => Real.exp (-1 * t ^ 2)) (Set.Ioi 0) := (integrable_exp_neg_mul_sq one_pos).integrableOn
  have hle : ∫ t in (0 : ℝ)..x, Real.exp (-t ^ 2) ≤ √Real.pi / 2 := by
    rw [intervalIntegral.integral_of_le h]
    rw [div_one] at hi
    rw [← hi]
    simp only [neg_mul, one_mul] at *
    exact setIntegral_mono_set hint (Filter.Eventually.of_forall fun t => (Real.exp_pos _).le) (Set.Ioc_subset_Ioi_self.eventuallyLE)
  have hs : 0 < √Real.pi := Real.sqrt_pos.2 Real.pi_pos
  unfold Erf
  have := mul_le_mul_of_nonneg_left hle (show 0 ≤ 2 / √Real.pi by positivity)
  refine le_trans this (le_of_eq ?_)
  field_simp

/-! ### Taylor -/

noncomputable def expT (n : ℕ) (s : ℝ) : ℝ := ∑ m ∈ Finset.range n, (-s) ^ m / m.factorial

theorem expT_deriv (n : ℕ) (s : ℝ) : HasDerivAt (expT (n + 1)) (-expT n s) s := by
  induction n with
  | zero =>
    have : expT 1 = fun _ => 1 := by funext s; simp [expT]
    rw [this]; simp [expT, hasDerivAt_const]
  | succ n ih =>
    have e : expT (n + 1 + 1) = fun s => expT (n + 1) s + (-s) ^ (n + 1) / (n + 1).factorial := by funext s; simp [expT, Finset.sum_range_succ]
    rw [e]
    have h2 : HasDerivAt (fun s : ℝ => (-s) ^ (n + 1) / (n + 1).factorial) (-((-s) ^ n / n.factorial)) s := by
      refine (((hasDerivAt_id s).neg.pow (n + 1)).div_const ((n + 1).factorial : ℝ)).congr_deriv ?_
      simp only [Nat.factorial_succ]
      push_cast
      have : (n.factorial : ℝ) ≠ 0 := by positivity
      have : (n + 1 : ℝ) ≠ 0 := by positivity
      simp
      field_simp
    refine (ih.add h2).congr_deriv ?_
    simp only [expT, Finset.sum_range_succ]; ring

theorem exp_taylor (n : ℕ) {s : ℝ} (hs : 0 ≤ s) : |Real.exp (-s) - expT n s| ≤ s ^ n / n.factorial := by
  induction n generalizing s with
  | zero =>
    simp only [expT, Finset.range_zero, Finset.sum_empty, sub_zero, pow_zero, Nat.factorial_zero, Nat.cast_one, div_one]
    rw [abs_of_pos (Real.exp_pos _)]
    exact Real.exp_le_one_iff.2 (by linarith)
  | succ n ih =>
    have hd : ∀ x : ℝ, HasDerivAt (fun s => Real.exp (-s) - expT (n + 1) s) (-(Real.exp (-x) - expT n x)) x := by
      intro x
      have h1 : HasDerivAt (fun s : ℝ => Real.exp (-s)) (Real.exp (-x) * -1) x := (hasDerivAt_neg x).exp
      exact (h1.sub (expT_deriv n x)).congr_deriv (by ring)
    have hB : ∀ x : ℝ, HasDerivAt (fun s : ℝ => s ^ (n + 1) / (n + 1).factorial) (x ^ n / n.factorial) x := by
      intro x
      refine (((hasDerivAt_id x).pow (n + 1)).div_const ((n + 1).factorial : ℝ)).congr_deriv ?_
      simp only [Nat.factorial_succ]
      push_cast
      have : (n.factorial : ℝ) ≠ 0 := by positivity
      have : (n + 1 : ℝ) ≠ 0 := by positivity
      simp
      field_simp
    have := image_norm_le_of_norm_deriv_right_le_deriv_boundary (a := 0) (b := s) (f := fun s => Real.exp (-s) - expT (n + 1) s)
      (fun x _ => (hd x).continuousAt.continuousWithinAt) (fun x _ => (hd x).hasDerivWithinAt) (by simp [expT, Finset.sum_range_succ', Nat.factorial]) hB
      (fun x hx => by rw [norm_neg, Real.norm_eq_abs]; exact ih hx.1) (Set.right_mem_Icc.2 hs)
    rwa [Real.norm_eq_abs] at this

/-- The Taylor polynomial of the integral. -/
noncomputable def intT (n : ℕ) (x : ℝ) : ℝ := ∑ m ∈ Finset.range n, (-1) ^ m * x ^ (2 * m + 1) / (m.factorial * (2 * m + 1))

theorem intT_deriv (n : ℕ) (x : ℝ) : HasDerivAt (intT n) (expT n (x ^ 2)) x := by
  have e : intT n = fun x : ℝ => ∑ m ∈ Finset.range n, (-1) ^ m * x ^ (2 * m + 1) / (m.factorial * (2 * m + 1)) := by funext x; rfl
  rw [e]
  unfold expT
  apply HasDerivAt.fun_sum
  intro m _
  refine ((((hasDerivAt_id x).pow (2 * m + 1)).const_mul ((-1 : ℝ) ^ m)).div_const ((m.factorial : ℝ) * (2 * m + 1))).congr_deriv ?_
  have h1 : (m.factorial : ℝ) ≠ 0 := by positivity
  have h2 : (2 * m + 1 : ℝ) ≠ 0 := by positivity
  simp only [id_eq, Nat.add_sub_cancel, mul_one]
  push_cast
  rw [neg_pow (x ^ 2), ← pow_mul]
  field_simp

theorem int_taylor (n : ℕ) {x : ℝ} (hx : 0 ≤ x) : |(∫ t in (0 : ℝ)..x, Real.exp (-t ^ 2)) - intT n x| ≤ x ^ (2 * n + 1) / (n.factorial * (2 * n + 1)) := by
  have hd : ∀ y : ℝ, HasDerivAt (fun x => (∫ t in (0 : ℝ)..x, Real.exp (-t ^ 2)) - intT n x) (Real.exp (-y ^ 2) - expT n (y ^ 2)) y := fun y =>
    (gauss_deriv y).sub (intT_deriv n y)
  have hB : ∀ y : ℝ, HasDerivAt (fun x : ℝ => x ^ (2 * n + 1) / (n.factorial * (2 * n + 1))) ((y ^ 2) ^ n / n.factorial) y := by
    intro y
    refine (((hasDerivAt_id y).pow (2 * n + 1)).div_const ((n.factorial : ℝ) * (2 * n + 1))).congr_deriv ?_
    have h1 : (n.factorial : ℝ) ≠ 0 := by positivity
    have h2 : (2 * n + 1 : ℝ) ≠ 0 := by positivity
    simp only [id_eq, Nat.add_sub_cancel, mul_one]
    push_cast
    rw [← pow_mul]
    field_simp
  have := image_norm_le_of_norm_deriv_right_le_deriv_boundary (a := 0) (b := x)
    (fun y _ => (hd y).continuousAt.continuousWithinAt) (fun y _ => (hd y).hasDerivWithinAt) (by simp [intT]) hB
    (fun y _ => by rw [Real.norm_eq_abs]; exact exp_taylor n (sq_nonneg y)) (Set.right_mem_Icc.2 hx)
  rwa [Real.norm_eq_abs] at this

end Nanostl.Math

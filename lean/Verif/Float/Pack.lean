import Mathlib.Algebra.Polynomial.Inductions
import Mathlib.Algebra.Polynomial.Eval.Defs
import Mathlib.Data.Real.Basic
import Mathlib.Tactic.Linarith
import Mathlib.Tactic.Ring
import Mathlib.Tactic.Positivity

/-!
Bounds for the difference of two polynomials with natural coefficients. A polynomial is handled as its value at a large number `B`, whose digits in base
`B` are the coefficients, so that sums and products of polynomials are single operations on natural numbers.
-/

namespace Nanostl.Pack
open Polynomial

/-- `Σ |pᵢ - qᵢ| wⁱ` for the digits `pᵢ`, `qᵢ` of the two numbers. -/
def diff (B w : ℕ) : ℕ → ℕ → ℕ → ℕ
  | 0, p, q => p + q
  | n + 1, p, q => (p % B - q % B) + (q % B - p % B) + w * diff B w n (p / B) (q / B)

noncomputable def ev (P : ℕ[X]) (t : ℝ) : ℝ := P.eval₂ (Nat.castRingHom ℝ) t

theorem ev_step (P : ℕ[X]) (t : ℝ) : ev P t = P.coeff 0 + t * ev P.divX t := by
  have := congrArg (fun p => ev p t) (divX_mul_X_add P)
  simp only [ev, eval₂_add, eval₂_mul, eval₂_X, eval₂_C] at this ⊢
  rw [← this]; simp; ring

theorem eval_step (P : ℕ[X]) (b : ℕ) : P.eval b = P.divX.eval b * b + P.coeff 0 := by
  conv_lhs => rw [← divX_mul_X_add P]
  simp only [eval_add, eval_mul, eval_X, eval_C]

theorem abs_ev_le (P : ℕ[X]) {t : ℝ} (w : ℕ) (ht : |t| ≤ w) : |ev P t| ≤ P.eval w := by
  induction P using Polynomial.induction_on' with
  | add p q hp hq =>
    simp only [ev, eval₂_add, eval_add] at *
    refine le_trans (abs_add_le _ _) ?_
    push_cast
    exact add_le_add hp hq
  | monomial n a =>
    simp only [ev, eval₂_monomial, eval_monomial]
    rw [abs_mul, abs_pow]
    push_cast
    simp only [Nat.abs_cast]
    exact mul_le_mul_of_nonneg_left (pow_le_pow_left₀ (abs_nonneg _) ht n) (Nat.cast_nonneg _)

theorem eval_mono (P : ℕ[X]) {a b : ℕ} (h : a ≤ b) : P.eval a ≤ P.eval b := by
  induction P using Polynomial.induction_on' with
  | add p q hp hq => simp only [eval_add]; omega
  | monomial n c => simp only [eval_monomial]; exact Nat.mul_le_mul_left _ (Nat.pow_le_pow_left h n)

theorem diff_sound {B w : ℕ} (hw : w ≤ B) (n : ℕ) (P Q : ℕ[X]) (hP : P.eval 1 < B) (hQ : Q.eval 1 < B) {t : ℝ} (ht : |t| ≤ w) :
    |ev P t - ev Q t| ≤ diff B w n (P.eval B) (Q.eval B) := by
  induction n generalizing P Q with
  | zero =>
    rw [diff]
    refine le_trans (abs_sub _ _) ?_
    push_cast
    refine add_le_add (le_trans (abs_ev_le P w ht) ?_) (le_trans (abs_ev_le Q w ht) ?_)
    · exact_mod_cast eval_mono P hw
    · exact_mod_cast eval_mono Q hw
  | succ n ih =>
    have key : ∀ P : ℕ[X], P.eval 1 < B → P.eval B % B = P.coeff 0 ∧ P.eval B / B = P.divX.eval B ∧ P.divX.eval 1 < B := by
      intro P hP
      have h1 := eval_step P 1
      have h0 : P.coeff 0 < B := by omega
      have hB : 0 < B := by omega
      refine ⟨?_, ?_, by omega⟩
      · rw [eval_step P B, Nat.mul_add_mod', Nat.mod_eq_of_lt h0]
      · rw [eval_step P B, Nat.add_comm, Nat.add_mul_div_right _ _ hB, Nat.div_eq_of_lt h0, Nat.zero_add]
    obtain ⟨p1, p2, p3⟩ := key P hP
    obtain ⟨q1, q2, q3⟩ := key Q hQ
    rw [diff, p1, p2, q1, q2, ev_step P, ev_step Q]
    have h := ih P.divX Q.divX p3 q3
    have e : (P.coeff 0 : ℝ) + t * ev P.divX t - (Q.coeff 0 + t * ev Q.divX t) = ((P.coeff 0 : ℝ) - Q.coeff 0) + t * (ev P.divX t - ev Q.divX t) := by ring
    rw [e]
    refine le_trans (abs_add_le _ _) ?_
    push_cast
    refine add_le_add ?_ ?_
    · rcases le_total (P.coeff 0) (Q.coeff 0) with hc | hc
      · rw [Nat.sub_eq_zero_of_le hc, abs_of_nonpos (by simpa using hc), Nat.cast_sub hc]; simp
      · rw [Nat.sub_eq_zero_of_le hc, abs_of_nonneg (by simpa using hc), Nat.cast_sub hc]; simp
    · rw [abs_mul]
      exact mul_le_mul ht h (abs_nonneg _) (Nat.cast_nonneg _)

/-- `Σ l[k] x^k`. -/
def hor {S : Type*} [CommSemiring S] (l : List ℕ) (x : S) : S := l.foldr (fun (a : ℕ) (r : S) => (a : S) + x * r) 0

theorem map_hor {S T : Type*} [CommSemiring S] [CommSemiring T] (f : S →+* T) (l : List ℕ) (x : S) : f (hor l x) = hor l (f x) := by
  induction l with
  | nil => simp [hor]
  | cons a l ih =>
    show f ((a : S) + x * hor l x) = (a : T) + f x * hor l (f x)
    rw [map_add, map_mul, map_natCast, ih]

end Nanostl.Pack

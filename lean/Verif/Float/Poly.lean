import Mathlib.Data.Real.Basic
import Mathlib.Tactic.Linarith
import Mathlib.Tactic.Ring
import Mathlib.Tactic.Positivity
import Mathlib.Tactic.FieldSimp
import Mathlib.Algebra.Order.Field.Basic

/-!
Bounds for polynomials with integer coefficients over an interval: the interval is cut into pieces, and on each the polynomial is expanded about the
middle. The check is a computation with integers, the theorem says what it proves about all real arguments.
-/

namespace Nanostl.Poly

/-- `Σ p[k] x^k`. -/
def eval (p : List ℤ) (x : ℝ) : ℝ := p.foldr (fun a r => a + x * r) 0

@[simp] theorem eval_nil (x : ℝ) : eval [] x = 0 := rfl
@[simp] theorem eval_cons (a : ℤ) (p : List ℤ) (x : ℝ) : eval (a :: p) x = a + x * eval p x := rfl

/-- Sum of two polynomials. -/
def add : List ℤ → List ℤ → List ℤ
  | [], q => q
  | p, [] => p
  | a :: p, b :: q => (a + b) :: add p q

theorem eval_add (p q : List ℤ) (x : ℝ) : eval (add p q) x = eval p x + eval q x := by
  induction p generalizing q with
  | nil => simp [add]
  | cons a p ih => cases q with
    | nil => simp [add]
    | cons b q => simp only [add, eval_cons, ih]; push_cast; ring

def smul (c : ℤ) (p : List ℤ) : List ℤ := p.map (c * ·)

theorem eval_smul (c : ℤ) (p : List ℤ) (x : ℝ) : eval (smul c p) x = c * eval p x := by
  induction p with
  | nil => simp [smul]
  | cons a p ih =>
    show eval ((c * a) :: smul c p) x = _
    rw [eval_cons, ih, eval_cons]; push_cast; ring

/-- Product of two polynomials. -/
def mul : List ℤ → List ℤ → List ℤ
  | [], _ => []
  | a :: p, q => add (smul a q) (0 :: mul p q)

theorem eval_mul (p q : List ℤ) (x : ℝ) : eval (mul p q) x = eval p x * eval q x := by
  induction p with
  | nil => simp [mul]
  | cons a p ih => simp only [mul, eval_add, eval_smul, eval_cons, ih]; push_cast; ring

/-- `p (c + t)` as a polynomial in `t`. -/
def shift (c : ℤ) : List ℤ → List ℤ
  | [] => []
  | a :: p => add [a] (add (smul c (shift c p)) (0 :: shift c p))

theorem eval_shift (c : ℤ) (p : List ℤ) (t : ℝ) : eval (shift c p) t = eval p (c + t) := by
  induction p with
  | nil => rfl
  | cons a p ih => simp only [shift, eval_add, eval_smul, eval_cons, eval_nil, ih]; push_cast; ring

/-- `Σ |p[k]| h^k`. -/
def absBound (h : ℤ) (p : List ℤ) : ℤ := p.foldr (fun a r => |a| + h * r) 0

theorem absBound_nonneg {h : ℤ} (hh : 0 ≤ h) (p : List ℤ) : 0 ≤ absBound h p := by
  induction p with
  | nil => exact le_rfl
  | cons a p ih => exact add_nonneg (abs_nonneg a) (mul_nonneg hh ih)

theorem abs_eval_le {h : ℤ} (p : List ℤ) {t : ℝ} (ht : |t| ≤ h) : |eval p t| ≤ absBound h p := by
  induction p with
  | nil => simp [absBound]
  | cons a p ih =>
    rw [eval_cons]
    refine le_trans (abs_add_le _ _) ?_
    rw [abs_mul]
    have : ((absBound h (a :: p) : ℤ) : ℝ) = |(a : ℝ)| + h * absBound h p := by
      show ((|a| + h * absBound h p : ℤ) : ℝ) = _
      push_cast; ring
    rw [this]
    have := mul_le_mul ht ih (abs_nonneg _) (le_trans (abs_nonneg _) ht)
    linarith

/-- All of `n` pieces of half width `w` from `lo` on have `|p| ≤ B`. -/
def cover (p : List ℤ) (B w : ℤ) : ℕ → ℤ → Bool
  | 0, _ => true
  | n + 1, lo => decide (absBound w (shift (lo + w) p) ≤ B) && cover p B w n (lo + 2 * w)

theorem cover_sound {p : List ℤ} {B w : ℤ} {n : ℕ} {lo : ℤ} (h : cover p B w (n + 1) lo = true) {x : ℝ} (h1 : (lo : ℝ) ≤ x)
    (h2 : x ≤ lo + 2 * w * (n + 1 : ℕ)) : |eval p x| ≤ B := by
  induction n generalizing lo with
  | zero =>
    simp only [cover, Bool.and_true, decide_eq_true_eq] at h
    have ht : |x - (lo + w : ℤ)| ≤ w := by
      rw [abs_le]; push_cast at *; constructor <;> linarith
    have := abs_eval_le (shift (lo + w) p) ht
    rw [eval_shift, add_sub_cancel] at this
    exact le_trans this (by exact_mod_cast h)
  | succ n ih =>
    rw [cover, Bool.and_eq_true, decide_eq_true_eq] at h
    by_cases hc : x ≤ lo + 2 * w
    · have ht : |x - (lo + w : ℤ)| ≤ w := by
        rw [abs_le]; push_cast at *; constructor <;> linarith
      have := abs_eval_le (shift (lo + w) p) ht
      rw [eval_shift, add_sub_cancel] at this
      exact le_trans this (by exact_mod_cast h.1)
    · refine ih h.2 (by push_cast; linarith) ?_
      push_cast at *; linarith

/-- The polynomial in `D x` that is `D^n` times `p`. -/
def homog (D : ℤ) : List ℤ → List ℤ
  | [] => []
  | a :: p => a * D ^ (p.length + 1) :: homog D p

theorem eval_homog (D : ℤ) (p : List ℤ) (x : ℝ) : eval (homog D p) (D * x) = D ^ p.length * eval p x := by
  induction p with
  | nil => simp [homog]
  | cons a p ih => simp only [homog, eval_cons, ih, List.length_cons]; push_cast; ring

/-- The check for `|p| ≤ B / K` on the interval from `lo / D` with `n` pieces of half width `w / D`. -/
def check (p : List ℤ) (K B D lo w : ℤ) (n : ℕ) : Bool :=
  decide (0 < D) && decide (0 < K) && decide (0 < n) && cover (homog D (smul K p)) (B * D ^ p.length) w n lo

theorem homog_smul_length (K : ℤ) (p : List ℤ) : (smul K p).length = p.length := by simp [smul]

theorem check_sound {p : List ℤ} {K B D lo w : ℤ} {n : ℕ} (h : check p K B D lo w n = true) {x : ℝ} (h1 : (lo : ℝ) / D ≤ x)
    (h2 : x ≤ (lo + 2 * w * n) / D) : |eval p x| ≤ B / K := by
  simp only [check, Bool.and_eq_true, decide_eq_true_eq] at h
  obtain ⟨⟨⟨hD, hK⟩, hn⟩, hc⟩ := h
  obtain ⟨m, rfl⟩ : ∃ m, n = m + 1 := ⟨n - 1, by omega⟩
  have hDR : (0 : ℝ) < D := by exact_mod_cast hD
  have hKR : (0 : ℝ) < K := by exact_mod_cast hK
  have := cover_sound hc (x := D * x) (by rw [div_le_iff₀ hDR] at h1; linarith) (by rw [le_div_iff₀ hDR] at h2; linarith)
  rw [eval_homog, eval_smul, homog_smul_length, abs_mul, abs_mul, abs_of_pos (pow_pos hDR _), abs_of_pos hKR] at this
  push_cast at this
  rw [le_div_iff₀ hKR]
  have h3 : (D : ℝ) ^ p.length * (|eval p x| * K) ≤ D ^ p.length * B := by linarith
  exact le_of_mul_le_mul_left h3 (pow_pos hDR _)

/-- `p ^ n`. -/
def pow (p : List ℤ) : ℕ → List ℤ
  | 0 => [1]
  | n + 1 => mul p (pow p n)

theorem eval_pow (p : List ℤ) (n : ℕ) (x : ℝ) : eval (pow p n) x = eval p x ^ n := by
  induction n with
  | zero => simp [pow]
  | succ n ih => rw [pow, eval_mul, ih, _root_.pow_succ, mul_comm]

/-- `v^(length - 1) * p (u / v)`. -/
def subst (u v : List ℤ) : List ℤ → List ℤ
  | [] => []
  | a :: p => add (smul a (pow v p.length)) (mul u (subst u v p))

theorem eval_subst {u v : List ℤ} {x : ℝ} (h : eval v x ≠ 0) (p : List ℤ) :
    eval (subst u v p) x * eval v x = eval v x ^ p.length * eval p (eval u x / eval v x) := by
  induction p with
  | nil => simp [subst]
  | cons a p ih =>
    simp only [subst, eval_add, eval_smul, eval_mul, eval_pow, eval_cons, List.length_cons]
    rw [add_mul, mul_assoc (eval u x), ih]
    field_simp
    try ring

end Nanostl.Poly

import Verif.Math.ErfReal
import Verif.Float.Pack

/-! The formula of Abramowitz and Stegun (7.1.28) with the coefficients of the code against the error function, by a certified subdivision of [0, 3.5]. -/

namespace Nanostl.Math
open Nanostl.Pack

/-- The coefficients of the code, for arguments multiplied by 16. -/
def rl : List ℕ := [2 ^ 38 * 16 ^ 6, 9465447 * 2 ^ 11 * 16 ^ 5, 11349991 * 2 ^ 10 * 16 ^ 4, 9954153 * 2 ^ 8 * 16 ^ 3, 10446343 * 2 ^ 2 * 16 ^ 2,
  9502777 * 2 ^ 3 * 16, 11837287]

/-- 44! times the least common multiple of 1, 3, ..., 89. -/
def scaleT : ℕ := 29854331774602020328126686981786768649712983263115386585072217590777910676737228800000000000

/-- The positive and the negative part of the Taylor polynomial. -/
def tlP : List ℕ := (List.range 45).map fun m => if m % 2 = 0 then scaleT * 256 ^ (44 - m) / (m.factorial * (2 * m + 1)) else 0
def tlM : List ℕ := (List.range 45).map fun m => if m % 2 = 1 then scaleT * 256 ^ (44 - m) / (m.factorial * (2 * m + 1)) else 0

/-- The positive and the negative part of the error times the power of the denominator. -/
def eP {S : Type*} [CommSemiring S] (x : S) : S := hor rl x ^ 16 * (((10 ^ 16 * scaleT * 16 * 256 ^ 44 : ℕ) : S) + ((11283791670955126 : ℕ) : S) * (x * hor tlM (x * x)))
def eM {S : Type*} [CommSemiring S] (x : S) : S := hor rl x ^ 16 * (((11283791670955126 : ℕ) : S) * (x * hor tlP (x * x))) +
  (((2 ^ 38 * 16 ^ 6) ^ 16 * (10 ^ 16 * scaleT * 16 * 256 ^ 44) : ℕ) : S)

def cell (e j : ℕ) : Bool :=
  let B := 2 ^ 2200
  decide (eP (2 * j + 1 + 1) < B) && decide (eM (2 * j + 1 + 1) < B) &&
  decide (diff B 1 200 (eP (2 * j + 1 + B)) (eM (2 * j + 1 + B)) ≤ e * scaleT * 16 * 256 ^ 44 * hor rl (2 * j) ^ 16)

theorem cells : ∀ j < 28, cell (6 * 10 ^ 9) j = true := by decide +kernel

theorem cell27 : cell (2 * 10 ^ 9) 27 = true := by decide +kernel

theorem map_eP {S T : Type*} [CommSemiring S] [CommSemiring T] (f : S →+* T) (x : S) : f (eP x) = eP (f x) := by
  simp only [eP, map_mul, map_add, map_pow, map_natCast, map_hor]

theorem map_eM {S T : Type*} [CommSemiring S] [CommSemiring T] (f : S →+* T) (x : S) : f (eM x) = eM (f x) := by
  simp only [eM, map_mul, map_add, map_pow, map_natCast, map_hor]

open Polynomial in
/-- The digits of the values at `c + B` bound the difference near `c`. -/
theorem pack_bound {B w n c : ℕ} (hw : w ≤ B) (h1 : eP (c + 1) < B) (h2 : eM (c + 1) < B) {t : ℝ} (ht : |t| ≤ w) :
    |eP ((c : ℝ) + t) - eM ((c : ℝ) + t)| ≤ diff B w n (eP (c + B)) (eM (c + B)) := by
  have hb : ∀ b : ℕ, Polynomial.evalRingHom b (C c + X : ℕ[X]) = c + b := by intro b; simp
  have hP : ∀ b : ℕ, (eP (C c + X : ℕ[X])).eval b = eP (c + b) := by
    intro b; have := map_eP (Polynomial.evalRingHom b) (C c + X : ℕ[X]); rw [hb] at this; exact this
  have hM : ∀ b : ℕ, (eM (C c + X : ℕ[X])).eval b = eM (c + b) := by
    intro b; have := map_eM (Polynomial.evalRingHom b) (C c + X : ℕ[X]); rw [hb] at this; exact this
  have ht2 : Polynomial.eval₂RingHom (Nat.castRingHom ℝ) t (C c + X : ℕ[X]) = c + t := by simp
  have hP2 : ev (eP (C c + X : ℕ[X])) t = eP ((c : ℝ) + t) := by
    have := map_eP (Polynomial.eval₂RingHom (Nat.castRingHom ℝ) t) (C c + X : ℕ[X]); rw [ht2] at this; exact this
  have hM2 : ev (eM (C c + X : ℕ[X])) t = eM ((c : ℝ) + t) := by
    have := map_eM (Polynomial.eval₂RingHom (Nat.castRingHom ℝ) t) (C c + X : ℕ[X]); rw [ht2] at this; exact this
  have := diff_sound hw n (eP (C c + X : ℕ[X])) (eM (C c + X : ℕ[X])) (by rw [hP]; exact h1) (by rw [hM]; exact h2) ht
  rwa [hP, hM, hP2, hM2] at this

theorem hor_cons {S : Type*} [CommSemiring S] (a : ℕ) (l : List ℕ) (x : S) : hor (a :: l) x = a + x * hor l x := rfl

theorem hor_nonneg (l : List ℕ) {x : ℝ} (hx : 0 ≤ x) : 0 ≤ hor l x := by
  induction l with
  | nil => exact le_rfl
  | cons a l ih => rw [hor_cons]; positivity

theorem hor_mono (l : List ℕ) {x y : ℝ} (hx : 0 ≤ x) (hxy : x ≤ y) : hor l x ≤ hor l y := by
  induction l with
  | nil => exact le_rfl
  | cons a l ih =>
    rw [hor_cons, hor_cons]
    exact add_le_add_right (mul_le_mul hxy ih (hor_nonneg l hx) (le_trans hx hxy)) _

theorem hor_range (f : ℕ → ℕ) (n : ℕ) (x : ℝ) : hor ((List.range n).map f) x = ∑ i ∈ Finset.range n, (f i : ℝ) * x ^ i := by
  induction n generalizing f with
  | zero => simp [hor]
  | succ n ih =>
    rw [List.range_succ_eq_map, List.map_cons, List.map_map, hor_cons, ih, Finset.sum_range_succ', Finset.mul_sum, add_comm]
    simp only [Function.comp, pow_zero, mul_one]
    congr 1
    apply Finset.sum_congr rfl
    intro i _
    rw [Nat.succ_eq_add_one, pow_succ]; ring

/-- The formula of the code without rounding: the number whose 16th power is inverted. -/
noncomputable def RR (b : ℝ) : ℝ := (((((11837287 / 2 ^ 38 * b + 9502777 / 2 ^ 35) * b + 10446343 / 2 ^ 36) * b + 9954153 / 2 ^ 30) * b + 11349991 / 2 ^ 28) * b +
  9465447 / 2 ^ 27) * b + 1

theorem hor_rl (b : ℝ) : hor rl (16 * b) = 2 ^ 38 * 16 ^ 6 * RR b := by
  simp only [rl, hor_cons, RR]
  simp only [hor, List.foldr_nil]
  push_cast
  ring

theorem dvd_scale : ∀ m < 45, m.factorial * (2 * m + 1) ∣ scaleT := by decide +kernel

theorem hor_tl (b : ℝ) : 16 * b * hor tlP (16 * b * (16 * b)) - 16 * b * hor tlM (16 * b * (16 * b)) = scaleT * 16 * 256 ^ 44 * intT 45 b := by
  rw [tlP, tlM, hor_range, hor_range, ← mul_sub, ← Finset.sum_sub_distrib, Finset.mul_sum, intT, Finset.mul_sum]
  apply Finset.sum_congr rfl
  intro m hm
  have hm := Finset.mem_range.1 hm
  have hd := dvd_scale m hm
  have hne : ((m.factorial * (2 * m + 1) : ℕ) : ℝ) ≠ 0 := by positivity
  have hc : ((scaleT * 256 ^ (44 - m) / (m.factorial * (2 * m + 1)) : ℕ) : ℝ) = scaleT * 256 ^ (44 - m) / (m.factorial * (2 * m + 1) : ℕ) := by
    rw [Nat.cast_div (Dvd.dvd.mul_right hd _) hne]; push_cast; ring
  have hp : (256 : ℝ) ^ 44 = 256 ^ (44 - m) * 256 ^ m := by rw [← pow_add]; congr 1; omega
  have hx : (16 * b * (16 * b)) ^ m = 256 ^ m * b ^ (2 * m) := by rw [show 16 * b * (16 * b) = 256 * b ^ 2 by ring, mul_pow, ← pow_mul]
  rw [hx, hp]
  rcases Nat.mod_two_eq_zero_or_one m with h | h
  · rw [if_pos h, if_neg (by omega), hc, Even.neg_one_pow (Nat.even_iff.2 h)]
    push_cast
    ring
  · rw [if_neg (by omega), if_pos h, hc, Odd.neg_one_pow (Nat.odd_iff.2 h)]
    push_cast
    ring

theorem RR_ge {b : ℝ} (hb : 0 ≤ b) : 1 ≤ RR b := by
  unfold RR
  have : 0 ≤ (((((11837287 / 2 ^ 38 * b + 9502777 / 2 ^ 35) * b + 10446343 / 2 ^ 36) * b + 9954153 / 2 ^ 30) * b + 11349991 / 2 ^ 28) * b +
    9465447 / 2 ^ 27) * b := by positivity
  linarith

theorem RR_mono {x y : ℝ} (hx : 0 ≤ x) (hxy : x ≤ y) : RR x ≤ RR y := by
  have := hor_mono rl (x := 16 * x) (y := 16 * y) (by linarith) (by linarith)
  rw [hor_rl, hor_rl] at this
  exact le_of_mul_le_mul_left this (by norm_num)

/-- The formula against the Taylor polynomial, on one piece. -/
theorem cell_bound {e j : ℕ} (hc : cell e j = true) {b : ℝ} (hj1 : 2 * (j : ℝ) ≤ 16 * b) (hj2 : 16 * b ≤ 2 * j + 2) :
    |RR b ^ 16 * (1 - 11283791670955126 / 10 ^ 16 * intT 45 b) - 1| ≤ e / 10 ^ 16 * RR b ^ 16 := by
  simp only [cell, Bool.and_eq_true, decide_eq_true_eq] at hc
  obtain ⟨⟨c1, c2⟩, c3⟩ := hc
  have ht : |16 * b - ((2 * j + 1 : ℕ) : ℝ)| ≤ ((1 : ℕ) : ℝ) := by
    rw [abs_le]; push_cast; constructor <;> linarith
  have hB := pack_bound (n := 200) (B := 2 ^ 2200) (w := 1) (c := 2 * j + 1) (Nat.one_le_two_pow) c1 c2 ht
  rw [add_sub_cancel] at hB
  have c4 := le_trans hB (Nat.cast_le.2 c3)
  have hlo : hor rl ((2 * j : ℕ) : ℝ) ≤ hor rl (16 * b) := hor_mono rl (Nat.cast_nonneg _) (by push_cast; exact hj1)
  have hlo0 := hor_nonneg rl (Nat.cast_nonneg (α := ℝ) (2 * j))
  have e1 : ((hor rl (2 * j : ℕ) : ℕ) : ℝ) = hor rl ((2 * j : ℕ) : ℝ) := map_hor (Nat.castRingHom ℝ) rl (2 * j)
  have hs : (0 : ℝ) < scaleT := by norm_num [scaleT]
  generalize hS : (scaleT : ℝ) = S at *
  have e2 : eP (16 * b) - eM (16 * b) = (2 ^ 38 * 16 ^ 6) ^ 16 * (10 ^ 16 * S * 16 * 256 ^ 44) *
      (RR b ^ 16 * (1 - 11283791670955126 / 10 ^ 16 * intT 45 b) - 1) := by
    have ht := hor_tl b
    rw [hS] at ht
    unfold eP eM
    rw [hor_rl]
    push_cast
    rw [hS]
    have : hor tlM (16 * b * (16 * b)) * (16 * b) = 16 * b * hor tlP (16 * b * (16 * b)) - S * 16 * 256 ^ 44 * intT 45 b := by linarith
    rw [mul_comm (16 * b) (hor tlM _), this]
    ring
  rw [e2, abs_mul, abs_of_pos (by positivity)] at c4
  have e3 : ((e * scaleT * 16 * 256 ^ 44 * hor rl (2 * j) ^ 16 : ℕ) : ℝ) ≤ e * S * 16 * 256 ^ 44 * ((2 ^ 38 * 16 ^ 6) ^ 16 * RR b ^ 16) := by
    rw [← mul_pow, ← hor_rl, Nat.cast_mul, Nat.cast_pow, e1]
    have e4 : ((e * scaleT * 16 * 256 ^ 44 : ℕ) : ℝ) = e * S * 16 * 256 ^ 44 := by
      rw [← hS]; simp only [Nat.cast_mul, Nat.cast_pow, Nat.cast_ofNat]
    rw [e4]
    have e5 : (0 : ℝ) ≤ e * S * 16 * 256 ^ 44 :=
      mul_nonneg (mul_nonneg (mul_nonneg (Nat.cast_nonneg e) hs.le) (by norm_num)) (by norm_num)
    exact mul_le_mul_of_nonneg_left (pow_le_pow_left₀ hlo0 hlo 16) e5
  have := le_trans c4 e3
  refine le_of_mul_le_mul_left (le_trans this (le_of_eq ?_)) (show (0 : ℝ) < (2 ^ 38 * 16 ^ 6) ^ 16 * (10 ^ 16 * S * 16 * 256 ^ 44) by positivity)
  ring

/-- The formula against the error function, on the interval and at its end. -/
theorem formula_small {b E : ℝ} (h0 : 0 ≤ b) (h1 : b ≤ 7 / 2) (hf : |RR b ^ 16 * (1 - 11283791670955126 / 10 ^ 16 * intT 45 b) - 1| ≤ E * RR b ^ 16) :
    |1 - 1 / RR b ^ 16 - Erf b| ≤ E + 2 / 10 ^ 8 := by
  have hR : 0 < RR b ^ 16 := pow_pos (lt_of_lt_of_le one_pos (RR_ge h0)) 16
  have e1 : |1 - 11283791670955126 / 10 ^ 16 * intT 45 b - 1 / RR b ^ 16| ≤ E := by
    rw [show 1 - 11283791670955126 / 10 ^ 16 * intT 45 b - 1 / RR b ^ 16 =
      (RR b ^ 16 * (1 - 11283791670955126 / 10 ^ 16 * intT 45 b) - 1) / RR b ^ 16 by rw [sub_div, mul_div_cancel_left₀ _ hR.ne'], abs_div,
      abs_of_pos hR, div_le_iff₀ hR]
    exact hf
  have e2 := int_taylor 45 h0
  have e3 : b ^ (2 * 45 + 1) / (Nat.factorial 45 * (2 * (45 : ℕ) + 1)) ≤ (1 : ℝ) / 10 ^ 8 := by
    have : b ^ (2 * 45 + 1) ≤ (7 / 2) ^ (2 * 45 + 1) := pow_le_pow_left₀ h0 h1 _
    refine le_trans (div_le_div_of_nonneg_right this (by positivity)) ?_
    norm_num [Nat.factorial]
  have e4 := le_trans e2 e3
  obtain ⟨c1, c2⟩ := two_div_sqrt_pi
  have hE0 := Erf_nonneg h0
  have hE1 := Erf_le_one h0
  unfold Erf at *
  generalize 2 / √Real.pi = c at *
  generalize (∫ t in (0 : ℝ)..b, Real.exp (-t ^ 2)) = I at *
  generalize intT 45 b = T at *
  generalize 1 / RR b ^ 16 = v at *
  have hc0 : 1 ≤ c := le_trans (by norm_num) c1
  have hI0 : 0 ≤ I := by
    by_contra hn
    have := mul_neg_of_pos_of_neg (lt_of_lt_of_le one_pos hc0) (not_le.1 hn)
    linarith
  have hI1 : I ≤ 1 := by
    have := mul_le_mul_of_nonneg_right hc0 hI0
    linarith
  have e : 1 - v - c * I = (1 - 11283791670955126 / 10 ^ 16 * T - v) - (c - 11283791670955126 / 10 ^ 16) * I - 11283791670955126 / 10 ^ 16 * (I - T) := by ring
  have b1 : |(c - 11283791670955126 / 10 ^ 16) * I| ≤ 1 / 10 ^ 16 * 1 := by
    rw [abs_mul]
    refine mul_le_mul ?_ (by rw [abs_of_nonneg hI0]; exact hI1) (abs_nonneg _) (by norm_num)
    rw [abs_le]; constructor <;> norm_num at * <;> linarith
  have b2 : |11283791670955126 / 10 ^ 16 * (I - T)| ≤ 11283791670955126 / 10 ^ 16 * (1 / 10 ^ 8) := by
    rw [abs_mul, abs_of_pos (by norm_num)]
    exact mul_le_mul_of_nonneg_left e4 (by norm_num)
  have g0 := abs_le.1 e1
  have g1 := abs_le.1 b1
  have g2 := abs_le.1 b2
  rw [e, abs_le]
  generalize (c - 11283791670955126 / 10 ^ 16) * I = u1 at *
  generalize 11283791670955126 / 10 ^ 16 * (I - T) = u2 at *
  norm_num at *
  constructor <;> linarith

theorem formula_erf {b : ℝ} (h0 : 0 ≤ b) : |1 - 1 / RR b ^ 16 - Erf b| ≤ 1 / 10 ^ 6 := by
  rcases lt_or_ge b (7 / 2) with h1 | h1
  · have := cell_bound (cells ⌊8 * b⌋₊ (by rw [Nat.floor_lt (by linarith)]; push_cast; linarith)) (b := b)
      (by have := Nat.floor_le (show 0 ≤ 8 * b by linarith); linarith) (by have := Nat.lt_floor_add_one (8 * b); linarith)
    refine le_trans (formula_small h0 h1.le this) ?_
    push_cast; norm_num
  · have h7 : (0 : ℝ) ≤ 7 / 2 := by norm_num
    have := cell_bound cell27 (b := 7 / 2) (by norm_num) (by norm_num)
    have hs := abs_le.1 (formula_small h7 le_rfl this)
    have hR7 : (1 : ℝ) / RR (7 / 2) ^ 16 ≤ 78 / 10 ^ 8 := by
      rw [div_le_iff₀ (pow_pos (lt_of_lt_of_le one_pos (RR_ge h7)) 16)]
      norm_num [RR]
    have hR : (1 : ℝ) / RR b ^ 16 ≤ 78 / 10 ^ 8 :=
      le_trans (one_div_le_one_div_of_le (pow_pos (lt_of_lt_of_le one_pos (RR_ge h7)) 16)
        (pow_le_pow_left₀ (le_trans zero_le_one (RR_ge h7)) (RR_mono h7 h1) 16)) hR7
    have hR0 : 0 ≤ 1 / RR b ^ 16 := by
      have := RR_ge h0
      positivity
    have hm := Erf_mono h1
    have hE := Erf_le_one h0
    generalize 1 / RR b ^ 16 = v at *
    generalize 1 / RR (7 / 2) ^ 16 = v7 at *
    rw [abs_le]
    push_cast at hs
    norm_num at *
    constructor <;> linarith

end Nanostl.Math

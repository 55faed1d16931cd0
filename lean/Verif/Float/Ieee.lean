import Mathlib.Order.Monotone.Basic
import Mathlib.Tactic.Ring

/-!
IEEE-754 binary interchange formats, as a specification: what a bit pattern means, how values compare, what rounding to nearest even
is. Patterns are natural numbers below `2^width`. Finite magnitudes are natural numbers in units of the least subnormal value, that is
`2^(1 - bias - mb)`; no rational arithmetic is needed because every finite value is a multiple of it.
-/

namespace Nanostl.Float

/-- A binary format: `mb` fraction bits and `eb` exponent bits. -/
structure Fmt where
  mb : Nat
  eb : Nat

def f32 : Fmt := ⟨23, 8⟩
def f64 : Fmt := ⟨52, 11⟩

namespace Fmt
variable (φ : Fmt)

/-- Number of patterns without sign. -/
def half : Nat := 2 ^ (φ.mb + φ.eb)
def size : Nat := 2 * φ.half
def bias : Nat := 2 ^ (φ.eb - 1) - 1
/-- Exponent field of infinities and NaNs. -/
def emax : Nat := 2 ^ φ.eb - 1

def sign (x : Nat) : Bool := decide (x / φ.half % 2 = 1)
/-- The pattern without sign. -/
def low (x : Nat) : Nat := x % φ.half
def expo (x : Nat) : Nat := φ.low x / 2 ^ φ.mb
def frac (x : Nat) : Nat := φ.low x % 2 ^ φ.mb

/-- Magnitude of the pattern `t` without sign, in units of the least subnormal value; also for exponents beyond the format. -/
def mag (t : Nat) : Nat :=
  if t / 2 ^ φ.mb = 0 then t else (2 ^ φ.mb + t % 2 ^ φ.mb) * 2 ^ (t / 2 ^ φ.mb - 1)

/-- The pattern of infinity. -/
def inf : Nat := φ.emax * 2 ^ φ.mb

end Fmt

/-- What a pattern denotes. `fin` is in units of the least subnormal value. -/
inductive Val
  | nan
  | inf (neg : Bool)
  | fin (v : Int)
deriving DecidableEq

/-- IEEE comparisons: NaN is unordered, both zeros are equal. -/
def Val.lt : Val → Val → Bool
  | .nan, _ => false
  | _, .nan => false
  | .inf a, .inf b => a && !b
  | .inf a, .fin _ => a
  | .fin _, .inf b => !b
  | .fin v, .fin w => decide (v < w)

def Val.eq : Val → Val → Bool
  | .nan, _ => false
  | _, .nan => false
  | v, w => decide (v = w)

/-- Signed magnitude. -/
def signed (neg : Bool) (m : Nat) : Int := if neg then -(m : Int) else m

def Fmt.val (φ : Fmt) (x : Nat) : Val :=
  if φ.expo x = φ.emax then if φ.frac x = 0 then .inf (φ.sign x) else .nan
  else .fin (signed (φ.sign x) (φ.mag (φ.low x)))

/-! ### Rounding to nearest, ties to even

The exact value is the rational `n / d` in the same units. As in the standard, rounding is done as if the exponent were unbounded, and
results at or beyond the pattern of infinity are infinity. -/

/-- Distance of `n/d` from the magnitude of `t`, times `d`. -/
def Fmt.dist (φ : Fmt) (n d t : Nat) : Nat := ((n : Int) - (φ.mag t * d : Nat)).natAbs

/-- `t` is the pattern of the value nearest to `n / d`, the even one if there are two. -/
def Fmt.Nearest (φ : Fmt) (n d t : Nat) : Prop :=
  ∀ t', φ.dist n d t ≤ φ.dist n d t' ∧ (φ.dist n d t = φ.dist n d t' → t' ≠ t → t % 2 = 0)

/-! ### Facts -/

namespace Fmt
variable (φ : Fmt)

theorem mag_succ (t : Nat) : φ.mag t < φ.mag (t + 1) := by
  unfold mag
  have hp : 0 < 2 ^ φ.mb := Nat.two_pow_pos _
  have h1 := Nat.div_add_mod t (2 ^ φ.mb)
  have h2 := Nat.mod_lt t hp
  set e := t / 2 ^ φ.mb with he
  set m := t % 2 ^ φ.mb with hm
  by_cases hc : m + 1 < 2 ^ φ.mb
  · have e1 : (t + 1) / 2 ^ φ.mb = e := by
      rw [show t + 1 = (m + 1) + 2 ^ φ.mb * e by omega, Nat.add_mul_div_left _ _ hp, Nat.div_eq_of_lt hc, Nat.zero_add]
    have m1 : (t + 1) % 2 ^ φ.mb = m + 1 := by
      rw [show t + 1 = (m + 1) + 2 ^ φ.mb * e by omega, Nat.add_mul_mod_self_left, Nat.mod_eq_of_lt hc]
    rw [e1, m1]
    split
    · omega
    · exact Nat.mul_lt_mul_of_pos_right (by omega) (Nat.two_pow_pos _)
  · have hm' : m + 1 = 2 ^ φ.mb := by omega
    have e1 : (t + 1) / 2 ^ φ.mb = e + 1 := by
      rw [show t + 1 = 2 ^ φ.mb * (e + 1) by rw [Nat.mul_add]; omega, Nat.mul_div_cancel_left _ hp]
    have m1 : (t + 1) % 2 ^ φ.mb = 0 := by
      rw [show t + 1 = 2 ^ φ.mb * (e + 1) by rw [Nat.mul_add]; omega, Nat.mul_mod_right]
    rw [e1, m1, if_neg (Nat.succ_ne_zero e), Nat.add_zero, Nat.add_sub_cancel]
    split
    · rename_i h0
      rw [h0] at h1 ⊢
      simp only [Nat.pow_zero, Nat.mul_one, Nat.mul_zero, Nat.zero_add] at h1 ⊢
      omega
    · rename_i h0
      obtain ⟨k, hk⟩ : ∃ k, e = k + 1 := Nat.exists_eq_succ_of_ne_zero h0
      rw [hk, Nat.add_sub_cancel, Nat.pow_succ, Nat.mul_comm (2 ^ k) 2, ← Nat.mul_assoc]
      exact Nat.mul_lt_mul_of_pos_right (by omega) (Nat.two_pow_pos _)

theorem mag_strictMono : StrictMono φ.mag := strictMono_nat_of_lt_succ φ.mag_succ

theorem mag_lt_iff {a b : Nat} : φ.mag a < φ.mag b ↔ a < b := φ.mag_strictMono.lt_iff_lt
theorem mag_le_iff {a b : Nat} : φ.mag a ≤ φ.mag b ↔ a ≤ b := φ.mag_strictMono.le_iff_le
theorem mag_inj {a b : Nat} : φ.mag a = φ.mag b ↔ a = b := φ.mag_strictMono.injective.eq_iff

theorem mag_zero : φ.mag 0 = 0 := by simp [mag]

theorem mag_eq_zero {t : Nat} : φ.mag t = 0 ↔ t = 0 := by
  rw [← φ.mag_zero, φ.mag_inj, φ.mag_zero]

/-- A magnitude built from a significand and a shift. -/
theorem mag_of (m s : Nat) (h1 : m ≤ 2 ^ (φ.mb + 1)) (h2 : s ≠ 0 → 2 ^ φ.mb ≤ m) :
    φ.mag (s * 2 ^ φ.mb + m) = m * 2 ^ s := by
  have hp : 0 < 2 ^ φ.mb := Nat.two_pow_pos _
  rw [Nat.pow_succ] at h1
  unfold mag
  by_cases hlt : m < 2 ^ φ.mb
  · have hs : s = 0 := by
      by_contra h
      exact absurd (h2 h) (by omega)
    subst hs
    simp [Nat.div_eq_of_lt hlt]
  · by_cases hm : m = 2 ^ φ.mb * 2
    · have e1 : (s * 2 ^ φ.mb + m) / 2 ^ φ.mb = s + 2 := by
        rw [hm, show s * 2 ^ φ.mb + 2 ^ φ.mb * 2 = 2 ^ φ.mb * (s + 2) by ring, Nat.mul_div_cancel_left _ hp]
      have m1 : (s * 2 ^ φ.mb + m) % 2 ^ φ.mb = 0 := by
        rw [hm, show s * 2 ^ φ.mb + 2 ^ φ.mb * 2 = 2 ^ φ.mb * (s + 2) by ring, Nat.mul_mod_right]
      rw [e1, m1, if_neg (by omega), hm, show s + 2 - 1 = s + 1 by omega, Nat.pow_succ]
      ring
    · have hd : m - 2 ^ φ.mb < 2 ^ φ.mb := by omega
      have e0 : s * 2 ^ φ.mb + m = (m - 2 ^ φ.mb) + 2 ^ φ.mb * (s + 1) := by
        rw [Nat.mul_add, Nat.mul_comm s]; omega
      have e1 : (s * 2 ^ φ.mb + m) / 2 ^ φ.mb = s + 1 := by
        rw [e0, Nat.add_mul_div_left _ _ hp, Nat.div_eq_of_lt hd, Nat.zero_add]
      have m1 : (s * 2 ^ φ.mb + m) % 2 ^ φ.mb = m - 2 ^ φ.mb := by
        rw [e0, Nat.add_mul_mod_self_left, Nat.mod_eq_of_lt hd]
      rw [e1, m1, if_neg (by omega), Nat.add_sub_cancel]
      congr 1
      omega

theorem low_lt (x : Nat) : φ.low x < φ.half := Nat.mod_lt _ (Nat.two_pow_pos _)

theorem low_eq (x : Nat) : φ.low x = φ.expo x * 2 ^ φ.mb + φ.frac x := by
  rw [expo, frac, Nat.mul_comm]; exact (Nat.div_add_mod ..).symm

theorem frac_lt (x : Nat) : φ.frac x < 2 ^ φ.mb := Nat.mod_lt _ (Nat.two_pow_pos _)

theorem expo_lt (x : Nat) : φ.expo x < 2 ^ φ.eb := by
  unfold expo
  rw [Nat.div_lt_iff_lt_mul (Nat.two_pow_pos _), ← Nat.pow_add, Nat.add_comm]
  exact φ.low_lt x

theorem expo_le (x : Nat) : φ.expo x ≤ φ.emax := by
  have := φ.expo_lt x
  unfold emax
  omega

theorem eq_of_sign_low {x y : Nat} (hx : x < φ.size) (hy : y < φ.size) (hs : φ.sign x = φ.sign y) (hl : φ.low x = φ.low y) : x = y := by
  have hp : 0 < φ.half := Nat.two_pow_pos _
  have a1 := Nat.div_add_mod x φ.half
  have a2 := Nat.div_add_mod y φ.half
  have b1 : x / φ.half < 2 := by rw [Nat.div_lt_iff_lt_mul hp]; exact hx
  have b2 : y / φ.half < 2 := by rw [Nat.div_lt_iff_lt_mul hp]; exact hy
  have hq : x / φ.half = y / φ.half := by
    simp only [sign, decide_eq_decide] at hs
    generalize x / φ.half = a at *
    generalize y / φ.half = b at *
    omega
  rw [← a1, ← a2, hq]
  congr 1

/-- Patterns of equal finite values are equal, or are the two zeros. -/
theorem signed_inj {s t : Bool} {m n : Nat} : signed s m = signed t n ↔ m = n ∧ (s = t ∨ m = 0) := by
  unfold signed
  cases s <;> cases t <;> simp <;> omega

/-- The nearest value is unique. -/
theorem nearest_unique {n d t t' : Nat} (h : φ.Nearest n d t) (h' : φ.Nearest n d t') (hd : 0 < d) : t = t' := by
  by_contra hne
  have e : φ.dist n d t = φ.dist n d t' := Nat.le_antisymm (h t').1 (h' t).1
  have o1 := (h t').2 e (Ne.symm hne)
  have o2 := (h' t).2 e.symm hne
  -- a value strictly between would be nearer
  have key : ∀ a b, φ.Nearest n d a → a < b → φ.dist n d a = φ.dist n d b → a % 2 = 0 → b % 2 = 0 → False := by
    intro a b ha hab hab' e1 e2
    have g := (ha (a + 1)).1
    have l1 := φ.mag_succ a
    have l2 : φ.mag (a + 1) < φ.mag b := φ.mag_lt_iff.2 (by omega)
    have l1' := Nat.mul_lt_mul_of_pos_right l1 hd
    have l2' := Nat.mul_lt_mul_of_pos_right l2 hd
    unfold dist at g hab'
    omega
  rcases Nat.lt_or_gt_of_ne hne with hlt | hlt
  · exact key t t' h hlt e o1 o2
  · exact key t' t h' hlt e.symm o2 o1

end Fmt

end Nanostl.Float

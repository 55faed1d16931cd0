import Verif.Float.Round

/-!
Meaning of the built-in floating-point operations used by the code: IEEE-754 with rounding to nearest even, no extended precision, no
contraction. A NaN result is some pattern with `val = nan`; which one is left open by the standard and here fixed to `φ.qnan`.
-/

namespace Nanostl.Float
namespace Fmt
variable (φ : Fmt)

/-- One, in units of the least subnormal value. -/
def one : Nat := 2 ^ (φ.bias + φ.mb - 1)

def qnan : Nat := φ.inf + 2 ^ (φ.mb - 1)

/-- Put a sign on a pattern without sign. -/
def withSign (neg : Bool) (t : Nat) : Nat := if neg then φ.half + t else t

/-- Round `n / d` units. -/
def round (neg : Bool) (n d : Nat) : Nat := φ.withSign neg (Nat.min (φ.roundMag n d) φ.inf)

/-- `-x`: the sign bit is flipped. -/
def neg (x : Nat) : Nat := φ.withSign (!φ.sign x) (φ.low x)

/-- `x + y`. -/
def add (x y : Nat) : Nat :=
  match φ.val x, φ.val y with
  | .nan, _ => φ.qnan
  | _, .nan => φ.qnan
  | .inf a, .inf b => if a = b then x else φ.qnan
  | .inf _, .fin _ => x
  | .fin _, .inf _ => y
  | .fin v, .fin w =>
    if v + w = 0 then φ.withSign (φ.sign x && φ.sign y) 0 else φ.round (decide (v + w < 0)) (v + w).natAbs 1

/-- `x - y`. -/
def sub (x y : Nat) : Nat := φ.add x (φ.neg y)

/-- `x * y`. -/
def mul (x y : Nat) : Nat :=
  match φ.val x, φ.val y with
  | .nan, _ => φ.qnan
  | _, .nan => φ.qnan
  | .inf _, .fin 0 => φ.qnan
  | .fin 0, .inf _ => φ.qnan
  | .fin v, .fin w => φ.round (φ.sign x != φ.sign y) (v.natAbs * w.natAbs) φ.one
  | _, _ => φ.withSign (φ.sign x != φ.sign y) φ.inf

/-- `x < y`, `x == y`. -/
def lt (x y : Nat) : Bool := (φ.val x).lt (φ.val y)
def eq (x y : Nat) : Bool := (φ.val x).eq (φ.val y)
/-- `x >= y`. -/
def ge (x y : Nat) : Bool := φ.lt y x || φ.eq x y

/-- Conversion from `int`. -/
def ofInt (i : Int) : Nat := φ.round (decide (i < 0)) (i.natAbs * φ.one) 1

/-- Conversion to `int` of 32 bits: truncation; undefined for NaN, infinity and results out of range. -/
def toInt (x : Nat) : Option Int :=
  match φ.val x with
  | .fin v => let i := Int.tdiv v φ.one
    if -2 ^ 31 ≤ i ∧ i < 2 ^ 31 then some i else none
  | _ => none

/-- A decimal literal `digits * 10^(-e)` or `digits * 10^e`, rounded by the compiler. -/
def litNeg (digits e : Nat) : Nat := φ.round false (digits * φ.one) (10 ^ e)
def litPos (digits e : Nat) : Nat := φ.round false (digits * 10 ^ e * φ.one) 1

/-! ### Facts -/

theorem half_pos : 0 < φ.half := Nat.two_pow_pos _

theorem inf_lt_half : φ.inf < φ.half := by
  unfold inf emax half
  rw [Nat.pow_add, Nat.mul_comm]
  exact Nat.mul_lt_mul_of_pos_left (Nat.sub_lt (Nat.two_pow_pos _) (by decide)) (Nat.two_pow_pos _)

theorem sign_withSign {s : Bool} {t : Nat} (h : t < φ.half) : φ.sign (φ.withSign s t) = s := by
  unfold sign withSign
  cases s
  · simp [Nat.div_eq_of_lt h]
  · simp only [if_true]
    rw [Nat.add_div_left _ φ.half_pos, Nat.div_eq_of_lt h]
    rfl

theorem low_withSign {s : Bool} {t : Nat} (h : t < φ.half) : φ.low (φ.withSign s t) = t := by
  unfold low withSign
  cases s
  · simp [Nat.mod_eq_of_lt h]
  · simp [Nat.mod_eq_of_lt h]

theorem withSign_lt {s : Bool} {t : Nat} (h : t < φ.half) : φ.withSign s t < φ.size := by
  unfold withSign size
  split <;> omega

theorem withSign_self {x : Nat} (h : x < φ.size) : φ.withSign (φ.sign x) (φ.low x) = x :=
  φ.eq_of_sign_low (φ.withSign_lt (φ.low_lt x)) h (φ.sign_withSign (φ.low_lt x)) (φ.low_withSign (φ.low_lt x))

/-- Value of a pattern given by sign and low part. -/
theorem val_withSign_fin {s : Bool} {t : Nat} (h : t < φ.inf) : φ.val (φ.withSign s t) = .fin (signed s (φ.mag t)) := by
  have hh := Nat.lt_trans h φ.inf_lt_half
  unfold val expo
  rw [φ.low_withSign hh, φ.sign_withSign hh, if_neg]
  have : t / 2 ^ φ.mb < φ.emax := by
    rw [Nat.div_lt_iff_lt_mul (Nat.two_pow_pos _)]
    exact h
  omega

theorem val_fin_iff {x : Nat} : (∃ v, φ.val x = .fin v) ↔ φ.low x < φ.inf := by
  have hle := φ.expo_le x
  have : φ.low x < φ.inf ↔ φ.expo x < φ.emax := by
    unfold expo inf
    rw [Nat.div_lt_iff_lt_mul (Nat.two_pow_pos _)]
  rw [this]
  unfold val
  split
  · rename_i h
    split <;> simp [h]
  · rename_i h
    simp only [Val.fin.injEq, exists_eq', true_iff]
    omega

theorem val_of_low_lt {x : Nat} (h : φ.low x < φ.inf) : φ.val x = .fin (signed (φ.sign x) (φ.mag (φ.low x))) := by
  unfold val
  rw [if_neg]
  have : φ.expo x < φ.emax := by
    unfold expo
    rw [Nat.div_lt_iff_lt_mul (Nat.two_pow_pos _)]
    exact h
  omega

theorem val_eq_fin {x : Nat} {v : Int} (h : φ.val x = .fin v) : φ.low x < φ.inf ∧ v = signed (φ.sign x) (φ.mag (φ.low x)) := by
  have h1 := φ.val_fin_iff.1 ⟨v, h⟩
  refine ⟨h1, ?_⟩
  rw [φ.val_of_low_lt h1] at h
  exact (Val.fin.inj h).symm

theorem natAbs_signed {s : Bool} {m : Nat} : (signed s m).natAbs = m := by
  unfold signed; cases s <;> simp

/-- Rounding a representable magnitude is exact. -/
theorem round_exact (hmb : 1 ≤ φ.mb) {s : Bool} {n d t : Nat} (hd : 0 < d) (h : n = φ.mag t * d) (ht : t < φ.inf) :
    φ.round s n d = φ.withSign s t := by
  unfold round
  rw [(φ.nearest_iff hmb hd).1 (φ.nearest_exact hd h)]
  congr 1
  exact Nat.min_eq_left (Nat.le_of_lt ht)

/-- Every number with few enough significant bits is a magnitude. -/
theorem exists_mag {m s : Nat} (h : m < 2 ^ (φ.mb + 1)) : ∃ t, φ.mag t = m * 2 ^ s := by
  by_cases h0 : m = 0
  · exact ⟨0, by simp [mag_zero, h0]⟩
  induction s generalizing m with
  | zero => exact ⟨0 * 2 ^ φ.mb + m, φ.mag_of m 0 (by omega) (fun h => absurd rfl h)⟩
  | succ s ih =>
    by_cases hm : m < 2 ^ φ.mb
    · obtain ⟨t, ht⟩ := ih (m := 2 * m) (by rw [Nat.pow_succ]; omega) (by omega)
      exact ⟨t, by rw [ht, Nat.pow_succ]; ring⟩
    · exact ⟨(s + 1) * 2 ^ φ.mb + m, φ.mag_of m (s + 1) (by omega) (fun _ => by omega)⟩

end Fmt
end Nanostl.Float

namespace Nanostl.Float
namespace Fmt
variable (φ : Fmt)

/-- What the proofs need of a format; true of float and double. -/
structure Good : Prop where
  mb : 1 ≤ φ.mb
  eb : 2 ≤ φ.eb
  le : φ.mb ≤ φ.bias

theorem good32 : f32.Good := ⟨by decide, by decide, by decide⟩
theorem good64 : f64.Good := ⟨by decide, by decide, by decide⟩

variable {φ}

theorem Good.emax (g : φ.Good) : φ.emax = 2 * φ.bias + 1 := by
  obtain ⟨k, hk⟩ : ∃ k, φ.eb = k + 1 := ⟨φ.eb - 1, by have := g.eb; omega⟩
  unfold Fmt.emax bias
  rw [hk, Nat.add_sub_cancel, Nat.pow_succ]
  have := Nat.two_pow_pos k
  omega

/-- Magnitude of the pattern of infinity. -/
theorem Good.mag_inf (g : φ.Good) : φ.mag φ.inf = 2 ^ φ.mb * 2 ^ (2 * φ.bias) := by
  have h := φ.mag_of (2 ^ φ.mb) (φ.emax - 1) (by rw [Nat.pow_succ]; omega) (fun _ => Nat.le_refl _)
  have e : (φ.emax - 1) * 2 ^ φ.mb + 2 ^ φ.mb = φ.inf := by
    rw [← Nat.succ_mul, inf, g.emax]; rfl
  rw [e] at h
  rw [h, g.emax, Nat.add_sub_cancel]

/-- Numbers with few significant bits and below infinity have a pattern. -/
theorem Good.exists_pattern (g : φ.Good) {m s : Nat} (h : m ≤ 2 ^ (φ.mb + 1)) (hlt : m * 2 ^ s < 2 ^ φ.mb * 2 ^ (2 * φ.bias)) :
    ∃ t, t < φ.inf ∧ φ.mag t = m * 2 ^ s := by
  have : ∃ t, φ.mag t = m * 2 ^ s := by
    rcases Nat.lt_or_ge m (2 ^ (φ.mb + 1)) with h1 | h1
    · exact φ.exists_mag h1
    · have hm : m = 2 ^ (φ.mb + 1) := by omega
      exact ⟨_, φ.mag_of m s h (fun _ => by rw [hm, Nat.pow_succ]; omega)⟩
  obtain ⟨t, ht⟩ := this
  refine ⟨t, ?_, ht⟩
  rw [← φ.mag_lt_iff, g.mag_inf, ht]
  exact hlt

theorem Good.val_round (g : φ.Good) {s : Bool} {n d t : Nat} (hd : 0 < d) (h : n = φ.mag t * d) (ht : t < φ.inf) :
    φ.val (φ.round s n d) = .fin (signed s (φ.mag t)) := by
  rw [φ.round_exact g.mb hd h ht, φ.val_withSign_fin ht]

theorem signed_neg_decide (v : Int) : signed (decide (v < 0)) v.natAbs = v := by
  unfold signed
  split <;> rename_i h <;> simp only [decide_eq_true_eq] at h <;> omega

/-- Sums that are representable are exact. -/
theorem Good.val_add (g : φ.Good) {x y t : Nat} {v w : Int} (hx : φ.val x = .fin v) (hy : φ.val y = .fin w) (ht : t < φ.inf)
    (hm : φ.mag t = (v + w).natAbs) : φ.val (φ.add x y) = .fin (v + w) := by
  unfold add
  simp only [hx, hy]
  split
  · rename_i h0
    have h0' : (0 : Nat) < φ.inf := by
      unfold inf; rw [g.emax]; exact Nat.mul_pos (by omega) (Nat.two_pow_pos _)
    rw [φ.val_withSign_fin h0', φ.mag_zero, h0]
    cases (φ.sign x && φ.sign y) <;> rfl
  · rw [g.val_round (t := t) (by decide) (by rw [hm, Nat.mul_one]) ht, hm, signed_neg_decide]

theorem Good.val_neg {x : Nat} {v : Int} (hx : φ.val x = .fin v) : φ.val (φ.neg x) = .fin (-v) := by
  obtain ⟨h1, h2⟩ := φ.val_eq_fin hx
  unfold neg
  rw [φ.val_withSign_fin h1, h2]
  unfold signed
  cases φ.sign x <;> simp

/-- Integers that are representable are converted exactly. -/
theorem Good.val_ofInt (g : φ.Good) {i : Int} {t : Nat} (ht : t < φ.inf) (hm : φ.mag t = i.natAbs * φ.one) :
    φ.val (φ.ofInt i) = .fin (i * φ.one) := by
  unfold ofInt
  rw [g.val_round (t := t) (by decide) (by rw [hm, Nat.mul_one]) ht, hm]
  congr 1
  unfold signed
  split <;> rename_i h <;> simp only [decide_eq_true_eq] at h
  · rw [Int.natCast_mul, ← Int.neg_mul, show (-(i.natAbs : Int)) = i by omega]
  · rw [Int.natCast_mul, show (i.natAbs : Int) = i by omega]

end Fmt
end Nanostl.Float

import Verif.Math.Lemmas

/-! Property theorems C39 to C42. -/

namespace Nanostl.Math
open Nanostl.Float

/-! ### C39: classification -/

/-- C39. For every float pattern the predicates agree with what the pattern denotes; normal means magnitude at least `2^23` units. -/
theorem c39_float (x : Nat) :
    (isnan32 x = true ↔ f32.val x = .nan) ∧
    (isinf32 x = true ↔ ∃ s, f32.val x = .inf s) ∧
    (isfinite32 x = true ↔ ∃ v, f32.val x = .fin v) ∧
    (isZero32 x = true ↔ f32.val x = .fin 0) ∧
    (isSubnormal32 x = true ↔ ∃ v, f32.val x = .fin v ∧ v ≠ 0 ∧ v.natAbs < 2 ^ 23) ∧
    (isnormal32 x = true ↔ ∃ v, f32.val x = .fin v ∧ 2 ^ 23 ≤ v.natAbs) := by
  obtain ⟨h1, h2, h3, h4, h5, h6⟩ := classify Fmt.good32 x
  have he : f32.emax = 255 := rfl
  have hm : f32.mb = 23 := rfl
  rw [he] at h1 h2 h3 h6
  rw [hm] at h5 h6
  rw [h1, h2, h3, h4, h5, h6]
  simp [isnan32, isinf32, isfinite32, isZero32, isSubnormal32, isnormal32, mantissa32_eq, exponent32_eq, and_comm]

/-- C39 for double. -/
theorem c39_double (x : Nat) :
    (isnan64 x = true ↔ f64.val x = .nan) ∧
    (isinf64 x = true ↔ ∃ s, f64.val x = .inf s) ∧
    (isfinite64 x = true ↔ ∃ v, f64.val x = .fin v) ∧
    (isZero64 x = true ↔ f64.val x = .fin 0) ∧
    (isSubnormal64 x = true ↔ ∃ v, f64.val x = .fin v ∧ v ≠ 0 ∧ v.natAbs < 2 ^ 52) ∧
    (isnormal64 x = true ↔ ∃ v, f64.val x = .fin v ∧ 2 ^ 52 ≤ v.natAbs) := by
  obtain ⟨h1, h2, h3, h4, h5, h6⟩ := classify Fmt.good64 x
  have he : f64.emax = 2047 := rfl
  have hm : f64.mb = 52 := rfl
  rw [he] at h1 h2 h3 h6
  rw [hm] at h5 h6
  rw [h1, h2, h3, h4, h5, h6]
  simp [isnan64, isinf64, isfinite64, isZero64, isSubnormal64, isnormal64, mantissa64_eq, exponent64_eq, and_comm]

/-- C39. Every pattern is in exactly one of the five classes. -/
theorem c39_partition (x : Nat) :
    [isnan32 x, isinf32 x, isZero32 x, isSubnormal32 x, isnormal32 x].count true = 1 ∧
    [isnan64 x, isinf64 x, isZero64 x, isSubnormal64 x, isnormal64 x].count true = 1 := by
  constructor
  · simp only [isnan32, isinf32, isZero32, isSubnormal32, isnormal32]
    have h : ¬((exponent32 x == 0) = true ∧ (exponent32 x == 255) = true) := by simp; omega
    simp only [bne]
    generalize (mantissa32 x == 0) = a, (exponent32 x == 0) = b, (exponent32 x == 255) = c at h ⊢
    revert a b c
    decide
  · simp only [isnan64, isinf64, isZero64, isSubnormal64, isnormal64]
    have h : ¬((exponent64 x == 0) = true ∧ (exponent64 x == 2047) = true) := by simp; omega
    simp only [bne]
    generalize (mantissa64 x == 0) = a, (exponent64 x == 0) = b, (exponent64 x == 2047) = c at h ⊢
    revert a b c
    decide

/-- Values in the classes. -/
example : isnan32 0xffc00001 = true ∧ isinf32 0xff800000 = true ∧ isZero32 0x80000000 = true ∧ isSubnormal32 0x007fffff = true ∧
  isnormal32 0x00800000 = true ∧ isnormal64 0x7fefffffffffffff = true := by decide

/-! ### C40: copysign, fabs -/

/-- C40. The result has the pattern of `x` but for the sign, which is that of `y`; all patterns. -/
theorem c40_copysign (x y : Nat) (hy : y < 2 ^ 32) :
    copysign x y < 2 ^ 32 ∧ f32.low (copysign x y) = f32.low x ∧ f32.sign (copysign x y) = f32.sign y := by
  have hx : x &&& 0x7fffffff = x % 2 ^ 31 := Nat.and_two_pow_sub_one_eq_mod x 31
  have hys : y &&& 0x80000000 = (y / 2 ^ 31) * 2 ^ 31 := by
    have hd : y / 2 ^ 31 = 0 ∨ y / 2 ^ 31 = 1 := by omega
    apply Nat.eq_of_testBit_eq
    intro i
    rw [Nat.testBit_and, show 0x80000000 = 2 ^ 31 from rfl, Nat.testBit_two_pow]
    by_cases hi : i = 31
    · subst hi
      rcases hd with hd | hd <;> simp [Nat.testBit_eq_decide_div_mod_eq]
    · rw [decide_eq_false (fun h => hi h.symm), Bool.and_false]
      rcases hd with hd | hd <;> rw [hd]
      · simp
      · rw [Nat.one_mul, Nat.testBit_two_pow, decide_eq_false (fun h => hi h.symm)]
  have hc : copysign x y = y / 2 ^ 31 * 2 ^ 31 + x % 2 ^ 31 := by
    unfold copysign
    rw [hx, hys, Nat.mul_comm, Nat.two_pow_add_eq_or_of_lt (Nat.mod_lt _ (by decide))]
  have hh : f32.half = 2 ^ 31 := rfl
  have hd : y / 2 ^ 31 < 2 := by omega
  rw [hc]
  unfold Fmt.low Fmt.sign
  rw [hh]
  refine ⟨by omega, by omega, ?_⟩
  simp only [decide_eq_decide]
  omega

example : copysign 0x3f800000 0x80000000 = 0xbf800000 ∧ copysign 0xffc00000 0x00000001 = 0x7fc00000 := by decide

/-- C40, part: `fabs` keeps the magnitude, and its result is not negative, for every finite value and for infinities; NaN patterns are
returned unchanged. What is missing: the sign of `-0.0` is kept, see `c40_fabs_false`. -/
theorem c40_fabs_partial {φ : Fmt} (g : φ.Good) (x : Nat) :
    (∀ v, φ.val x = .fin v → φ.val (fabs φ x) = .fin v.natAbs ∧ φ.low (fabs φ x) = φ.low x ∧ (v ≠ 0 → φ.sign (fabs φ x) = false)) ∧
    (∀ s, φ.val x = .inf s → φ.val (fabs φ x) = .inf false) ∧
    (φ.val x = .nan → fabs φ x = x) := by
  refine ⟨fun v h => ⟨val_fabs g h, ?_, ?_⟩, ?_, ?_⟩
  · unfold fabs
    split
    · exact φ.low_withSign (φ.low_lt x)
    · rfl
  · intro h0
    obtain ⟨h1, h2⟩ := φ.val_eq_fin h
    have hlt := lt_fin h (val_zero g)
    unfold fabs
    split
    · rename_i hneg
      rw [hlt] at hneg
      rw [Fmt.neg, φ.sign_withSign (φ.low_lt x)]
      cases hs : φ.sign x
      · rw [hs] at h2
        simp only [signed, Bool.false_eq_true, if_false] at h2
        omega
      · rfl
    · rename_i hneg
      rw [hlt] at hneg
      cases hs : φ.sign x
      · rfl
      · rw [hs] at h2
        simp only [signed, if_true] at h2
        omega
  · intro s h
    have key : ∀ y, φ.val y = .inf (φ.sign y) ↔ φ.expo y = φ.emax ∧ φ.frac y = 0 := by
      intro y
      unfold Fmt.val
      by_cases a : φ.expo y = φ.emax <;> by_cases b : φ.frac y = 0 <;> simp [a, b]
    have hx : φ.expo x = φ.emax ∧ φ.frac x = 0 := ((classify g x).2.1).1 ⟨s, h⟩
    have hs : s = φ.sign x := by
      have h2 := (key x).2 hx
      rw [h] at h2
      exact Val.inf.inj h2
    unfold fabs Fmt.lt
    rw [h, val_zero g]
    simp only [Val.lt]
    cases hs' : s
    · rw [hs'] at h
      simp [h]
    · have hl : φ.low (φ.neg x) = φ.low x := φ.low_withSign (φ.low_lt x)
      have hsn : φ.sign (φ.neg x) = false := by
        rw [Fmt.neg, φ.sign_withSign (φ.low_lt x), ← hs, hs']; rfl
      have := (key (φ.neg x)).2 (by unfold Fmt.expo Fmt.frac; rw [hl]; exact hx)
      rw [hsn] at this
      simp [this]
  · intro h
    unfold fabs Fmt.lt
    rw [h]
    simp [Val.lt]

example : f32.val 0xc0490fdb = .fin (-(0x490fdb + 0x800000) * 2 ^ 127 : Int) ∧ fabs f32 0xc0490fdb = 0x40490fdb := by decide +kernel

/-- C40 fails for negative zero: `fabs(-0.0)` is `-0.0`, sign bit set. -/
theorem c40_fabs_false : fabs f32 0x80000000 = 0x80000000 ∧ f32.sign (fabs f32 0x80000000) = true ∧
    fabs f64 0x8000000000000000 = 0x8000000000000000 := by decide

/-! ### C41: fmin, fmax -/

/-- What `fmin` and `fmax` are to return. `le` is the IEEE order on values that are not NaN. -/
def Val.le (a b : Val) : Bool := a.lt b || a.eq b

theorem val_le_of_not_lt {a b : Val} (ha : a ≠ .nan) (hb : b ≠ .nan) (h : a.lt b = false) : Val.le b a = true := by
  cases a <;> cases b <;> simp_all [Val.lt, Val.le, Val.eq]
  · rename_i x y; cases x <;> cases y <;> simp_all
  · omega

theorem val_le_refl {a : Val} (ha : a ≠ .nan) : Val.le a a = true := by
  cases a <;> simp_all [Val.lt, Val.le, Val.eq]

theorem c41_aux {φ : Fmt} {isnan : Nat → Bool} (hn : ∀ x, isnan x = true ↔ φ.val x = .nan) (x y : Nat) :
    (φ.val x ≠ .nan → φ.val y ≠ .nan →
      (fmin φ isnan x y = x ∨ fmin φ isnan x y = y) ∧ (fmax φ isnan x y = x ∨ fmax φ isnan x y = y) ∧
      Val.le (φ.val (fmin φ isnan x y)) (φ.val x) = true ∧ Val.le (φ.val (fmin φ isnan x y)) (φ.val y) = true ∧
      Val.le (φ.val x) (φ.val (fmax φ isnan x y)) = true ∧ Val.le (φ.val y) (φ.val (fmax φ isnan x y)) = true) ∧
    (φ.val x = .nan → φ.val y ≠ .nan → fmin φ isnan x y = y ∧ fmax φ isnan x y = y) ∧
    (φ.val x ≠ .nan → φ.val y = .nan → fmin φ isnan x y = x ∧ fmax φ isnan x y = x) ∧
    (φ.val x = .nan → φ.val y = .nan → φ.val (fmin φ isnan x y) = .nan ∧ φ.val (fmax φ isnan x y) = .nan) := by
  have nf : ∀ x, φ.val x ≠ .nan → isnan x = false := fun x h => by
    cases hx : isnan x
    · rfl
    · exact absurd ((hn x).1 hx) h
  refine ⟨fun hx hy => ?_, fun hx hy => ?_, fun hx hy => ?_, fun hx hy => ?_⟩
  · have e1 : fmin φ isnan x y = if φ.lt x y then x else y := by simp [fmin, nf x hx, nf y hy]
    have e2 : fmax φ isnan x y = if φ.lt y x then x else y := by simp [fmax, nf x hx, nf y hy]
    have r1 := val_le_refl hx
    have r2 := val_le_refl hy
    rw [e1, e2]
    unfold Fmt.lt
    refine ⟨by split <;> simp, by split <;> simp, ?_, ?_, ?_, ?_⟩ <;> split <;> rename_i h <;> first
      | exact r1
      | exact r2
      | exact val_le_of_not_lt hx hy (by simpa using h)
      | exact val_le_of_not_lt hy hx (by simpa using h)
      | (unfold Val.le; rw [h]; rfl)
  · simp [fmin, fmax, (hn x).2 hx, nf y hy]
  · simp [fmin, fmax, (hn y).2 hy, nf x hx]
  · simp [fmin, fmax, (hn x).2 hx, (hn y).2 hy, hx]

/-- C41 for float: for all pairs of patterns. -/
theorem c41_float (x y : Nat) :
    (f32.val x ≠ .nan → f32.val y ≠ .nan →
      (fmin f32 isnan32 x y = x ∨ fmin f32 isnan32 x y = y) ∧ (fmax f32 isnan32 x y = x ∨ fmax f32 isnan32 x y = y) ∧
      Val.le (f32.val (fmin f32 isnan32 x y)) (f32.val x) = true ∧ Val.le (f32.val (fmin f32 isnan32 x y)) (f32.val y) = true ∧
      Val.le (f32.val x) (f32.val (fmax f32 isnan32 x y)) = true ∧ Val.le (f32.val y) (f32.val (fmax f32 isnan32 x y)) = true) ∧
    (f32.val x = .nan → f32.val y ≠ .nan → fmin f32 isnan32 x y = y ∧ fmax f32 isnan32 x y = y) ∧
    (f32.val x ≠ .nan → f32.val y = .nan → fmin f32 isnan32 x y = x ∧ fmax f32 isnan32 x y = x) ∧
    (f32.val x = .nan → f32.val y = .nan → f32.val (fmin f32 isnan32 x y) = .nan ∧ f32.val (fmax f32 isnan32 x y) = .nan) :=
  c41_aux (fun x => (c39_float x).1) x y

/-- C41 for double. -/
theorem c41_double (x y : Nat) :
    (f64.val x ≠ .nan → f64.val y ≠ .nan →
      (fmin f64 isnan64 x y = x ∨ fmin f64 isnan64 x y = y) ∧ (fmax f64 isnan64 x y = x ∨ fmax f64 isnan64 x y = y) ∧
      Val.le (f64.val (fmin f64 isnan64 x y)) (f64.val x) = true ∧ Val.le (f64.val (fmin f64 isnan64 x y)) (f64.val y) = true ∧
      Val.le (f64.val x) (f64.val (fmax f64 isnan64 x y)) = true ∧ Val.le (f64.val y) (f64.val (fmax f64 isnan64 x y)) = true) ∧
    (f64.val x = .nan → f64.val y ≠ .nan → fmin f64 isnan64 x y = y ∧ fmax f64 isnan64 x y = y) ∧
    (f64.val x ≠ .nan → f64.val y = .nan → fmin f64 isnan64 x y = x ∧ fmax f64 isnan64 x y = x) ∧
    (f64.val x = .nan → f64.val y = .nan → f64.val (fmin f64 isnan64 x y) = .nan ∧ f64.val (fmax f64 isnan64 x y) = .nan) :=
  c41_aux (fun x => (c39_double x).1) x y

example : f32.val 0xbf800000 ≠ .nan ∧ f32.val 0x7f800000 ≠ .nan ∧ fmin f32 isnan32 0x7f800000 0xbf800000 = 0xbf800000 ∧
    f32.val 0x7fc00000 = .nan ∧ fmax f32 isnan32 0x7fc00000 0xbf800000 = 0xbf800000 := by decide +kernel

end Nanostl.Math

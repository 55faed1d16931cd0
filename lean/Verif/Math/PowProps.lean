import Verif.Math.Exp2
import Verif.Math.FloorProps

/-!
C43: the sign of `pow(x, y)` for negative `x`. The statement holds when the shift `j << 31` is defined (C++20) and neither argument is below
`epsilon` in magnitude; otherwise it is false in the ways shown at the end.
-/

namespace Nanostl.Math
open Nanostl.Float

/-! ### Specification -/

/-- The value is an odd, an even integer, a number that is not an integer. -/
def IsOdd (y : Nat) : Prop := ∃ k : ℤ, f32.val y = .fin ((2 * k + 1) * f32.one)
def IsEven (y : Nat) : Prop := ∃ k : ℤ, f32.val y = .fin (2 * k * f32.one)
def NonInt (y : Nat) : Prop := ∃ v : ℤ, f32.val y = .fin v ∧ ¬(f32.one : ℤ) ∣ v
/-- Below 2^-23 in magnitude. -/
def Small (x : Nat) : Prop := ∃ v : ℤ, f32.val x = .fin v ∧ v.natAbs < 2 ^ 126

/-! ### Lemmas -/

theorem oneN : f32.one = 2 ^ 149 := by decide +kernel

theorem lt_eps {x : Nat} : f32.lt (fabs f32 x) epsilon32 = true ↔ Small x := by
  have he := epsilon_val.1
  have hb : f32.bias - 1 = 126 := by decide
  rw [hb] at he
  cases hv : f32.val x with
  | fin v =>
    have h := lt_fin (val_fabs Fmt.good32 hv) he
    rw [h]
    constructor
    · intro h; exact ⟨v, hv, by exact_mod_cast h⟩
    · rintro ⟨w, hw, h⟩
      rw [hv] at hw
      cases hw
      exact_mod_cast h
  | inf s =>
    constructor
    · intro h
      exfalso
      have h0 := val_zero Fmt.good32
      have : f32.val (fabs f32 x) = .inf false := by
        unfold fabs
        cases s with
        | true =>
          have hl : f32.lt x zero = true := by unfold Fmt.lt; rw [hv, h0]; rfl
          rw [if_pos hl]
          unfold Fmt.neg
          have hc := (classify Fmt.good32 x).2.1.1 ⟨_, hv⟩
          have hs : f32.sign x = true := by
            unfold Fmt.val at hv
            rw [if_pos hc.1, if_pos hc.2] at hv
            simpa using hv
          have hlow : f32.low x = f32.inf := by
            have := f32.low_eq x
            rw [hc.1, hc.2] at this
            exact this
          rw [hs, hlow]
          decide +kernel
        | false =>
          have hl : ¬f32.lt x zero = true := by unfold Fmt.lt; rw [hv, h0]; simp [Val.lt]
          rw [if_neg hl, hv]
      unfold Fmt.lt at h
      rw [this, he] at h
      simp [Val.lt] at h
    · rintro ⟨w, hw, h⟩
      rw [hv] at hw; cases hw
  | nan =>
    constructor
    · intro h
      exfalso
      have hl : ¬f32.lt x zero = true := by unfold Fmt.lt; rw [hv]; simp [Val.lt]
      unfold fabs at h
      rw [if_neg hl] at h
      unfold Fmt.lt at h
      rw [hv] at h
      simp [Val.lt] at h
    · rintro ⟨w, hw, h⟩
      rw [hv] at hw; cases hw

/-- What `powSign` computes, in terms of the value of `y`. -/
theorem powSign_spec {y : Nat} {v : ℤ} (h : f32.val y = .fin v) (c : Bool) :
    (¬f32.one ∣ v.natAbs → powSign c y = some none) ∧
    (f32.one ∣ v.natAbs → v ≠ 0 → v.natAbs / f32.one % 2 = 1 → v.natAbs < 2 ^ 24 * f32.one ∧
      powSign c y = if c then some (some (0x3f800000 + 2 ^ 31)) else none) ∧
    (f32.one ∣ v.natAbs → v ≠ 0 → v.natAbs / f32.one % 2 = 0 →
      powSign c y = if c || decide (2 ^ 24 * f32.one ≤ v.natAbs) then some (some one32) else none) := by
  obtain ⟨hlt, hv⟩ := f32.val_eq_fin h
  have hva : v.natAbs = f32.mag (f32.low y) := by rw [hv, Fmt.natAbs_signed]
  have hv0 : v ≠ 0 ↔ v.natAbs ≠ 0 := by omega
  rw [hv0, hva]
  clear hva hv hv0 h
  have hlow : y &&& 0x7fffffff = f32.low y := by
    rw [show (0x7fffffff : Nat) = 2 ^ 31 - 1 from rfl, Nat.and_two_pow_sub_one_eq_mod]; rfl
  unfold powSign
  rw [hlow]
  clear hlow
  generalize f32.low y = l at *
  rw [inf32] at hlt
  have m1 : f32.mag 0x3f800000 = f32.one := by decide +kernel
  have m2 : f32.mag 0x4b800000 = 2 ^ 24 * f32.one := by decide +kernel
  have c1 : f32.mag l < f32.one ↔ l < 0x3f800000 := by rw [← m1]; exact f32.mag_lt_iff
  have c2 : 2 ^ 24 * f32.one ≤ f32.mag l ↔ 0x4b800000 ≤ l := by rw [← m2]; exact f32.mag_le_iff
  have hop : 0 < f32.one := Nat.two_pow_pos _
  simp only
  by_cases hbig : l ≥ 0x4b800000
  · have hdiv : f32.one * 2 ∣ f32.mag l := by
      unfold Fmt.mag
      rw [if_neg (by show ¬l / 2 ^ 23 = 0; omega), oneN, show (2 : Nat) ^ 149 * 2 = 2 ^ 150 by rfl]
      exact Dvd.dvd.mul_left (pow_dvd_pow _ (by show 150 ≤ l / 2 ^ 23 - 1; omega)) _
    obtain ⟨q, hq⟩ := hdiv
    have h2 : f32.mag l / f32.one % 2 = 0 := by
      rw [hq, Nat.mul_assoc, Nat.mul_div_cancel_left _ hop]; omega
    rw [if_pos hbig]
    refine ⟨fun hn => absurd ⟨2 * q, by rw [hq]; ring⟩ hn, fun _ _ h => by omega, fun _ _ _ => ?_⟩
    rw [show decide (2 ^ 24 * f32.one ≤ f32.mag l) = true from decide_eq_true (c2.2 hbig), Bool.or_true, if_pos rfl]
  · rw [if_neg hbig]
    have hnb : ¬2 ^ 24 * f32.one ≤ f32.mag l := fun h => hbig (c2.1 h)
    rw [show decide (2 ^ 24 * f32.one ≤ f32.mag l) = false from decide_eq_false hnb, Bool.or_false]
    by_cases hsm : l ≥ 0x3f800000
    · rw [if_pos hsm, Nat.shiftRight_eq_div_pow l 23]
      obtain ⟨k, hk⟩ : ∃ k, l / 2 ^ 23 = 127 + k := ⟨l / 2 ^ 23 - 127, by omega⟩
      have hk23 : k ≤ 23 := by omega
      rw [hk, Nat.add_sub_cancel_left, Nat.shiftRight_eq_div_pow, Nat.shiftLeft_eq]
      have hmag : f32.mag l = (2 ^ 23 + l % 2 ^ 23) * 2 ^ (126 + k) := by
        unfold Fmt.mag
        rw [if_neg (by show ¬l / 2 ^ 23 = 0; omega)]
        show (2 ^ 23 + l % 2 ^ 23) * 2 ^ (l / 2 ^ 23 - 1) = _
        rw [hk]
        congr 2
        omega
      have hone : f32.one = 2 ^ (23 - k) * 2 ^ (126 + k) := by
        rw [← pow_add, oneN]; congr 1; omega
      have hl : l = (127 + k) * 2 ^ 23 + l % 2 ^ 23 := by omega
      have h23 : 2 ^ 23 = 2 ^ (23 - k) * 2 ^ k := by rw [← pow_add]; congr 1; omega
      have hdp : 0 < 2 ^ (23 - k) := Nat.two_pow_pos _
      have hpp : 0 < 2 ^ (126 + k) := Nat.two_pow_pos _
      generalize hf : l % 2 ^ 23 = f at *
      have hd1 : f32.one ∣ f32.mag l ↔ 2 ^ (23 - k) ∣ f := by
        rw [hone, hmag, Nat.mul_dvd_mul_iff_right hpp, h23]
        exact (Nat.dvd_add_right (Dvd.intro _ rfl))
      have hd2 : 2 ^ (23 - k) ∣ l ↔ 2 ^ (23 - k) ∣ f := by
        rw [hl]
        exact Nat.dvd_add_right (Dvd.dvd.mul_left (by rw [h23]; exact Dvd.intro _ rfl) _)
      have hq1 : f32.mag l / f32.one = 2 ^ k + f / 2 ^ (23 - k) := by
        rw [hone, hmag, Nat.mul_div_mul_right _ _ hpp, h23, Nat.mul_add_div hdp]
      have hq2 : l / 2 ^ (23 - k) = (127 + k) * 2 ^ k + f / 2 ^ (23 - k) := by
        conv_lhs => rw [hl, h23, ← Nat.mul_assoc, Nat.mul_comm (127 + k), Nat.mul_assoc, Nat.mul_add_div hdp]
      have hpar : l / 2 ^ (23 - k) % 2 = f32.mag l / f32.one % 2 := by
        rw [hq1, hq2]
        have : 2 ∣ (126 + k) * 2 ^ k := by
          rcases Nat.eq_zero_or_pos k with rfl | hk0
          · exact ⟨63, rfl⟩
          · exact Dvd.dvd.mul_left (dvd_pow_self 2 (by omega)) _
        obtain ⟨w, hw⟩ := this
        have : (127 + k) * 2 ^ k = 2 * w + 2 ^ k := by rw [← hw]; ring
        rw [this]
        omega
      have hbig2 : ¬l / 2 ^ (23 - k) ≤ 1 := by
        rw [hq2]
        have : 1 ≤ 2 ^ k := Nat.one_le_two_pow
        have : 127 * 1 ≤ (127 + k) * 2 ^ k := Nat.mul_le_mul (by omega) this
        exact fun h => absurd (le_trans this (le_trans (Nat.le_add_right _ _) h)) (by norm_num)
      have heq : (l / 2 ^ (23 - k) * 2 ^ (23 - k) == l) = true ↔ 2 ^ (23 - k) ∣ f := by
        rw [beq_iff_eq, ← hd2]
        exact ⟨fun h => ⟨_, by rw [Nat.mul_comm]; exact h.symm⟩, fun h => Nat.div_mul_cancel h⟩
      rw [hd1, ← heq, ← hpar]
      generalize l / 2 ^ (23 - k) = j at *
      rw [show decide (j ≤ 1) = false from decide_eq_false hbig2, Bool.or_false]
      have hsh : (j <<< 31) % 2 ^ 32 = 2 ^ 31 * (j % 2) := by
        rw [Nat.shiftLeft_eq]; omega
      rw [hsh]
      refine ⟨fun h => by rw [if_neg h], fun h _ hj => ⟨by omega, ?_⟩, fun h _ hj => ?_⟩
      · rw [if_pos h, hj]; rfl
      · rw [if_pos h, hj]; rfl
    · rw [if_neg hsm]
      have hlt1 : f32.mag l < f32.one := c1.2 (by omega)
      refine ⟨fun _ => rfl, fun hd h0 _ => ?_, fun hd h0 _ => ?_⟩ <;>
        exact absurd (Nat.le_of_dvd (Nat.pos_of_ne_zero h0) hd) (by omega)

/-- Multiplication by 1 and -1 is exact. -/
theorem mul_unit (s : Bool) {y : Nat} (hy : y < f32.inf) : f32.mul (f32.withSign s one32) y = f32.withSign s y := by
  have h1 : f32.val (f32.withSign s one32) = .fin (signed s f32.one) := by
    rw [f32.val_withSign_fin (by decide +kernel)]
    congr 2
  have hh := f32.inf_lt_half
  have h2 := f32.val_withSign_fin (s := false) hy
  have e : f32.withSign false y = y := rfl
  rw [e] at h2
  unfold Fmt.mul
  rw [h1, h2]
  simp only
  have hs1 : f32.sign (f32.withSign s one32) = s := f32.sign_withSign (by decide +kernel)
  have hs2 : f32.sign y = false := by
    have := f32.sign_withSign (s := false) (t := y) (by omega)
    rwa [e] at this
  rw [hs1, hs2, Fmt.natAbs_signed, Fmt.natAbs_signed, Bool.bne_false]
  exact f32.round_exact (by decide) (Nat.two_pow_pos _) (Nat.mul_comm _ _) hy

theorem lt_zero_of_pos {y : Nat} {b : ℝ} (h : f32.Is y b) (hb : 0 < b) : f32.lt zero y = true := by
  exact (Fmt.is_lt (Fmt.is_zero Fmt.good32) h).2 hb

theorem two_val : f32.val (f32.litPos 2 0) = .fin (2 * f32.one) ∧ f32.val one32 = .fin f32.one := by decide +kernel

theorem eq_lit {y : Nat} {v : ℤ} (h : f32.val y = .fin v) :
    (f32.eq y one32 = true ↔ v = f32.one) ∧ (f32.eq y (f32.litPos 2 0) = true ↔ v = 2 * f32.one) := by
  unfold Fmt.eq
  rw [h, two_val.1, two_val.2]
  simp [Val.eq]

/-- The square of a negative number that is not small, as `pow` computes it, is positive. -/
theorem square_pos {x : Nat} (hx : f32.lt x zero = true) (hs : ¬Small x) : f32.lt zero (min32 (f32.mul x x) floatMax) = true := by
  have h0 := val_zero Fmt.good32
  have hmax : f32.val floatMax = .fin (f32.mag floatMax) := by decide +kernel
  have hmp : 0 < f32.mag floatMax := by decide +kernel
  have hm : f32.lt zero floatMax = true := by unfold Fmt.lt; rw [h0, hmax]; simp [Val.lt]; exact_mod_cast hmp
  have key : f32.lt zero (f32.mul x x) = true := by
    cases hv : f32.val x with
    | nan => unfold Fmt.lt at hx; rw [hv] at hx; simp [Val.lt] at hx
    | inf s =>
      unfold Fmt.mul
      rw [hv]
      simp only [bne_self_eq_false]
      decide +kernel
    | fin v =>
      have hge : 2 ^ 126 ≤ v.natAbs := by
        by_contra hc
        exact hs ⟨v, hv, by omega⟩
      unfold Fmt.mul
      rw [hv]
      simp only [bne_self_eq_false]
      have hop : 0 < f32.one := Nat.two_pow_pos _
      have hr : 1 ≤ f32.roundMag (v.natAbs * v.natAbs) f32.one := by
        refine Fmt.le_roundMag (by decide) hop ?_
        rw [show f32.mag 1 = 1 by decide +kernel, one_mul, oneN]
        exact le_trans (by norm_num) (Nat.mul_le_mul hge hge)
      unfold Fmt.round
      rcases Nat.lt_or_ge (f32.roundMag (v.natAbs * v.natAbs) f32.one) f32.inf with hl | hl
      · rw [show Nat.min (f32.roundMag (v.natAbs * v.natAbs) f32.one) f32.inf = _ from Nat.min_eq_left (Nat.le_of_lt hl)]
        have := f32.val_withSign_fin (s := false) hl
        unfold Fmt.lt
        rw [this, h0]
        simp only [Val.lt, signed, decide_eq_true_eq, Bool.false_eq_true, if_false]
        have : 0 < f32.mag (f32.roundMag (v.natAbs * v.natAbs) f32.one) := by
          rw [← f32.mag_zero]; exact f32.mag_lt_iff.2 hr
        exact_mod_cast this
      · rw [show Nat.min (f32.roundMag (v.natAbs * v.natAbs) f32.one) f32.inf = _ from Nat.min_eq_right hl]
        decide +kernel
  unfold min32
  split
  · exact key
  · exact hm

/-- `pow` of a negative base, apart from the exponents 1 and 2. -/
theorem pow_eq {x y : Nat} {v : ℤ} (c : Bool) (hx : f32.lt x zero = true) (hsx : ¬Small x) (hsy : ¬Small y) (hy : f32.val y = .fin v)
    (h1 : v ≠ f32.one) (h2 : v ≠ 2 * f32.one) : ∃ e b, e < f32.inf ∧ f32.Is e b ∧ 0 < b ∧
    fastExp2 (f32.mul y (fastLog2 (fabs f32 x))) = some e ∧
    (powSign c y = none → pow c x y = none) ∧ (powSign c y = some none → pow c x y = some 0) ∧
    (∀ s, powSign c y = some (some (f32.withSign s one32)) → pow c x y = some (f32.withSign s e)) := by
  obtain ⟨a, e, b, he, hlt, hb, hpos, -⟩ := fastExp2_spec (f32.mul y (fastLog2 (fabs f32 x)))
  refine ⟨e, b, hlt, hb, hpos, he, ?_⟩
  have t1 : ¬f32.lt (fabs f32 y) epsilon32 = true := fun h => hsy (lt_eps.1 h)
  have t2 : ¬f32.lt (fabs f32 x) epsilon32 = true := fun h => hsx (lt_eps.1 h)
  have t3 : ¬f32.eq y one32 = true := fun h => h1 ((eq_lit hy).1.1 h)
  have t4 : ¬f32.eq y (f32.litPos 2 0) = true := fun h => h2 ((eq_lit hy).2.1 h)
  have hp : pow c x y = (powSign c y).bind fun sign => match sign with
      | none => some 0
      | some sign => some (f32.mul sign e) := by
    unfold pow
    rw [if_neg t1, if_neg t2, if_neg t3, if_neg t4, if_pos hx, he]
    rfl
  rw [hp]
  refine ⟨fun h => by rw [h]; rfl, fun h => by rw [h]; rfl, fun s h => ?_⟩
  rw [h]
  show some (f32.mul (f32.withSign s one32) e) = _
  rw [mul_unit s hlt]

theorem withSign_true_neg {e : Nat} {b : ℝ} (h : e < f32.inf) (hb : f32.Is e b) (hp : 0 < b) : f32.lt (f32.withSign true e) zero = true := by
  obtain ⟨w, hw, hwb⟩ := hb
  have e1 := f32.val_withSign_fin (s := false) h
  have e2 : f32.withSign false e = e := rfl
  rw [e2, hw] at e1
  have ho := f32.one_posR
  have hw0 : 0 < w := by
    have : (0 : ℝ) < w := by rw [hwb]; exact mul_pos hp ho
    exact_mod_cast this
  have h3 := f32.val_withSign_fin (s := true) h
  unfold Fmt.lt
  rw [h3, val_zero Fmt.good32]
  simp only [Val.lt, signed, if_true, decide_eq_true_eq]
  simp only [signed, Bool.false_eq_true, if_false, Val.fin.injEq] at e1
  omega

/-! ### C43 -/

/-- C43, for defined shifts (C++20) and arguments not below epsilon in magnitude: a negative base (also -inf) to a power that is not an integer
is +0, to an odd power is negative, to an even one is positive. The first part does not depend on the language version. -/
theorem c43_partial {x y : Nat} (hx : f32.lt x zero = true) (hsx : ¬Small x) (hsy : ¬Small y) :
    (NonInt y → ∀ c, pow c x y = some 0) ∧
    (IsOdd y → ∃ r, pow true x y = some r ∧ f32.lt r zero = true) ∧
    (IsEven y → ∃ r, pow true x y = some r ∧ f32.lt zero r = true) := by
  have hop : (0 : ℤ) < f32.one := by exact_mod_cast Nat.two_pow_pos _
  have hopn : 0 < f32.one := Nat.two_pow_pos _
  have t1 : ¬f32.lt (fabs f32 y) epsilon32 = true := fun h => hsy (lt_eps.1 h)
  have t2 : ¬f32.lt (fabs f32 x) epsilon32 = true := fun h => hsx (lt_eps.1 h)
  refine ⟨?_, ?_, ?_⟩
  · rintro ⟨v, hv, hd⟩ c
    have hdn : ¬f32.one ∣ v.natAbs := fun h => hd (Int.natCast_dvd.2 h)
    obtain ⟨e, b, -, -, -, -, -, h2, -⟩ := pow_eq c hx hsx hsy hv (fun h => hd (h ▸ dvd_rfl)) (fun h => hd (h ▸ Dvd.intro_left _ rfl))
    exact h2 ((powSign_spec hv c).1 hdn)
  · rintro ⟨k, hv⟩
    by_cases h1 : (2 * k + 1) * (f32.one : ℤ) = f32.one
    · refine ⟨x, ?_, hx⟩
      unfold pow
      rw [if_neg t1, if_neg t2, if_pos ((eq_lit hv).1.2 h1)]
      rfl
    · have h2 : (2 * k + 1) * (f32.one : ℤ) ≠ 2 * f32.one := by
        intro h
        have := mul_right_cancel₀ (ne_of_gt hop) h
        omega
      obtain ⟨e, b, hl, hb, hp, -, -, -, h3⟩ := pow_eq true hx hsx hsy hv h1 h2
      have ha : ((2 * k + 1) * (f32.one : ℤ)).natAbs = (2 * k + 1).natAbs * f32.one := by rw [Int.natAbs_mul, Int.natAbs_natCast]
      have hps := ((powSign_spec hv true).2.1 (by rw [ha]; exact Dvd.intro_left _ rfl)
        (mul_ne_zero (by omega) (ne_of_gt hop)) (by rw [ha, Nat.mul_div_cancel _ hopn]; omega)).2
      exact ⟨_, h3 true (by rw [hps, if_pos rfl]; decide +kernel), withSign_true_neg hl hb hp⟩
  · rintro ⟨k, hv⟩
    by_cases h2 : 2 * k * (f32.one : ℤ) = 2 * f32.one
    · refine ⟨min32 (f32.mul x x) floatMax, ?_, square_pos hx hsx⟩
      have h1 : ¬2 * k * (f32.one : ℤ) = f32.one := by omega
      unfold pow
      rw [if_neg t1, if_neg t2, if_neg (fun h => h1 ((eq_lit hv).1.1 h)), if_pos ((eq_lit hv).2.2 h2)]
      rfl
    · have h1 : 2 * k * (f32.one : ℤ) ≠ f32.one := by
        intro h
        have : (2 * k) * (f32.one : ℤ) = 1 * f32.one := by rw [h, one_mul]
        have := mul_right_cancel₀ (ne_of_gt hop) this
        omega
      have hk0 : k ≠ 0 := by
        rintro rfl
        exact hsy ⟨_, hv, by norm_num⟩
      obtain ⟨e, b, hl, hb, hp, -, -, -, h3⟩ := pow_eq true hx hsx hsy hv h1 h2
      have ha : (2 * k * (f32.one : ℤ)).natAbs = (2 * k).natAbs * f32.one := by rw [Int.natAbs_mul, Int.natAbs_natCast]
      have hps := (powSign_spec hv true).2.2 (by rw [ha]; exact Dvd.intro_left _ rfl)
        (mul_ne_zero (by omega) (ne_of_gt hop)) (by rw [ha, Nat.mul_div_cancel _ hopn]; omega)
      rw [Bool.true_or, if_pos rfl] at hps
      exact ⟨_, h3 false hps, lt_zero_of_pos hb hp⟩

/-- Before C++20 every call with a negative base and an integer exponent other than 1 and 2 below 2^24 in magnitude shifts a signed `int` out of
range: undefined behaviour. -/
theorem c43_shift_false {x y : Nat} (hx : f32.lt x zero = true) (hsx : ¬Small x) {k : ℤ} (hy : f32.val y = .fin (k * f32.one))
    (h0 : k ≠ 0) (h1 : k ≠ 1) (h2 : k ≠ 2) (hb : |k| < 2 ^ 24) : pow false x y = none := by
  have hop : (0 : ℤ) < f32.one := by exact_mod_cast Nat.two_pow_pos _
  have hopn : 0 < f32.one := Nat.two_pow_pos _
  have ha : (k * (f32.one : ℤ)).natAbs = k.natAbs * f32.one := by rw [Int.natAbs_mul, Int.natAbs_natCast]
  have hsy : ¬Small y := by
    rintro ⟨v, hv, hlt⟩
    rw [hy] at hv
    cases hv
    rw [ha] at hlt
    have : 1 * f32.one ≤ k.natAbs * f32.one := Nat.mul_le_mul_right _ (by omega)
    have : (2 : Nat) ^ 126 ≤ f32.one := by decide +kernel
    omega
  have n1 : k * (f32.one : ℤ) ≠ f32.one := by
    intro h
    exact h1 (mul_right_cancel₀ (ne_of_gt hop) (h.trans (one_mul _).symm))
  have n2 : k * (f32.one : ℤ) ≠ 2 * f32.one := fun h => h2 (mul_right_cancel₀ (ne_of_gt hop) h)
  obtain ⟨e, b, -, -, -, -, h3, -⟩ := pow_eq false hx hsx hsy hy n1 n2
  have hd : f32.one ∣ (k * (f32.one : ℤ)).natAbs := by rw [ha]; exact Dvd.intro_left _ rfl
  have hne : k * (f32.one : ℤ) ≠ 0 := mul_ne_zero h0 (ne_of_gt hop)
  rcases Nat.mod_two_eq_zero_or_one ((k * (f32.one : ℤ)).natAbs / f32.one) with hm | hm
  · have := (powSign_spec hy false).2.2 hd hne hm
    have hlt : ¬2 ^ 24 * f32.one ≤ (k * (f32.one : ℤ)).natAbs := by
      rw [ha, Nat.mul_le_mul_right_iff hopn]
      rw [abs_lt] at hb
      omega
    rw [show decide (2 ^ 24 * f32.one ≤ (k * (f32.one : ℤ)).natAbs) = false from decide_eq_false hlt] at this
    exact h3 this
  · exact h3 ((powSign_spec hy false).2.1 hd hne hm).2

/-- C43 fails for exponents below epsilon in magnitude, which are not integers: the result is 1, whatever the base. -/
theorem c43_tiny_exponent_false (c : Bool) (x : Nat) {y : Nat} (h : Small y) : pow c x y = some one32 := by
  unfold pow
  rw [if_pos (lt_eps.2 h)]
  rfl

/-- C43 fails for bases below epsilon in magnitude: odd powers are +0 (also negative powers, which are huge). -/
theorem c43_tiny_base_false (c : Bool) {x y : Nat} (hx : Small x) (hy : ¬Small y) : pow c x y = some 0 := by
  unfold pow
  rw [if_neg (fun h => hy (lt_eps.1 h)), if_pos (lt_eps.2 hx)]
  rfl

/-- `pow` gives NaN only for NaN bases to the powers 1 and 2: apart from these exponents the result is a finite number, also for NaN arguments. -/
theorem pow_finite {x y r : Nat} {c : Bool} (h1 : f32.eq y one32 = false) (h2 : f32.eq y (f32.litPos 2 0) = false) (h : pow c x y = some r) :
    ∃ v, f32.val r = .fin v := by
  obtain ⟨a, e, b, he, hlt, hb, hpos, -⟩ := fastExp2_spec (f32.mul y (fastLog2 (fabs f32 x)))
  unfold pow at h
  rw [h1, h2, he] at h
  simp only [Bool.false_eq_true, if_false] at h
  split at h
  · cases h; exact ⟨_, two_val.2⟩
  · split at h
    · cases h; exact ⟨_, val_zero Fmt.good32⟩
    · have fin : ∀ s, ∃ v, f32.val (f32.mul (f32.withSign s one32) e) = .fin v := by
        intro s
        rw [mul_unit s hlt]
        exact ⟨_, f32.val_withSign_fin hlt⟩
      split at h
      · have hcases : powSign c y = none ∨ powSign c y = some none ∨ ∃ s, powSign c y = some (some (f32.withSign s one32)) := by
          unfold powSign
          simp only
          split
          · exact .inr (.inr ⟨false, rfl⟩)
          · split
            · split
              · split
                · refine .inr (.inr ?_)
                  generalize (y &&& 2147483647) >>> (23 - ((y &&& 2147483647) >>> 23 - 127)) = j
                  have hsh : (j <<< 31) % 2 ^ 32 = 2 ^ 31 * (j % 2) := by rw [Nat.shiftLeft_eq]; omega
                  rw [hsh]
                  rcases Nat.mod_two_eq_zero_or_one j with hj | hj <;> rw [hj]
                  · exact ⟨false, by decide +kernel⟩
                  · exact ⟨true, by decide +kernel⟩
                · exact .inl rfl
              · exact .inr (.inl rfl)
            · exact .inr (.inl rfl)
        rcases hcases with hc | hc | ⟨s, hc⟩
        · rw [hc] at h; cases h
        · rw [hc] at h; cases h; exact ⟨_, val_zero Fmt.good32⟩
        · rw [hc] at h; cases h; exact fin s
      · cases h; exact fin false

/-! ### Instances -/

/-- (-3)^3 < 0, (-3)^4 > 0, (-3)^0.5 = 0: the hypotheses hold for them. -/
example : f32.lt 0xC0400000 zero = true ∧ ¬Small 0xC0400000 ∧ ¬Small 0x40400000 ∧ IsOdd 0x40400000 ∧ IsEven 0x40800000 ∧ NonInt 0x3f000000 := by
  refine ⟨by decide +kernel, ?_, ?_, ⟨1, by decide +kernel⟩, ⟨2, by decide +kernel⟩, ⟨2 ^ 148, by decide +kernel, by decide +kernel⟩⟩
  · rintro ⟨v, hv, h⟩
    have : f32.val 0xC0400000 = .fin (-3 * 2 ^ 149) := by decide +kernel
    rw [this] at hv; cases hv; revert h; decide
  · rintro ⟨v, hv, h⟩
    have : f32.val 0x40400000 = .fin (3 * 2 ^ 149) := by decide +kernel
    rw [this] at hv; cases hv; revert h; decide
/-- (-2)^(2^-24) = 1, although 2^-24 is not an integer. -/
example : Small 0x33800000 ∧ NonInt 0x33800000 := ⟨⟨2 ^ 125, by decide +kernel, by decide⟩, ⟨2 ^ 125, by decide +kernel, by decide +kernel⟩⟩
/-- The exponent -3 meets the hypotheses of the undefined shift. -/
example : f32.val 0xC0400000 = .fin (-3 * f32.one) := by decide +kernel
/-- NaN to the power 3 is a finite number. -/
example : ∃ r, pow true 0x7fc00000 0x40400000 = some r ∧ f32.eq 0x40400000 one32 = false ∧ f32.eq 0x40400000 (f32.litPos 2 0) = false :=
  ⟨2122317824, by decide +kernel, by decide +kernel, by decide +kernel⟩

end Nanostl.Math

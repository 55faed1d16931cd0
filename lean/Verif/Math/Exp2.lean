import Verif.Math.Exp2Lemmas
import Verif.Float.RealMore

/-!
`fast_exp2` as a whole: a positive finite result for every argument, and its relative error.
-/

namespace Nanostl.Math
open Nanostl.Float Nanostl.Float.Fmt

theorem madd_lt {x y z : Nat} (hz : z < 4294967296) : madd x y z < 4294967296 := by
  rw [← size32] at *
  exact add_lt Fmt.good32 (mul_lt Fmt.good32 _ _) hz

theorem is_lit126 : f32.Is (f32.litPos 126 0) 126 := by
  refine ⟨126 * f32.one, by decide +kernel, by push_cast; ring⟩

/-- The fractional part and its rounding, for arguments of the clamped range. -/
theorem exp2_frac {x : Nat} {a : ℝ} (h : f32.Is x a) (ha : |a| ≤ 126) : ∃ (m : ℤ) (f : ℝ), f32.toInt x = some m ∧ |m| ≤ 126 ∧ |a - m| < 1 ∧
    f32.Is (f32.sub one32 (f32.sub one32 (f32.sub x (f32.ofInt m)))) f ∧ |f| ≤ 1 ∧ |f - (a - m)| ≤ 3 / 10 ^ 7 ∧ (|m| = 126 → f = 0 ∧ a = m) := by
  obtain ⟨m, hm, h1, h2, h3, h4⟩ := toInt_real h (lt_of_le_of_lt ha (by norm_num))
  have hm126 : |m| ≤ 126 := by
    have : |(m : ℝ)| ≤ 126 := le_trans h2 ha
    rw [← Int.cast_abs] at this
    exact_mod_cast this
  have hofi : f32.Is (f32.ofInt m) m := is_ofInt Fmt.good32 (by decide) (by
    have : f32.mb + 1 = 24 := rfl
    rw [this]
    rw [Int.abs_eq_natAbs] at hm126
    omega)
  have hb : ∀ r : ℝ, |r| ≤ 126 → |r| ≤ 2 ^ f32.bias := fun r hr => le_trans hr (by rw [bias32]; norm_num)
  obtain ⟨c1, i1, r1, e1⟩ := is_sub Fmt.good32 h hofi (hb _ (by linarith))
  have z0 : f32.Is 0 0 := is_zero Fmt.good32
  have z1 := is_one32
  have zn1 := is_one32.neg
  have hmb : (2 : ℝ) ^ (f32.mb + 1) = 2 ^ 24 := rfl
  rw [hmb] at e1
  obtain ⟨l1, u1⟩ := abs_lt.1 h1
  have c1u := r1.le _ _ z1 (by linarith)
  have c1l := r1.ge _ _ zn1 (by linarith)
  obtain ⟨c2, i2, r2, e2⟩ := is_sub Fmt.good32 z1 i1 (hb _ (by rw [abs_le]; constructor <;> linarith))
  rw [hmb] at e2
  have z2 : f32.Is (f32.ofInt 2) ((2 : ℤ) : ℝ) := is_ofInt Fmt.good32 (by decide) (by decide)
  push_cast at z2
  have c2u := r2.le _ _ z2 (by linarith)
  have c2l := r2.ge _ _ z0 (by linarith)
  obtain ⟨c3, i3, r3, e3⟩ := is_sub Fmt.good32 z1 i2 (hb _ (by rw [abs_le]; constructor <;> linarith))
  rw [hmb] at e3
  have c3u := r3.le _ _ z1 (by linarith)
  have c3l := r3.ge _ _ zn1 (by linarith)
  refine ⟨m, c3, hm, hm126, h1, i3, abs_le.2 ⟨by linarith, c3u⟩, ?_, ?_⟩
  · have b1 : |a - m| / 2 ^ 24 ≤ 1 / 2 ^ 24 := div_le_div_of_nonneg_right (le_of_lt h1) (by positivity)
    have b2 : |1 - c1| / 2 ^ 24 ≤ 2 / 2 ^ 24 := div_le_div_of_nonneg_right (abs_le.2 ⟨by linarith, by linarith⟩) (by positivity)
    have b3 : |1 - c2| / 2 ^ 24 ≤ 1 / 2 ^ 24 := div_le_div_of_nonneg_right (abs_le.2 ⟨by linarith, by linarith⟩) (by positivity)
    have := abs_le.1 (le_trans e1 b1)
    have := abs_le.1 (le_trans e2 b2)
    have := abs_le.1 (le_trans e3 b3)
    rw [abs_le]
    norm_num at *
    constructor <;> linarith
  · intro hm'
    have ham : a = m := by
      rcases le_total 0 m with hp | hp
      · rw [abs_of_nonneg hp] at hm'
        subst hm'
        have : (0 : ℝ) ≤ a := by
          by_contra hc
          have := h4 (by linarith)
          push_cast at *
          linarith
        have := h3 this
        have := (abs_le.1 ha).2
        push_cast at *
        linarith
      · rw [abs_of_nonpos hp] at hm'
        have hm'' : m = -126 := by omega
        subst hm''
        have : a ≤ 0 := by
          by_contra hc
          have := (abs_lt.1 h1).2
          push_cast at *
          linarith
        have := h4 this
        have := (abs_le.1 ha).1
        push_cast at *
        linarith
    have hc1 : c1 = 0 := by
      have : f32.Is 0 (a - m) := by rw [ham, sub_self]; exact z0
      rw [r1.exact this, ham, sub_self]
    have hc2 : c2 = 1 := by
      have : f32.Is one32 (1 - c1) := by rw [hc1, sub_zero]; exact z1
      rw [r2.exact this, hc1, sub_zero]
    have : f32.Is 0 (1 - c2) := by rw [hc2, sub_self]; exact z0
    exact ⟨by rw [r3.exact this, hc2, sub_self], ham⟩

/-- At zero the polynomial is exactly one. -/
theorem exp2Poly_zero {x : Nat} (h : f32.Is x 0) : f32.Is (exp2Poly x) 1 := by
  have z0 : f32.Is 0 0 := is_zero Fmt.good32
  have step : ∀ {r l : Nat} {b c : ℝ}, f32.Is r b → |b| ≤ 1 → f32.Is l c → |c| ≤ 1 → f32.Is (madd x r l) c := by
    intro r l b c hr hb hl hc
    obtain ⟨p, ip, rp⟩ := is_mul Fmt.good32 h hr (by rw [zero_mul, abs_zero]; positivity)
    have hp : p = 0 := by rw [zero_mul] at rp; exact rp.exact z0
    obtain ⟨q, iq, rq, _⟩ := is_add Fmt.good32 ip hl (by rw [hp, zero_add]; exact le_trans hc (by rw [bias32]; norm_num))
    rw [hp, zero_add] at rq
    rw [rq.exact hl] at iq
    exact iq
  have lit : ∀ n k : Nat, (n : ℝ) / 10 ^ k ≤ 9 / 10 → ∃ c, f32.Is (f32.litNeg n k) c ∧ |c| ≤ 1 := by
    intro n k h
    have h0 : (0 : ℝ) ≤ n / 10 ^ k := by positivity
    obtain ⟨⟨c, hc, he⟩, _⟩ := Ap.lit n k (le_trans h (by norm_num))
    refine ⟨c, hc, ?_⟩
    have hu : (n : ℝ) / 10 ^ k * ulp ≤ 9 / 10 * ulp := mul_le_mul_of_nonneg_right h (by unfold ulp; positivity)
    have : (9 / 10 : ℝ) * ulp + tiny ≤ 1 / 10 := by num
    have := abs_le.1 he
    rw [abs_le]
    constructor <;> linarith
  obtain ⟨c0, i0, b0⟩ := lit 133336498402 14 (by norm_num)
  obtain ⟨c1, i1, b1⟩ := lit 9810352697968 15 (by norm_num)
  obtain ⟨c2, i2, b2⟩ := lit 5551834031939 14 (by norm_num)
  obtain ⟨c3, i3, b3⟩ := lit 2401793301105 13 (by norm_num)
  obtain ⟨c4, i4, b4⟩ := lit 693144857883 12 (by norm_num)
  have s1 := step i0 b0 i1 b1
  have s2 := step s1 b1 i2 b2
  have s3 := step s2 b2 i3 b3
  have s4 := step s3 b3 i4 b4
  exact step s4 b4 is_one32 (by norm_num)

theorem one32_lt : one32 < 4294967296 := by decide

theorem exp2Poly_lt (x : Nat) : exp2Poly x < 4294967296 := madd_lt one32_lt

/-- Numbers from a quarter up to four. -/
theorem expo_range {t : Nat} {c : ℝ} (h : (f32.mag t : ℝ) = c * f32.one) (h1 : 1 / 4 ≤ c) (h2 : c < 4) : 125 * 2 ^ 23 ≤ t ∧ t < 129 * 2 ^ 23 := by
  have m1 : f32.mag (125 * 2 ^ 23) = 2 ^ 147 := by decide +kernel
  have m2 : f32.mag (129 * 2 ^ 23) = 2 ^ 151 := by decide +kernel
  rw [one32_val] at h
  constructor
  · rw [← f32.mag_le_iff, m1]
    have : ((2 ^ 147 : Nat) : ℝ) ≤ f32.mag t := by rw [h]; push_cast; nlinarith
    exact_mod_cast this
  · rw [← f32.mag_lt_iff, m2]
    have : (f32.mag t : ℝ) < ((2 ^ 151 : Nat) : ℝ) := by rw [h]; push_cast; nlinarith
    exact_mod_cast this

theorem half_le {t : Nat} {c : ℝ} (h : (f32.mag t : ℝ) = c * f32.one) (h1 : 1 / 2 ≤ c) : 126 * 2 ^ 23 ≤ t := by
  have m1 : f32.mag (126 * 2 ^ 23) = 2 ^ 148 := by decide +kernel
  rw [one32_val] at h
  rw [← f32.mag_le_iff, m1]
  have : ((2 ^ 148 : Nat) : ℝ) ≤ f32.mag t := by rw [h]; push_cast; nlinarith
  exact_mod_cast this

theorem not_125 {t : Nat} {c : ℝ} (h : (f32.mag t : ℝ) = c * f32.one) (h1 : 3 / 10 ≤ c) : t ≠ 125 * 2 ^ 23 := by
  have m1 : f32.mag (125 * 2 ^ 23) = 2 ^ 147 := by decide +kernel
  rintro rfl
  rw [m1, one32_val] at h
  push_cast at h
  nlinarith

theorem rpow_neg09 {f : ℝ} (h : -91 / 100 ≤ f) : 53 / 100 ≤ (2 : ℝ) ^ f := by
  have e1 : (2 : ℝ) ^ (-91 / 100 : ℝ) = 1 / 2 * Real.exp (9 / 100 * Real.log 2) := by
    rw [show (-91 / 100 : ℝ) = -1 + 9 / 100 by norm_num, Real.rpow_add (by norm_num), Real.rpow_neg_one, rpow_exp (9 / 100)]
    norm_num
  have h1 := Real.add_one_le_exp (9 / 100 * Real.log 2)
  have hl := abs_le.1 Real.log_two_near_10
  have h2 : (69 : ℝ) / 100 ≤ Real.log 2 := by
    have := hl.1
    norm_num at this ⊢
    linarith
  have h3 := Real.rpow_le_rpow_of_exponent_le (x := 2) (by norm_num) h
  rw [e1] at h3
  linarith

/-- `fast_exp2` after clamping. -/
theorem exp2_core {x : Nat} {a : ℝ} (h : f32.Is x a) (ha : |a| ≤ 126) : ∃ m y b, f32.toInt x = some m ∧
    (exp2Poly (f32.sub one32 (f32.sub one32 (f32.sub x (f32.ofInt m)))) + u32 m * 2 ^ 23) % 2 ^ 32 = y ∧ y < f32.inf ∧ f32.Is y b ∧ 0 < b ∧
    (-1259 / 10 ≤ a → |b - (2 : ℝ) ^ a| ≤ 17 / 10 ^ 6 * (2 : ℝ) ^ a) := by
  obtain ⟨m, f, hm, hm126, hfr, hf, hf1, hfe, hm0⟩ := exp2_frac h ha
  generalize hw : f32.sub one32 (f32.sub one32 (f32.sub x (f32.ofInt m))) = w at hf
  -- the polynomial
  obtain ⟨⟨c, ic, ec⟩, _⟩ := exp2Poly_ap hf hf1
  have hP := abs_le.1 (P2_close hf1)
  have hpb := rpow_bounds hf1
  have ec' := abs_le.1 ec
  have hcl : 49 / 100 ≤ c := by linarith [hP.1, ec'.1]
  have hcu : c ≤ 201 / 100 := by linarith [hP.2, ec'.2]
  obtain ⟨ht, hmag⟩ := is_pos (by rw [size32]; exact exp2Poly_lt w) ic (by linarith)
  obtain ⟨t1, t2⟩ := expo_range hmag (by linarith) (by linarith)
  have hne := not_125 hmag (by linarith)
  have hz : f = 0 → c = 1 := by
    intro h0
    rw [h0] at hf
    exact ic.unique (exp2Poly_zero hf)
  have hone : c = 1 → exp2Poly w = 127 * 2 ^ 23 := by
    intro h1
    have m1 : f32.mag (127 * 2 ^ 23) = f32.one := by decide +kernel
    rw [h1, one_mul] at hmag
    have : f32.mag (exp2Poly w) = f32.mag (127 * 2 ^ 23) := by rw [m1]; exact_mod_cast hmag
    exact f32.mag_inj.1 this
  generalize hpt : exp2Poly w = t at *
  have hex : 125 * 2 ^ 23 ≤ t + m * 2 ^ 23 + 125 * 2 ^ 23 ∧ t + m * 2 ^ 23 ≠ 0 ∧ t + m * 2 ^ 23 < 2139095040 := by
    rw [abs_le] at hm126
    by_cases h126 : |m| = 126
    · have ht' := hone (hz (hm0 h126).1)
      rcases abs_eq (by norm_num) |>.1 h126 with rfl | rfl <;> subst ht' <;> norm_num
    · have : -125 ≤ m ∧ m ≤ 125 := by
        constructor
        · by_contra hc
          exact h126 (by rw [show m = -126 by omega]; rfl)
        · by_contra hc
          exact h126 (by rw [show m = 126 by omega]; rfl)
      omega
  obtain ⟨y, hy⟩ : ∃ y : Nat, (y : ℤ) = t + m * 2 ^ 23 := ⟨(t + m * 2 ^ 23).toNat, by omega⟩
  have hmod : (t + u32 m * 2 ^ 23) % 2 ^ 32 = y := by
    unfold u32
    have := (abs_le.1 hm126)
    omega
  have hyinf : y < f32.inf := by rw [inf32]; omega
  have hypos : 0 < y := by omega
  have ho := f32.one_posR
  refine ⟨m, y, f32.mag y / f32.one, hm, by rw [hw, hpt]; exact hmod, hyinf, is_of_lt hyinf, ?_, ?_⟩
  · have : 0 < f32.mag y := by
      rw [← f32.mag_zero]; exact f32.mag_lt_iff.2 hypos
    have : (0 : ℝ) < f32.mag y := by exact_mod_cast this
    exact div_pos this ho
  · intro hal
    have hy23 : 2 ^ 23 ≤ y := by
      by_cases h124 : -124 ≤ m
      · omega
      · have h125 : m = -125 := by
          by_contra hne'
          have h6 : m = -126 := by have := (abs_le.1 hm126).1; omega
          have h7 := (hm0 (by rw [h6]; rfl)).2
          rw [h7, h6] at hal
          norm_num at hal
        have hf9 : -91 / 100 ≤ f := by
          rw [h125] at hfe
          have := (abs_le.1 hfe).1
          push_cast at this
          linarith
        have := half_le hmag (by linarith [rpow_neg09 hf9, hP.1, ec'.1])
        omega
    have hsc := mag_scale hy (by omega) hy23
    have hb : (f32.mag y : ℝ) / f32.one = c * (2 : ℝ) ^ m := by
      rw [hsc, hmag]; field_simp
    have h2a : (2 : ℝ) ^ a = (2 : ℝ) ^ (a - m) * (2 : ℝ) ^ m := by
      rw [← Real.rpow_intCast, ← Real.rpow_add (by norm_num), sub_add_cancel]
    have hnear := abs_le.1 (rpow_near (x := f) (y := a - m) (le_trans hfe (by norm_num)))
    have hrb := rpow_bounds (le_of_lt hfr)
    have h2f : 2 * |f - (a - m)| * (2 : ℝ) ^ (a - m) ≤ 6 / 10 ^ 7 * (2 : ℝ) ^ (a - m) :=
      mul_le_mul_of_nonneg_right (by linarith) (by linarith)
    have hpz : (0 : ℝ) < (2 : ℝ) ^ m := zpow_pos (by norm_num) m
    rw [hb, h2a, ← sub_mul, abs_mul, abs_of_pos hpz, ← mul_assoc]
    refine mul_le_mul_of_nonneg_right ?_ (le_of_lt hpz)
    rw [abs_le]
    constructor <;> linarith [hP.1, hP.2, ec'.1, ec'.2, hnear.1, hnear.2, hrb.1, hrb.2]

/-- The arguments of `fast_exp2` after clamping to the range. -/
theorem fastExp2_spec (z : Nat) : ∃ a y b, fastExp2 z = some y ∧ y < f32.inf ∧ f32.Is y b ∧ 0 < b ∧ |a| ≤ 126 ∧
    (-1259 / 10 ≤ a → |b - (2 : ℝ) ^ a| ≤ 17 / 10 ^ 6 * (2 : ℝ) ^ a) ∧ (∀ r, f32.Is z r → |r| ≤ 126 → a = r) := by
  obtain ⟨a, h1, h2, h3, h4, _⟩ := clamp_spec (z := z) is_lit126.neg is_lit126 (by norm_num)
  obtain ⟨m, y, b, c1, c2, c3, c4, c5, c6⟩ := exp2_core h1 (abs_le.2 ⟨h2, h3⟩)
  refine ⟨a, y, b, ?_, c3, c4, c5, abs_le.2 ⟨h2, h3⟩, c6, fun r hr hb => h4 r hr (abs_le.1 hb).1 (abs_le.1 hb).2⟩
  unfold fastExp2
  simp only [bind, Option.bind, c1, pure]
  rw [c2]

end Nanostl.Math

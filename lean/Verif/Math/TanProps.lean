import Verif.Math.Tan

/-! C70: the tangent. The specification is the tangent of a nearby argument (backward error), since next to a pole no
bound of the error of the result itself can hold. -/

namespace Nanostl.Math
open Nanostl.Float Nanostl.Float.Fmt

theorem arctan_lipschitz (x y : ℝ) : |Real.arctan x - Real.arctan y| ≤ |x - y| := by
  have := Convex.norm_image_sub_le_of_norm_hasDerivWithin_le (f := Real.arctan) (f' := fun z => 1 / (1 + z ^ 2)) (C := 1) (s := Set.univ) (x := y) (y := x)
    (fun z _ => (Real.hasDerivAt_arctan z).hasDerivWithinAt) (fun z _ => by
      have : 0 ≤ z ^ 2 := sq_nonneg z
      rw [Real.norm_eq_abs, abs_of_nonneg (by positivity), div_le_one (by positivity)]
      linarith) convex_univ (Set.mem_univ _) (Set.mem_univ _)
  rw [Real.norm_eq_abs, Real.norm_eq_abs, one_mul] at this
  exact this

theorem is_negone : f32.Is (f32.neg one32) (-1) := is_one32.neg

/-- `-1 / u` for any number `u` that is not too large: a float near the quotient, or infinity if `u` is next to zero. -/
theorem recip_spec {x : Nat} {u : ℝ} (h : f32.Is x u) (hu : |u| ≤ 101 / 100) :
    (∃ b, f32.Is (f32.div (f32.neg one32) x) b ∧ b ≠ 0 ∧ |-1 / b - u| ≤ 61 / 10 ^ 9) ∨
    (∃ s, f32.val (f32.div (f32.neg one32) x) = .inf s) ∧ |u| ≤ 1 / 2 ^ 127 := by
  rcases le_or_gt (1 / 2 ^ 127) |u| with hl | hl
  · left
    have hu0 : u ≠ 0 := by rintro rfl; rw [abs_zero] at hl; norm_num at hl
    have hup : 0 < |u| := abs_pos.2 hu0
    have hq : |(-1) / u| ≤ 2 ^ 127 := by
      rw [abs_div, abs_neg, abs_one, div_le_iff₀ hup]
      have := mul_le_mul_of_nonneg_left hl (show (0 : ℝ) ≤ 2 ^ 127 by positivity)
      norm_num at *; linarith
    obtain ⟨b, hb, hr⟩ := Fmt.is_div Fmt.good32 is_negone h hu0 (by rw [bias32]; exact hq)
    have e := rnd32 hr
    have hq1 : 99 / 100 ≤ |(-1) / u| := by
      rw [abs_div, abs_neg, abs_one, le_div_iff₀ hup]
      norm_num at *; linarith
    have e2 : |b - (-1) / u| ≤ |(-1) / u| * (59606 / 10 ^ 12) := by
      refine le_trans e ?_
      have : (tiny : ℝ) ≤ |(-1) / u| * (1 / 10 ^ 20) := le_trans (by num) (mul_le_mul_of_nonneg_right hq1 (by norm_num))
      have h3 : |(-1) / u| * ulp + |(-1) / u| * (1 / 10 ^ 20) ≤ |(-1) / u| * (59606 / 10 ^ 12) := by
        rw [← mul_add]; exact mul_le_mul_of_nonneg_left (by num) (abs_nonneg _)
      linarith
    -- multiply by u
    have e3 : |b * u + 1| ≤ 59606 / 10 ^ 12 := by
      have e4 := mul_le_mul_of_nonneg_right e2 (abs_nonneg u)
      rw [← abs_mul, show |(-1) / u| * (59606 / 10 ^ 12) * |u| = |(-1) / u| * |u| * (59606 / 10 ^ 12) by ring, ← abs_mul] at e4
      rw [show (b - (-1) / u) * u = b * u + 1 by field_simp; ring, show (-1) / u * u = -1 by field_simp] at e4
      rw [abs_neg, abs_one, one_mul] at e4
      exact e4
    have hb0 : b ≠ 0 := by
      rintro rfl
      rw [zero_mul, zero_add, abs_one] at e3
      norm_num at e3
    refine ⟨b, hb, hb0, ?_⟩
    have hbp : 0 < |b| := abs_pos.2 hb0
    rw [show -1 / b - u = -(b * u + 1) / b by field_simp; ring, abs_div, abs_neg, div_le_iff₀ hbp]
    have hbl : 98 / 100 ≤ |b| := by
      have h5 := abs_le.1 e3
      have h6 : 99 / 100 ≤ |b * u| := by
        rw [le_abs]; right; norm_num at *; linarith
      rw [abs_mul] at h6
      have h7 := mul_le_mul_of_nonneg_left hu (abs_nonneg b)
      norm_num at *; linarith
    have := mul_le_mul_of_nonneg_left hbl (show (0 : ℝ) ≤ 61 / 10 ^ 9 by norm_num)
    refine le_trans e3 (le_trans ?_ this)
    norm_num
  · obtain ⟨v, h1, h2⟩ := is_negone
    obtain ⟨w, h3, h4⟩ := h
    have ho := f32.one_posR
    rcases eq_or_ne w 0 with hw | hw
    · subst hw
      right
      refine ⟨?_, hl.le⟩
      have hv : v ≠ 0 := by rintro rfl; rw [Int.cast_zero] at h2; linarith
      refine ⟨f32.sign (f32.neg one32) != f32.sign x, ?_⟩
      have : f32.div (f32.neg one32) x = f32.withSign (f32.sign (f32.neg one32) != f32.sign x) f32.inf := by
        unfold Fmt.div
        rw [h1, h3]
        simp only [if_true, if_neg hv]
      rw [this]
      exact val_inf _
    · have hdiv : f32.div (f32.neg one32) x = f32.round (f32.sign (f32.neg one32) != f32.sign x) (v.natAbs * f32.one) w.natAbs := by
        unfold Fmt.div; rw [h1, h3]; simp only [if_neg hw]
      have hwn : 0 < w.natAbs := Int.natAbs_pos.2 hw
      have hv : v = -(f32.one : ℤ) := by
        have : (v : ℝ) = ((-(f32.one : ℤ) : ℤ) : ℝ) := by rw [h2]; push_cast; ring
        exact_mod_cast this
      have hvn : v.natAbs = f32.one := by rw [hv, Int.natAbs_neg]; rfl
      have hw22 : w.natAbs ≤ 2 ^ 22 := by
        have e : ((w.natAbs : ℕ) : ℝ) = |u| * f32.one := by
          rw [← abs_of_pos ho, ← abs_mul, ← h4, Nat.cast_natAbs, Int.cast_abs]
        have e2 : ((w.natAbs : ℕ) : ℝ) ≤ ((2 ^ 22 : ℕ) : ℝ) := by
          rw [e, one32_val]
          have := mul_le_mul_of_nonneg_right hl.le (show (0 : ℝ) ≤ 2 ^ 149 by positivity)
          refine le_trans this (by norm_num)
        exact_mod_cast e2
      have hm : f32.mag 0x7f000000 * w.natAbs ≤ v.natAbs * f32.one := by
        rw [hvn]
        refine le_trans (Nat.mul_le_mul_left _ hw22) ?_
        decide +kernel
      have hr := le_roundMag (by decide) hwn hm
      rw [hdiv]
      unfold Fmt.round
      generalize (f32.sign (f32.neg one32) != f32.sign x) = sg
      generalize f32.roundMag (v.natAbs * f32.one) w.natAbs = t at *
      rcases Nat.lt_or_ge t f32.inf with hi | hi
      · left
        rw [show Nat.min t f32.inf = t from Nat.min_eq_left hi.le]
        have hmag : (2 : ℝ) ^ 127 * f32.one ≤ f32.mag t := by
          have h5 : f32.mag 0x7f000000 ≤ f32.mag t := f32.mag_le_iff.2 hr
          have h6 : f32.mag 0x7f000000 = 2 ^ 127 * f32.one := by decide +kernel
          rw [h6] at h5
          exact_mod_cast h5
        have hB : |((signed sg (f32.mag t) : ℤ) : ℝ) / f32.one| ≥ 2 ^ 127 := by
          rw [abs_div, abs_of_pos ho, ge_iff_le, le_div_iff₀ ho]
          refine le_trans hmag ?_
          unfold signed
          cases sg
          · simp
          · simp
        generalize hb : ((signed sg (f32.mag t) : ℤ) : ℝ) / f32.one = b at *
        refine ⟨b, ⟨_, f32.val_withSign_fin hi, by rw [← hb]; field_simp⟩, ?_, ?_⟩
        · rintro rfl
          rw [abs_zero] at hB
          norm_num at hB
        · refine le_trans (abs_sub _ _) ?_
          have : |-1 / b| ≤ 1 / 2 ^ 127 := by
            rw [abs_div, abs_neg, abs_one]
            exact one_div_le_one_div_of_le (by positivity) hB
          refine le_trans (add_le_add this hl.le) (by norm_num)
      · right
        refine ⟨⟨sg, ?_⟩, hl.le⟩
        rw [show Nat.min t f32.inf = f32.inf from Nat.min_eq_right hi]
        exact val_inf _

/-- C70: for |x| <= 8192 the result is the tangent of an argument at most 7.5e-7 away; it is infinite only if a pole is that near.
Missing: larger arguments, see `c70_large_false`. -/
theorem c70_tan_partial {x : Nat} {r : ℝ} (h : f32.Is x r) (hr : |r| ≤ 8192) :
    ∃ y δ, tan x = some y ∧ |δ| ≤ 75 / 10 ^ 8 ∧
      ((∃ b, f32.Is y b ∧ Real.cos (r + δ) ≠ 0 ∧ b = Real.tan (r + δ)) ∨ ((∃ s, f32.val y = .inf s) ∧ Real.cos (r + δ) = 0)) := by
  obtain ⟨q, a, b, hq, ha, hb, hae, hbe, hab, hbb⟩ := tan_arg h hr
  have hpi := Real.pi_gt_d20
  have ran : ∀ c : ℝ, |c| ≤ 7869 / 10 ^ 4 → Real.arctan (Real.tan c) = c := by
    intro c hc
    have := abs_le.1 hc
    exact Real.arctan_tan (by norm_num at *; linarith) (by norm_num at *; linarith)
  have near : ∀ c t : ℝ, |c - (r - q * (Real.pi / 2))| ≤ 52 / 10 ^ 8 → |c| ≤ 7869 / 10 ^ 4 → |t - Real.tan c| ≤ 22 / 10 ^ 8 →
      |Real.arctan t + q * (Real.pi / 2) - r| ≤ 75 / 10 ^ 8 := by
    intro c t h1 h2 h3
    have h4 := arctan_lipschitz t (Real.tan c)
    rw [ran c h2] at h4
    have h5 := abs_add_le (Real.arctan t - c) (c - (r - q * (Real.pi / 2)))
    rw [show Real.arctan t - c + (c - (r - q * (Real.pi / 2))) = Real.arctan t + q * (Real.pi / 2) - r by ring] at h5
    refine le_trans h5 (le_trans (add_le_add (le_trans h4 h3) h1) (by norm_num))
  have sgn : ∀ m : ℤ, ((-1 : ℝ) ^ m) ≠ 0 := fun m => zpow_ne_zero _ (by norm_num)
  rcases Int.even_or_odd' q with ⟨m, hm | hm⟩
  · obtain ⟨c, hc, hce, -⟩ := tanPoly_spec hb hbb
    refine ⟨_, Real.arctan c + q * (Real.pi / 2) - r, ?_, near b c hbe hbb (le_trans hce (by norm_num)), .inl ⟨c, hc, ?_, ?_⟩⟩
    · rw [tan_eq, hq]
      simp only [Option.map_some]
      rw [if_pos (by omega)]
    · rw [add_sub_cancel, hm]
      push_cast
      rw [show Real.arctan c + 2 * (m : ℝ) * (Real.pi / 2) = Real.arctan c + m * Real.pi by ring, Real.cos_add_int_mul_pi]
      exact mul_ne_zero (sgn m) (Real.cos_arctan_pos c).ne'
    · rw [add_sub_cancel, hm]
      push_cast
      rw [show Real.arctan c + 2 * (m : ℝ) * (Real.pi / 2) = Real.arctan c + m * Real.pi by ring, Real.tan_add_int_mul_pi, Real.tan_arctan]
  · obtain ⟨c, hc, hce, hcb⟩ := tanPoly_spec ha hab
    have ht : tan x = some (f32.div (f32.neg one32) (tanPoly (reduce 2 x (f32.ofInt q)))) := by
      rw [tan_eq, hq]
      simp only [Option.map_some]
      rw [if_neg (by omega)]
    have ang : ∀ z : ℝ, z + q * (Real.pi / 2) = z + Real.pi / 2 + m * Real.pi := by
      intro z; rw [hm]; push_cast; ring
    rcases recip_spec hc hcb with ⟨d, hd, hd0, hde⟩ | ⟨hinf, hc0⟩
    · refine ⟨_, Real.arctan (-1 / d) + q * (Real.pi / 2) - r, ht, near a _ hae hab ?_, .inl ⟨d, hd, ?_, ?_⟩⟩
      · have := abs_add_le (-1 / d - c) (c - Real.tan a)
        rw [sub_add_sub_cancel] at this
        refine le_trans this (le_trans (add_le_add hde hce) (by norm_num))
      · rw [add_sub_cancel, ang, Real.cos_add_int_mul_pi, Real.cos_add_pi_div_two]
        refine mul_ne_zero (sgn m) (neg_ne_zero.2 ?_)
        intro h0
        have := Real.tan_arctan (-1 / d)
        rw [Real.tan_eq_sin_div_cos, h0, zero_div] at this
        exact div_ne_zero (by norm_num) hd0 this.symm
      · rw [add_sub_cancel, ang, Real.tan_add_int_mul_pi,
          show Real.arctan (-1 / d) + Real.pi / 2 = Real.pi / 2 - Real.arctan (-(-1 / d)) by rw [Real.arctan_neg]; ring,
          Real.tan_pi_div_two_sub, Real.tan_arctan, ← neg_div, neg_neg, one_div, inv_inv]
    · refine ⟨_, Real.arctan 0 + q * (Real.pi / 2) - r, ht, near a _ hae hab ?_, .inr ⟨hinf, ?_⟩⟩
      · have := abs_add_le (0 - c) (c - Real.tan a)
        rw [sub_add_sub_cancel, zero_sub, zero_sub, abs_neg c] at this
        rw [zero_sub]
        refine le_trans this (le_trans (add_le_add hc0 hce) (by norm_num))
      · rw [add_sub_cancel, ang, Real.cos_add_int_mul_pi, Real.cos_add_pi_div_two, Real.arctan_zero, Real.sin_zero, neg_zero, mul_zero]

/-- The hypotheses are met: at 1, where the quotient branch is taken. -/
example : f32.Is 0x3f800000 1 ∧ |(1 : ℝ)| ≤ 8192 ∧ tan 0x3f800000 = some 0x3fc75924 ∧ f32.Is 0x3fc75924 (13064484 / 2 ^ 23) := by
  refine ⟨is_one32, by norm_num, by decide +kernel, ⟨13064484 * 2 ^ 126, by decide +kernel, ?_⟩⟩
  rw [one32_val]; push_cast; norm_num

/-- C70 fails for large arguments: at 10^9 the result is about 2.4e14, though the tangent there, and of every argument up to 0.1 away, is below 2;
at 5 * 10^9, infinity and NaN the conversion to `int` is undefined. -/
theorem c70_large_false : f32.Is 0x4e6e6b28 (10 ^ 9) ∧ (∃ y, tan 0x4e6e6b28 = some y ∧ f32.Is y 236293095161856) ∧
    (∀ δ : ℝ, |δ| ≤ 1 / 10 → |Real.tan (10 ^ 9 + δ)| ≤ 2) ∧
    tan 0x4f9502f9 = none ∧ (∃ v, f32.val 0x4f9502f9 = .fin v) ∧ tan f32.inf = none ∧ tan f32.qnan = none := by
  refine ⟨⟨10 ^ 9 * 2 ^ 149, by decide +kernel, ?_⟩, ⟨1465313350, by decide +kernel, ⟨236293095161856 * 2 ^ 149, by decide +kernel, ?_⟩⟩, ?_, by decide +kernel, ?_,
    by decide +kernel, by decide +kernel⟩
  · rw [one32_val]; push_cast; norm_num
  · rw [one32_val]; push_cast; norm_num
  · intro δ hδ
    have h1 := Real.pi_gt_d20
    have h2 := Real.pi_lt_d20
    obtain ⟨d1, d2⟩ := abs_le.1 hδ
    have e : (10 ^ 9 + δ : ℝ) = (10 ^ 9 + δ - 318309886 * Real.pi) + ((318309886 : ℤ) : ℝ) * Real.pi := by push_cast; ring
    rw [e, Real.tan_add_int_mul_pi]
    have hd : |10 ^ 9 + δ - 318309886 * Real.pi| ≤ 1 := by
      rw [abs_le]; constructor <;> norm_num at * <;> linarith
    generalize 10 ^ 9 + δ - 318309886 * Real.pi = d at hd
    have hc := Real.one_sub_sq_div_two_le_cos (x := d)
    have hd2 : d ^ 2 ≤ 1 := by rw [← sq_abs]; exact pow_le_one₀ (abs_nonneg _) hd
    have hc2 : 1 / 2 ≤ Real.cos d := by linarith
    rw [Real.tan_eq_sin_div_cos, abs_div, abs_of_pos (show 0 < Real.cos d by linarith), div_le_iff₀ (by linarith)]
    linarith [Real.abs_sin_le_one d]
  · exact ⟨_, f32.val_of_low_lt (by decide +kernel)⟩

/-- The relative error of small numbers is not bounded: the tangent of 2^-30 is 0. -/
theorem c70_small_false : f32.Is 0x30800000 (1 / 2 ^ 30) ∧ tan 0x30800000 = some 0 := by
  refine ⟨⟨2 ^ 119, by decide +kernel, ?_⟩, by decide +kernel⟩
  rw [one32_val]; push_cast; norm_num

end Nanostl.Math

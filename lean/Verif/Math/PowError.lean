import Verif.Math.PowProps
import Verif.Math.LogProps
import Verif.Math.ExpProps

/-!
C65: the error of `pow` (nanomath.h:513-543) where the result is a normal number.
-/

namespace Nanostl.Math
open Nanostl.Float

theorem is_fabs {x : Nat} {r : ℝ} (h : f32.Is x r) : f32.Is (fabs f32 x) |r| := by
  obtain ⟨v, h1, h2⟩ := h
  refine ⟨_, val_fabs Fmt.good32 h1, ?_⟩
  have ho := f32.one_posR
  have : ((v.natAbs : ℤ) : ℝ) = |(v : ℝ)| := by
    rw [Int.natCast_natAbs, Int.cast_abs]
  rw [this, h2, abs_mul, abs_of_pos ho]

theorem fabs_lt {x : Nat} (h : x < f32.size) : fabs f32 x < f32.size := by
  unfold fabs
  split
  · exact Fmt.neg_lt x
  · exact h

theorem small_iff {x : Nat} {r : ℝ} (h : f32.Is x r) : Small x ↔ |r| < 1 / 2 ^ 23 := by
  obtain ⟨v, h1, h2⟩ := h
  have hr : |r| = v.natAbs / 2 ^ 149 := by
    have : ((v.natAbs : ℤ) : ℝ) = |(v : ℝ)| := by rw [Int.natCast_natAbs, Int.cast_abs]
    rw [Int.cast_natCast] at this
    rw [this, h2, abs_mul, one32_val, abs_of_pos (by norm_num : (0 : ℝ) < 2 ^ 149)]
    field_simp
  have e : |r| < 1 / 2 ^ 23 ↔ v.natAbs < 2 ^ 126 := by
    rw [hr, div_lt_iff₀ (by norm_num), show (1 : ℝ) / 2 ^ 23 * 2 ^ 149 = 2 ^ 126 by norm_num]
    exact_mod_cast Iff.rfl
  rw [e]
  constructor
  · rintro ⟨w, hw, hlt⟩
    rw [h1] at hw
    cases hw
    exact hlt
  · exact fun h => ⟨v, h1, h⟩

/-- The value that `pow` computes before the sign: the power of the magnitude. -/
theorem pow_core {x y : Nat} {R s : ℝ} (hx : x < f32.size) (h : f32.Is x R) (hR : 1 / 2 ^ 23 ≤ R) (hy : f32.Is y s) (hs : |s| ≤ 10 ^ 4)
    (hb : |s * Real.logb 2 R| ≤ 125) :
    ∃ e b, fastExp2 (f32.mul y (fastLog2 x)) = some e ∧ f32.Is e b ∧ |b - R ^ s| ≤ (3 + |s| / 10) / 10 ^ 5 * R ^ s := by
  have hR0 : 0 < R := lt_of_lt_of_le (by norm_num) hR
  obtain ⟨a, c, h1, -, -, h4, h5, h6, -⟩ := fastLog2_spec hx
  rw [h6 R h (le_trans (by norm_num) hR)] at h4
  set l := Real.logb 2 R with hl
  have hs0 := abs_nonneg s
  -- the exponent
  have e1 : |s * c - s * l| ≤ |s| * (105 / 10 ^ 8) + 125 / 2 ^ 24 := by
    rw [← mul_sub, abs_mul]
    rw [abs_mul] at hb
    calc |s| * |c - l| ≤ |s| * (105 / 10 ^ 8 + |l| / 2 ^ 24) := mul_le_mul_of_nonneg_left h4 hs0
      _ = |s| * (105 / 10 ^ 8) + |s| * |l| / 2 ^ 24 := by ring
      _ ≤ _ := by
        have := div_le_div_of_nonneg_right hb (show (0 : ℝ) ≤ 2 ^ 24 by norm_num)
        linarith
  have e2 : |s * c| ≤ 12501 / 100 + 2 / 100 := by
    have := abs_add_le (s * c - s * l) (s * l)
    rw [sub_add_cancel] at this
    linarith
  obtain ⟨t, ht, hr⟩ := Fmt.is_mul Fmt.good32 hy h1 (le_trans e2 (by rw [bias32]; norm_num))
  have e3 : |t - s * c| ≤ 75 / 10 ^ 7 := by
    refine le_trans (rnd32 hr) ?_
    have := mul_le_mul_of_nonneg_right e2 (show (0 : ℝ) ≤ ulp by num)
    unfold ulp tiny at *
    norm_num at this ⊢
    linarith
  have e4 : |t - s * l| ≤ |s| * (105 / 10 ^ 8) + 15 / 10 ^ 6 := by
    have := abs_add_le (t - s * c) (s * c - s * l)
    rw [sub_add_sub_cancel] at this
    norm_num at e1 e3 ⊢
    linarith
  have e5 : |t| ≤ 1259 / 10 := by
    have := abs_add_le (t - s * c) (s * c)
    rw [sub_add_cancel] at this
    linarith
  obtain ⟨a', e, b, f1, -, f3, -, -, f5, f6⟩ := fastExp2_spec (f32.mul y (fastLog2 x))
  have ha : a' = t := f6 t ht (le_trans e5 (by norm_num))
  subst ha
  have f7 := f5 (by linarith [(abs_le.1 e5).1])
  refine ⟨e, b, f1, f3, ?_⟩
  -- the power
  have hL := ln2_near.2
  have hL1 : Real.log 2 ≤ 6932 / 10000 := by
    have := (abs_le.1 Real.log_two_near_10).2
    norm_num at this ⊢; linarith
  have hu : |(a' - s * l) * Real.log 2| ≤ |s| * (7279 / 10 ^ 10) + 104 / 10 ^ 7 := by
    rw [abs_mul, abs_of_pos hL.1]
    calc _ ≤ (|s| * (105 / 10 ^ 8) + 15 / 10 ^ 6) * (6932 / 10000) := mul_le_mul e4 hL1 hL.1.le (by positivity)
      _ ≤ _ := by norm_num; linarith
  have hE : (2 : ℝ) ^ a' = R ^ s * Real.exp ((a' - s * l) * Real.log 2) := by
    rw [rpow_exp, Real.rpow_def_of_pos hR0, ← Real.exp_add]
    congr 1
    have := logb_mul_log R
    rw [← hl] at this
    rw [← this]
    ring
  set u := (a' - s * l) * Real.log 2 with hu'
  have hu1 : |u| ≤ 74 / 10 ^ 4 := by norm_num at hu hs ⊢; linarith
  have hexp := Real.abs_exp_sub_one_sub_id_le (x := u) (le_trans hu1 (by norm_num))
  have hsq : u ^ 2 ≤ 74 / 10 ^ 4 * |u| := by
    rw [← sq_abs, sq]
    exact mul_le_mul_of_nonneg_right hu1 (abs_nonneg _)
  have hq : |Real.exp u - 1| ≤ |s| * (74 / 10 ^ 8) + 106 / 10 ^ 7 := by
    have := abs_add_le (Real.exp u - 1 - u) u
    rw [sub_add_cancel] at this
    norm_num at hu hsq ⊢
    linarith
  have hp : 0 < R ^ s := Real.rpow_pos_of_pos hR0 s
  rw [hE] at f7
  generalize Real.exp u = q at *
  generalize R ^ s = P at *
  have hqb := abs_le.1 hq
  have hq2 : q ≤ 2 := by norm_num at hqb hs; linarith [hqb.2]
  have g1 : |b - P| ≤ |b - P * q| + |P * q - P| := by
    have := abs_add_le (b - P * q) (P * q - P)
    rwa [sub_add_sub_cancel] at this
  have g2 : |P * q - P| = P * |q - 1| := by
    rw [show P * q - P = P * (q - 1) by ring, abs_mul, abs_of_pos hp]
  have g3 : P * |q - 1| ≤ P * (|s| * (74 / 10 ^ 8) + 106 / 10 ^ 7) := mul_le_mul_of_nonneg_left hq hp.le
  have g4 : 17 / 10 ^ 6 * (P * q) ≤ P * (17 / 10 ^ 6 * (1 + |s| * (74 / 10 ^ 8) + 106 / 10 ^ 7)) := by
    have : q ≤ 1 + |s| * (74 / 10 ^ 8) + 106 / 10 ^ 7 := by linarith [hqb.2]
    calc 17 / 10 ^ 6 * (P * q) = P * (17 / 10 ^ 6 * q) := by ring
      _ ≤ _ := mul_le_mul_of_nonneg_left (mul_le_mul_of_nonneg_left this (by norm_num)) hp.le
  have g5 : |b - P| ≤ P * (17 / 10 ^ 6 * (1 + |s| * (74 / 10 ^ 8) + 106 / 10 ^ 7) + (|s| * (74 / 10 ^ 8) + 106 / 10 ^ 7)) := by
    rw [mul_add]
    linarith
  refine le_trans g5 ?_
  rw [mul_comm P]
  refine mul_le_mul_of_nonneg_right ?_ hp.le
  norm_num
  linarith

/-- C65 for positive bases: the error of `pow(x, y)` is at most `(3e-5 + 1e-6 |y|) x^y`, for bases from 2^-23 on, exponents from 2^-23 to 10^4 in magnitude
and results from 2^-125 to 2^125. -/
theorem c65_pow_error {x y : Nat} {r s : ℝ} (c : Bool) (hx : x < f32.size) (h : f32.Is x r) (hr : 1 / 2 ^ 23 ≤ r) (hy : f32.Is y s)
    (hs1 : 1 / 2 ^ 23 ≤ |s|) (hs : |s| ≤ 10 ^ 4) (hb : |s * Real.logb 2 r| ≤ 125) :
    ∃ p b, pow c x y = some p ∧ f32.Is p b ∧ |b - r ^ s| ≤ (3 + |s| / 10) / 10 ^ 5 * r ^ s := by
  have hr0 : 0 < r := lt_of_lt_of_le (by norm_num) hr
  have t1 : ¬f32.lt (fabs f32 y) epsilon32 = true := fun hc => absurd ((small_iff hy).1 (lt_eps.1 hc)) (by linarith)
  have t2 : ¬f32.lt (fabs f32 x) epsilon32 = true := fun hc => absurd ((small_iff h).1 (lt_eps.1 hc)) (by rw [abs_of_pos hr0]; linarith)
  have hn := (pos_cases h hr0).2
  have hpos := Real.rpow_pos_of_pos hr0 s
  have h0 : 0 ≤ (3 + |s| / 10) / 10 ^ 5 * r ^ s := by positivity
  unfold pow
  rw [if_neg t1, if_neg t2]
  have hf : fabs f32 x = x := by unfold fabs; rw [hn]; rfl
  by_cases c1 : f32.eq y one32 = true
  · rw [if_pos c1]
    have : s = 1 := (Fmt.is_eq hy is_one32).1 c1
    refine ⟨x, r, rfl, h, ?_⟩
    rw [this, Real.rpow_one, sub_self, abs_zero]
    positivity
  · rw [if_neg c1]
    have is_two : f32.Is (f32.litPos 2 0) 2 := ⟨2 * f32.one, by decide +kernel, by push_cast; ring⟩
    by_cases c2 : f32.eq y (f32.litPos 2 0) = true
    · rw [if_pos c2]
      have h2 : s = 2 := (Fmt.is_eq hy is_two).1 c2
      have hrr : r ^ s = r * r := by rw [h2, ← Nat.cast_ofNat, Real.rpow_natCast, sq]
      -- the square is not above the greatest value
      have hlb : r * r ≤ 2 ^ 125 := by
        rw [h2] at hb
        have h3 : Real.logb 2 (r * r) ≤ 125 := by
          rw [Real.logb_mul hr0.ne' hr0.ne']
          linarith [(abs_le.1 hb).2]
        rw [Real.logb_le_iff_le_rpow (by norm_num) (mul_pos hr0 hr0)] at h3
        refine le_trans h3 (le_of_eq ?_)
        rw [← Nat.cast_ofNat (n := 125), Real.rpow_natCast]
      obtain ⟨b, hb1, hb2⟩ := Fmt.is_mul Fmt.good32 h h (by
        rw [bias32, abs_of_pos (mul_pos hr0 hr0)]
        exact le_trans hlb (by norm_num))
      have he := rnd32 hb2
      rw [abs_of_pos (mul_pos hr0 hr0)] at he
      have hbm : b ≤ (2 ^ 24 - 1) * 2 ^ 104 := by
        refine hb2.le _ _ is_floatMax (le_trans hlb (by norm_num))
      have hmin : min32 (f32.mul x x) floatMax = f32.mul x x ∨ b = (2 ^ 24 - 1) * 2 ^ 104 := by
        unfold min32
        by_cases hc : f32.lt floatMax (f32.mul x x) = true
        · right
          exact absurd ((Fmt.is_lt is_floatMax hb1).1 hc) (by linarith)
        · left
          simp [hc]
      refine ⟨min32 (f32.mul x x) floatMax, b, rfl, ?_, ?_⟩
      · rcases hmin with hm | hm
        · rw [hm]; exact hb1
        · unfold min32
          split
          · exact hb1
          · rw [hm]; exact is_floatMax
      · rw [hrr, h2]
        have : (1 : ℝ) / 2 ^ 46 ≤ r * r := by
          calc (1 : ℝ) / 2 ^ 46 = (1 / 2 ^ 23) * (1 / 2 ^ 23) := by norm_num
            _ ≤ r * r := mul_le_mul hr hr (by norm_num) hr0.le
        rw [abs_of_pos (by norm_num : (0 : ℝ) < 2)]
        refine le_trans he ?_
        unfold ulp tiny
        norm_num at this ⊢
        linarith
    · rw [if_neg c2, hn, hf]
      obtain ⟨e, b, h1, h2, h3⟩ := pow_core hx h hr hy hs hb
      have hlt : e < f32.inf := by
        obtain ⟨a, e', b', g1, g2, -⟩ := fastExp2_spec (f32.mul y (fastLog2 x))
        rw [h1] at g1
        cases g1
        exact g2
      rw [h1]
      refine ⟨e, b, ?_, h2, h3⟩
      show some (f32.mul one32 e) = _
      have := mul_unit false hlt
      rw [show f32.withSign false one32 = one32 from rfl] at this
      rw [this]; rfl

/-- C65 for negative bases (C++20): the same bound, with the sign of the power. -/
theorem c65_pow_negative {x y : Nat} {r : ℝ} {k : ℤ} (hx : x < f32.size) (h : f32.Is x r) (hr : 1 / 2 ^ 23 ≤ -r) (hy : f32.Is y k)
    (hk0 : k ≠ 0) (hk1 : k ≠ 1) (hk2 : k ≠ 2) (hs : |(k : ℝ)| ≤ 10 ^ 4) (hb : |k * Real.logb 2 (-r)| ≤ 125) :
    ∃ p b, pow true x y = some p ∧ f32.Is p b ∧ |b - r ^ k| ≤ (3 + |(k : ℝ)| / 10) / 10 ^ 5 * |r ^ k| := by
  have hr0 : r < 0 := by
    have : (0 : ℝ) < 1 / 2 ^ 23 := by norm_num
    linarith
  have hop : (0 : ℤ) < f32.one := by exact_mod_cast Nat.two_pow_pos _
  have hopn : 0 < f32.one := Nat.two_pow_pos _
  have hlt : f32.lt x zero = true := (Fmt.is_lt h (Fmt.is_zero Fmt.good32)).2 hr0
  have hsx : ¬Small x := fun hc => absurd ((small_iff h).1 hc) (by rw [abs_of_neg hr0]; linarith)
  have hk1' : (1 : ℝ) ≤ |(k : ℝ)| := by
    have : 1 ≤ |k| := Int.one_le_abs hk0
    exact_mod_cast this
  have hsy : ¬Small y := fun hc => absurd ((small_iff hy).1 hc) (by norm_num; linarith)
  obtain ⟨v, hv, hvk⟩ := hy
  have hvk' : v = k * f32.one := by exact_mod_cast hvk
  subst hvk'
  have n1 : k * (f32.one : ℤ) ≠ f32.one := fun h => hk1 (mul_right_cancel₀ (ne_of_gt hop) (h.trans (one_mul _).symm))
  have n2 : k * (f32.one : ℤ) ≠ 2 * f32.one := fun h => hk2 (mul_right_cancel₀ (ne_of_gt hop) h)
  obtain ⟨e, b', hlte, -, -, he, -, -, h3⟩ := pow_eq true hlt hsx hsy hv n1 n2
  have ha : |r| = -r := abs_of_neg hr0
  have hfx := is_fabs h
  rw [ha] at hfx
  obtain ⟨e', b, c1, c2, c3⟩ := pow_core (fabs_lt hx) hfx hr ⟨_, hv, hvk⟩ hs hb
  rw [he] at c1
  cases c1
  rw [Real.rpow_intCast] at c3
  have habs : |r ^ k| = (-r) ^ k := by rw [abs_zpow, ha]
  have hd : f32.one ∣ (k * (f32.one : ℤ)).natAbs := by rw [Int.natAbs_mul, Int.natAbs_natCast]; exact Dvd.intro_left _ rfl
  have hdiv : (k * (f32.one : ℤ)).natAbs / f32.one = k.natAbs := by
    rw [Int.natAbs_mul, Int.natAbs_natCast, Nat.mul_div_cancel _ hopn]
  have hne : k * (f32.one : ℤ) ≠ 0 := mul_ne_zero hk0 (ne_of_gt hop)
  rw [habs]
  rcases Int.even_or_odd k with hev | hodd
  · have hps := (powSign_spec hv true).2.2 hd hne (by rw [hdiv]; obtain ⟨m, rfl⟩ := hev; omega)
    rw [Bool.true_or, if_pos rfl] at hps
    refine ⟨_, b, h3 false hps, c2, ?_⟩
    rw [← hev.neg_zpow]; exact c3
  · have hps := ((powSign_spec hv true).2.1 hd hne (by rw [hdiv]; obtain ⟨m, rfl⟩ := hodd; omega)).2
    refine ⟨_, -b, h3 true (by rw [hps, if_pos rfl]; decide +kernel), ?_, ?_⟩
    · have := c2.neg
      have hne' : f32.neg e = f32.withSign true e := by
        have hh := f32.inf_lt_half
        have e0 : f32.withSign false e = e := rfl
        unfold Fmt.neg
        conv_lhs => rw [← e0]
        rw [f32.sign_withSign (by omega), f32.low_withSign (by omega)]
        rfl
      rwa [hne'] at this
    · have : r ^ k = -((-r) ^ k) := by rw [hodd.neg_zpow, neg_neg]
      rw [this, show -b - -((-r) ^ k) = -(b - (-r) ^ k) by ring, abs_neg]
      exact c3

/-- 2^10 and (-2)^3. -/
example : f32.Is 0x40000000 2 ∧ f32.Is 0x41200000 10 ∧ |(10 : ℝ) * Real.logb 2 2| ≤ 125 ∧ f32.Is 0x40400000 (3 : ℤ) := by
  refine ⟨⟨2 * f32.one, by decide +kernel, by push_cast; ring⟩, ⟨10 * f32.one, by decide +kernel, by push_cast; ring⟩, ?_,
    ⟨3 * f32.one, by decide +kernel, by push_cast; ring⟩⟩
  rw [Real.logb_self_eq_one (by norm_num)]; norm_num

end Nanostl.Math

import Verif.Float.Half
import Verif.Math.Props
import Mathlib.Analysis.Real.Pi.Bounds

/-!
The argument reduction of `sin`, `cos` and `tan` (nanomath.h:551-556, 576-581, 604-609).
-/

namespace Nanostl.Math
open Nanostl.Float

theorem is_half32 : f32.Is (f32.litNeg 5 1) (1 / 2) := by
  refine ⟨2 ^ 148, by decide +kernel, ?_⟩
  rw [one32_val]; push_cast; norm_num

/-- The sign bit of a finite number. -/
theorem sign_cases {z : Nat} {a : ℝ} (h : f32.Is z a) : (f32.sign z = true → a ≤ 0) ∧ (f32.sign z = false → 0 ≤ a) := by
  obtain ⟨v, hv, hva⟩ := h
  obtain ⟨-, hvs⟩ := f32.val_eq_fin hv
  have hop := f32.one_posR
  have hm0 : (0 : ℝ) ≤ f32.mag (f32.low z) := Nat.cast_nonneg _
  constructor
  · intro hs
    rw [hvs, hs] at hva
    simp only [signed, if_true] at hva
    push_cast at hva
    by_contra hc
    have := mul_pos (not_le.1 hc) hop
    linarith
  · intro hs
    rw [hvs, hs] at hva
    simp only [signed, Bool.false_eq_true, if_false] at hva
    push_cast at hva
    by_contra hc
    have := mul_neg_of_neg_of_pos (not_le.1 hc) hop
    linarith

/-- `copysign(w, z)` as a number. -/
theorem is_copysign {w z : Nat} {b : ℝ} (hz : z < f32.size) (h : f32.Is w b) :
    f32.Is (copysign w z) (if f32.sign z = true then -|b| else |b|) := by
  obtain ⟨h1, h2, h3⟩ := c40_copysign w z (by rw [size32] at hz; omega)
  obtain ⟨v, hv, hvb⟩ := h
  obtain ⟨hlow, hvs⟩ := f32.val_eq_fin hv
  have hop := f32.one_posR
  refine ⟨_, f32.val_of_low_lt (by rw [h2]; exact hlow), ?_⟩
  rw [h2, h3]
  have hab : (f32.mag (f32.low w) : ℝ) = |b| * f32.one := by
    rw [← abs_of_pos hop, ← abs_mul, ← hvb, hvs]
    unfold signed
    split <;> simp
  unfold signed
  split
  · push_cast; rw [hab]; ring
  · push_cast; rw [hab]

/-- `copysign(0.5f, z)`. -/
theorem is_copysign_half {z : Nat} {a : ℝ} (hz : z < f32.size) (h : f32.Is z a) :
    (f32.Is (copysign (f32.litNeg 5 1) z) (1 / 2) ∧ 0 ≤ a) ∨ (f32.Is (copysign (f32.litNeg 5 1) z) (-(1 / 2)) ∧ a ≤ 0) := by
  have hc := is_copysign hz is_half32
  rw [abs_of_pos (by norm_num : (0 : ℝ) < 1 / 2)] at hc
  cases hs : f32.sign z
  · rw [hs] at hc
    exact .inl ⟨by simpa using hc, (sign_cases h).2 hs⟩
  · rw [hs] at hc
    exact .inr ⟨by simpa using hc, (sign_cases h).1 hs⟩

/-- `fast_rint`: the nearest integer, but for rounding. -/
theorem fastRint_spec {z : Nat} {a : ℝ} (hz : z < f32.size) (h : f32.Is z a) (ha : |a| ≤ 2 ^ 20) :
    ∃ q : ℤ, fastRint z = some q ∧ |a - q| ≤ 1 / 2 + (|a| + 1) / 2 ^ 24 ∧ |(q : ℝ)| ≤ |a| + 1 := by
  unfold fastRint
  have ha' := abs_le.1 ha
  have body : ∀ s : ℝ, f32.Is (copysign (f32.litNeg 5 1) z) s → |s| = 1 / 2 → (0 ≤ a ∧ 0 ≤ s ∨ a ≤ 0 ∧ s ≤ 0) →
      ∃ q : ℤ, f32.toInt (f32.add z (copysign (f32.litNeg 5 1) z)) = some q ∧ |a - q| ≤ 1 / 2 + (|a| + 1) / 2 ^ 24 ∧ |(q : ℝ)| ≤ |a| + 1 := by
    intro s hs hs1 hsg
    have hb : |a + s| ≤ |a| + 1 / 2 := by rw [← hs1]; exact abs_add_le _ _
    obtain ⟨c, hc, hr, he⟩ := Fmt.is_add Fmt.good32 h hs (by
      rw [bias32]; refine le_trans hb ?_; refine le_trans (add_le_add_left ha _) ?_; norm_num)
    have he' : |c - (a + s)| ≤ (|a| + 1) / 2 ^ 24 := by
      refine le_trans he ?_
      show |a + s| / 2 ^ 24 ≤ _
      exact div_le_div_of_nonneg_right (by linarith) (by norm_num)
    have hcb : |c| ≤ |a| + 1 := by
      have := abs_add_le (c - (a + s)) (a + s)
      rw [sub_add_cancel] at this
      have h0 := abs_nonneg a
      linarith
    obtain ⟨m, m1, m2, m3, m4, m5⟩ := Fmt.toInt_real hc (lt_of_le_of_lt hcb (by linarith))
    refine ⟨m, m1, ?_, le_trans m3 hcb⟩
    have m2' := abs_lt.1 m2
    have he2 := abs_le.1 he'
    have zf := Fmt.is_zero Fmt.good32
    rcases hsg with ⟨p1, p2⟩ | ⟨p1, p2⟩
    · rw [abs_of_nonneg p2] at hs1
      have hc0 : 0 ≤ c := hr.ge _ _ zf (by linarith)
      have := m4 hc0
      rw [abs_le]
      constructor <;> linarith
    · rw [abs_of_nonpos p2] at hs1
      have hc0 : c ≤ 0 := hr.le _ _ zf (by linarith)
      have := m5 hc0
      rw [abs_le]
      constructor <;> linarith
  rcases is_copysign_half hz h with ⟨h1, h2⟩ | ⟨h1, h2⟩
  · exact body _ h1 (by norm_num) (.inl ⟨h2, by norm_num⟩)
  · exact body _ h1 (by norm_num) (.inr ⟨h2, by norm_num⟩)

/-- A product of an integer with a number of few bits is exact. -/
theorem mul_exact {x y : Nat} {q n : ℤ} {s : Nat} (hx : f32.Is x q) (hy : f32.Is y (n * 2 ^ s / 2 ^ 149)) (hs : s ≤ 252)
    (h : (q * n).natAbs ≤ 2 ^ 24) : f32.Is (f32.mul x y) (q * (n * 2 ^ s / 2 ^ 149)) := by
  obtain ⟨z, hz⟩ := is_grid (m := q * n) h hs
  have e : ((q * n : ℤ) : ℝ) * 2 ^ s / 2 ^ 149 = q * (n * 2 ^ s / 2 ^ 149) := by push_cast; ring
  rw [e] at hz
  have hb : |(q : ℝ) * (n * 2 ^ s / 2 ^ 149)| ≤ 2 ^ 127 := by
    have h1 : |((q * n : ℤ) : ℝ)| ≤ 2 ^ 24 := by
      rw [← Int.cast_abs, Int.abs_eq_natAbs]; exact_mod_cast h
    rw [← e, abs_div, abs_mul, abs_of_pos (by positivity : (0 : ℝ) < 2 ^ s), abs_of_pos (by positivity : (0 : ℝ) < 2 ^ 149),
      div_le_iff₀ (by positivity)]
    calc _ ≤ (2 : ℝ) ^ 24 * 2 ^ 252 := mul_le_mul h1 (pow_le_pow_right₀ (by norm_num) hs) (by positivity) (by positivity)
      _ ≤ _ := by norm_num
  obtain ⟨c, hc, hr⟩ := Fmt.is_mul Fmt.good32 hx hy (by rw [bias32]; exact hb)
  rw [hr.exact hz] at hc
  exact hc

/-! ### The constants -/

/-- The four parts of `pi / 4`, times `2^j`. -/
theorem is_red {j : Nat} (hj : j = 1 ∨ j = 2) :
    f32.Is (f32.mul (negLit 78515625 8) (f32.ofInt (2 ^ j))) ((-201 : ℤ) * 2 ^ (141 + j) / 2 ^ 149) ∧
    f32.Is (f32.mul (negLit 24187564849853515625 23) (f32.ofInt (2 ^ j))) ((-2029 : ℤ) * 2 ^ (126 + j) / 2 ^ 149) ∧
    f32.Is (f32.mul (negLit 37747668102383613586 27) (f32.ofInt (2 ^ j))) ((-1297 : ℤ) * 2 ^ (114 + j) / 2 ^ 149) ∧
    f32.Is (f32.mul (negLit 12816720341285448015 31) (f32.ofInt (2 ^ j))) ((-11821338 : ℤ) * 2 ^ (86 + j) / 2 ^ 149) := by
  rcases hj with rfl | rfl
  · refine ⟨⟨-201 * 2 ^ 142, by decide +kernel, ?_⟩, ⟨-2029 * 2 ^ 127, by decide +kernel, ?_⟩,
      ⟨-1297 * 2 ^ 115, by decide +kernel, ?_⟩, ⟨-11821338 * 2 ^ 87, by decide +kernel, ?_⟩⟩ <;>
    · rw [one32_val]; norm_num
  · refine ⟨⟨-201 * 2 ^ 143, by decide +kernel, ?_⟩, ⟨-2029 * 2 ^ 128, by decide +kernel, ?_⟩,
      ⟨-1297 * 2 ^ 116, by decide +kernel, ?_⟩, ⟨-11821338 * 2 ^ 88, by decide +kernel, ?_⟩⟩ <;>
    · rw [one32_val]; norm_num

/-- The reduction is subtraction of a multiple of `pi 2^j / 4`, with a small error. -/
theorem reduce_spec {j : Nat} (hj : j = 1 ∨ j = 2) {x : Nat} {X : ℝ} {q : ℤ} (h : f32.Is x X) (hq : |(q : ℝ)| * 2 ^ j ≤ 10440)
    (hr : |X - q * (Real.pi * 2 ^ j / 4)| ≤ 15724 / 10 ^ 4) :
    Ap (reduce (2 ^ j) x (f32.ofInt q)) (X - q * (Real.pi * 2 ^ j / 4)) (15724 / 10 ^ 4) (42 / 10 ^ 8) := by
  obtain ⟨c1, c2, c3, c4⟩ := is_red hj
  have hj2 : (2 : ℝ) ≤ 2 ^ j := by rcases hj with rfl | rfl <;> norm_num
  have hj0 : (0 : ℝ) < 2 ^ j := by linarith
  have hq5 : |(q : ℝ)| ≤ 5220 := by
    have := abs_nonneg (q : ℝ)
    nlinarith
  have hqn : q.natAbs ≤ 5220 := by
    rw [← Int.cast_abs, Int.abs_eq_natAbs] at hq5
    exact_mod_cast hq5
  have iq := Fmt.is_ofInt Fmt.good32 (by decide) (i := q) (by show q.natAbs ≤ 2 ^ 24; omega)
  have m1 := mul_exact iq c1 (by omega) (by rw [Int.natAbs_mul]; simp; omega)
  have m2 := mul_exact iq c2 (by omega) (by rw [Int.natAbs_mul]; simp; omega)
  have m3 := mul_exact iq c3 (by omega) (by rw [Int.natAbs_mul]; simp; omega)
  obtain ⟨Q, hQ⟩ : ∃ Q : ℝ, Q = q * 2 ^ j := ⟨_, rfl⟩
  have hQ1 : |Q| ≤ 10440 := by rw [hQ, abs_mul, abs_of_pos hj0]; exact hq
  have e1 : (q : ℝ) * ((-201 : ℤ) * 2 ^ (141 + j) / 2 ^ 149) = -(Q * (201 / 256)) := by rw [hQ, pow_add]; push_cast; ring
  have e2 : (q : ℝ) * ((-2029 : ℤ) * 2 ^ (126 + j) / 2 ^ 149) = -(Q * (2029 / 2 ^ 23)) := by rw [hQ, pow_add]; push_cast; ring
  have e3 : (q : ℝ) * ((-1297 : ℤ) * 2 ^ (114 + j) / 2 ^ 149) = -(Q * (1297 / 2 ^ 35)) := by rw [hQ, pow_add]; push_cast; ring
  have e4 : (q : ℝ) * ((-11821338 : ℤ) * 2 ^ (86 + j) / 2 ^ 149) = -(Q * (11821338 / 2 ^ 63)) := by rw [hQ, pow_add]; push_cast; ring
  have eP : X - q * (Real.pi * 2 ^ j / 4) = X - Q * (Real.pi / 4) := by rw [hQ]; ring
  rw [eP] at hr ⊢
  rw [e1] at m1
  rw [e2] at m2
  rw [e3] at m3
  -- the small product
  obtain ⟨p4, i4, r4⟩ := Fmt.is_mul Fmt.good32 iq c4 (by
    rw [e4, bias32, abs_neg, abs_mul]
    refine le_trans (mul_le_mul hQ1 le_rfl (abs_nonneg _) (by norm_num)) ?_
    rw [abs_of_pos (by norm_num)]; norm_num)
  rw [e4] at r4
  have hp4 : |Q * (11821338 / 2 ^ 63)| ≤ 2 / 10 ^ 8 := by
    rw [abs_mul]
    refine le_trans (mul_le_mul hQ1 le_rfl (abs_nonneg _) (by norm_num)) ?_
    rw [abs_of_pos (by norm_num)]; norm_num
  have r4' := rnd32 r4
  rw [abs_neg] at r4'
  have r4'' : |p4 - -(Q * (11821338 / 2 ^ 63))| ≤ 1 / 10 ^ 14 := by
    refine le_trans r4' ?_
    have := mul_le_mul_of_nonneg_right hp4 (show (0 : ℝ) ≤ ulp by num)
    refine le_trans (add_le_add_left this _) ?_
    num
  -- how good the parts are
  have hpi1 := Real.pi_gt_d20
  have hpi2 := Real.pi_lt_d20
  have hQ' := abs_le.1 hQ1
  have hr' := abs_le.1 hr
  have dist : ∀ c d : ℝ, |Real.pi / 4 - c| ≤ d → |X - Q * c - (X - Q * (Real.pi / 4))| ≤ 10440 * d := by
    intro c d hcd
    have : X - Q * c - (X - Q * (Real.pi / 4)) = Q * (Real.pi / 4 - c) := by ring
    rw [this, abs_mul]
    exact mul_le_mul hQ1 hcd (abs_nonneg _) (by norm_num)
  have bound : ∀ c d B : ℝ, |Real.pi / 4 - c| ≤ d → 15724 / 10 ^ 4 + 10440 * d ≤ B → |X - Q * c| ≤ B := by
    intro c d B hcd hB
    have h1 := dist c d hcd
    have h2 := abs_add_le (X - Q * c - (X - Q * (Real.pi / 4))) (X - Q * (Real.pi / 4))
    rw [sub_add_cancel] at h2
    linarith
  have d1 : |Real.pi / 4 - 201 / 256| ≤ 2420 / 10 ^ 7 := by rw [abs_le]; norm_num at *; constructor <;> linarith
  have d2 : |Real.pi / 4 - (201 / 256 + 2029 / 2 ^ 23)| ≤ 4 / 10 ^ 8 := by rw [abs_le]; norm_num at *; constructor <;> linarith
  have d3 : |Real.pi / 4 - (201 / 256 + 2029 / 2 ^ 23 + 1297 / 2 ^ 35)| ≤ 2 / 10 ^ 12 := by rw [abs_le]; norm_num at *; constructor <;> linarith
  have d4 : |Real.pi / 4 - (201 / 256 + 2029 / 2 ^ 23 + 1297 / 2 ^ 35 + 11821338 / 2 ^ 63)| ≤ 1 / 10 ^ 18 := by
    rw [abs_le]; norm_num at *; constructor <;> linarith
  unfold reduce
  simp only
  have cast : ((2 ^ j : Nat) : ℤ) = 2 ^ j := by push_cast; rfl
  rw [cast]
  unfold madd
  have a0 : Ap x X |X| 0 := Ap.of_is h le_rfl
  have a1 := (Ap.of_is m1 le_rfl).addH a0 5 (1 / 2 ^ 22) 128 (by norm_num) (by norm_num)
    (by rw [neg_add_eq_sub]; exact bound _ _ _ d1 (by norm_num)) (by norm_num)
  have a2 := (Ap.of_is m2 le_rfl).addH a1 (15729 / 10 ^ 4) (1 / 2 ^ 24) 126 (by norm_num) (by norm_num)
    (by rw [show -(Q * (2029 / 2 ^ 23)) + (-(Q * (201 / 256)) + X) = X - Q * (201 / 256 + 2029 / 2 ^ 23) by ring]; exact bound _ _ _ d2 (by norm_num))
    (by norm_num)
  have a3 := (Ap.of_is m3 le_rfl).addH a2 (15725 / 10 ^ 4) (1 / 2 ^ 24) 126 (by norm_num) (by norm_num)
    (by
      rw [show -(Q * (1297 / 2 ^ 35)) + (-(Q * (2029 / 2 ^ 23)) + (-(Q * (201 / 256)) + X)) =
        X - Q * (201 / 256 + 2029 / 2 ^ 23 + 1297 / 2 ^ 35) by ring]
      exact bound _ _ _ d3 (by norm_num))
    (by norm_num)
  have b4 : Ap _ (-(Q * (11821338 / 2 ^ 63))) (2 / 10 ^ 8) (1 / 10 ^ 14) := ⟨⟨p4, i4, r4''⟩, by rw [abs_neg]; exact hp4⟩
  have e5 : -(Q * (11821338 / 2 ^ 63)) + (-(Q * (1297 / 2 ^ 35)) + (-(Q * (2029 / 2 ^ 23)) + (-(Q * (201 / 256)) + X))) =
        X - Q * (201 / 256 + 2029 / 2 ^ 23 + 1297 / 2 ^ 35 + 11821338 / 2 ^ 63) := by ring
  have a4 := b4.addH a3 (15725 / 10 ^ 4) (1 / 2 ^ 24) 126 (by norm_num) (by norm_num)
    (by rw [e5]; exact bound _ _ _ d4 (by norm_num))
    (by norm_num)
  rw [e5] at a4
  refine a4.shift hr ?_
  have := dist _ _ d4
  refine le_trans (add_le_add_left this _) ?_
  norm_num

end Nanostl.Math

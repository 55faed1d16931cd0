import Verif.Math.SqrtProps
import Verif.Math.SinCosProps

/-! `ierf` (nanomath.h:705-735): bounds of the two polynomials. -/

namespace Nanostl.Math
open Nanostl.Float Nanostl.Float.Fmt

/-- A number of at most the given absolute value. -/
def Near (x : Nat) (B : ℝ) : Prop := ∃ a, f32.Is x a ∧ |a| ≤ B

/-- One step of the polynomial. -/
theorem ierf_step {p w z : Nat} {B C Z D B' : ℝ} (hp : Near p B) (hw : Near w C) (hz : f32.Is z Z) (hB : 0 ≤ B) (hC : 0 ≤ C) (hD : B * C * (1 + 3 / 10 ^ 7) + |Z| * (2 / 10 ^ 7) + 1 / 10 ^ 11 ≤ D) (hB' : |Z| + D ≤ B')
    (h10 : B' ≤ 10) : (∃ Y, f32.Is (madd p w z) Y ∧ |Y - Z| ≤ D) ∧ Near (madd p w z) B' := by
  obtain ⟨P, hP, hPB⟩ := hp
  obtain ⟨W, hW, hWC⟩ := hw
  have hBC : |P * W| ≤ B * C := by rw [abs_mul]; exact mul_le_mul hPB hWC (abs_nonneg _) hB
  have hBC0 : 0 ≤ B * C := mul_nonneg hB hC
  have hZ0 := abs_nonneg Z
  have hBC10 : B * C ≤ 10 := by norm_num at hD; linarith
  obtain ⟨m, hm, rm⟩ := is_mul good32 hP hW (by rw [bias32]; exact le_trans hBC (le_trans hBC10 (by norm_num)))
  have e1 := rnd32 rm
  have e2 : |P * W| * ulp ≤ B * C * ulp := mul_le_mul_of_nonneg_right hBC (by unfold ulp; positivity)
  have e3 : |m - P * W| ≤ B * C * (1 / 2 ^ 24) + 1 / 2 ^ 150 := le_trans e1 (by unfold ulp tiny at *; linarith)
  have m1 : |m| ≤ B * C * (1 + 1 / 2 ^ 24) + 1 / 2 ^ 150 := by
    have := abs_sub_abs_le_abs_sub m (P * W); linarith
  have s1 : |m + Z| ≤ B * C * (1 + 1 / 2 ^ 24) + 1 / 2 ^ 150 + |Z| := le_trans (abs_add_le _ _) (by linarith)
  obtain ⟨Y, hY, rY, -⟩ := is_add good32 hm hz (by rw [bias32]; norm_num at s1 hD ⊢; linarith)
  have f1 := rnd32 rY
  have f2 : |m + Z| * ulp ≤ (B * C * (1 + 1 / 2 ^ 24) + 1 / 2 ^ 150 + |Z|) * (1 / 2 ^ 24) := mul_le_mul s1 le_rfl (by unfold ulp; positivity) (by positivity)
  have f3 : |Y - Z| ≤ D := by
    have : |Y - Z| ≤ |Y - (m + Z)| + |m| := by
      have := abs_add_le (Y - (m + Z)) m
      rwa [show Y - (m + Z) + m = Y - Z by ring] at this
    unfold tiny at f1
    norm_num at hD m1 f1 f2
    linarith
  refine ⟨⟨Y, hY, f3⟩, Y, hY, ?_⟩
  have := abs_sub_abs_le_abs_sub Y Z
  linarith

theorem ierfA0 : f32.Is (f32.litNeg 281022636 16) (1977521 / 2 ^ 46) := by
  refine ⟨1977521 * 2 ^ 103, by decide +kernel, ?_⟩; rw [one32_val]; push_cast; norm_num
theorem ierfA1 : f32.Is (f32.litNeg 343273939 15) (6038939 / 2 ^ 44) := by
  refine ⟨6038939 * 2 ^ 105, by decide +kernel, ?_⟩; rw [one32_val]; push_cast; norm_num
theorem ierfA2 : f32.Is (negLit 35233877 13) (-15496023 / 2 ^ 42) := by
  refine ⟨-15496023 * 2 ^ 107, by decide +kernel, ?_⟩; rw [one32_val]; push_cast; norm_num
theorem ierfA3 : f32.Is (negLit 439150654 14) (-9657025 / 2 ^ 41) := by
  refine ⟨-9657025 * 2 ^ 108, by decide +kernel, ?_⟩; rw [one32_val]; push_cast; norm_num
theorem ierfA4 : f32.Is (f32.litNeg 21858087 11) (15020763 / 2 ^ 36) := by
  refine ⟨15020763 * 2 ^ 113, by decide +kernel, ?_⟩; rw [one32_val]; push_cast; norm_num
theorem ierfA5 : f32.Is (negLit 125372503 11) (-1346177 / 2 ^ 30) := by
  refine ⟨-1346177 * 2 ^ 119, by decide +kernel, ?_⟩; rw [one32_val]; push_cast; norm_num
theorem ierfA6 : f32.Is (negLit 417768164 11) (-8971503 / 2 ^ 31) := by
  refine ⟨-8971503 * 2 ^ 118, by decide +kernel, ?_⟩; rw [one32_val]; push_cast; norm_num
theorem ierfA7 : f32.Is (f32.litNeg 246640727 9) (16551779 / 2 ^ 26) := by
  refine ⟨16551779 * 2 ^ 123, by decide +kernel, ?_⟩; rw [one32_val]; push_cast; norm_num
theorem ierfA8 : f32.Is (f32.litNeg 150140941 8) (12594735 / 2 ^ 23) := by
  refine ⟨12594735 * 2 ^ 126, by decide +kernel, ?_⟩; rw [one32_val]; push_cast; norm_num
theorem ierfB0 : f32.Is (negLit 200214257 12) (-13758619 / 2 ^ 36) := by
  refine ⟨-13758619 * 2 ^ 113, by decide +kernel, ?_⟩; rw [one32_val]; push_cast; norm_num
theorem ierfB1 : f32.Is (f32.litNeg 100950558 12) (13874539 / 2 ^ 37) := by
  refine ⟨13874539 * 2 ^ 112, by decide +kernel, ?_⟩; rw [one32_val]; push_cast; norm_num
theorem ierfB2 : f32.Is (f32.litNeg 134934322 11) (5795385 / 2 ^ 32) := by
  refine ⟨5795385 * 2 ^ 117, by decide +kernel, ?_⟩; rw [one32_val]; push_cast; norm_num
theorem ierfB3 : f32.Is (negLit 367342844 11) (-15777255 / 2 ^ 32) := by
  refine ⟨-15777255 * 2 ^ 117, by decide +kernel, ?_⟩; rw [one32_val]; push_cast; norm_num
theorem ierfB4 : f32.Is (f32.litNeg 573950773 11) (12325499 / 2 ^ 31) := by
  refine ⟨12325499 * 2 ^ 118, by decide +kernel, ?_⟩; rw [one32_val]; push_cast; norm_num
theorem ierfB5 : f32.Is (negLit 76224613 10) (-16369111 / 2 ^ 31) := by
  refine ⟨-16369111 * 2 ^ 118, by decide +kernel, ?_⟩; rw [one32_val]; push_cast; norm_num
theorem ierfB6 : f32.Is (f32.litNeg 943887047 11) (5067455 / 2 ^ 29) := by
  refine ⟨5067455 * 2 ^ 120, by decide +kernel, ?_⟩; rw [one32_val]; push_cast; norm_num
theorem ierfB7 : f32.Is (f32.litNeg 100167406 8) (8402651 / 2 ^ 23) := by
  refine ⟨8402651 * 2 ^ 126, by decide +kernel, ?_⟩; rw [one32_val]; push_cast; norm_num
theorem ierfB8 : f32.Is (f32.litNeg 283297682 8) (5941183 / 2 ^ 21) := by
  refine ⟨5941183 * 2 ^ 128, by decide +kernel, ?_⟩; rw [one32_val]; push_cast; norm_num

theorem ierfA_bound {w : Nat} (hw : Near w (251 / 100)) :
    ∃ Y, f32.Is (madd (madd (madd (madd (madd (madd (madd (madd (f32.litNeg 281022636 16) w (f32.litNeg 343273939 15)) w (negLit 35233877 13)) w (negLit 439150654 14)) w (f32.litNeg 21858087 11)) w (negLit 125372503 11)) w (negLit 417768164 11)) w (f32.litNeg 246640727 9)) w (f32.litNeg 150140941 8)) Y ∧ |Y - (12594735 / 2 ^ 23)| ≤ 10554190959 / 15625000000 := by
  have k0 : Near (f32.litNeg 281022636 16) (28103 / 1000000000000) := ⟨_, ierfA0, by rw [abs_le]; constructor <;> norm_num⟩
  have k1 := (ierf_step k0 hw ierfA1 (D := 70549 / 1000000000000) (B' := 413823 / 1000000000000) (by norm_num) (by norm_num) (by rw [abs_of_nonneg (by norm_num)]; norm_num) (by rw [abs_of_nonneg (by norm_num)]; norm_num) (by norm_num)).2
  have k2 := (ierf_step k1 hw ierfA2 (D := 1038707 / 1000000000000) (B' := 912419 / 200000000000) (by norm_num) (by norm_num) (by rw [abs_of_neg (by norm_num)]; norm_num) (by rw [abs_of_neg (by norm_num)]; norm_num) (by norm_num)).2
  have k3 := (ierf_step k2 hw ierfA3 (D := 11450873 / 1000000000000) (B' := 792119 / 50000000000) (by norm_num) (by norm_num) (by rw [abs_of_neg (by norm_num)]; norm_num) (by rw [abs_of_neg (by norm_num)]; norm_num) (by norm_num)).2
  have k4 := (ierf_step k3 hw ierfA4 (D := 994111 / 25000000000) (B' := 25834531 / 100000000000) (by norm_num) (by norm_num) (by rw [abs_of_nonneg (by norm_num)]; norm_num) (by rw [abs_of_nonneg (by norm_num)]; norm_num) (by norm_num)).2
  have k5 := (ierf_step k4 hw ierfA5 (D := 40527949 / 62500000000) (B' := 951086107 / 500000000000) (by norm_num) (by norm_num) (by rw [abs_of_neg (by norm_num)]; norm_num) (by rw [abs_of_neg (by norm_num)]; norm_num) (by norm_num)).2
  have k6 := (ierf_step k5 hw ierfA6 (D := 596806817 / 125000000000) (B' := 8952136173 / 1000000000000) (by norm_num) (by norm_num) (by rw [abs_of_neg (by norm_num)]; norm_num) (by rw [abs_of_neg (by norm_num)]; norm_num) (by norm_num)).2
  have k7 := (ierf_step k6 hw ierfA7 (D := 11234958937 / 500000000000) (B' := 134555322399 / 500000000000) (by norm_num) (by norm_num) (by rw [abs_of_nonneg (by norm_num)]; norm_num) (by rw [abs_of_nonneg (by norm_num)]; norm_num) (by norm_num)).2
  exact (ierf_step k7 hw ierfA8 (D := 10554190959 / 15625000000) (B' := 2176877632807 / 1000000000000) (by norm_num) (by norm_num) (by rw [abs_of_nonneg (by norm_num)]; norm_num) (by rw [abs_of_nonneg (by norm_num)]; norm_num) (by norm_num)).1

theorem ierfB_bound {w : Nat} (hw : Near w (109 / 100)) :
    ∃ Y, f32.Is (madd (madd (madd (madd (madd (madd (madd (madd (negLit 200214257 12) w (f32.litNeg 100950558 12)) w (f32.litNeg 134934322 11)) w (negLit 367342844 11)) w (f32.litNeg 573950773 11)) w (negLit 76224613 10)) w (f32.litNeg 943887047 11)) w (f32.litNeg 100167406 8)) w (f32.litNeg 283297682 8)) Y ∧ |Y - (5941183 / 2 ^ 21)| ≤ 35297243253 / 31250000000 := by
  have k0 : Near (negLit 200214257 12) (100107129 / 500000000000) := ⟨_, ierfB0, by rw [abs_le]; constructor <;> norm_num⟩
  have k1 := (ierf_step k0 hw ierfB1 (D := 218233637 / 1000000000000) (B' := 63836839 / 200000000000) (by norm_num) (by norm_num) (by rw [abs_of_nonneg (by norm_num)]; norm_num) (by rw [abs_of_nonneg (by norm_num)]; norm_num) (by norm_num)).2
  have k2 := (ierf_step k1 hw ierfB2 (D := 347911157 / 1000000000000) (B' := 1697254377 / 1000000000000) (by norm_num) (by norm_num) (by rw [abs_of_nonneg (by norm_num)]; norm_num) (by rw [abs_of_nonneg (by norm_num)]; norm_num) (by norm_num)).2
  have k3 := (ierf_step k2 hw ierfB3 (D := 1850008571 / 1000000000000) (B' := 345214813 / 62500000000) (by norm_num) (by norm_num) (by rw [abs_of_neg (by norm_num)]; norm_num) (by rw [abs_of_neg (by norm_num)]; norm_num) (by norm_num)).2
  have k4 := (ierf_step k3 hw ierfB4 (D := 6020549303 / 1000000000000) (B' := 2352011407 / 200000000000) (by norm_num) (by norm_num) (by rw [abs_of_nonneg (by norm_num)]; norm_num) (by rw [abs_of_nonneg (by norm_num)]; norm_num) (by norm_num)).2
  have k5 := (ierf_step k4 hw ierfB5 (D := 12818467549 / 1000000000000) (B' := 408818577 / 20000000000) (by norm_num) (by norm_num) (by rw [abs_of_neg (by norm_num)]; norm_num) (by rw [abs_of_neg (by norm_num)]; norm_num) (by norm_num)).2
  have k6 := (ierf_step k5 hw ierfB6 (D := 22280621029 / 1000000000000) (B' := 1982468219 / 62500000000) (by norm_num) (by norm_num) (by rw [abs_of_nonneg (by norm_num)]; norm_num) (by rw [abs_of_nonneg (by norm_num)]; norm_num) (by norm_num)).2
  have k7 := (ierf_step k6 hw ierfB7 (D := 34574456457 / 1000000000000) (B' := 1036248512511 / 1000000000000) (by norm_num) (by norm_num) (by rw [abs_of_nonneg (by norm_num)]; norm_num) (by rw [abs_of_nonneg (by norm_num)]; norm_num) (by norm_num)).2
  exact (ierf_step k7 hw ierfB8 (D := 35297243253 / 31250000000) (B' := 3962488602181 / 1000000000000) (by norm_num) (by norm_num) (by rw [abs_of_nonneg (by norm_num)]; norm_num) (by rw [abs_of_nonneg (by norm_num)]; norm_num) (by norm_num)).1

end Nanostl.Math

import Verif.Math.IerfInv
import Verif.Math.IerfProps

/-! `ierf` (nanomath.h:705-735): the error of its polynomials. -/

namespace Nanostl.Math
open Nanostl.Float Nanostl.Float.Fmt

/-- One step of a polynomial, with the error so far. -/
theorem step_err {p w z : Nat} {B C Z V v Q d e e' B' : ℝ} (hp : ∃ P, f32.Is p P ∧ |P| ≤ B ∧ |P - Q| ≤ e) (hw : f32.Is w V) (hV : |V| ≤ C) (hv : |v| ≤ C) (hd : |V - v| ≤ d) (hz : f32.Is z Z) (hB : 0 ≤ B) (hC : 0 ≤ C)
    (hE : B * d + e * C + B * C * (3 / 10 ^ 7) + |Z| * (2 / 10 ^ 7) + 1 / 10 ^ 11 ≤ e') (hB' : B * C * (1 + 3 / 10 ^ 7) + |Z| * (1 + 2 / 10 ^ 7) + 1 / 10 ^ 11 ≤ B') (h10 : B' ≤ 10) :
    ∃ Y, f32.Is (madd p w z) Y ∧ |Y| ≤ B' ∧ |Y - (Q * v + Z)| ≤ e' := by
  obtain ⟨P, hP, hPB, hPQ⟩ := hp
  have hBC : |P * V| ≤ B * C := by rw [abs_mul]; exact mul_le_mul hPB hV (abs_nonneg _) hB
  have hBC0 : 0 ≤ B * C := mul_nonneg hB hC
  have hZ0 := abs_nonneg Z
  have hBC10 : B * C ≤ 10 := by norm_num at hB'; linarith
  obtain ⟨m, hm, rm⟩ := is_mul good32 hP hw (by rw [bias32]; exact le_trans hBC (le_trans hBC10 (by norm_num)))
  have e1 := rnd32 rm
  have e2 : |P * V| * ulp ≤ B * C * ulp := mul_le_mul_of_nonneg_right hBC (by unfold ulp; positivity)
  have e3 : |m - P * V| ≤ B * C * (1 / 2 ^ 24) + 1 / 2 ^ 150 := le_trans e1 (by unfold ulp tiny at *; linarith)
  have m1 : |m| ≤ B * C * (1 + 1 / 2 ^ 24) + 1 / 2 ^ 150 := by
    have := abs_sub_abs_le_abs_sub m (P * V); linarith
  have s1 : |m + Z| ≤ B * C * (1 + 1 / 2 ^ 24) + 1 / 2 ^ 150 + |Z| := le_trans (abs_add_le _ _) (by linarith)
  obtain ⟨Y, hY, rY, -⟩ := is_add good32 hm hz (by rw [bias32]; norm_num at s1 hB' ⊢; linarith)
  have f1 := rnd32 rY
  have f2 : |m + Z| * ulp ≤ (B * C * (1 + 1 / 2 ^ 24) + 1 / 2 ^ 150 + |Z|) * (1 / 2 ^ 24) := mul_le_mul s1 le_rfl (by unfold ulp; positivity) (by positivity)
  have g1 : |P * (V - v)| ≤ B * d := by rw [abs_mul]; exact mul_le_mul hPB hd (abs_nonneg _) hB
  have g2 : |(P - Q) * v| ≤ e * C := by rw [abs_mul]; exact mul_le_mul hPQ hv (abs_nonneg _) (le_trans (abs_nonneg _) hPQ)
  unfold tiny at f1
  refine ⟨Y, hY, ?_, ?_⟩
  · have := abs_sub_abs_le_abs_sub Y (m + Z)
    norm_num at hB' s1 f1 f2 ⊢
    linarith
  · rw [show Y - (Q * v + Z) = (Y - (m + Z)) + (m - P * V) + P * (V - v) + (P - Q) * v by ring]
    have t1 := abs_add_le ((Y - (m + Z)) + (m - P * V) + P * (V - v)) ((P - Q) * v)
    have t2 := abs_add_le ((Y - (m + Z)) + (m - P * V)) (P * (V - v))
    have t3 := abs_add_le (Y - (m + Z)) (m - P * V)
    norm_num at hE e3 f1 f2 ⊢
    linarith

theorem ierfA_err {w : Nat} {V v : ℝ} (hw : f32.Is w V) (hW : |V| ≤ 251 / 100) (hv : |v| ≤ 251 / 100) (he : |V - v| ≤ 6 / 10 ^ 6) :
    ∃ Y, f32.Is (madd (madd (madd (madd (madd (madd (madd (madd (f32.litNeg 281022636 16) w (f32.litNeg 343273939 15)) w (negLit 35233877 13)) w (negLit 439150654 14)) w (f32.litNeg 21858087 11)) w (negLit 125372503 11)) w (negLit 417768164 11)) w (f32.litNeg 246640727 9)) w (f32.litNeg 150140941 8)) Y ∧ |Y - PA v| ≤ 1 / 10 ^ 5 := by
  have k0 : ∃ P, f32.Is (f32.litNeg 281022636 16) P ∧ |P| ≤ 28103 / 10 ^ 12 ∧ |P - 1977521 / 2 ^ 46| ≤ 0 := ⟨_, ierfA0, by rw [abs_le]; constructor <;> norm_num, by norm_num⟩
  have k1 := step_err k0 hw hW hv he ierfA1 (e' := 1026 / 10 ^ 14) (B' := 41382256 / 10 ^ 14) (by norm_num) (by norm_num) (by rw [abs_of_nonneg (by norm_num)]; norm_num) (by rw [abs_of_nonneg (by norm_num)]; norm_num) (by norm_num)
  have k2 := step_err k1 hw hW hv he ierfA2 (e' := 3926 / 10 ^ 14) (B' := 456209335 / 10 ^ 14) (by norm_num) (by norm_num) (by rw [abs_of_neg (by norm_num)]; norm_num) (by rw [abs_of_neg (by norm_num)]; norm_num) (by norm_num)
  have k3 := step_err k2 hw hW hv he ierfA3 (e' := 14023 / 10 ^ 14) (B' := 1584237516 / 10 ^ 14) (by norm_num) (by norm_num) (by rw [abs_of_neg (by norm_num)]; norm_num) (by rw [abs_of_neg (by norm_num)]; norm_num) (by norm_num)
  have k4 := step_err k3 hw hW hv he ierfA4 (e' := 51268 / 10 ^ 14) (B' := 25834529714 / 10 ^ 14) (by norm_num) (by norm_num) (by rw [abs_of_nonneg (by norm_num)]; norm_num) (by rw [abs_of_nonneg (by norm_num)]; norm_num) (by norm_num)
  have k5 := step_err k4 hw hW hv he ierfA5 (e' := 329218 / 10 ^ 14) (B' := 190217218063 / 10 ^ 14) (by norm_num) (by norm_num) (by rw [abs_of_neg (by norm_num)]; norm_num) (by rw [abs_of_neg (by norm_num)]; norm_num) (by norm_num)
  have k6 := step_err k5 hw hW hv he ierfA6 (e' := 2195428 / 10 ^ 14) (B' := 895213608732 / 10 ^ 14) (by norm_num) (by norm_num) (by rw [abs_of_neg (by norm_num)]; norm_num) (by rw [abs_of_neg (by norm_num)]; norm_num) (by norm_num)
  have k7 := step_err k6 hw hW hv he ierfA7 (e' := 16489717 / 10 ^ 14) (B' := 26911064458222 / 10 ^ 14) (by norm_num) (by norm_num) (by rw [abs_of_nonneg (by norm_num)]; norm_num) (by rw [abs_of_nonneg (by norm_num)]; norm_num) (by norm_num)
  have k8 := step_err k7 hw hW hv he ierfA8 (e' := 253148797 / 10 ^ 14) (B' := 217687763226393 / 10 ^ 14) (by norm_num) (by norm_num) (by rw [abs_of_nonneg (by norm_num)]; norm_num) (by rw [abs_of_nonneg (by norm_num)]; norm_num) (by norm_num)
  obtain ⟨Y, hY, -, eY⟩ := k8
  exact ⟨Y, hY, le_trans eY (by norm_num)⟩

/-- The second polynomial for arguments below 0. -/
theorem ierfB_neg {w : Nat} {V : ℝ} (hV : f32.Is w V) (hV1 : -(77 / 100) ≤ V) (hV2 : V ≤ 0) :
    ∃ Y, f32.Is (madd (madd (madd (madd (madd (madd (madd (madd (negLit 200214257 12) w (f32.litNeg 100950558 12)) w (f32.litNeg 134934322 11)) w (negLit 367342844 11)) w (f32.litNeg 573950773 11)) w (negLit 76224613 10)) w (f32.litNeg 943887047 11)) w (f32.litNeg 100167406 8)) w (f32.litNeg 283297682 8)) Y ∧ 28329 / 10000 + 1004 / 1000 * V ≤ Y ∧ Y ≤ 2833 / 1000 + 985 / 1000 * V := by
  have hVa : |V| ≤ 77 / 100 := abs_le.2 ⟨hV1, le_trans hV2 (by norm_num)⟩
  have hw : Near w (77 / 100) := ⟨V, hV, hVa⟩
  have k0 : Near (negLit 200214257 12) (200214258 / 10 ^ 12) := ⟨_, ierfB0, by rw [abs_le]; constructor <;> norm_num⟩
  have k1 := (ierf_step k0 hw ierfB1 (D := 154165056 / 10 ^ 12) (B' := 255115614 / 10 ^ 12) (by norm_num) (by norm_num) (by rw [abs_of_nonneg (by norm_num)]; norm_num) (by rw [abs_of_nonneg (by norm_num)]; norm_num) (by norm_num)).2
  have k2 := (ierf_step k1 hw ierfB2 (D := 196439362 / 10 ^ 12) (B' := 1545782582 / 10 ^ 12) (by norm_num) (by norm_num) (by rw [abs_of_nonneg (by norm_num)]; norm_num) (by rw [abs_of_nonneg (by norm_num)]; norm_num) (by norm_num)).2
  have k3 := (ierf_step k2 hw ierfB3 (D := 1190253690 / 10 ^ 12) (B' := 4863682127 / 10 ^ 12) (by norm_num) (by norm_num) (by rw [abs_of_neg (by norm_num)]; norm_num) (by rw [abs_of_neg (by norm_num)]; norm_num) (by norm_num)).2
  have k4 := (ierf_step k3 hw ierfB4 (D := 3745037520 / 10 ^ 12) (B' := 9484545252 / 10 ^ 12) (by norm_num) (by norm_num) (by rw [abs_of_nonneg (by norm_num)]; norm_num) (by rw [abs_of_nonneg (by norm_num)]; norm_num) (by norm_num)).2
  have k5 := (ierf_step k4 hw ierfB5 (D := 7303103570 / 10 ^ 12) (B' := 14925564871 / 10 ^ 12) (by norm_num) (by norm_num) (by rw [abs_of_neg (by norm_num)]; norm_num) (by rw [abs_of_neg (by norm_num)]; norm_num) (by norm_num)).2
  obtain ⟨⟨P, hP, eP⟩, -⟩ := ierf_step k5 hw ierfB6 (D := 11492690297 / 10 ^ 12) (B' := 20931560772 / 10 ^ 12) (by norm_num) (by norm_num) (by rw [abs_of_nonneg (by norm_num)]; norm_num) (by rw [abs_of_nonneg (by norm_num)]; norm_num) (by norm_num)
  have eP' := abs_le.1 eP
  have P1 : -(21 / 10000) ≤ P := by norm_num at eP' ⊢; linarith
  have P2 : P ≤ 21 / 1000 := by norm_num at eP' ⊢; linarith
  obtain ⟨R, hR, -, eR⟩ := step_err (Q := P) (v := V) (d := 0) (e := 0) (B := 3 / 100) (C := 77 / 100) (e' := 1 / 10 ^ 5) (B' := 5) ⟨P, hP, by rw [abs_le]; constructor <;> linarith, by simp⟩ hV hVa hVa (by simp) ierfB7 (by norm_num) (by norm_num)
    (by rw [abs_of_nonneg (by norm_num)]; norm_num) (by rw [abs_of_nonneg (by norm_num)]; norm_num) (by norm_num)
  have eR' := abs_le.1 eR
  have n1 : P * V ≤ 21 / 10000 * (77 / 100) := by
    have : -P * -V ≤ 21 / 10000 * (77 / 100) := mul_le_mul (by linarith) (by linarith) (by linarith) (by norm_num)
    linarith
  have n2 : -(21 / 1000 * (77 / 100)) ≤ P * V := by
    have : P * -V ≤ 21 / 1000 * (77 / 100) := mul_le_mul P2 (by linarith) (by linarith) (by norm_num)
    linarith
  have R1 : 9853 / 10000 ≤ R := by norm_num at eR' n2 ⊢; linarith
  have R2 : R ≤ 10035 / 10000 := by norm_num at eR' n1 ⊢; linarith
  obtain ⟨Y, hY, -, eY⟩ := step_err (Q := R) (v := V) (d := 0) (e := 0) (B := 104 / 100) (C := 77 / 100) (e' := 1 / 10 ^ 5) (B' := 5) ⟨R, hR, by rw [abs_le]; constructor <;> linarith, by simp⟩ hV hVa hVa (by simp) ierfB8 (by norm_num) (by norm_num)
    (by rw [abs_of_nonneg (by norm_num)]; norm_num) (by rw [abs_of_nonneg (by norm_num)]; norm_num) (by norm_num)
  have eY' := abs_le.1 eY
  have m1 : R * -V ≤ 1004 / 1000 * -V := mul_le_mul_of_nonneg_right (by linarith) (by linarith)
  have m2 : 985 / 1000 * -V ≤ R * -V := mul_le_mul_of_nonneg_right (by linarith) (by linarith)
  refine ⟨Y, hY, ?_, ?_⟩ <;> norm_num at eY' ⊢ <;> linarith

/-- From 0 on. -/
theorem ierfB_pos {w : Nat} {V : ℝ} (hV : f32.Is w V) (hV1 : V ≤ 109 / 100) (hV2 : 0 ≤ V) :
    ∃ Y, f32.Is (madd (madd (madd (madd (madd (madd (madd (madd (negLit 200214257 12) w (f32.litNeg 100950558 12)) w (f32.litNeg 134934322 11)) w (negLit 367342844 11)) w (f32.litNeg 573950773 11)) w (negLit 76224613 10)) w (f32.litNeg 943887047 11)) w (f32.litNeg 100167406 8)) w (f32.litNeg 283297682 8)) Y ∧ 28329 / 10000 ≤ Y := by
  have hVa : |V| ≤ 109 / 100 := abs_le.2 ⟨by linarith, hV1⟩
  have hw : Near w (109 / 100) := ⟨V, hV, hVa⟩
  have k0 : Near (negLit 200214257 12) (100107129 / 500000000000) := ⟨_, ierfB0, by rw [abs_le]; constructor <;> norm_num⟩
  have k1 := (ierf_step k0 hw ierfB1 (D := 218233637 / 1000000000000) (B' := 63836839 / 200000000000) (by norm_num) (by norm_num) (by rw [abs_of_nonneg (by norm_num)]; norm_num) (by rw [abs_of_nonneg (by norm_num)]; norm_num) (by norm_num)).2
  have k2 := (ierf_step k1 hw ierfB2 (D := 347911157 / 1000000000000) (B' := 1697254377 / 1000000000000) (by norm_num) (by norm_num) (by rw [abs_of_nonneg (by norm_num)]; norm_num) (by rw [abs_of_nonneg (by norm_num)]; norm_num) (by norm_num)).2
  have k3 := (ierf_step k2 hw ierfB3 (D := 1850008571 / 1000000000000) (B' := 345214813 / 62500000000) (by norm_num) (by norm_num) (by rw [abs_of_neg (by norm_num)]; norm_num) (by rw [abs_of_neg (by norm_num)]; norm_num) (by norm_num)).2
  have k4 := (ierf_step k3 hw ierfB4 (D := 6020549303 / 1000000000000) (B' := 2352011407 / 200000000000) (by norm_num) (by norm_num) (by rw [abs_of_nonneg (by norm_num)]; norm_num) (by rw [abs_of_nonneg (by norm_num)]; norm_num) (by norm_num)).2
  have k5 := (ierf_step k4 hw ierfB5 (D := 12818467549 / 1000000000000) (B' := 408818577 / 20000000000) (by norm_num) (by norm_num) (by rw [abs_of_neg (by norm_num)]; norm_num) (by rw [abs_of_neg (by norm_num)]; norm_num) (by norm_num)).2
  have k6 := (ierf_step k5 hw ierfB6 (D := 22280621029 / 1000000000000) (B' := 1982468219 / 62500000000) (by norm_num) (by norm_num) (by rw [abs_of_nonneg (by norm_num)]; norm_num) (by rw [abs_of_nonneg (by norm_num)]; norm_num) (by norm_num)).2
  obtain ⟨⟨P, hP, eP⟩, -⟩ := (ierf_step k6 hw ierfB7 (D := 34574456457 / 1000000000000) (B' := 1036248512511 / 1000000000000) (by norm_num) (by norm_num) (by rw [abs_of_nonneg (by norm_num)]; norm_num) (by rw [abs_of_nonneg (by norm_num)]; norm_num) (by norm_num))
  have eP' := abs_le.1 eP
  obtain ⟨Y, hY, -, eY⟩ := step_err (Q := P) (v := V) (d := 0) (e := 0) (B := 104 / 100) (C := 109 / 100) (e' := 1 / 10 ^ 5) (B' := 5) ⟨P, hP, by rw [abs_le]; constructor <;> norm_num at * <;> linarith, by simp⟩ hV hVa hVa (by simp) ierfB8 (by norm_num) (by norm_num)
    (by rw [abs_of_nonneg (by norm_num)]; norm_num) (by rw [abs_of_nonneg (by norm_num)]; norm_num) (by norm_num)
  refine ⟨Y, hY, ?_⟩
  have e1 := (abs_le.1 eY).1
  have P0 : 0 ≤ P := by norm_num at eP' ⊢; linarith
  have e2 : 0 ≤ P * V := mul_nonneg P0 hV2
  norm_num at e1 ⊢
  linarith

end Nanostl.Math

import Verif.Math.SinCos
import Verif.Math.Hyper
import Mathlib.Analysis.SpecialFunctions.Trigonometric.ArctanDeriv

/-!
`tan` (nanomath.h:600-624): argument reduction, polynomial, division.
-/

namespace Nanostl.Math
open Nanostl.Float Nanostl.Float.Fmt

theorem is_twoInvPi : f32.Is (f64.convert f32 (f64.mul (f64.ofInt 2) kM_1_PI)) (10680707 / 2 ^ 24) := by
  refine ⟨10680707 * 2 ^ 125, by decide +kernel, ?_⟩
  rw [one32_val]; push_cast; norm_num

theorem is_pi4 : f32.Is (f64.convert f32 kM_PI_4) (13176795 / 2 ^ 24) := by
  refine ⟨13176795 * 2 ^ 125, by decide +kernel, ?_⟩
  rw [one32_val]; push_cast; norm_num

/-- The reduced argument, without and with the last two subtractions. -/
theorem tan_arg {x : Nat} {X : ℝ} (h : f32.Is x X) (hX : |X| ≤ 8192) : ∃ (q : ℤ) (a b : ℝ),
    fastRint (f32.mul x (f64.convert f32 (f64.mul (f64.ofInt 2) kM_1_PI))) = some q ∧
    f32.Is (reduce 2 x (f32.ofInt q)) a ∧
    f32.Is (f32.sub (f64.convert f32 kM_PI_4) (f32.sub (f64.convert f32 kM_PI_4) (reduce 2 x (f32.ofInt q)))) b ∧
    |a - (X - q * (Real.pi / 2))| ≤ 52 / 10 ^ 8 ∧ |b - (X - q * (Real.pi / 2))| ≤ 52 / 10 ^ 8 ∧ |a| ≤ 7869 / 10 ^ 4 ∧ |b| ≤ 7869 / 10 ^ 4 := by
  have hpi1 := Real.pi_gt_d20
  have hpi2 := Real.pi_lt_d20
  have hpi0 := Real.pi_pos
  have hz0 : |X * (10680707 / 2 ^ 24)| ≤ 52152 / 10 := by
    rw [abs_mul, abs_of_pos (by norm_num : (0 : ℝ) < 10680707 / 2 ^ 24)]
    refine le_trans (mul_le_mul_of_nonneg_right hX (by norm_num)) (by norm_num)
  obtain ⟨z, hz, hzr⟩ := Fmt.is_mul Fmt.good32 h is_twoInvPi (by rw [bias32]; exact le_trans hz0 (by norm_num))
  have hz1 := rnd32 hzr
  have hz2 : |z - X * (10680707 / 2 ^ 24)| ≤ 32 / 10 ^ 5 := by
    refine le_trans hz1 ?_
    have := mul_le_mul_of_nonneg_right hz0 (show (0 : ℝ) ≤ ulp by num)
    refine le_trans (add_le_add_left this _) ?_
    num
  have hzb : |z| ≤ 52153 / 10 := by
    have := abs_add_le (z - X * (10680707 / 2 ^ 24)) (X * (10680707 / 2 ^ 24))
    rw [sub_add_cancel] at this
    refine le_trans this (le_trans (add_le_add hz2 hz0) (by norm_num))
  obtain ⟨q, hq1, hq2, hq3⟩ := fastRint_spec (Fmt.mul_lt Fmt.good32 _ _) hz (le_trans hzb (by norm_num))
  have hqb : |(q : ℝ)| ≤ 52163 / 10 := by linarith
  have hzq : |z - q| ≤ 1 / 2 + 312 / 10 ^ 6 := by
    refine le_trans hq2 ?_
    have : (|z| + 1) / 2 ^ 24 ≤ (52163 / 10) / 2 ^ 24 := div_le_div_of_nonneg_right (by linarith) (by norm_num)
    refine le_trans (add_le_add_right this _) (by norm_num)
  have hr : |X - q * (Real.pi / 2)| ≤ 7868 / 10 ^ 4 := by
    have e : X - q * (Real.pi / 2) = X * (1 - 10680707 / 2 ^ 24 * (Real.pi / 2)) + Real.pi / 2 * (X * (10680707 / 2 ^ 24) - z) + Real.pi / 2 * (z - q) := by ring
    have a1 : |1 - 10680707 / 2 ^ 24 * (Real.pi / 2)| ≤ 41 / 10 ^ 9 := by rw [abs_le]; norm_num at *; constructor <;> linarith
    have t1 : |X * (1 - 10680707 / 2 ^ 24 * (Real.pi / 2))| ≤ 8192 * (41 / 10 ^ 9) := by
      rw [abs_mul]; exact mul_le_mul hX a1 (abs_nonneg _) (by norm_num)
    have t2 : |Real.pi / 2 * (X * (10680707 / 2 ^ 24) - z)| ≤ (15708 / 10 ^ 4) * (32 / 10 ^ 5) := by
      rw [abs_mul, abs_of_pos (by positivity), abs_sub_comm]
      exact mul_le_mul (by norm_num at *; linarith) hz2 (abs_nonneg _) (by norm_num)
    have t3 : |Real.pi / 2 * (z - q)| ≤ Real.pi / 2 * (1 / 2 + 312 / 10 ^ 6) := by
      rw [abs_mul, abs_of_pos (by positivity)]
      exact mul_le_mul_of_nonneg_left hzq (by positivity)
    rw [e]
    refine le_trans (abs_add_le _ _) ?_
    refine le_trans (add_le_add_left (abs_add_le _ _) _) ?_
    norm_num at *
    linarith
  have red := reduce_spec (j := 1) (.inl rfl) h (q := q) (by norm_num at *; linarith) (by
    rw [show Real.pi * 2 ^ 1 / 4 = Real.pi / 2 by ring]; exact le_trans hr (by norm_num))
  rw [show Real.pi * 2 ^ 1 / 4 = Real.pi / 2 by ring] at red
  have p2 := Ap.of_is is_pi4 (R := 13176795 / 2 ^ 24) (by norm_num)
  have hr' := abs_le.1 hr
  have s1 := p2.addH red.neg (16 / 10) (1 / 2 ^ 24) 126 (by norm_num) (by norm_num) (by
    refine le_trans (abs_add_le _ _) ?_
    rw [abs_neg]
    refine le_trans (add_le_add_right hr _) ?_
    rw [abs_of_pos (by norm_num)]; norm_num) (by norm_num)
  have e2 : (13176795 / 2 ^ 24 : ℝ) + -(13176795 / 2 ^ 24 + -(X - q * (Real.pi / 2))) = X - q * (Real.pi / 2) := by ring
  have s2 := p2.addH s1.neg (7868 / 10 ^ 4) (1 / 2 ^ 25) 125 (by norm_num) (by norm_num) (by rw [e2]; exact hr) (by norm_num)
  rw [e2] at s2
  obtain ⟨a, ha1, ha2⟩ := red.ex
  obtain ⟨b, hb1, hb2⟩ := s2.ex
  have ha3 : |a - (X - q * (Real.pi / 2))| ≤ 52 / 10 ^ 8 := le_trans ha2 (by norm_num)
  have hb3 : |b - (X - q * (Real.pi / 2))| ≤ 52 / 10 ^ 8 := le_trans hb2 (by norm_num)
  have bd : ∀ c : ℝ, |c - (X - q * (Real.pi / 2))| ≤ 52 / 10 ^ 8 → |c| ≤ 7869 / 10 ^ 4 := by
    intro c hc
    have := abs_add_le (c - (X - q * (Real.pi / 2))) (X - q * (Real.pi / 2))
    rw [sub_add_cancel] at this
    refine le_trans this (le_trans (add_le_add hc hr) (by norm_num))
  exact ⟨q, a, b, hq1, ha1, hb1, ha3, hb3, bd a ha3, bd b hb3⟩

/-- The polynomial of the code without rounding. -/
noncomputable def PT (s : ℝ) : ℝ := ((((9956226 / 2 ^ 30 * s + 14258647 / 2 ^ 32) * s + 13045860 / 2 ^ 29) * s + 14347749 / 2 ^ 28) * s + 8951182 / 2 ^ 26) * s +
  11184761 / 2 ^ 25

def ptl : List ℤ := [2 ^ 32, 11184761 * 2 ^ 7, 8951182 * 2 ^ 6, 14347749 * 2 ^ 4, 13045860 * 2 ^ 3, 14258647, 9956226 * 2 ^ 2]
/-- `15! 2^32 ((1 + s PT) taylorC - taylorS)`. -/
def pt : List ℤ := Poly.add (Poly.smul 15 (Poly.mul ptl [87178291200, -43589145600, 3632428800, -121080960, 2162160, -24024, 182, -1]))
  (Poly.smul (-(2 ^ 32)) [1307674368000, -217945728000, 10897286400, -259459200, 3603600, -32760, 210, -1])

theorem eval_pt (s : ℝ) : Poly.eval pt s = (1307674368000 * 2 ^ 32) * ((1 + s * PT s) * taylorC s - taylorS s) := by
  unfold pt PT taylorS taylorC ptl
  rw [Poly.eval_add, Poly.eval_smul, Poly.eval_smul, Poly.eval_mul]
  simp only [Poly.eval_cons, Poly.eval_nil]
  push_cast
  ring

theorem pt_close {s : ℝ} (h0 : 0 ≤ s) (h1 : s ≤ 62 / 100) : |(1 + s * PT s) * taylorC s - taylorS s| ≤ 34 / 10 ^ 9 := by
  have := Poly.check_sound (p := pt) (K := 1) (B := 1307674368000 * 2 ^ 32 * 34 / 10 ^ 9) (D := 2000) (lo := 0) (w := 1) (n := 620)
    (by decide +kernel) (x := s) (by push_cast; linarith) (by push_cast; linarith)
  rw [eval_pt] at this
  rw [abs_mul, abs_of_pos (by positivity)] at this
  refine le_of_mul_le_mul_left (le_trans this ?_) (show (0 : ℝ) < 1307674368000 * 2 ^ 32 by positivity)
  norm_num

theorem PT_chain {s : ℝ} (h0 : 0 ≤ s) (h1 : s ≤ 62 / 100) : |9956226 / 2 ^ 30 * s + 14258647 / 2 ^ 32| ≤ 1 / 100 ∧
    |(9956226 / 2 ^ 30 * s + 14258647 / 2 ^ 32) * s + 13045860 / 2 ^ 29| ≤ 31 / 1000 ∧
    |((9956226 / 2 ^ 30 * s + 14258647 / 2 ^ 32) * s + 13045860 / 2 ^ 29) * s + 14347749 / 2 ^ 28| ≤ 73 / 1000 ∧
    |(((9956226 / 2 ^ 30 * s + 14258647 / 2 ^ 32) * s + 13045860 / 2 ^ 29) * s + 14347749 / 2 ^ 28) * s + 8951182 / 2 ^ 26| ≤ 179 / 1000 ∧
    0 ≤ PT s ∧ PT s ≤ 45 / 100 := by
  have b0 : 0 ≤ PT s := by unfold PT; positivity
  have k1 : 9956226 / 2 ^ 30 * s + 14258647 / 2 ^ 32 ≤ (1 : ℝ) / 100 := by norm_num at *; linarith
  have k2 : (9956226 / 2 ^ 30 * s + 14258647 / 2 ^ 32) * s + 13045860 / 2 ^ 29 ≤ (31 : ℝ) / 1000 := by
    have := mul_le_mul k1 h1 h0 (by norm_num); norm_num at *; linarith
  have k3 : ((9956226 / 2 ^ 30 * s + 14258647 / 2 ^ 32) * s + 13045860 / 2 ^ 29) * s + 14347749 / 2 ^ 28 ≤ (73 : ℝ) / 1000 := by
    have := mul_le_mul k2 h1 h0 (by norm_num); norm_num at *; linarith
  have k4 : (((9956226 / 2 ^ 30 * s + 14258647 / 2 ^ 32) * s + 13045860 / 2 ^ 29) * s + 14347749 / 2 ^ 28) * s + 8951182 / 2 ^ 26 ≤ (179 : ℝ) / 1000 := by
    have := mul_le_mul k3 h1 h0 (by norm_num); norm_num at *; linarith
  refine ⟨?_, ?_, ?_, ?_, b0, ?_⟩
  · rw [abs_of_nonneg (by positivity)]; exact k1
  · rw [abs_of_nonneg (by positivity)]; exact k2
  · rw [abs_of_nonneg (by positivity)]; exact k3
  · rw [abs_of_nonneg (by positivity)]; exact k4
  · unfold PT
    have := mul_le_mul k4 h1 h0 (by norm_num); norm_num at *; linarith

theorem PT_bounds {s : ℝ} (h0 : 0 ≤ s) (h1 : s ≤ 62 / 100) : 0 ≤ PT s ∧ PT s ≤ 45 / 100 := (PT_chain h0 h1).2.2.2.2

/-- The polynomial and the tangent. -/
theorem poly_tan {a : ℝ} (ha : |a| ≤ 7869 / 10 ^ 4) : |a * (1 + a * a * PT (a * a)) - Real.tan a| ≤ 4 / 10 ^ 8 ∧ 70 / 100 ≤ Real.cos a := by
  have hs0 : 0 ≤ a * a := mul_self_nonneg a
  have hs1 : a * a ≤ 62 / 100 := by
    have := mul_le_mul ha ha (abs_nonneg _) (by norm_num)
    rw [abs_mul_abs_self] at this
    exact le_trans this (by norm_num)
  obtain ⟨t1, t2⟩ := taylor a (le_trans ha (by norm_num))
  have hp : |a| ^ 16 / 10461394944000 ≤ 1 / 10 ^ 12 := by
    have : |a| ^ 16 ≤ 1 := pow_le_one₀ (abs_nonneg _) (le_trans ha (by norm_num))
    rw [div_le_div_iff₀ (by norm_num) (by norm_num)]
    norm_num at *; linarith
  have t1' := le_trans t1 hp
  have t2' := le_trans t2 hp
  rw [sq] at t1' t2'
  have hc := pt_close hs0 hs1
  obtain ⟨p0, p1⟩ := PT_bounds hs0 hs1
  have hcos : 70 / 100 ≤ Real.cos a := by
    have := Real.one_sub_sq_div_two_le_cos (x := a)
    have h2 := (abs_le.1 t2').1
    have hC : 704 / 1000 ≤ taylorC (a * a) := by
      unfold taylorC
      generalize a * a = s at *
      have e2 : 0 ≤ s ^ 2 := sq_nonneg s
      nlinarith [mul_nonneg hs0 e2, mul_nonneg e2 e2, pow_nonneg hs0 5, pow_nonneg hs0 6, pow_nonneg hs0 7]
    linarith
  refine ⟨?_, hcos⟩
  have hc0 : 0 < Real.cos a := by linarith
  rw [Real.tan_eq_sin_div_cos, show a * (1 + a * a * PT (a * a)) - Real.sin a / Real.cos a = (a * (1 + a * a * PT (a * a)) * Real.cos a - Real.sin a) / Real.cos a by
    field_simp, abs_div, abs_of_pos hc0, div_le_iff₀ hc0]
  have hW0 : 0 ≤ 1 + a * a * PT (a * a) := by positivity
  have hW : 1 + a * a * PT (a * a) ≤ 13 / 10 := by
    have := mul_le_mul hs1 p1 p0 (by norm_num); norm_num at *; linarith
  generalize 1 + a * a * PT (a * a) = W at *
  generalize Real.cos a = C at *
  generalize Real.sin a = S at *
  generalize taylorC (a * a) = tc at *
  generalize taylorS (a * a) = ts at *
  have e : a * W * C - S = a * (W * tc - ts) + a * W * (C - tc) - (S - a * ts) := by ring
  have b1 : |a * (W * tc - ts)| ≤ 7869 / 10 ^ 4 * (34 / 10 ^ 9) := by rw [abs_mul]; exact mul_le_mul ha hc (abs_nonneg _) (by norm_num)
  have b2 : |a * W * (C - tc)| ≤ 7869 / 10 ^ 4 * (13 / 10) * (1 / 10 ^ 12) := by
    rw [abs_mul, abs_mul, abs_of_nonneg hW0]
    exact mul_le_mul (mul_le_mul ha hW hW0 (by norm_num)) t2' (abs_nonneg _) (by norm_num)
  rw [e]
  have g1 := abs_le.1 b1
  have g2 := abs_le.1 b2
  have g3 := abs_le.1 t1'
  rw [abs_le]
  norm_num at *
  constructor <;> linarith

theorem is_tan6 : f32.Is (f32.litNeg 927245803177356719970703 26) (9956226 / 2 ^ 30) := by
  refine ⟨9956226 * 2 ^ 119, by decide +kernel, ?_⟩; rw [one32_val]; push_cast; norm_num
theorem is_tan5 : f32.Is (f32.litNeg 331984995864331722259521 26) (14258647 / 2 ^ 32) := by
  refine ⟨14258647 * 2 ^ 117, by decide +kernel, ?_⟩; rw [one32_val]; push_cast; norm_num
theorem is_tan4 : f32.Is (f32.litNeg 242998078465461730957031 25) (13045860 / 2 ^ 29) := by
  refine ⟨13045860 * 2 ^ 120, by decide +kernel, ?_⟩; rw [one32_val]; push_cast; norm_num
theorem is_tan3 : f32.Is (f32.litNeg 534495301544666290283203 25) (14347749 / 2 ^ 28) := by
  refine ⟨14347749 * 2 ^ 121, by decide +kernel, ?_⟩; rw [one32_val]; push_cast; norm_num
theorem is_tan2 : f32.Is (f32.litNeg 133383005857467651367188 24) (8951182 / 2 ^ 26) := by
  refine ⟨8951182 * 2 ^ 123, by decide +kernel, ?_⟩; rw [one32_val]; push_cast; norm_num
theorem is_tan1 : f32.Is (f32.litNeg 333331853151321411132812 24) (11184761 / 2 ^ 25) := by
  refine ⟨11184761 * 2 ^ 124, by decide +kernel, ?_⟩; rw [one32_val]; push_cast; norm_num

/-- The polynomial as the code computes it. -/
def tanPoly (x : Nat) : Nat :=
  let s := f32.mul x x
  let u := f32.litNeg 927245803177356719970703 26
  let u := madd u s (f32.litNeg 331984995864331722259521 26)
  let u := madd u s (f32.litNeg 242998078465461730957031 25)
  let u := madd u s (f32.litNeg 534495301544666290283203 25)
  let u := madd u s (f32.litNeg 133383005857467651367188 24)
  let u := madd u s (f32.litNeg 333331853151321411132812 24)
  madd s (f32.mul u x) x

theorem tan_eq (x : Nat) : tan x = (fastRint (f32.mul x (f64.convert f32 (f64.mul (f64.ofInt 2) kM_1_PI)))).map fun q =>
    if q % 2 = 0 then tanPoly (f32.sub (f64.convert f32 kM_PI_4) (f32.sub (f64.convert f32 kM_PI_4) (reduce 2 x (f32.ofInt q))))
    else f32.div (f32.neg one32) (tanPoly (reduce 2 x (f32.ofInt q))) := by
  unfold tan tanPoly
  cases fastRint (f32.mul x (f64.convert f32 (f64.mul (f64.ofInt 2) kM_1_PI))) with
  | none => rfl
  | some q =>
    by_cases h : q % 2 = 0
    · simp only [Option.bind_eq_bind, Option.bind_some, Option.pure_def, Option.map_some, h, if_true, ne_eq, not_true_eq_false, if_false]
    · simp only [Option.bind_eq_bind, Option.bind_some, Option.pure_def, Option.map_some, h, ne_eq, not_false_eq_true, if_true, if_false]

theorem tanPoly_spec {x : Nat} {a : ℝ} (h : f32.Is x a) (ha : |a| ≤ 7869 / 10 ^ 4) :
    ∃ b, f32.Is (tanPoly x) b ∧ |b - Real.tan a| ≤ 15 / 10 ^ 8 ∧ |b| ≤ 101 / 100 := by
  have hx := Ap.of_is h ha
  have s0 : 0 ≤ a * a := mul_self_nonneg a
  have s1 : a * a ≤ 62 / 100 := by
    have := mul_le_mul ha ha (abs_nonneg _) (by norm_num)
    rw [abs_mul_abs_self] at this
    exact le_trans this (by norm_num)
  have hs := hx.mulH hx (1 / 2 ^ 25) 125 (by norm_num) (by norm_num) (by norm_num)
  have hs : Ap (f32.mul x x) (a * a) (62 / 100) (1 / 2 ^ 25) := hs.weaken (by rw [abs_of_nonneg s0]; exact s1) (by norm_num)
  obtain ⟨B1, B2, B3, B4, B5, B6⟩ := PT_chain s0 s1
  have l6 := Ap.of_is is_tan6 (R := 9956226 / 2 ^ 30) (by norm_num)
  have l5 := Ap.of_is is_tan5 (R := 14258647 / 2 ^ 32) (by norm_num)
  have l4 := Ap.of_is is_tan4 (R := 13045860 / 2 ^ 29) (by norm_num)
  have l3 := Ap.of_is is_tan3 (R := 14347749 / 2 ^ 28) (by norm_num)
  have l2 := Ap.of_is is_tan2 (R := 8951182 / 2 ^ 26) (by norm_num)
  have l1 := Ap.of_is is_tan1 (R := 11184761 / 2 ^ 25) (by norm_num)
  have p1 := l6.mulH hs (1 / 2 ^ 32) 118 (by norm_num) (by norm_num) (by norm_num)
  have a1 := p1.addH l5 (1 / 100) (1 / 2 ^ 31) 119 (by norm_num) (by norm_num) B1 (by norm_num)
  have p2 := a1.mulH hs (1 / 2 ^ 32) 118 (by norm_num) (by norm_num) (by norm_num)
  have a2 := p2.addH l4 (31 / 1000) (1 / 2 ^ 30) 120 (by norm_num) (by norm_num) B2 (by norm_num)
  have p3 := a2.mulH hs (1 / 2 ^ 30) 120 (by norm_num) (by norm_num) (by norm_num)
  have a3 := p3.addH l3 (73 / 1000) (1 / 2 ^ 28) 122 (by norm_num) (by norm_num) B3 (by norm_num)
  have p4 := a3.mulH hs (1 / 2 ^ 29) 121 (by norm_num) (by norm_num) (by norm_num)
  have a4 := p4.addH l2 (179 / 1000) (1 / 2 ^ 27) 123 (by norm_num) (by norm_num) B4 (by norm_num)
  have p5 := a4.mulH hs (1 / 2 ^ 28) 122 (by norm_num) (by norm_num) (by norm_num)
  have a5 := p5.addH l1 (45 / 100) (1 / 2 ^ 26) 124 (by norm_num) (by norm_num) (by
    show |PT (a * a)| ≤ _
    rw [abs_of_nonneg B5]; exact B6) (by norm_num)
  change Ap _ (PT (a * a)) _ _ at a5
  have p6 := a5.mulH hx (1 / 2 ^ 26) 124 (by norm_num) (by norm_num) (by norm_num)
  have p7 := hs.mulH p6 (1 / 2 ^ 27) 123 (by norm_num) (by norm_num) (by norm_num)
  obtain ⟨t1, t2⟩ := poly_tan ha
  have e : a * a * (PT (a * a) * a) + a = a * (1 + a * a * PT (a * a)) := by ring
  have htan : |a * (1 + a * a * PT (a * a))| ≤ 1007 / 1000 := by
    have hW : 0 ≤ 1 + a * a * PT (a * a) := by have := mul_nonneg s0 B5; linarith
    rw [abs_mul, abs_of_nonneg hW]
    have := mul_le_mul s1 B6 B5 (by norm_num)
    refine le_trans (mul_le_mul ha (show 1 + a * a * PT (a * a) ≤ 12796 / 10000 by norm_num at *; linarith) hW (by norm_num)) (by norm_num)
  have p8 := p7.addH hx (1007 / 1000) (1 / 2 ^ 24) 126 (by norm_num) (by norm_num) (by rw [e]; exact htan) (by norm_num)
  rw [e] at p8
  obtain ⟨b, hb, hbe⟩ := p8.ex
  have hbe' : |b - a * (1 + a * a * PT (a * a))| ≤ 11 / 10 ^ 8 := le_trans hbe (by norm_num)
  refine ⟨b, hb, ?_, ?_⟩
  · have := abs_add_le (b - a * (1 + a * a * PT (a * a))) (a * (1 + a * a * PT (a * a)) - Real.tan a)
    rw [sub_add_sub_cancel] at this
    refine le_trans this (le_trans (add_le_add hbe' t1) (by norm_num))
  · have := abs_add_le (b - a * (1 + a * a * PT (a * a))) (a * (1 + a * a * PT (a * a)))
    rw [sub_add_cancel] at this
    refine le_trans this (le_trans (add_le_add hbe' htan) (by norm_num))

end Nanostl.Math

import Verif.Math.ErfPoly
import Verif.Math.Order
import Verif.Math.Cbrt

/-! `erf` (nanomath.h:661-680): rounding errors. -/

namespace Nanostl.Math
open Nanostl.Float Nanostl.Float.Fmt

theorem erf_m1 : f32.Is 958988288 (169 / 2 ^ 20) := by
  refine ⟨169 * 2 ^ 129, by decide +kernel, ?_⟩; rw [one32_val]; push_cast; norm_num
theorem erf_a1 : f32.Is 971309056 (229 / 2 ^ 19) := by
  refine ⟨229 * 2 ^ 130, by decide +kernel, ?_⟩; rw [one32_val]; push_cast; norm_num
theorem erf_m2 : f32.Is 987103232 (107 / 2 ^ 16) := by
  refine ⟨107 * 2 ^ 133, by decide +kernel, ?_⟩; rw [one32_val]; push_cast; norm_num
theorem erf_a2 : f32.Is 988348416 (233 / 2 ^ 17) := by
  refine ⟨233 * 2 ^ 132, by decide +kernel, ?_⟩; rw [one32_val]; push_cast; norm_num
theorem erf_m3 : f32.Is 1004142592 (109 / 2 ^ 14) := by
  refine ⟨109 * 2 ^ 135, by decide +kernel, ?_⟩; rw [one32_val]; push_cast; norm_num
theorem erf_a3 : f32.Is 1015152640 (65 / 2 ^ 12) := by
  refine ⟨65 * 2 ^ 137, by decide +kernel, ?_⟩; rw [one32_val]; push_cast; norm_num
theorem erf_m4 : f32.Is 1030946816 (243 / 2 ^ 12) := by
  refine ⟨243 * 2 ^ 137, by decide +kernel, ?_⟩; rw [one32_val]; push_cast; norm_num
theorem erf_a4 : f32.Is 1037041664 (13 / 2 ^ 7) := by
  refine ⟨13 * 2 ^ 142, by decide +kernel, ?_⟩; rw [one32_val]; push_cast; norm_num
theorem erf_m5 : f32.Is 1052966912 (195 / 2 ^ 9) := by
  refine ⟨195 * 2 ^ 140, by decide +kernel, ?_⟩; rw [one32_val]; push_cast; norm_num
theorem erf_a5 : f32.Is 1055326208 (231 / 2 ^ 9) := by
  refine ⟨231 * 2 ^ 140, by decide +kernel, ?_⟩; rw [one32_val]; push_cast; norm_num
theorem erf_m6 : f32.Is 1071120384 (27 / 2 ^ 4) := by
  refine ⟨27 * 2 ^ 145, by decide +kernel, ?_⟩; rw [one32_val]; push_cast; norm_num
theorem erf_a6 : f32.Is 1076625408 (43 / 2 ^ 4) := by
  refine ⟨43 * 2 ^ 145, by decide +kernel, ?_⟩; rw [one32_val]; push_cast; norm_num
theorem erf_s2 : f32.Is 1088421888 (7) := by
  refine ⟨7 * 2 ^ 149, by decide +kernel, ?_⟩; rw [one32_val]; push_cast; norm_num
theorem erf_s4 : f32.Is 1111752704 (49) := by
  refine ⟨49 * 2 ^ 149, by decide +kernel, ?_⟩; rw [one32_val]; push_cast; norm_num
theorem erf_s8 : f32.Is 1159073792 (2401) := by
  refine ⟨2401 * 2 ^ 149, by decide +kernel, ?_⟩; rw [one32_val]; push_cast; norm_num
theorem erf_s16 : f32.Is 1253043586 (5764801) := by
  refine ⟨5764801 * 2 ^ 149, by decide +kernel, ?_⟩; rw [one32_val]; push_cast; norm_num
theorem erf_b0 : f32.Is 1081081856 (15 / 2 ^ 2) := by
  refine ⟨15 * 2 ^ 147, by decide +kernel, ?_⟩; rw [one32_val]; push_cast; norm_num
theorem erf_b1 : f32.Is 1076887552 (11 / 2 ^ 2) := by
  refine ⟨11 * 2 ^ 147, by decide +kernel, ?_⟩; rw [one32_val]; push_cast; norm_num
theorem erf_iv : f32.Is 876609536 (3 / 2 ^ 24) := by
  refine ⟨3 * 2 ^ 125, by decide +kernel, ?_⟩; rw [one32_val]; push_cast; norm_num
theorem is_erf1 : f32.Is (f32.litNeg 705230784 10) (9465447 / 2 ^ 27) := by
  refine ⟨9465447 * 2 ^ 122, by decide +kernel, ?_⟩; rw [one32_val]; push_cast; norm_num
theorem is_erf2 : f32.Is (f32.litNeg 422820123 10) (11349991 / 2 ^ 28) := by
  refine ⟨11349991 * 2 ^ 121, by decide +kernel, ?_⟩; rw [one32_val]; push_cast; norm_num
theorem is_erf3 : f32.Is (f32.litNeg 92705272 10) (9954153 / 2 ^ 30) := by
  refine ⟨9954153 * 2 ^ 119, by decide +kernel, ?_⟩; rw [one32_val]; push_cast; norm_num
theorem is_erf4 : f32.Is (f32.litNeg 1520143 10) (10446343 / 2 ^ 36) := by
  refine ⟨10446343 * 2 ^ 113, by decide +kernel, ?_⟩; rw [one32_val]; push_cast; norm_num
theorem is_erf5 : f32.Is (f32.litNeg 2765672 10) (9502777 / 2 ^ 35) := by
  refine ⟨9502777 * 2 ^ 114, by decide +kernel, ?_⟩; rw [one32_val]; push_cast; norm_num
theorem is_erf6 : f32.Is (f32.litNeg 430638 10) (11837287 / 2 ^ 38) := by
  refine ⟨11837287 * 2 ^ 111, by decide +kernel, ?_⟩; rw [one32_val]; push_cast; norm_num

/-- The number whose 16th power is inverted, as the code computes it. -/
def erfR (b : Nat) : Nat :=
  madd (madd (madd (madd (madd (madd (f32.litNeg 430638 10) b (f32.litNeg 2765672 10)) b (f32.litNeg 1520143 10)) b (f32.litNeg 92705272 10)) b
    (f32.litNeg 422820123 10)) b (f32.litNeg 705230784 10)) b one32

def pow16 (r : Nat) : Nat :=
  let s := f32.mul r r
  let t := f32.mul s s
  let u := f32.mul t t
  f32.mul u u

theorem erf_eq (x : Nat) : erf x =
    copysign (f32.sub one32 (f32.div one32 (pow16 (erfR (f32.sub one32 (f32.sub one32 (fabs f32 x))))))) x := rfl

/-- From 15/4 on. -/
theorem erf_big {b : Nat} (h : Ge (15 / 4) b) : Ge 5764801 (pow16 (erfR b)) := by
  have step : ∀ {p z wm wa : Nat} {P Z m a : ℝ}, Ge P p → 0 < P → f32.Is z Z → f32.Is wm m → f32.Is wa a → m ≤ P * (15 / 4) → a ≤ m + Z → m ≤ 100 → -100 ≤ a → a ≤ 100 →
      Ge a (madd p b z) := by
    intro p z wm wa P Z m a hp hP hz hm ha h1 h2 h3 h4 h5
    have e := mul_ge hp h hP (by norm_num) hm h1 (by linarith [show (100 : ℝ) ≤ 2 ^ 127 by norm_num])
    exact add_ge e (.inl ⟨Z, hz, le_rfl⟩) ha h2 (by linarith [show (100 : ℝ) ≤ 2 ^ 127 by norm_num]) (by linarith [show (100 : ℝ) < 2 ^ 127 by norm_num])
  have k0 : Ge (11837287 / 2 ^ 38) (f32.litNeg 430638 10) := .inl ⟨_, is_erf6, le_rfl⟩
  have k1 := step k0 (by norm_num) is_erf5 erf_m1 erf_a1 (by norm_num) (by norm_num) (by norm_num) (by norm_num) (by norm_num)
  have k2 := step k1 (by norm_num) is_erf4 erf_m2 erf_a2 (by norm_num) (by norm_num) (by norm_num) (by norm_num) (by norm_num)
  have k3 := step k2 (by norm_num) is_erf3 erf_m3 erf_a3 (by norm_num) (by norm_num) (by norm_num) (by norm_num) (by norm_num)
  have k4 := step k3 (by norm_num) is_erf2 erf_m4 erf_a4 (by norm_num) (by norm_num) (by norm_num) (by norm_num) (by norm_num)
  have k5 := step k4 (by norm_num) is_erf1 erf_m5 erf_a5 (by norm_num) (by norm_num) (by norm_num) (by norm_num) (by norm_num)
  have k6 := step k5 (by norm_num) is_one32 erf_m6 erf_a6 (by norm_num) (by norm_num) (by norm_num) (by norm_num) (by norm_num)
  have s2 := mul_ge k6 k6 (by norm_num) (by norm_num) erf_s2 (by norm_num) (by norm_num)
  have s4 := mul_ge s2 s2 (by norm_num) (by norm_num) erf_s4 (by norm_num) (by norm_num)
  have s8 := mul_ge s4 s4 (by norm_num) (by norm_num) erf_s8 (by norm_num) (by norm_num)
  exact mul_ge s8 s8 (by norm_num) (by norm_num) erf_s16 (by norm_num) (by norm_num)

/-- One step of the polynomial: every step adds 1.195e-7 to the relative error. -/
theorem erf_step {x b z : Nat} {X' X β Z e : ℝ} (hx : f32.Is x X') (hR : Rel e X' X) (hX : 0 ≤ X) (hX1 : X ≤ 1) (hb : f32.Is b β) (hβ : 0 ≤ β) (hβ1 : β ≤ 4)
    (hz : f32.Is z Z) (hZ : 1 / 2 ^ 20 ≤ Z) (hZ1 : Z ≤ 1) (he : 0 ≤ e) (he1 : e ≤ 1 / 10 ^ 5) :
    ∃ Y, f32.Is (madd x b z) Y ∧ Rel (e + 1195 / 10 ^ 10) Y (X * β + Z) := by
  have hX'0 : 0 ≤ X' := le_trans (mul_nonneg (by linarith) hX) hR.lo
  have hX'1 : X' ≤ 2 := by
    have := hR.hi
    have : (1 + e) * X ≤ (1 + e) * 1 := mul_le_mul_of_nonneg_left hX1 (by linarith)
    linarith
  have h0 : 0 ≤ X' * β := mul_nonneg hX'0 hβ
  have h8 : X' * β ≤ 8 := by
    have := mul_le_mul hX'1 hβ1 hβ (by norm_num); linarith
  obtain ⟨p, hp, rp⟩ := is_mul good32 hx hb (by rw [bias32, abs_of_nonneg h0]; exact le_trans h8 (by norm_num))
  have hp1 := abs_le.1 (rnd32 rp)
  rw [abs_of_nonneg h0] at hp1
  have hp0 : 0 ≤ p := rp.ge _ _ (is_zero good32) h0
  have hp9 : p ≤ 9 := by
    have h1 : X' * β * ulp ≤ 8 * ulp := mul_le_mul_of_nonneg_right h8 (by unfold ulp; positivity)
    have h2 : 8 * ulp + tiny ≤ 1 := by num
    linarith [hp1.2]
  have hZ0 : 0 < Z := lt_of_lt_of_le (by norm_num) hZ
  obtain ⟨Y, hY, rY, -⟩ := is_add good32 hp hz (by
    rw [bias32, abs_of_nonneg (by linarith)]; exact le_trans (show p + Z ≤ 10 by linarith) (by norm_num))
  have R2 := rnd_rel rY (le_trans (by norm_num : (1 : ℝ) / 2 ^ 100 ≤ 1 / 2 ^ 20) (by linarith))
  have R1 : Rel (e + 5970 / 10 ^ 11) (p + Z) (X * β + Z) := by
    have ht : tiny ≤ Z * (1 / 10 ^ 12) := le_trans (by num) (mul_le_mul_of_nonneg_right hZ (by norm_num))
    have hXβ : 0 ≤ X * β := mul_nonneg hX hβ
    have l1 := mul_le_mul_of_nonneg_right hR.lo hβ
    have l2 := mul_le_mul_of_nonneg_right hR.hi hβ
    have hu : ulp = 1 / 2 ^ 24 := rfl
    have hee : e * (X * β) ≤ 1 / 10 ^ 5 * (X * β) := mul_le_mul_of_nonneg_right he1 hXβ
    have heZ : 0 ≤ e * Z := mul_nonneg he hZ0.le
    rw [hu] at hp1
    have a1 := hp1.1
    have a2 := hp1.2
    generalize hq : X' * β = q at *
    have l1' : X * β - e * (X * β) ≤ q := by linarith
    have l2' : q ≤ X * β + e * (X * β) := by linarith
    have hg : (e + 5970 / 10 ^ 11) * (X * β + Z) = e * (X * β) + e * Z + 5970 / 10 ^ 11 * (X * β) + 5970 / 10 ^ 11 * Z := by ring
    constructor
    · rw [sub_mul, one_mul, hg]
      generalize X * β = y at *
      generalize e * y = ey at *
      norm_num at *
      linarith
    · rw [add_mul, one_mul, hg]
      generalize X * β = y at *
      generalize e * y = ey at *
      norm_num at *
      linarith
  refine ⟨Y, hY, R2.trans R1 (by positivity) (by norm_num) (by norm_num) ?_ ?_⟩
  · have : e * (597 / 10 ^ 10) ≤ 1 / 10 ^ 5 * (597 / 10 ^ 10) := mul_le_mul_of_nonneg_right he1 (by norm_num)
    norm_num at *
    linarith
  · have : 0 ≤ e * (597 / 10 ^ 10) := by positivity
    norm_num at *
    linarith

theorem erfR_spec {b : Nat} {β : ℝ} (hb : f32.Is b β) (h0 : 0 ≤ β) (h1 : β ≤ 376 / 100) :
    ∃ r, f32.Is (erfR b) r ∧ 1 ≤ r ∧ Rel (6 / 10 ^ 8 + 67 / 10 ^ 8 * (1 - 1 / RR β)) r (RR β) ∧ RR β ≤ 4 := by
  have h14 : β ≤ 4 := le_trans h1 (by norm_num)
  have B : ∀ {X Z U U' : ℝ}, 0 ≤ X → X ≤ U → U * (376 / 100) + Z ≤ U' → X * β + Z ≤ U' := by
    intro X Z U U' hX hU hU'
    have := mul_le_mul hU h1 h0 (le_trans hX hU)
    linarith
  have R0 : Rel 0 (11837287 / 2 ^ 38) (11837287 / 2 ^ 38) := ⟨by norm_num, by norm_num⟩
  have P0 : (0 : ℝ) ≤ 11837287 / 2 ^ 38 := by norm_num
  have U0 : (11837287 / 2 ^ 38 : ℝ) ≤ 44 / 10 ^ 6 := by norm_num
  obtain ⟨y1, i1, R1⟩ := erf_step is_erf6 R0 P0 (by norm_num) hb h0 h14 is_erf5 (by norm_num) (by norm_num) (by norm_num) (by norm_num)
  have P1 : 0 ≤ 11837287 / 2 ^ 38 * β + 9502777 / 2 ^ 35 := by positivity
  have U1 : 11837287 / 2 ^ 38 * β + 9502777 / 2 ^ 35 ≤ 45 / 10 ^ 5 := B P0 U0 (by norm_num)
  obtain ⟨y2, i2, R2⟩ := erf_step i1 R1 P1 (le_trans U1 (by norm_num)) hb h0 h14 is_erf4 (by norm_num) (by norm_num) (by norm_num) (by norm_num)
  have P2 : 0 ≤ (11837287 / 2 ^ 38 * β + 9502777 / 2 ^ 35) * β + 10446343 / 2 ^ 36 := by positivity
  have U2 : (11837287 / 2 ^ 38 * β + 9502777 / 2 ^ 35) * β + 10446343 / 2 ^ 36 ≤ 19 / 10 ^ 4 := B P1 U1 (by norm_num)
  obtain ⟨y3, i3, R3⟩ := erf_step i2 R2 P2 (le_trans U2 (by norm_num)) hb h0 h14 is_erf3 (by norm_num) (by norm_num) (by norm_num) (by norm_num)
  have P3 : 0 ≤ ((11837287 / 2 ^ 38 * β + 9502777 / 2 ^ 35) * β + 10446343 / 2 ^ 36) * β + 9954153 / 2 ^ 30 := by positivity
  have U3 : ((11837287 / 2 ^ 38 * β + 9502777 / 2 ^ 35) * β + 10446343 / 2 ^ 36) * β + 9954153 / 2 ^ 30 ≤ 17 / 1000 := B P2 U2 (by norm_num)
  obtain ⟨y4, i4, R4⟩ := erf_step i3 R3 P3 (le_trans U3 (by norm_num)) hb h0 h14 is_erf2 (by norm_num) (by norm_num) (by norm_num) (by norm_num)
  have P4 : 0 ≤ (((11837287 / 2 ^ 38 * β + 9502777 / 2 ^ 35) * β + 10446343 / 2 ^ 36) * β + 9954153 / 2 ^ 30) * β + 11349991 / 2 ^ 28 := by positivity
  have U4 : (((11837287 / 2 ^ 38 * β + 9502777 / 2 ^ 35) * β + 10446343 / 2 ^ 36) * β + 9954153 / 2 ^ 30) * β + 11349991 / 2 ^ 28 ≤ 11 / 100 := B P3 U3 (by norm_num)
  obtain ⟨y5, i5, R5⟩ := erf_step i4 R4 P4 (le_trans U4 (by norm_num)) hb h0 h14 is_erf1 (by norm_num) (by norm_num) (by norm_num) (by norm_num)
  have hRR : RR β = ((((((11837287 / 2 ^ 38 * β + 9502777 / 2 ^ 35) * β + 10446343 / 2 ^ 36) * β + 9954153 / 2 ^ 30) * β + 11349991 / 2 ^ 28) * β +
    9465447 / 2 ^ 27) * β + 1) := rfl
  have P5 : 0 ≤ ((((11837287 / 2 ^ 38 * β + 9502777 / 2 ^ 35) * β + 10446343 / 2 ^ 36) * β + 9954153 / 2 ^ 30) * β + 11349991 / 2 ^ 28) * β + 9465447 / 2 ^ 27 := by positivity
  have U5 : ((((11837287 / 2 ^ 38 * β + 9502777 / 2 ^ 35) * β + 10446343 / 2 ^ 36) * β + 9954153 / 2 ^ 30) * β + 11349991 / 2 ^ 28) * β + 9465447 / 2 ^ 27 ≤ 49 / 100 :=
    B P4 U4 (by norm_num)
  have he : (0 + 1195 / 10 ^ 10 + 1195 / 10 ^ 10 + 1195 / 10 ^ 10 + 1195 / 10 ^ 10 + 1195 / 10 ^ 10 : ℝ) = 5975 / 10 ^ 10 := by norm_num
  rw [he] at R5
  generalize ((((11837287 / 2 ^ 38 * β + 9502777 / 2 ^ 35) * β + 10446343 / 2 ^ 36) * β + 9954153 / 2 ^ 30) * β + 11349991 / 2 ^ 28) * β + 9465447 / 2 ^ 27 = Q at *
  have hQβ : 0 ≤ Q * β := mul_nonneg P5 h0
  have hy0 : 0 ≤ y5 := le_trans (mul_nonneg (by norm_num) P5) R5.lo
  have l1 := mul_le_mul_of_nonneg_right R5.lo h0
  have l2 := mul_le_mul_of_nonneg_right R5.hi h0
  rw [mul_assoc] at l1 l2
  have hQ2 : Q * β ≤ 2 := by have := mul_le_mul U5 h1 h0 (by norm_num); norm_num at *; linarith
  have hyβ : 0 ≤ y5 * β := mul_nonneg hy0 h0
  have hy3 : y5 * β ≤ 3 := by norm_num at *; linarith
  obtain ⟨p, hp, rp⟩ := is_mul good32 i5 hb (by rw [bias32, abs_of_nonneg hyβ]; exact le_trans hy3 (by norm_num))
  have hp1 := abs_le.1 (rnd32 rp)
  rw [abs_of_nonneg hyβ, show ulp = 1 / 2 ^ 24 from rfl] at hp1
  have hp0 : 0 ≤ p := rp.ge _ _ (is_zero good32) hyβ
  have ht : tiny ≤ 1 / 10 ^ 20 := by num
  have hp4 : p ≤ 4 := by norm_num at *; linarith
  obtain ⟨r, hr, rr, -⟩ := is_add good32 hp is_one32 (by
    rw [bias32, abs_of_nonneg (by linarith)]; exact le_trans (show p + 1 ≤ 5 by linarith) (by norm_num))
  have Rr := rnd_rel rr (by norm_num; linarith)
  refine ⟨r, hr, rr.ge _ _ is_one32 (by linarith), ?_, by rw [hRR]; linarith⟩
  have hR1 := RR_ge h0
  have hR0 : RR β ≠ 0 := by linarith
  have hmul : (6 / 10 ^ 8 + 67 / 10 ^ 8 * (1 - 1 / RR β)) * RR β = 6 / 10 ^ 8 * RR β + 67 / 10 ^ 8 * (Q * β) := by
    have : (6 / 10 ^ 8 + 67 / 10 ^ 8 * (1 - 1 / RR β)) * RR β = 6 / 10 ^ 8 * RR β + 67 / 10 ^ 8 * (RR β - 1) := by field_simp
    rw [this, hRR]; ring
  have g1 := Rr.lo
  have g2 := Rr.hi
  obtain ⟨hp2, hp3⟩ := hp1
  constructor
  · rw [sub_mul, one_mul, hmul, hRR]
    generalize Q * β = y at *
    generalize y5 * β = z at *
    norm_num at *
    linarith
  · rw [add_mul, one_mul, hmul, hRR]
    generalize Q * β = y at *
    generalize y5 * β = z at *
    norm_num at *
    linarith

theorem sq_step {x : Nat} {X' X e M : ℝ} (hx : f32.Is x X') (hR : Rel e X' X) (h1 : 1 ≤ X') (hX : 1 ≤ X) (hM : X ≤ M) (hM1 : M ≤ 2 ^ 17) (he : 0 ≤ e) (he1 : e ≤ 1 / 10 ^ 5) :
    ∃ Y, f32.Is (f32.mul x x) Y ∧ 1 ≤ Y ∧ 1 ≤ X * X ∧ Rel (20001 / 10 ^ 4 * e + 598 / 10 ^ 10) Y (X * X) := by
  have hX'2 : X' ≤ 2 * X := le_trans hR.hi (mul_le_mul_of_nonneg_right (by linarith) (by linarith))
  have hX'M : X' ≤ 2 ^ 18 := by norm_num at *; linarith
  have hsq : 1 ≤ X' * X' := by nlinarith
  obtain ⟨Y, hY, rY⟩ := is_mul good32 hx hx (by
    rw [bias32, abs_of_nonneg (by linarith)]
    exact le_trans (mul_le_mul hX'M hX'M (by linarith) (by norm_num)) (by norm_num))
  have RY := rnd_rel rY (le_trans (by norm_num) hsq)
  have hXX : 1 ≤ X * X := by nlinarith
  refine ⟨Y, hY, rY.ge _ _ is_one32 hsq, hXX, ?_⟩
  have RX : Rel (200001 / 10 ^ 5 * e) (X' * X') (X * X) := by
    have hee : e * e ≤ 1 / 10 ^ 5 * e := mul_le_mul_of_nonneg_right he1 he
    have hl0 : 0 ≤ (1 - e) * X := mul_nonneg (by linarith) (by linarith)
    have a1 := mul_le_mul hR.lo hR.lo hl0 (by linarith)
    have a2 := mul_le_mul hR.hi hR.hi (by linarith) (mul_nonneg (by linarith) (by linarith))
    constructor
    · have : (1 - 200001 / 10 ^ 5 * e) * (X * X) ≤ (1 - e) * (1 - e) * (X * X) := mul_le_mul_of_nonneg_right (by nlinarith) (by linarith)
      nlinarith
    · have : (1 + e) * (1 + e) * (X * X) ≤ (1 + 200001 / 10 ^ 5 * e) * (X * X) := mul_le_mul_of_nonneg_right (by norm_num at *; nlinarith) (by linarith)
      nlinarith
  refine RY.trans RX (by linarith) (by norm_num) (by norm_num) ?_ ?_
  · norm_num at *; linarith
  · have : 0 ≤ e * (597 / 10 ^ 10) := by positivity
    norm_num at *; linarith

theorem pow16_spec {x : Nat} {X' X e : ℝ} (hx : f32.Is x X') (hR : Rel e X' X) (h1 : 1 ≤ X') (hX : 1 ≤ X) (hX4 : X ≤ 4) (he : 0 ≤ e) (he1 : e ≤ 75 / 10 ^ 8) :
    ∃ V, f32.Is (pow16 x) V ∧ 1 ≤ V ∧ Rel (1602 / 100 * e + 899 / 10 ^ 9) V (X ^ 16) := by
  obtain ⟨y1, i1, g1, o1, R1⟩ := sq_step hx hR h1 hX hX4 (by norm_num) he (le_trans he1 (by norm_num))
  have m1 : X * X ≤ 16 := by nlinarith
  obtain ⟨y2, i2, g2, o2, R2⟩ := sq_step i1 R1 g1 o1 m1 (by norm_num) (by positivity) (by norm_num at *; linarith)
  have m2 : X * X * (X * X) ≤ 256 := by nlinarith
  obtain ⟨y3, i3, g3, o3, R3⟩ := sq_step i2 R2 g2 o2 m2 (by norm_num) (by positivity) (by norm_num at *; linarith)
  have m3 : X * X * (X * X) * (X * X * (X * X)) ≤ 65536 := by nlinarith
  obtain ⟨y4, i4, g4, o4, R4⟩ := sq_step i3 R3 g3 o3 m3 (by norm_num) (by positivity) (by norm_num at *; linarith)
  refine ⟨y4, i4, g4, ?_⟩
  have e16 : X * X * (X * X) * (X * X * (X * X)) * (X * X * (X * X) * (X * X * (X * X))) = X ^ 16 := by ring
  rw [e16] at R4 o4
  exact R4.weaken (by linarith) (by norm_num at *; linarith)

/-- What the code computes from |x|, before the sign is put back. -/
def erfA (a : Nat) : Nat := f32.sub one32 (f32.div one32 (pow16 (erfR (f32.sub one32 (f32.sub one32 a)))))

theorem erf_iv1 : f32.Is 1065353213 (1 - 3 / 2 ^ 24) := by
  refine ⟨16777213 * 2 ^ 125, by decide +kernel, ?_⟩; rw [one32_val]; push_cast; norm_num

theorem inv_close {V W e θ : ℝ} (hR : Rel e V W) (hV : 1 ≤ V) (hW : 1 + 16 * θ ≤ W) (hθ0 : 0 ≤ θ) (hθ1 : θ ≤ 1)
    (he : e = 18602 / 10 ^ 10 + 10734 / 10 ^ 9 * θ) : |1 / V - 1 / W| ≤ 187 / 10 ^ 8 := by
  have he1 : e ≤ 18602 / 10 ^ 10 * W := by rw [he]; norm_num at *; linarith
  have he2 : e ≤ 2 / 10 ^ 5 := by rw [he]; norm_num at *; linarith
  have hW0 : 0 < W := by linarith
  have hV0 : 0 < V := by linarith
  have h1 : |V - W| ≤ e * W := by
    rw [abs_le]; have := hR.lo; have := hR.hi; constructor <;> linarith
  rw [show 1 / V - 1 / W = (W - V) / (V * W) by field_simp, abs_div, abs_sub_comm, abs_of_pos (mul_pos hV0 hW0), div_le_iff₀ (mul_pos hV0 hW0)]
  refine le_trans h1 ?_
  rw [← mul_assoc]
  refine mul_le_mul_of_nonneg_right ?_ hW0.le
  have h2 : (1 - 2 / 10 ^ 5) * W ≤ V := le_trans (mul_le_mul_of_nonneg_right (by linarith) hW0.le) hR.lo
  norm_num at *; linarith

theorem erfA_small {a : Nat} {A : ℝ} (ha : f32.Is a A) (h0 : 0 ≤ A) (h1 : A ≤ 15 / 4) :
    ∃ c, f32.Is (erfA a) c ∧ 0 ≤ c ∧ c ≤ 1 ∧ |c - Erf A| ≤ 35 / 10 ^ 7 := by
  have ht : tiny ≤ 1 / 10 ^ 20 := by num
  have hu : ulp = 1 / 2 ^ 24 := rfl
  have hd0 : |1 + -A| ≤ 11 / 4 := by rw [abs_le]; constructor <;> linarith
  obtain ⟨d, hd, rd, -⟩ := is_add good32 is_one32 ha.neg (by rw [bias32]; exact le_trans hd0 (by norm_num))
  have d1 : |d - (1 + -A)| ≤ 165 / 10 ^ 9 := by
    have := rnd32 rd
    rw [hu] at this; norm_num at *; linarith
  have dle : d ≤ 1 := rd.le _ _ is_one32 (by linarith)
  have d2 := abs_le.1 d1
  have hb1 : 0 ≤ 1 + -d := by linarith
  have hb2 : 1 + -d ≤ 37501 / 10 ^ 4 := by norm_num at *; linarith
  obtain ⟨β, hb, rb, -⟩ := is_add good32 is_one32 hd.neg (by rw [bias32, abs_of_nonneg hb1]; exact le_trans hb2 (by norm_num))
  have b0 : 0 ≤ β := rb.ge _ _ (is_zero good32) hb1
  have b1 : |β - (1 + -d)| ≤ 224 / 10 ^ 9 := by
    have := rnd32 rb
    rw [hu, abs_of_nonneg hb1] at this; norm_num at *; linarith
  have b2 := abs_le.1 b1
  have bA : |β - A| ≤ 389 / 10 ^ 9 := by rw [abs_le]; norm_num at *; constructor <;> linarith
  obtain ⟨r, hr, r1, hR, hR4⟩ := erfR_spec hb b0 (by norm_num at *; linarith)
  have hR1 := RR_ge b0
  have hθ0 : 0 ≤ 1 - 1 / RR β := by rw [sub_nonneg, div_le_one (by linarith)]; exact hR1
  have hθ1 : 1 - 1 / RR β ≤ 1 := by have : 0 ≤ 1 / RR β := by positivity
                                    linarith
  have hθR : 1 + (1 - 1 / RR β) ≤ RR β := by
    have : (1 - 1 / RR β) * RR β = RR β - 1 := by field_simp
    nlinarith
  have hW : 1 + 16 * (1 - 1 / RR β) ≤ RR β ^ 16 := by
    refine le_trans ?_ (pow_le_pow_left₀ (by linarith) hθR 16)
    have := one_add_mul_le_pow (show (-2 : ℝ) ≤ 1 - 1 / RR β by linarith) 16
    push_cast at this; exact this
  obtain ⟨V, hV, V1, RV⟩ := pow16_spec hr hR r1 hR1 hR4 (by positivity) (by
    generalize 1 - 1 / RR β = θ at *
    norm_num at *; linarith)
  have RV' : Rel (18602 / 10 ^ 10 + 10734 / 10 ^ 9 * (1 - 1 / RR β)) V (RR β ^ 16) := RV.weaken (by positivity) (by
    generalize 1 - 1 / RR β = θ at *
    norm_num at *; linarith)
  have hq := inv_close RV' V1 hW hθ0 hθ1 rfl
  have hVi : 1 / V ≤ 1 := by rw [div_le_one (by linarith)]; exact V1
  have hVi0 : 0 ≤ 1 / V := by positivity
  obtain ⟨q, iq, rq⟩ := is_div good32 is_one32 hV (by linarith) (by rw [bias32, abs_of_nonneg hVi0]; exact le_trans hVi (by norm_num))
  have q0 : 0 ≤ q := rq.ge _ _ (is_zero good32) hVi0
  have q1 : q ≤ 1 := rq.le _ _ is_one32 hVi
  have qe := rnd32 rq
  rw [abs_of_nonneg hVi0, hu] at qe
  obtain ⟨c, ic, rc, -⟩ := is_add good32 is_one32 iq.neg (by rw [bias32, abs_of_nonneg (by linarith)]; exact le_trans (show 1 + -q ≤ 1 by linarith) (by norm_num))
  have ce := rnd32 rc
  have hq1 : 0 ≤ 1 + -q := by linarith
  rw [abs_of_nonneg hq1, hu] at ce
  refine ⟨c, ic, rc.ge _ _ (is_zero good32) (by linarith), rc.le _ _ is_one32 (by linarith), ?_⟩
  have hf := abs_le.1 (formula_erf b0)
  have hl := abs_le.1 (le_trans (Erf_lipschitz β A) (mul_le_mul_of_nonneg_left bA (by norm_num)))
  have qe := abs_le.1 qe
  have ce := abs_le.1 ce
  have hq := abs_le.1 hq
  rw [abs_le]
  generalize 1 / V = iV at *
  generalize 1 / RR β ^ 16 = iW at *
  norm_num at *
  constructor <;> linarith

theorem erfA_big {a : Nat} (h : Ge (15 / 4) a) : ∃ c, f32.Is (erfA a) c ∧ 1 - 3 / 2 ^ 24 ≤ c ∧ c ≤ 1 := by
  have h1 : Ln (11 / 2 ^ 2) (f32.sub one32 a) := add_ln is_one32 h.neg erf_b1.neg (by norm_num) (by norm_num) (by norm_num)
  have h2 : Ge (15 / 2 ^ 2) (f32.sub one32 (f32.sub one32 a)) := add_ge (.inl ⟨1, is_one32, le_rfl⟩) h1.neg erf_b0 (by norm_num) (by norm_num) (by norm_num)
  obtain ⟨q, iq, q0, q1⟩ := recip_ge (erf_big (h2.weaken (by norm_num))) (by norm_num) erf_iv (by norm_num)
  obtain ⟨c, ic, rc, -⟩ := is_add good32 is_one32 iq.neg (by
    rw [bias32, abs_of_nonneg (by norm_num at *; linarith)]; exact le_trans (show 1 + -q ≤ 1 by linarith) (by norm_num))
  exact ⟨c, ic, rc.ge _ _ erf_iv1 (by linarith), rc.le _ _ is_one32 (by linarith)⟩

theorem Erf_big {A : ℝ} (h : 15 / 4 ≤ A) : 1 - 2 / 10 ^ 6 ≤ Erf A := by
  have h1 := abs_le.1 (formula_erf (show (0 : ℝ) ≤ 15 / 4 by norm_num))
  have h2 : (43 / 2 ^ 4 : ℝ) ≤ RR (15 / 4) := by unfold RR; norm_num
  have h3 : (5764801 : ℝ) ≤ RR (15 / 4) ^ 16 := le_trans (by norm_num) (pow_le_pow_left₀ (by norm_num) h2 16)
  have h4 : 1 / RR (15 / 4) ^ 16 ≤ 1 / 5764801 := one_div_le_one_div_of_le (by norm_num) h3
  have h5 := Erf_mono h
  norm_num at *
  linarith

/-- Any number. -/
theorem erfA_spec {a : Nat} {A : ℝ} (ha : f32.Is a A) (h0 : 0 ≤ A) : ∃ c, f32.Is (erfA a) c ∧ 0 ≤ c ∧ c ≤ 1 ∧ |c - Erf A| ≤ 35 / 10 ^ 7 := by
  rcases le_total A (15 / 4) with h | h
  · exact erfA_small ha h0 h
  · obtain ⟨c, hc, c0, c1⟩ := erfA_big (.inl ⟨A, ha, h⟩)
    refine ⟨c, hc, le_trans (by norm_num) c0, c1, ?_⟩
    have h1 := Erf_big h
    have h2 := Erf_le_one h0
    rw [abs_le]
    norm_num at *
    constructor <;> linarith

end Nanostl.Math

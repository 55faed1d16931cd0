import Verif.Float.Real
import Verif.Math.Elem
import Mathlib.Tactic.NormNum

/-!
Error propagation through `float` operations, and bounds for polynomials over intervals.
-/

namespace Nanostl.Float
namespace Fmt
variable {φ : Fmt}

theorem Rnd.exact {e c : ℝ} {z : Nat} (h : φ.Rnd e c) (hz : φ.Is z e) : c = e :=
  le_antisymm (h.le z e hz le_rfl) (h.ge z e hz le_rfl)

theorem is_div (g : φ.Good) {x y : Nat} {a b : ℝ} (hx : φ.Is x a) (hy : φ.Is y b) (h0 : b ≠ 0) (hb : |a / b| ≤ 2 ^ φ.bias) :
    ∃ c, φ.Is (φ.div x y) c ∧ φ.Rnd (a / b) c := by
  obtain ⟨v, h1, h2⟩ := hx
  obtain ⟨w, h3, h4⟩ := hy
  have ho := φ.one_posR
  have hw0 : w ≠ 0 := by
    rintro rfl
    rw [Int.cast_zero] at h4
    exact h0 ((mul_eq_zero.1 h4.symm).resolve_right (ne_of_gt ho))
  have hdiv : φ.div x y = φ.round (φ.sign x != φ.sign y) (v.natAbs * φ.one) w.natAbs := by
    unfold div; rw [h1, h3]; simp [hw0]
  have hv := (φ.val_eq_fin h1).2
  have hw := (φ.val_eq_fin h3).2
  rw [hdiv]
  have hwn : 0 < w.natAbs := Int.natAbs_pos.2 hw0
  have hwR : (w : ℝ) ≠ 0 := by exact_mod_cast hw0
  have hs : signed (φ.sign x != φ.sign y) (v.natAbs * φ.one) * w = v * φ.one * w.natAbs := by
    rw [hv, hw, natAbs_signed, natAbs_signed]
    unfold signed
    cases φ.sign x <;> cases φ.sign y <;> simp
  have hsR : ((signed (φ.sign x != φ.sign y) (v.natAbs * φ.one) : ℤ) : ℝ) * w = v * φ.one * (w.natAbs : ℝ) := by
    rw [← Int.cast_natCast (R := ℝ) w.natAbs, ← Int.cast_natCast (R := ℝ) φ.one, ← Int.cast_mul, ← Int.cast_mul, ← Int.cast_mul, hs]
  have hwnR : ((w.natAbs : ℕ) : ℝ) ≠ 0 := by exact_mod_cast (Nat.pos_iff_ne_zero.1 hwn)
  obtain ⟨c, hc1, hc2, _⟩ := is_round g (s := φ.sign x != φ.sign y) (n := v.natAbs * φ.one) (d := w.natAbs) hwn (e := a / b)
    (by
      rw [div_eq_div_iff h0 (mul_ne_zero hwnR (ne_of_gt ho))]
      have e1 : b = w / φ.one := by rw [h4]; field_simp
      have e2 : a = v / φ.one := by rw [h2]; field_simp
      rw [e1, e2]
      field_simp
      linarith) hb
  exact ⟨c, hc1, hc2⟩

end Fmt

open Fmt

/-- Half a unit in the last place, and half of the least positive value. -/
noncomputable def ulp : ℝ := 1 / 2 ^ 24
noncomputable def tiny : ℝ := 1 / 2 ^ 150

/-- Numeric side conditions of the lemmas below. -/
macro "num" : tactic => `(tactic| norm_num [ulp, tiny])

theorem rnd32 {e c : ℝ} (h : f32.Rnd e c) : |c - e| ≤ |e| * ulp + tiny := by
  have := h.err
  have h1 : f32.mb + 1 = 24 := rfl
  have h2 : (f32.one : ℝ) = 2 ^ 149 := by
    have : f32.one = 2 ^ 149 := by decide +kernel
    rw [this, Nat.cast_pow, Nat.cast_ofNat]
  rw [h1, h2] at this
  unfold ulp tiny
  have h3 : (2 : ℝ) * 2 ^ 149 = 2 ^ 150 := by ring
  rw [h3] at this
  linarith

/-- The pattern `x` is finite and within `e` of `r`, and `r` is bounded by `R`. -/
structure Ap (x : Nat) (r R e : ℝ) : Prop where
  ex : ∃ a, f32.Is x a ∧ |a - r| ≤ e
  bd : |r| ≤ R

theorem Ap.of_is {x : Nat} {a R : ℝ} (h : f32.Is x a) (hR : |a| ≤ R) : Ap x a R 0 := ⟨⟨a, h, by simp⟩, hR⟩

theorem Ap.R0 {x : Nat} {r R e : ℝ} (h : Ap x r R e) : 0 ≤ R := le_trans (abs_nonneg _) h.bd
theorem Ap.e0 {x : Nat} {r R e : ℝ} (h : Ap x r R e) : 0 ≤ e := by
  obtain ⟨a, _, h⟩ := h.ex; exact le_trans (abs_nonneg _) h

theorem Ap.weaken {x : Nat} {r R e : ℝ} (h : Ap x r R e) {R' e' : ℝ} (h1 : |r| ≤ R') (h2 : e ≤ e') : Ap x r R' e' := by
  obtain ⟨a, ha, hb⟩ := h.ex; exact ⟨⟨a, ha, le_trans hb h2⟩, h1⟩

/-- The approximated value may be changed. -/
theorem Ap.shift {x : Nat} {r R e : ℝ} (h : Ap x r R e) {r' R' e' : ℝ} (h1 : |r'| ≤ R') (h2 : |r - r'| + e ≤ e') : Ap x r' R' e' := by
  obtain ⟨a, ha, hb⟩ := h.ex
  refine ⟨⟨a, ha, ?_⟩, h1⟩
  have := abs_add_le (a - r) (r - r')
  rw [sub_add_sub_cancel] at this
  linarith

theorem Ap.neg {x : Nat} {r R e : ℝ} (h : Ap x r R e) : Ap (f32.neg x) (-r) R e := by
  obtain ⟨a, ha, hb⟩ := h.ex
  exact ⟨⟨-a, ha.neg, by rw [show -a - -r = -(a - r) by ring, abs_neg]; exact hb⟩, by rw [abs_neg]; exact h.bd⟩

theorem bias32 : (2 : ℝ) ^ f32.bias = 2 ^ 127 := rfl

theorem Ap.add {x y : Nat} {r R e s S d : ℝ} (hx : Ap x r R e) (hy : Ap y s S d) (E : ℝ) (hE : e + d + (R + S + e + d) * ulp ≤ E)
    (hb : R + S + e + d ≤ 2 ^ 127) : Ap (f32.add x y) (r + s) (R + S) E := by
  obtain ⟨a, ha, hae⟩ := hx.ex
  obtain ⟨b, hb', hbd⟩ := hy.ex
  have hR := hx.bd
  have hS := hy.bd
  have hsum : |a + b| ≤ R + S + e + d := by
    have h1 := abs_add_le (a - r) (b - s)
    have h2 := abs_add_le (a - r + (b - s)) (r + s)
    have h3 := abs_add_le r s
    rw [show a - r + (b - s) + (r + s) = a + b by ring] at h2
    linarith
  obtain ⟨c, hc1, hc2, hc3⟩ := is_add Fmt.good32 ha hb' (le_trans hsum hb)
  refine ⟨⟨c, hc1, ?_⟩, le_trans (abs_add_le _ _) (by linarith)⟩
  have h4 : |c - (a + b)| ≤ (R + S + e + d) * ulp := by
    refine le_trans hc3 ?_
    have : f32.mb + 1 = 24 := rfl
    rw [this, ulp, mul_one_div]
    exact div_le_div_of_nonneg_right hsum (by positivity)
  have h5 := abs_add_le (c - (a + b)) (a - r + (b - s))
  have h6 := abs_add_le (a - r) (b - s)
  rw [show c - (a + b) + (a - r + (b - s)) = c - (r + s) by ring] at h5
  linarith

theorem Ap.sub {x y : Nat} {r R e s S d : ℝ} (hx : Ap x r R e) (hy : Ap y s S d) (E : ℝ) (hE : e + d + (R + S + e + d) * ulp ≤ E)
    (hb : R + S + e + d ≤ 2 ^ 127) : Ap (f32.sub x y) (r - s) (R + S) E := by
  rw [sub_eq_add_neg]
  exact hx.add hy.neg E hE hb

theorem Ap.mul {x y : Nat} {r R e s S d : ℝ} (hx : Ap x r R e) (hy : Ap y s S d) (E : ℝ)
    (hE : e * (S + d) + R * d + (R + e) * (S + d) * ulp + tiny ≤ E) (hb : (R + e) * (S + d) ≤ 2 ^ 127) : Ap (f32.mul x y) (r * s) (R * S) E := by
  have hR0 := hx.R0
  have hS0 := hy.R0
  have he0 := hx.e0
  have hd0 := hy.e0
  obtain ⟨a, ha, hae⟩ := hx.ex
  obtain ⟨b, hb', hbd⟩ := hy.ex
  have hR := hx.bd
  have hS := hy.bd
  have haR : |a| ≤ R + e := by
    have := abs_add_le (a - r) r
    rw [sub_add_cancel] at this
    linarith
  have hbS : |b| ≤ S + d := by
    have := abs_add_le (b - s) s
    rw [sub_add_cancel] at this
    linarith
  have hab : |a * b| ≤ (R + e) * (S + d) := by
    rw [abs_mul]
    exact mul_le_mul haR hbS (abs_nonneg _) (by linarith)
  obtain ⟨c, hc1, hc2⟩ := is_mul Fmt.good32 ha hb' (le_trans hab hb)
  refine ⟨⟨c, hc1, ?_⟩, by rw [abs_mul]; exact mul_le_mul hR hS (abs_nonneg _) hR0⟩
  have h4 := rnd32 hc2
  have h5 : |a * b| * ulp ≤ (R + e) * (S + d) * ulp := mul_le_mul_of_nonneg_right hab (by unfold ulp; positivity)
  have h6 : |a * b - r * s| ≤ e * (S + d) + R * d := by
    have := abs_add_le ((a - r) * b) (r * (b - s))
    rw [show (a - r) * b + r * (b - s) = a * b - r * s by ring, abs_mul, abs_mul] at this
    have h7 := mul_le_mul hae hbS (abs_nonneg _) he0
    have h8 := mul_le_mul hR hbd (abs_nonneg _) hR0
    linarith
  have h7 := abs_add_le (c - a * b) (a * b - r * s)
  rw [sub_add_sub_cancel] at h7
  linarith

theorem Ap.madd {x y z : Nat} {r R e s S d t T f : ℝ} (hx : Ap x r R e) (hy : Ap y s S d) (hz : Ap z t T f) (E E' : ℝ)
    (hE : e * (S + d) + R * d + (R + e) * (S + d) * ulp + tiny ≤ E) (hb : (R + e) * (S + d) ≤ 2 ^ 127)
    (hE' : E + f + (R * S + T + E + f) * ulp ≤ E') (hb' : R * S + T + E + f ≤ 2 ^ 127) :
    Ap (Math.madd x y z) (r * s + t) (R * S + T) E' :=
  (hx.mul hy E hE hb).add hz E' hE' hb'

theorem Ap.lit (n k : Nat) (h : (n : ℝ) / 10 ^ k ≤ 2 ^ 127) : Ap (f32.litNeg n k) (n / 10 ^ k) (n / 10 ^ k) (n / 10 ^ k * ulp + tiny) := by
  have h0 : (0 : ℝ) ≤ n / 10 ^ k := by positivity
  have hpos : 0 < 10 ^ k := Nat.pos_of_ne_zero (by positivity)
  have ho := f32.one_posR
  obtain ⟨c, hc1, hc2, _⟩ := is_round Fmt.good32 (s := false) (n := n * f32.one) (d := 10 ^ k) hpos (e := n / 10 ^ k)
    (by simp only [signed, Bool.false_eq_true, if_false]; push_cast; field_simp) (by rw [abs_of_nonneg h0]; exact h)
  refine ⟨⟨c, hc1, ?_⟩, by rw [abs_of_nonneg h0]⟩
  have := rnd32 hc2
  rwa [abs_of_nonneg h0] at this

theorem is_one32 : f32.Is Math.one32 1 := by
  refine ⟨f32.one, by decide +kernel, by push_cast; ring⟩

end Nanostl.Float

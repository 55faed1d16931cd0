import Verif.Math.Log2
import Mathlib.Analysis.Real.Sqrt

/-!
`sqrt` (nanomath.h:294-332): the first guess from the shifted bit pattern, and the Newton step.
-/

namespace Nanostl.Math
open Nanostl.Float

/-- A normal pattern as a number. -/
theorem is_normal {x : Nat} (h : 2 ^ 23 ≤ x) (h' : x < f32.inf) :
    f32.Is x ((1 + (x % 2 ^ 23 : Nat) / 2 ^ 23) * (2 : ℝ) ^ (((x / 2 ^ 23 : Nat) : ℤ) - 127)) := by
  have hI := Fmt.is_of_lt h'
  have hsz : x < f32.size := by rw [size32]; rw [inf32] at h'; omega
  have hge : (1 : ℝ) / 2 ^ 126 ≤ (f32.mag x : ℝ) / f32.one := by
    have m0 : f32.mag (2 ^ 23) = 2 ^ 23 := by decide +kernel
    have := (f32.mag_le_iff).2 h
    rw [m0] at this
    have h2 : (2 ^ 23 : ℝ) ≤ f32.mag x := by exact_mod_cast this
    rw [one32_val, div_le_div_iff₀ (by norm_num) (by norm_num)]
    calc (1 : ℝ) * 2 ^ 149 = 2 ^ 23 * 2 ^ 126 := by norm_num
      _ ≤ _ := mul_le_mul_of_nonneg_right h2 (by norm_num)
  have := (normal_parts hsz hI hge).2.2
  rw [← this]
  exact hI

/-! ### The square of the guess times the argument -/

def sq1 : List ℤ := Poly.mul (Poly.mul [16210399, -4194304] [16210399, -4194304]) [1, 1]
def sq2 : List ℤ := Poly.mul (Poly.mul [12016095, -4194304] [12016095, -4194304]) [2, 2]
def sq3 : List ℤ := Poly.mul (Poly.mul [20404703, -4194304] [20404703, -4194304]) [2, 2]

/-- `p` lies between `.9655^2 Q` and `1.0341^2 Q` when `p - Q` is at most `69 Q / 1000` in magnitude, shifted to be symmetric. -/
def sqc (p : List ℤ) (Q : ℤ) : List ℤ := Poly.add (Poly.smul (2 * 10 ^ 8) p) [-(93219025 + 106936281) * Q]

theorem check_sq : Poly.check (sqc sq1 (2 ^ 48)) 1 ((106936281 - 93219025) * 2 ^ 48) 256 0 1 128 = true ∧
    Poly.check (sqc sq2 (2 ^ 48)) 1 ((106936281 - 93219025) * 2 ^ 48) 1024 0 1 443 = true ∧
    Poly.check (sqc sq3 (2 ^ 50)) 1 ((106936281 - 93219025) * 2 ^ 50) 1024 885 1 70 = true := by
  refine ⟨?_, ?_, ?_⟩ <;> decide +kernel


theorem sqc_bounds {p : List ℤ} {Q : ℤ} {q : ℝ} (h : |Poly.eval (sqc p Q) q| ≤ ((106936281 - 93219025) * Q : ℤ) / (1 : ℤ)) :
    93219025 / 10 ^ 8 * Q ≤ Poly.eval p q ∧ Poly.eval p q ≤ 106936281 / 10 ^ 8 * Q := by
  unfold sqc at h
  rw [Poly.eval_add, Poly.eval_smul] at h
  simp only [Poly.eval_cons, Poly.eval_nil] at h
  push_cast at h
  rw [abs_le] at h
  constructor <;> linarith [h.1, h.2]

/-- The truncated shift changes little. -/
theorem sq_trunc {B ε w Q : ℝ} (hB : 7 * 10 ^ 6 ≤ B) (h0 : 0 ≤ ε) (h1 : ε ≤ 1 / 2) (hw : 0 ≤ w)
    (hl : 93219025 / 10 ^ 8 * Q ≤ B * B * w) (hu : B * B * w ≤ 106936281 / 10 ^ 8 * Q) :
    93219025 / 10 ^ 8 * Q ≤ (B + ε) * (B + ε) * w ∧ (B + ε) * (B + ε) * w ≤ 10694 / 10 ^ 4 * Q := by
  have a1 : B * B ≤ (B + ε) * (B + ε) := by nlinarith
  have a2 : (B + ε) * (B + ε) ≤ B * B * (1 + 1 / (5 * 10 ^ 6)) := by nlinarith
  have b1 := mul_le_mul_of_nonneg_right a1 hw
  have b2 := mul_le_mul_of_nonneg_right a2 hw
  have hQ : 0 ≤ Q := by
    have : 0 ≤ B * B * w := mul_nonneg (mul_self_nonneg _) hw
    linarith
  refine ⟨by linarith, ?_⟩
  have : B * B * (1 + 1 / (5 * 10 ^ 6)) * w = B * B * w + B * B * w / (5 * 10 ^ 6) := by ring
  rw [this] at b2
  linarith

theorem pattern_parts {e f : Nat} (h2 : f < 2 ^ 23) (h3 : 1 ≤ e) (h4 : e ≤ 254) : 2 ^ 23 ≤ e * 2 ^ 23 + f ∧ e * 2 ^ 23 + f < f32.inf ∧
    (e * 2 ^ 23 + f) % 2 ^ 23 = f ∧ (e * 2 ^ 23 + f) / 2 ^ 23 = e := by
  rw [inf32]; omega

/-- The first guess `u` for `1 / sqrt a`. -/
theorem guess {x : Nat} {a : ℝ} (hx : x < f32.size) (h : f32.Is x a) (ha : 1 / 2 ^ 126 ≤ a) :
    ∃ g, f32.Is (u32 (0x5f3759df - i32 x / 2)) g ∧ 0 < g ∧ 93219025 / 10 ^ 8 ≤ a * (g * g) ∧ a * (g * g) ≤ 10694 / 10 ^ 4 := by
  obtain ⟨p1, p2, p3⟩ := normal_parts hx h ha
  rw [inf32] at p2
  have hi : i32 x = x := by unfold i32; rw [if_pos (by omega)]
  have hU : u32 (0x5f3759df - i32 x / 2) = 1597463007 - x / 2 := by
    rw [hi]; unfold u32; omega
  rw [hU]
  obtain ⟨E, M, hM, rfl⟩ : ∃ E M, M < 2 ^ 23 ∧ x = E * 2 ^ 23 + M := ⟨x / 2 ^ 23, x % 2 ^ 23, by omega, by omega⟩
  rw [show (E * 2 ^ 23 + M) % 2 ^ 23 = M by omega, show (E * 2 ^ 23 + M) / 2 ^ 23 = E by omega] at p3
  have hE : 1 ≤ E ∧ E ≤ 254 := by omega
  have hq0 : (0 : ℝ) ≤ M / 2 ^ 23 := by positivity
  have hMR : (M : ℝ) < 2 ^ 23 := by exact_mod_cast hM
  have hq1 : (M : ℝ) / 2 ^ 23 ≤ 1 := by rw [div_le_iff₀ (by norm_num)]; linarith
  -- the value from the parts of the guess
  have key : ∀ (e f : Nat) (k : ℤ) (B ε w Q : ℝ), 1597463007 - (E * 2 ^ 23 + M) / 2 = e * 2 ^ 23 + f → f < 2 ^ 23 → 1 ≤ e → e ≤ 254 →
      (E : ℤ) + 2 * e - 381 = k → 2 ^ 23 + (f : ℝ) = B + ε → (1 + (M : ℝ) / 2 ^ 23) * (2 : ℝ) ^ k * Q = w * 2 ^ 46 → 7 * 10 ^ 6 ≤ B →
      0 ≤ ε → ε ≤ 1 / 2 → 0 < Q → 93219025 / 10 ^ 8 * Q ≤ B * B * w → B * B * w ≤ 106936281 / 10 ^ 8 * Q →
      ∃ g, f32.Is (1597463007 - (E * 2 ^ 23 + M) / 2) g ∧ 0 < g ∧ 93219025 / 10 ^ 8 ≤ a * (g * g) ∧ a * (g * g) ≤ 10694 / 10 ^ 4 := by
    intro e f k B ε w Q h1 h2 h3 h4 h5 h6 h7 h8 h9 h10 h11 h12 h13
    rw [h1]
    obtain ⟨y1, y2, y3, y4⟩ := pattern_parts h2 h3 h4
    have hn := is_normal y1 y2
    rw [y3, y4] at hn
    refine ⟨_, hn, by positivity, ?_⟩
    have hz : ((2 : ℝ) ^ ((E : ℤ) - 127)) * ((2 : ℝ) ^ ((e : ℤ) - 127) * (2 : ℝ) ^ ((e : ℤ) - 127)) = 2 ^ k := by
      rw [← zpow_add₀ (by norm_num), ← zpow_add₀ (by norm_num)]
      congr 1
      omega
    have hw : 0 ≤ w := by
      have : 0 ≤ w * 2 ^ 46 := by rw [← h7]; positivity
      linarith
    have hval : a * ((1 + (f : ℝ) / 2 ^ 23) * (2 : ℝ) ^ ((e : ℤ) - 127) * ((1 + (f : ℝ) / 2 ^ 23) * (2 : ℝ) ^ ((e : ℤ) - 127))) * Q =
        (B + ε) * (B + ε) * w := by
      rw [← h6, p3]
      have : (1 + (M : ℝ) / 2 ^ 23) * (2 : ℝ) ^ ((E : ℤ) - 127) *
          ((1 + (f : ℝ) / 2 ^ 23) * (2 : ℝ) ^ ((e : ℤ) - 127) * ((1 + (f : ℝ) / 2 ^ 23) * (2 : ℝ) ^ ((e : ℤ) - 127))) * Q =
          (1 + (M : ℝ) / 2 ^ 23) * ((2 : ℝ) ^ ((E : ℤ) - 127) * ((2 : ℝ) ^ ((e : ℤ) - 127) * (2 : ℝ) ^ ((e : ℤ) - 127))) * Q *
          ((1 + (f : ℝ) / 2 ^ 23) * (1 + (f : ℝ) / 2 ^ 23)) := by ring
      rw [this, hz, h7]
      ring
    obtain ⟨t1, t2⟩ := sq_trunc h8 h9 h10 hw h12 h13
    rw [← hval] at t1 t2
    exact ⟨le_of_mul_le_mul_right t1 h11, le_of_mul_le_mul_right t2 h11⟩
  have half : ∀ n : Nat, ∃ ε : ℝ, 0 ≤ ε ∧ ε ≤ 1 / 2 ∧ ((n / 2 : Nat) : ℝ) = n / 2 - ε := by
    intro n
    have hd := Nat.div_add_mod n 2
    have hm : n % 2 < 2 := Nat.mod_lt _ (by norm_num)
    have hdR : (2 : ℝ) * (n / 2 : Nat) + (n % 2 : Nat) = n := by exact_mod_cast hd
    refine ⟨((n % 2 : Nat) : ℝ) / 2, by positivity, ?_, by linarith⟩
    have : ((n % 2 : Nat) : ℝ) ≤ 1 := by exact_mod_cast (by omega : n % 2 ≤ 1)
    linarith
  obtain ⟨c1, c2, c3⟩ := check_sq
  rcases Nat.even_or_odd' E with ⟨j, rfl | rfl⟩
  · obtain ⟨ε, e0, e1, e2⟩ := half M
    by_cases hc : M / 2 ≤ 3627487
    · have hMle : (M : ℝ) ≤ 7254975 := by exact_mod_cast (by omega : M ≤ 7254975)
      have hb := sqc_bounds (Poly.check_sound c2 (x := M / 2 ^ 23) (by norm_num; positivity) (by
        rw [div_le_div_iff₀ (by norm_num) (by norm_num)]; norm_num; linarith))
      have hev : Poly.eval sq2 ((M : ℝ) / 2 ^ 23) = (12016095 - 4194304 * ((M : ℝ) / 2 ^ 23)) * (12016095 - 4194304 * ((M : ℝ) / 2 ^ 23)) *
          (2 * (1 + (M : ℝ) / 2 ^ 23)) := by
        unfold sq2
        rw [Poly.eval_mul, Poly.eval_mul]
        simp only [Poly.eval_cons, Poly.eval_nil]
        push_cast
        ring
      rw [hev] at hb
      have hf : ((3627487 - M / 2 : Nat) : ℝ) = 3627487 - (M / 2 : Nat) := by rw [Nat.cast_sub hc]; norm_num
      refine key (190 - j) (3627487 - M / 2) (-1) (12016095 - 4194304 * (M / 2 ^ 23)) ε (2 * (1 + M / 2 ^ 23)) (2 ^ 48) (by omega) (by omega) (by omega)
        (by omega) (by omega) ?_ ?_ ?_ e0 e1 (by norm_num) ?_ ?_
      · rw [hf, e2]; ring
      · rw [zpow_neg, zpow_one]; ring
      · linarith
      · exact_mod_cast hb.1
      · exact_mod_cast hb.2
    · have hMge : (7254976 : ℝ) ≤ M := by exact_mod_cast (by omega : 7254976 ≤ M)
      have hb := sqc_bounds (Poly.check_sound c3 (x := M / 2 ^ 23) (by
        rw [div_le_div_iff₀ (by norm_num) (by norm_num)]; norm_num; linarith) (by refine le_trans hq1 ?_; norm_num))
      have hev : Poly.eval sq3 ((M : ℝ) / 2 ^ 23) = (20404703 - 4194304 * ((M : ℝ) / 2 ^ 23)) * (20404703 - 4194304 * ((M : ℝ) / 2 ^ 23)) *
          (2 * (1 + (M : ℝ) / 2 ^ 23)) := by
        unfold sq3
        rw [Poly.eval_mul, Poly.eval_mul]
        simp only [Poly.eval_cons, Poly.eval_nil]
        push_cast
        ring
      rw [hev] at hb
      have hf : ((8388608 + 3627487 - M / 2 : Nat) : ℝ) = 8388608 + 3627487 - (M / 2 : Nat) := by rw [Nat.cast_sub (by omega)]; norm_num
      refine key (189 - j) (8388608 + 3627487 - M / 2) (-3) (20404703 - 4194304 * (M / 2 ^ 23)) ε (2 * (1 + M / 2 ^ 23)) (2 ^ 50) (by omega) (by omega)
        (by omega) (by omega) (by omega) ?_ ?_ ?_ e0 e1 (by norm_num) ?_ ?_
      · rw [hf, e2]; ring
      · rw [show (2 : ℝ) ^ (-3 : ℤ) = 1 / 8 by norm_num]; ring
      · linarith
      · exact_mod_cast hb.1
      · exact_mod_cast hb.2
  · obtain ⟨ε, e0, e1, e2⟩ := half (M + 8388608)
    have hb := sqc_bounds (Poly.check_sound c1 (x := M / 2 ^ 23) (by norm_num; positivity) (by refine le_trans hq1 ?_; norm_num))
    have hev : Poly.eval sq1 ((M : ℝ) / 2 ^ 23) = (16210399 - 4194304 * ((M : ℝ) / 2 ^ 23)) * (16210399 - 4194304 * ((M : ℝ) / 2 ^ 23)) *
        (1 + (M : ℝ) / 2 ^ 23) := by
      unfold sq1
      rw [Poly.eval_mul, Poly.eval_mul]
      simp only [Poly.eval_cons, Poly.eval_nil]
      push_cast
      ring
    rw [hev] at hb
    have hf : ((8388608 + 3627487 - (M + 8388608) / 2 : Nat) : ℝ) = 8388608 + 3627487 - ((M + 8388608) / 2 : Nat) := by
      rw [Nat.cast_sub (by omega)]; rw [Nat.cast_add, Nat.cast_ofNat, Nat.cast_ofNat]
    refine key (189 - j) (8388608 + 3627487 - (M + 8388608) / 2) (-2) (16210399 - 4194304 * (M / 2 ^ 23)) ε (1 + M / 2 ^ 23) (2 ^ 48) (by omega) (by omega)
      (by omega) (by omega) (by omega) ?_ ?_ ?_ e0 e1 (by norm_num) ?_ ?_
    · rw [hf, e2, Nat.cast_add, Nat.cast_ofNat]; ring
    · rw [show (2 : ℝ) ^ (-2 : ℤ) = 1 / 4 by norm_num]; ring
    · linarith
    · exact_mod_cast hb.1
    · exact_mod_cast hb.2

/-- A product that is not tiny has a small relative error. -/
theorem mul_rel {x y : Nat} {a b : ℝ} (hx : f32.Is x a) (hy : f32.Is y b) (h0 : 1 / 2 ^ 127 ≤ a * b) (h1 : a * b ≤ 2 ^ 127) :
    ∃ d, f32.Is (f32.mul x y) (a * b * (1 + d)) ∧ |d| ≤ 1 / 2 ^ 22 := by
  have hp : 0 < a * b := lt_of_lt_of_le (by norm_num) h0
  obtain ⟨c, hc, hr⟩ := Fmt.is_mul Fmt.good32 hx hy (by rw [bias32, abs_of_pos hp]; exact h1)
  have he := rnd32 hr
  rw [abs_of_pos hp] at he
  refine ⟨(c - a * b) / (a * b), ?_, ?_⟩
  · have : a * b * (1 + (c - a * b) / (a * b)) = c := by rw [mul_add, mul_one, mul_div_cancel₀ _ hp.ne']; ring
    rw [this]; exact hc
  · rw [abs_div, abs_of_pos hp, div_le_iff₀ hp]
    refine le_trans he ?_
    unfold ulp tiny
    norm_num at h0 ⊢
    linarith

theorem two_rel {d e D E : ℝ} (hd : |d| ≤ D) (he : |e| ≤ E) : |(1 + d) * (1 + e) - 1| ≤ D + E + D * E := by
  have : (1 + d) * (1 + e) - 1 = d + e + d * e := by ring
  rw [this]
  refine le_trans (abs_add_le _ _) (add_le_add (le_trans (abs_add_le _ _) (add_le_add hd he)) ?_)
  rw [abs_mul]
  exact mul_le_mul hd he (abs_nonneg _) (le_trans (abs_nonneg _) hd)

/-- The error of the Newton step without rounding. -/
theorem newton_sq {ρ : ℝ} (r1 : 9655 / 10 ^ 4 ≤ ρ) (r2 : ρ ≤ 103412 / 10 ^ 5) : (ρ - 1) * (ρ - 1) * (ρ + 2) / 2 ≤ 1768 / 10 ^ 6 := by
  by_cases hc : ρ ≤ 1
  · nlinarith [mul_nonneg (sub_nonneg.2 hc) (sub_nonneg.2 r1)]
  · have : (ρ - 1) * (ρ - 1) ≤ (3412 / 10 ^ 5) * (3412 / 10 ^ 5) := by nlinarith
    have := mul_le_mul this (show ρ + 2 ≤ 303412 / 10 ^ 5 by linarith) (by linarith) (by norm_num)
    linarith

/-- The rounding errors of the last two products. -/
theorem newton_final {ρ T d4 d5 : ℝ} (hρ0 : 0 < ρ) (r1 : 9655 / 10 ^ 4 ≤ ρ) (r2 : ρ ≤ 103412 / 10 ^ 5)
    (t2 : |T - (3 / 2 - 1 / 2 * (ρ * ρ))| ≤ 47 / 10 ^ 8) (T1 : 96 / 100 ≤ T) (T2 : T ≤ 104 / 100) (k4 : |d4| ≤ 1 / 2 ^ 22) (k5 : |d5| ≤ 1 / 2 ^ 22) :
    |ρ * ((1 + d4) * T * (1 + d5)) - 1| ≤ 177 / 10 ^ 5 := by
  have z1 : |(1 + d4) * T * (1 + d5) - T| ≤ 51 / 10 ^ 8 := by
    have z0 : |(1 + d4) * (1 + d5) - 1| ≤ 48 / 10 ^ 8 := le_trans (two_rel k4 k5) (by norm_num)
    have : (1 + d4) * T * (1 + d5) - T = T * ((1 + d4) * (1 + d5) - 1) := by ring
    rw [this, abs_mul, abs_of_pos (by linarith)]
    calc T * _ ≤ (104 / 100) * (48 / 10 ^ 8) := mul_le_mul T2 z0 (abs_nonneg _) (by norm_num)
      _ ≤ _ := by norm_num
  have z2 : |(1 + d4) * T * (1 + d5) - (3 / 2 - 1 / 2 * (ρ * ρ))| ≤ 98 / 10 ^ 8 := by
    have := abs_add_le ((1 + d4) * T * (1 + d5) - T) (T - (3 / 2 - 1 / 2 * (ρ * ρ)))
    rw [sub_add_sub_cancel] at this
    linarith
  generalize (1 + d4) * T * (1 + d5) = V at *
  have z3 : |ρ * V - ρ * (3 / 2 - 1 / 2 * (ρ * ρ))| ≤ 102 / 10 ^ 8 := by
    rw [← mul_sub, abs_mul, abs_of_pos hρ0]
    calc ρ * _ ≤ (103412 / 10 ^ 5) * (98 / 10 ^ 8) := mul_le_mul r2 z2 (abs_nonneg _) (by norm_num)
      _ ≤ _ := by norm_num
  have z4 : ρ * (3 / 2 - 1 / 2 * (ρ * ρ)) - 1 = -((ρ - 1) * (ρ - 1) * (ρ + 2) / 2) := by ring
  have z6 : 0 ≤ (ρ - 1) * (ρ - 1) * (ρ + 2) / 2 := by
    have := mul_self_nonneg (ρ - 1)
    positivity
  have z7 := newton_sq r1 r2
  have z3' := abs_le.1 z3
  rw [abs_le]
  constructor <;> linarith

/-- The Newton step: the result against the square root. -/
theorem sqrt_step {x : Nat} {a : ℝ} (hx : x < f32.size) (h : f32.Is x a) (ha : 1 / 2 ^ 126 ≤ a) (hb : a < 2 ^ 128) :
    ∃ c, f32.Is (f32.mul (f32.mul x (u32 (0x5f3759df - i32 x / 2))) (f32.sub (f32.litNeg 15 1)
      (f32.mul (f32.mul (f32.mul (f32.litNeg 5 1) x) (u32 (0x5f3759df - i32 x / 2))) (u32 (0x5f3759df - i32 x / 2))))) c ∧
      |c - √a| ≤ 177 / 10 ^ 5 * √a := by
  obtain ⟨g, hg, g0, hl, hu⟩ := guess hx h ha
  generalize u32 (0x5f3759df - i32 x / 2) = u at *
  have ha0 : 0 < a := lt_of_lt_of_le (by norm_num) ha
  set S := √a with hS
  have hS0 : 0 < S := Real.sqrt_pos.2 ha0
  have hSS : S * S = a := Real.mul_self_sqrt ha0.le
  have hS1 : 1 / 2 ^ 63 ≤ S := by
    rw [hS]; apply Real.le_sqrt_of_sq_le; refine le_trans (le_of_eq ?_) ha; norm_num
  have hS2 : S ≤ 2 ^ 64 := by
    rw [hS]; apply Real.sqrt_le_iff.2; exact ⟨by norm_num, le_trans hb.le (by norm_num)⟩
  -- ρ = S g is near 1
  obtain ⟨ρ, hρ⟩ : ∃ ρ, ρ = S * g := ⟨_, rfl⟩
  have hρρ : a * (g * g) = ρ * ρ := by rw [hρ, ← hSS]; ring
  have hρ0 : 0 < ρ := by rw [hρ]; positivity
  rw [hρρ] at hl hu
  have r1 : 9655 / 10 ^ 4 ≤ ρ := by nlinarith
  have r2 : ρ ≤ 103412 / 10 ^ 5 := by nlinarith
  have hag : a * g = S * ρ := by rw [hρ, ← hSS]; ring
  have is_half : f32.Is (f32.litNeg 5 1) (1 / 2) := by
    refine ⟨2 ^ 148, by decide +kernel, ?_⟩
    rw [one32_val]; push_cast; norm_num
  have is_15 : f32.Is (f32.litNeg 15 1) (3 / 2) := by
    refine ⟨3 * 2 ^ 148, by decide +kernel, ?_⟩
    rw [one32_val]; push_cast; norm_num
  -- the products
  obtain ⟨d1, m1, k1⟩ := mul_rel is_half h (by norm_num at ha ⊢; linarith) (by norm_num at hb ⊢; linarith)
  have b1 := abs_le.1 k1
  have e2 : 1 / 2 * a * (1 + d1) * g = 1 / 2 * (1 + d1) * (S * ρ) := by rw [← hag]; ring
  have Sρ1 : 1 / 2 ^ 63 * (9655 / 10 ^ 4) ≤ S * ρ := mul_le_mul hS1 r1 (by norm_num) hS0.le
  have Sρ2 : S * ρ ≤ 2 ^ 64 * (103412 / 10 ^ 5) := mul_le_mul hS2 r2 hρ0.le (by norm_num)
  have Sρ0 : 0 < S * ρ := mul_pos hS0 hρ0
  obtain ⟨d2, m2, k2⟩ := mul_rel m1 hg (by
      rw [e2]
      have : 1 / 4 * (S * ρ) ≤ 1 / 2 * (1 + d1) * (S * ρ) := by
        apply mul_le_mul_of_nonneg_right _ Sρ0.le
        linarith
      refine le_trans ?_ this
      norm_num at Sρ1 ⊢
      linarith) (by
      rw [e2]
      have : 1 / 2 * (1 + d1) * (S * ρ) ≤ 1 * (S * ρ) := by
        apply mul_le_mul_of_nonneg_right _ Sρ0.le
        linarith
      refine le_trans this ?_
      norm_num at Sρ2 ⊢
      linarith)
  have b2 := abs_le.1 k2
  have e3 : 1 / 2 * a * (1 + d1) * g * (1 + d2) * g = 1 / 2 * (ρ * ρ) * ((1 + d1) * (1 + d2)) := by rw [← hρρ]; ring
  have q1 : |(1 + d1) * (1 + d2) - 1| ≤ 48 / 10 ^ 8 := le_trans (two_rel k1 k2) (by norm_num)
  have q1' := abs_le.1 q1
  obtain ⟨d3, m3, k3⟩ := mul_rel m2 hg (by
      rw [e3]
      have := mul_le_mul (show 4 / 10 ≤ 1 / 2 * (ρ * ρ) by linarith) (show 9 / 10 ≤ (1 + d1) * (1 + d2) by linarith) (by norm_num) (by linarith)
      refine le_trans ?_ this
      norm_num) (by
      rw [e3]
      have := mul_le_mul (show 1 / 2 * (ρ * ρ) ≤ 6 / 10 by linarith) (show (1 + d1) * (1 + d2) ≤ 11 / 10 by linarith) (by linarith) (by norm_num)
      refine le_trans this ?_
      norm_num)
  rw [e3] at m3
  have b3 := abs_le.1 k3
  have q2 : |(1 + d1) * (1 + d2) * (1 + d3) - 1| ≤ 73 / 10 ^ 8 := by
    have := two_rel q1 k3
    rw [add_sub_cancel] at this
    exact le_trans this (by norm_num)
  have e4 : 1 / 2 * (ρ * ρ) * ((1 + d1) * (1 + d2)) * (1 + d3) = 1 / 2 * (ρ * ρ) * ((1 + d1) * (1 + d2) * (1 + d3)) := by ring
  rw [e4] at m3
  generalize (1 + d1) * (1 + d2) * (1 + d3) = q at *
  have q2' := abs_le.1 q2
  -- the difference
  have t1 : |3 / 2 - 1 / 2 * (ρ * ρ) * q - (3 / 2 - 1 / 2 * (ρ * ρ))| ≤ 40 / 10 ^ 8 := by
    have : 3 / 2 - 1 / 2 * (ρ * ρ) * q - (3 / 2 - 1 / 2 * (ρ * ρ)) = -(1 / 2 * (ρ * ρ) * (q - 1)) := by ring
    rw [this, abs_neg, abs_mul, abs_of_pos (by positivity : (0 : ℝ) < 1 / 2 * (ρ * ρ))]
    calc 1 / 2 * (ρ * ρ) * |q - 1| ≤ (1 / 2 * (10694 / 10 ^ 4)) * (73 / 10 ^ 8) :=
          mul_le_mul (by linarith) q2 (abs_nonneg _) (by norm_num)
      _ ≤ _ := by norm_num
  have t1' := abs_le.1 t1
  have tb : |3 / 2 - 1 / 2 * (ρ * ρ) * q| ≤ 104 / 100 := by
    rw [abs_le]; constructor <;> linarith
  obtain ⟨T, m4, hr4, -⟩ := Fmt.is_sub Fmt.good32 is_15 m3 (le_trans tb (by rw [bias32]; norm_num))
  have he4 := rnd32 hr4
  have t2 : |T - (3 / 2 - 1 / 2 * (ρ * ρ))| ≤ 47 / 10 ^ 8 := by
    have := abs_add_le (T - (3 / 2 - 1 / 2 * (ρ * ρ) * q)) (3 / 2 - 1 / 2 * (ρ * ρ) * q - (3 / 2 - 1 / 2 * (ρ * ρ)))
    rw [sub_add_sub_cancel] at this
    have h5 : |3 / 2 - 1 / 2 * (ρ * ρ) * q| * ulp + tiny ≤ 7 / 10 ^ 8 := by
      have := mul_le_mul_of_nonneg_right tb (show (0 : ℝ) ≤ ulp by num)
      refine le_trans (add_le_add_left this _) ?_
      num
    linarith
  have t2' := abs_le.1 t2
  have T1 : 96 / 100 ≤ T := by linarith
  have T2 : T ≤ 104 / 100 := by linarith
  -- the result
  obtain ⟨d4, m5, k4⟩ := mul_rel h hg (by
      rw [hag]; norm_num at Sρ1 ⊢; linarith) (by
      rw [hag]; norm_num at Sρ2 ⊢; linarith)
  have b4 := abs_le.1 k4
  have e5 : a * g * (1 + d4) * T = S * ρ * ((1 + d4) * T) := by rw [hag]; ring
  have w1 : 9 / 10 ≤ (1 + d4) * T := by
    have := mul_le_mul (show 99 / 100 ≤ 1 + d4 by norm_num at b4; linarith [b4.1]) T1 (by norm_num) (by norm_num at b4; linarith [b4.1])
    refine le_trans ?_ this
    norm_num
  have w2 : (1 + d4) * T ≤ 11 / 10 := by
    have := mul_le_mul (show 1 + d4 ≤ 101 / 100 by norm_num at b4; linarith [b4.2]) T2 (by linarith) (by norm_num)
    refine le_trans this ?_
    norm_num
  obtain ⟨d5, m6, k5⟩ := mul_rel m5 m4 (by
      rw [e5]
      have := mul_le_mul Sρ1 w1 (by norm_num) Sρ0.le
      refine le_trans ?_ this
      norm_num) (by
      rw [e5]
      have := mul_le_mul Sρ2 w2 (by linarith) (by norm_num)
      refine le_trans this ?_
      norm_num)
  have b5 := abs_le.1 k5
  refine ⟨_, m6, ?_⟩
  rw [e5]
  have hfin := newton_final hρ0 r1 r2 t2 T1 T2 k4 k5
  have : S * ρ * ((1 + d4) * T) * (1 + d5) - S = (ρ * ((1 + d4) * T * (1 + d5)) - 1) * S := by ring
  rw [this, abs_mul, abs_of_pos hS0]
  exact mul_le_mul_of_nonneg_right hfin hS0.le

end Nanostl.Math

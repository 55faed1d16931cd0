import Verif.Math.Lemmas
import Mathlib.Tactic.NormNum

/-! Property theorems C44: `numeric_limits`. -/

namespace Nanostl.Math
open Nanostl.Float

/-! ### Integral types -/

/-- An integral type of `w` value bits (without the sign bit). -/
def InType (signed : Bool) (w : Nat) (v : Int) : Prop := (if signed then -2 ^ w else 0) ≤ v ∧ v < 2 ^ w

/-- What `numeric_limits` promises for an integral type: bounds, and the largest number of decimal digits that always fits. -/
def IntSpec (l : IntLimits) (signed : Bool) (w : Nat) : Prop :=
  InType signed w l.min ∧ InType signed w l.max ∧ (∀ v, InType signed w v → l.min ≤ v ∧ v ≤ l.max) ∧ l.eps = 0 ∧
  (∀ n : Nat, n < 10 ^ l.digits10 → InType signed w n ∧ (signed = true → InType signed w (-(n : Int)))) ∧
  (∃ n : Nat, n < 10 ^ (l.digits10 + 1) ∧ ¬InType signed w n)

theorem intSpec_of {l : IntLimits} {s : Bool} {w : Nat} (h1 : l.min = if s then -2 ^ w else 0) (h2 : l.max = 2 ^ w - 1) (h3 : l.eps = 0)
    (h4 : (10 : Int) ^ l.digits10 ≤ 2 ^ w) (h5 : (2 : Int) ^ w < 10 ^ (l.digits10 + 1)) : IntSpec l s w := by
  have hp : (0 : Int) < 2 ^ w := Int.pow_pos (by decide)
  refine ⟨⟨by omega, ?_⟩, ⟨?_, by omega⟩, fun v hv => ⟨by rw [h1]; exact hv.1, ?_⟩, h3, fun n hn => ?_, ⟨2 ^ w, ?_, ?_⟩⟩
  · rw [h1]; split <;> omega
  · rw [h2]; split <;> omega
  · have := hv.2; omega
  · have : (n : Int) < 10 ^ l.digits10 := by exact_mod_cast hn
    refine ⟨⟨?_, by omega⟩, fun hs => ⟨?_, by omega⟩⟩
    · split <;> omega
    · rw [if_pos hs]; omega
  · exact_mod_cast h5
  · intro h
    have := h.2
    push_cast at this
    omega

/-- C44, integral types. `bool` has one value bit; the header's `char` is signed. -/
theorem c44_integers :
    IntSpec limBool false 1 ∧ IntSpec limChar true 7 ∧ IntSpec limUChar false 8 ∧ IntSpec limShort true 15 ∧ IntSpec limUShort false 16 ∧
    IntSpec limInt true 31 ∧ IntSpec limUInt false 32 ∧ IntSpec limLL true 63 ∧ IntSpec limULL false 64 := by
  refine ⟨?_, ?_, ?_, ?_, ?_, ?_, ?_, ?_, ?_⟩ <;> exact intSpec_of (by decide) (by decide) (by decide) (by decide) (by decide)

/-! ### Floating types -/

/-- What `numeric_limits` promises for a binary format. `one` is 1 in units of the least positive value. -/
structure FloatSpec (φ : Fmt) (mn mx eps dmin infty qnan snan : Nat) : Prop where
  /-- `max` is finite and not below any finite value. -/
  max : ∃ m, φ.val mx = .fin m ∧ ∀ x v, φ.val x = .fin v → v ≤ m
  /-- `min` is the least positive normal value. -/
  min : ∃ m, φ.val mn = .fin m ∧ 0 < m ∧ φ.expo mn ≠ 0 ∧ ∀ x v, φ.val x = .fin v → 0 < v → φ.expo x ≠ 0 → m ≤ v
  /-- `denorm_min` is the least positive value. -/
  denorm : ∃ m, φ.val dmin = .fin m ∧ 0 < m ∧ ∀ x v, φ.val x = .fin v → 0 < v → m ≤ v
  /-- 1 + epsilon is the least value above 1. -/
  epsilon : ∃ e, φ.val eps = .fin e ∧ 0 < e ∧ (∃ y, φ.val y = .fin (φ.one + e)) ∧ ∀ x v, φ.val x = .fin v → (φ.one : Int) < v → φ.one + e ≤ v
  infinity : φ.val infty = .inf false
  /-- Both NaNs are NaNs; the quiet one has the top fraction bit, the signaling one does not. -/
  quiet : φ.val qnan = .nan ∧ 2 ^ (φ.mb - 1) ≤ φ.frac qnan
  signaling : φ.val snan = .nan ∧ φ.frac snan < 2 ^ (φ.mb - 1)

/-- Comparison of finite values with a given non-negative pattern. -/
theorem fin_le {φ : Fmt} {x : Nat} {v : Int} (h : φ.val x = .fin v) : (0 < v → v = φ.mag (φ.low x)) ∧ v ≤ φ.mag (φ.low x) := by
  obtain ⟨-, h2⟩ := φ.val_eq_fin h
  rw [h2]
  unfold signed
  cases φ.sign x <;> simp

theorem floatSpec_of {φ : Fmt} (g : φ.Good) {mn mx eps dmin infty qnan snan : Nat} (h1 : mx = φ.inf - 1) (h2 : mn = 2 ^ φ.mb)
    (h3 : dmin = 1) (h4 : φ.val eps = .fin (2 ^ (φ.bias - 1) : Nat)) (h5 : φ.val infty = .inf false)
    (h6 : φ.val qnan = .nan ∧ 2 ^ (φ.mb - 1) ≤ φ.frac qnan) (h7 : φ.val snan = .nan ∧ φ.frac snan < 2 ^ (φ.mb - 1)) :
    FloatSpec φ mn mx eps dmin infty qnan snan := by
  have hmb := g.mb
  have hbias := g.le
  have hpm := Nat.two_pow_pos φ.mb
  have hinf : 2 * 2 ^ φ.mb ≤ φ.inf := by
    unfold Fmt.inf; rw [g.emax]; exact Nat.mul_le_mul_right _ (by omega)
  have hh := φ.inf_lt_half
  have pat : ∀ t, t < φ.inf → φ.val t = .fin (φ.mag t) ∧ φ.low t = t := by
    intro t ht
    have h := φ.val_withSign_fin (s := false) ht
    exact ⟨h, Nat.mod_eq_of_lt (by omega)⟩
  have hone : φ.mag (φ.bias * 2 ^ φ.mb) = φ.one := by
    obtain ⟨k, hk⟩ : ∃ k, φ.bias = k + 1 := ⟨φ.bias - 1, by omega⟩
    have := φ.mag_of (2 ^ φ.mb) k (by rw [Nat.pow_succ]; omega) (fun _ => Nat.le_refl _)
    rw [← Nat.succ_mul] at this
    rw [hk, this, Fmt.one, ← Nat.pow_add, hk]
    congr 1; omega
  have hone1 : φ.mag (φ.bias * 2 ^ φ.mb + 1) = φ.one + 2 ^ (φ.bias - 1) := by
    obtain ⟨k, hk⟩ : ∃ k, φ.bias = k + 1 := ⟨φ.bias - 1, by omega⟩
    have := φ.mag_of (2 ^ φ.mb + 1) k (by rw [Nat.pow_succ]; omega) (fun _ => by omega)
    rw [← Nat.add_assoc, ← Nat.succ_mul] at this
    rw [hk, this, Fmt.one, hk, Nat.add_mul, ← Nat.pow_add, Nat.one_mul, Nat.add_sub_cancel]
    congr 2; omega
  have hmin : φ.mag (2 ^ φ.mb) = 2 ^ φ.mb := by
    have := φ.mag_of (2 ^ φ.mb) 0 (by rw [Nat.pow_succ]; omega) (fun h => absurd rfl h)
    simpa using this
  have hdm : φ.mag 1 = 1 := by
    have := φ.mag_of 1 0 (Nat.one_le_two_pow) (fun h => absurd rfl h)
    simpa using this
  refine ⟨?_, ?_, ?_, ?_, h5, h6, h7⟩
  · refine ⟨φ.mag (φ.inf - 1), by rw [h1]; exact (pat _ (by omega)).1, fun x v hx => ?_⟩
    have hl := (φ.val_eq_fin hx).1
    have := (fin_le hx).2
    have : φ.mag (φ.low x) ≤ φ.mag (φ.inf - 1) := φ.mag_le_iff.2 (by omega)
    omega
  · refine ⟨2 ^ φ.mb, ?_, Int.pow_pos (by decide), ?_, fun x v hx h0 hn => ?_⟩
    · rw [h2, (pat _ (by omega)).1, hmin]; simp
    · rw [h2, Fmt.expo, (pat _ (by omega)).2, Nat.div_self hpm]; decide
    · rw [(fin_le hx).1 h0]
      have := mag_lt_normal (φ := φ) x
      have : 2 ^ φ.mb ≤ φ.mag (φ.low x) := by
        by_contra hc
        exact hn (this.1 (by omega))
      exact_mod_cast this
  · refine ⟨1, by rw [h3, (pat 1 (by omega)).1, hdm]; rfl, by decide, fun x v _ h0 => by omega⟩
  · refine ⟨_, h4, by exact_mod_cast Nat.two_pow_pos _, ⟨φ.bias * 2 ^ φ.mb + 1, ?_⟩, fun x v hx h0 => ?_⟩
    · rw [(pat _ ?_).1, hone1]; simp
      have : (φ.bias + 1) * 2 ^ φ.mb ≤ φ.inf := by
        unfold Fmt.inf; rw [g.emax]; exact Nat.mul_le_mul_right _ (by omega)
      rw [Nat.add_mul] at this
      have h2 : 2 ≤ 2 ^ φ.mb := by
        calc 2 = 2 ^ 1 := rfl
          _ ≤ 2 ^ φ.mb := Nat.pow_le_pow_right (by decide) hmb
      omega
    · have hv := (fin_le hx).1 (by have := Int.natCast_nonneg φ.one; omega)
      rw [hv] at h0 ⊢
      have h0' : φ.mag (φ.bias * 2 ^ φ.mb) < φ.mag (φ.low x) := by rw [hone]; exact_mod_cast h0
      have := φ.mag_le_iff.2 (Nat.succ_le_of_lt (φ.mag_lt_iff.1 h0'))
      rw [Nat.succ_eq_add_one, hone1] at this
      exact_mod_cast this

/-- C44, `float`. -/
theorem c44_float : FloatSpec f32 floatMin floatMax epsilon32 floatDenormMin floatInfinity floatQuietNaN floatSignalingNaN :=
  floatSpec_of Fmt.good32 (by decide +kernel) (by decide +kernel) (by decide +kernel) (by decide +kernel) (by decide +kernel)
    (by decide +kernel) (by decide +kernel)

/-- C44, `double`. -/
theorem c44_double : FloatSpec f64 doubleMin doubleMax epsilon64 doubleDenormMin doubleInfinity doubleQuietNaN doubleSignalingNaN :=
  floatSpec_of Fmt.good64 (by decide +kernel) (by decide +kernel) (by decide +kernel) (by decide +kernel) (by decide +kernel)
    (by decide +kernel) (by decide +kernel)

/-! ### digits10 of floating types -/

/-- Decimals `D * U / d` with at most `p` digits `D` survive rounding to the format: `D` remains the strictly nearest multiple of the
decimal unit. `U / d` is the decimal unit (a power of ten, scaled by `one`), and the value is in the normal range. -/
theorem roundtrip {φ : Fmt} {p D U d : Nat} (hp : 10 ^ p ≤ 2 ^ φ.mb) (hD : D < 10 ^ p) (hd : 0 < d) (hU : 0 < U)
    (hn : 2 ^ φ.mb * d ≤ D * U) (t : Nat) (ht : φ.Nearest (D * U) d t) :
    ∀ D', D' ≠ D → φ.dist (D * U) d t < φ.dist (D' * U) d t := by
  -- the rounding error is at most half a step, and a step is at most 2^-mb of the value
  have key : 2 * φ.dist (D * U) d t < U := by
    obtain ⟨t0, h1, h2⟩ : ∃ t0, φ.mag t0 * d ≤ D * U ∧ D * U < φ.mag (t0 + 1) * d := by
      have hex : ∃ k, D * U < φ.mag k * d := by
        refine ⟨D * U + 1, ?_⟩
        have hle : ∀ k, k ≤ φ.mag k := fun k => φ.mag_strictMono.id_le k
        calc D * U < (D * U + 1) * 1 := by omega
          _ ≤ φ.mag (D * U + 1) * d := Nat.mul_le_mul (hle _) hd
      have hf := Nat.find_spec hex
      have hm := fun k => Nat.find_min hex (m := k)
      rcases hfe : Nat.find hex with _ | k
      · rw [hfe, φ.mag_zero] at hf; omega
      · rw [hfe] at hf
        exact ⟨k, by have := hm k (by omega); omega, hf⟩
    -- step size
    have hstep : (φ.mag (t0 + 1) - φ.mag t0) * 2 ^ φ.mb ≤ φ.mag t0 := by
      have hge : 2 ^ φ.mb ≤ t0 := by
        have hmin : φ.mag (2 ^ φ.mb) = 2 ^ φ.mb := by
          have := φ.mag_of (2 ^ φ.mb) 0 (by rw [Nat.pow_succ]; omega) (fun h => absurd rfl h)
          simpa using this
        by_contra hc
        have : φ.mag (t0 + 1) ≤ φ.mag (2 ^ φ.mb) := φ.mag_le_iff.2 (by omega)
        have := Nat.mul_le_mul_right d this
        rw [hmin] at this
        omega
      have hpm := Nat.two_pow_pos φ.mb
      -- t0 = s * 2^mb + m
      obtain ⟨s, m, hm1, hm2, hts⟩ : ∃ s m, 2 ^ φ.mb ≤ m ∧ m < 2 * 2 ^ φ.mb ∧ t0 = s * 2 ^ φ.mb + m := by
        have hq : 1 ≤ t0 / 2 ^ φ.mb := (Nat.le_div_iff_mul_le hpm).2 (by omega)
        have := Nat.mod_lt t0 hpm
        refine ⟨t0 / 2 ^ φ.mb - 1, t0 % 2 ^ φ.mb + 2 ^ φ.mb, by omega, by omega, ?_⟩
        have h := Nat.div_add_mod t0 (2 ^ φ.mb)
        rw [Nat.sub_mul, Nat.one_mul]
        rw [Nat.mul_comm] at h
        have : 2 ^ φ.mb ≤ t0 / 2 ^ φ.mb * 2 ^ φ.mb := by
          calc 2 ^ φ.mb = 1 * 2 ^ φ.mb := by omega
            _ ≤ _ := Nat.mul_le_mul_right _ hq
        omega
      rw [hts, Nat.add_assoc, φ.mag_of m s (by rw [Nat.pow_succ]; omega) (fun _ => hm1),
        φ.mag_of (m + 1) s (by rw [Nat.pow_succ]; omega) (fun _ => by omega), Nat.add_mul, Nat.one_mul, Nat.add_sub_cancel_left, Nat.mul_comm]
      exact Nat.mul_le_mul_right _ hm1
    have hmono := φ.mag_succ t0
    have ha := (ht t0).1
    have hb := (ht (t0 + 1)).1
    have hs2 : 2 * φ.dist (D * U) d t ≤ (φ.mag (t0 + 1) - φ.mag t0) * d := by
      rw [Nat.sub_mul]
      unfold Fmt.dist at *
      omega
    have hlt : (φ.mag (t0 + 1) - φ.mag t0) * d * 2 ^ φ.mb < U * 2 ^ φ.mb := by
      calc (φ.mag (t0 + 1) - φ.mag t0) * d * 2 ^ φ.mb = (φ.mag (t0 + 1) - φ.mag t0) * 2 ^ φ.mb * d := by ring
        _ ≤ φ.mag t0 * d := Nat.mul_le_mul_right _ hstep
        _ ≤ D * U := h1
        _ < 2 ^ φ.mb * U := Nat.mul_lt_mul_of_pos_right (by omega) hU
        _ = U * 2 ^ φ.mb := Nat.mul_comm _ _
    have := Nat.lt_of_mul_lt_mul_right hlt
    omega
  intro D' hne
  have hgap : D' * U + U ≤ D * U ∨ D * U + U ≤ D' * U := by
    rcases Nat.lt_or_gt_of_ne hne with h | h
    · left
      calc D' * U + U = (D' + 1) * U := by ring
        _ ≤ D * U := Nat.mul_le_mul_right _ h
    · right
      calc D * U + U = (D + 1) * U := by ring
        _ ≤ D' * U := Nat.mul_le_mul_right _ h
  unfold Fmt.dist at *
  omega

/-- C44, `digits10`: every decimal of at most 6 (15) digits times a power of ten, in the normal range, is recovered from its float
(double) by rounding back to that many digits, and 7 (16) digits do not have this property. `k` is the decimal exponent: `D * 10^k`
if `up`, else `D / 10^k`. -/
theorem c44_digits10 :
    (∀ (up : Bool) (k D t D' : Nat), D < 10 ^ floatDigits10 →
      2 ^ 23 * (if up then 1 else 10 ^ k) ≤ D * (f32.one * if up then 10 ^ k else 1) →
      f32.Nearest (D * (f32.one * if up then 10 ^ k else 1)) (if up then 1 else 10 ^ k) t → D' ≠ D →
      f32.dist (D * (f32.one * if up then 10 ^ k else 1)) (if up then 1 else 10 ^ k) t <
        f32.dist (D' * (f32.one * if up then 10 ^ k else 1)) (if up then 1 else 10 ^ k) t) ∧
    (∀ (up : Bool) (k D t D' : Nat), D < 10 ^ doubleDigits10 →
      2 ^ 52 * (if up then 1 else 10 ^ k) ≤ D * (f64.one * if up then 10 ^ k else 1) →
      f64.Nearest (D * (f64.one * if up then 10 ^ k else 1)) (if up then 1 else 10 ^ k) t → D' ≠ D →
      f64.dist (D * (f64.one * if up then 10 ^ k else 1)) (if up then 1 else 10 ^ k) t <
        f64.dist (D' * (f64.one * if up then 10 ^ k else 1)) (if up then 1 else 10 ^ k) t) ∧
    (∃ k D D' t : Nat, D < 10 ^ (floatDigits10 + 1) ∧ D' < 10 ^ (floatDigits10 + 1) ∧ D ≠ D' ∧ t < f32.inf ∧
      f32.Nearest (D * (f32.one * 10 ^ k)) 1 t ∧ f32.Nearest (D' * (f32.one * 10 ^ k)) 1 t) ∧
    (∃ k D D' t : Nat, D < 10 ^ (doubleDigits10 + 1) ∧ D' < 10 ^ (doubleDigits10 + 1) ∧ D ≠ D' ∧ t < f64.inf ∧
      f64.Nearest (D * (f64.one * 10 ^ k)) 1 t ∧ f64.Nearest (D' * (f64.one * 10 ^ k)) 1 t) := by
  have p10 : ∀ k, 0 < 10 ^ k := fun k => Nat.pow_pos (by decide)
  refine ⟨?_, ?_, ?_, ?_⟩
  · intro up k D t D' hD hn ht hne
    refine roundtrip (p := 6) (by decide) hD (by split <;> first | decide | exact p10 k)
      (Nat.mul_pos (Nat.two_pow_pos _) (by split <;> first | decide | exact p10 k)) hn t ht D' hne
  · intro up k D t D' hD hn ht hne
    refine roundtrip (p := 15) (by decide) hD (by split <;> first | decide | exact p10 k)
      (Nat.mul_pos (Nat.two_pow_pos _) (by split <;> first | decide | exact p10 k)) hn t ht D' hne
  · refine ⟨3, 8589973, 8589974, f32.roundMag (8589973 * (f32.one * 10 ^ 3)) 1, by decide, by decide, by decide, by decide +kernel, ?_, ?_⟩
    · exact f32.roundMag_nearest (by decide) (by decide)
    · rw [f32.nearest_iff (by decide) (by decide)]; decide +kernel
  · refine ⟨0, 9007199254740992, 9007199254740993, f64.roundMag (9007199254740992 * (f64.one * 10 ^ 0)) 1, by decide, by decide, by decide,
      by decide +kernel, ?_, ?_⟩
    · exact f64.roundMag_nearest (by decide) (by decide)
    · rw [f64.nearest_iff (by decide) (by decide)]; decide +kernel

/-- The hypotheses for 3.14159 = 314159 / 10^5. -/
example : 314159 < 10 ^ floatDigits10 ∧ 2 ^ 23 * 10 ^ 5 ≤ 314159 * (f32.one * 1) ∧
    f32.Nearest (314159 * (f32.one * 1)) (10 ^ 5) (f32.roundMag (314159 * (f32.one * 1)) (10 ^ 5)) :=
  ⟨by decide, by decide +kernel, f32.roundMag_nearest (by decide) (by decide)⟩

end Nanostl.Math

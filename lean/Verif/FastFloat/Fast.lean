import Verif.FastFloat.DigitComp

/-!
Clinger's fast path; and why it is enough to look at so many digits and at whether there are more.
-/

namespace Nanostl.FastFloat
open Nanostl.Float
open Nanostl.Ryu (w64 chk some_bind chk_pos allBelow allBelow_sound)

/-! ### Truncated digits -/

theorem decQ_scale (φ : Fmt) (h : 1 ≤ φ.bias + φ.mb) (T k : Nat) : 2 * decQ φ T (-(k : Int)) * 10 ^ k = ((T * 2 ^ (φ.mb + φ.bias) : Nat) : ℚ) := by
  rw [decQ, zpow_neg, zpow_natCast, Fmt.one]
  obtain ⟨j, hj⟩ : ∃ j, φ.bias + φ.mb = j + 1 := ⟨φ.bias + φ.mb - 1, by omega⟩
  rw [Nat.add_comm φ.mb, hj, Nat.add_sub_cancel]
  push_cast
  have : (10 : ℚ) ^ k ≠ 0 := by positivity
  field_simp
  ring

/-- Two numbers with the same first digits, neither of them these digits themselves, compare alike with all points half way between values. -/
theorem alike_trunc {b : Bin} (g : SlowOK b) {T : Nat} {j : Int} (hj : j ≤ 0) (hT : 10 ^ (b.maxDigits - 1) ≤ T) {x y : ℚ}
    (x1 : decQ b.fmt T j < x) (x2 : x < decQ b.fmt (T + 1) j) (y1 : decQ b.fmt T j < y) (y2 : y < decQ b.fmt (T + 1) j) : Alike b.fmt y x := by
  obtain ⟨k, rfl⟩ : ∃ k : Nat, j = -(k : Int) := ⟨(-j).toNat, by omega⟩
  have hb := g.bias_ge
  intro F s hF
  have key : ((2 * F + 1) * 2 ^ s : ℚ) ≤ 2 * decQ b.fmt T (-(k : Int)) ∨ 2 * decQ b.fmt (T + 1) (-(k : Int)) ≤ (2 * F + 1) * 2 ^ s := by
    by_contra hc
    rw [not_or, not_le, not_le] at hc
    obtain ⟨c1, c2⟩ := hc
    have hp : (0 : ℚ) < 10 ^ k := by positivity
    have d1 := mul_lt_mul_of_pos_right c1 hp
    have d2 := mul_lt_mul_of_pos_right c2 hp
    rw [decQ_scale b.fmt (by omega)] at d1 d2
    have d1' : T * 2 ^ (b.fmt.mb + b.fmt.bias) < (2 * F + 1) * 2 ^ s * 10 ^ k := by exact_mod_cast d1
    have d2' : (2 * F + 1) * 2 ^ s * 10 ^ k < (T + 1) * 2 ^ (b.fmt.mb + b.fmt.bias) := by exact_mod_cast d2
    clear d1 d2 c1 c2 hp
    have hD := g.digits
    have hD1 : 1 ≤ b.maxDigits := by have := g.digits_ge; have := g.large0; omega
    generalize hB : b.fmt.mb + b.fmt.bias = B at *
    have e10 : (2 * F + 1) * 2 ^ s * 10 ^ k = (2 * F + 1) * 5 ^ k * 2 ^ (s + k) := by
      rw [show (10 : Nat) = 2 * 5 from rfl, Nat.mul_pow, Nat.pow_add]; ring
    rw [e10] at d1' d2'
    by_cases hs : B ≤ s + k
    · obtain ⟨i, hi⟩ := Nat.exists_eq_add_of_le hs
      rw [hi, Nat.pow_add, Nat.mul_left_comm, Nat.mul_comm (2 ^ B)] at d1' d2'
      have a1 := Nat.lt_of_mul_lt_mul_right d1'
      have a2 := Nat.lt_of_mul_lt_mul_right d2'
      omega
    · obtain ⟨i, hi⟩ : ∃ i, B = i + 1 := ⟨B - 1, by omega⟩
      have h1 : (2 * F + 1) * 5 ^ k * 2 ^ (s + k) ≤ 2 ^ (b.fmt.mb + 2) * 5 ^ i * 2 ^ i := by
        refine Nat.mul_le_mul (Nat.mul_le_mul ?_ (Nat.pow_le_pow_right (by decide) (by omega))) (Nat.pow_le_pow_right (by decide) (by omega))
        rw [Nat.pow_succ]
        omega
      have h2 : 10 * (2 ^ (b.fmt.mb + 2) * 5 ^ i * 2 ^ i) ≤ 10 ^ b.maxDigits * 2 ^ (i + 1) := by
        rw [hi] at hD
        calc 10 * (2 ^ (b.fmt.mb + 2) * 5 ^ i * 2 ^ i) = 2 ^ (b.fmt.mb + 2) * 5 ^ (i + 1) * 2 ^ (i + 1) := by rw [Nat.pow_succ, Nat.pow_succ]; ring
          _ ≤ _ := Nat.mul_le_mul_right _ hD
      have h3 : 10 ^ b.maxDigits = 10 * 10 ^ (b.maxDigits - 1) := by rw [← Nat.pow_succ']; congr 1; omega
      have h4 : 10 ^ (b.maxDigits - 1) * 2 ^ (i + 1) ≤ T * 2 ^ (i + 1) := Nat.mul_le_mul_right _ hT
      rw [h3, Nat.mul_assoc 10 (10 ^ (b.maxDigits - 1))] at h2
      rw [hi] at d1'
      omega
  rcases key with h | h
  · exact ⟨⟨fun c => by linarith, fun c => by linarith⟩, ⟨fun _ => by linarith, fun _ => by linarith⟩⟩
  · exact ⟨⟨fun _ => by linarith, fun _ => by linarith⟩, ⟨fun c => by linarith, fun c => by linarith⟩⟩

/-! ### The fast path -/

/-- The constants of the fast path. -/
structure FastOK (b : Bin) : Prop extends SlowOK b where
  range : ∃ R : Nat, b.minFast = -(R : Int) ∧ b.maxFast = R ∧ ∀ k, k ≤ R → ∃ p, b.powersOfTen[k]? = some p ∧ b.fmt.sign p = false ∧
    b.fmt.val p = .fin ((10 ^ k * b.fmt.one : Nat) : Int)
  maxMant : b.maxMantissaFast = 2 ^ (b.fmt.mb + 1)

/-- One entry of the table. -/
def powChk (b : Bin) (k : Nat) : Bool :=
  match b.powersOfTen[k]? with
  | some p => (b.fmt.sign p == false) && decide (b.fmt.val p = .fin ((10 ^ k * b.fmt.one : Nat) : Int))
  | none => false

theorem powChk_sound {b : Bin} {k : Nat} (h : powChk b k = true) : ∃ p, b.powersOfTen[k]? = some p ∧ b.fmt.sign p = false ∧
    b.fmt.val p = .fin ((10 ^ k * b.fmt.one : Nat) : Int) := by
  unfold powChk at h
  split at h
  · rename_i p hp
    rw [Bool.and_eq_true, beq_iff_eq, decide_eq_true_eq] at h
    exact ⟨p, hp, h.1, h.2⟩
  · exact absurd h (by simp)

theorem powChk64 : allBelow 23 (powChk bin64) = true := by decide +kernel
theorem powChk32 : allBelow 11 (powChk bin32) = true := by decide +kernel

theorem fastOK64 : FastOK bin64 where
  toSlowOK := slowOK64
  range := ⟨22, by decide, by decide, fun k hk => powChk_sound (allBelow_sound powChk64 k (by omega))⟩
  maxMant := by decide

theorem fastOK32 : FastOK bin32 where
  toSlowOK := slowOK32
  range := ⟨10, by decide, by decide, fun k hk => powChk_sound (allBelow_sound powChk32 k (by omega))⟩
  maxMant := by decide

theorem neg_fin (φ : Fmt) {t : Nat} (h : t < φ.half) : φ.neg (φ.withSign false t) = φ.withSign true t := by
  unfold Fmt.neg
  rw [φ.sign_withSign h, φ.low_withSign h]
  rfl

/-- The fast path rounds once. -/
theorem fastPath_spec {b : Bin} (g : FastOK b) {pns : PNS} (h1 : b.minFast ≤ pns.exponent) (h2 : pns.exponent ≤ b.maxFast)
    (h3 : pns.mantissa ≤ b.maxMantissaFast) :
    ∃ t, DecNearest b.fmt pns.mantissa pns.exponent t ∧ fastPath b pns = some (b.fmt.withSign pns.negative (min t b.fmt.inf)) := by
  obtain ⟨R, r1, r2, r3⟩ := g.range
  rw [g.maxMant] at h3
  have hmb1 := g.good.mb
  have hmb := g.mb57
  have hb := g.bias_ge
  have hone := one_pos b.fmt
  generalize hw : pns.mantissa = w at *
  generalize hq : pns.exponent = q at *
  -- the significand is exact
  obtain ⟨t0, ht0, hm0⟩ := g.good.exists_pattern (m := w) (s := b.fmt.bias + b.fmt.mb - 1) h3 (by
    calc w * 2 ^ (b.fmt.bias + b.fmt.mb - 1) ≤ 2 ^ (b.fmt.mb + 1) * 2 ^ (b.fmt.bias + b.fmt.mb - 1) := Nat.mul_le_mul_right _ h3
      _ = 2 ^ (b.fmt.mb + 1 + (b.fmt.bias + b.fmt.mb - 1)) := by rw [← Nat.pow_add]
      _ < 2 ^ (b.fmt.mb + 2 * b.fmt.bias) := Nat.pow_lt_pow_right (by decide) (by omega)
      _ = _ := by rw [Nat.pow_add])
  have e0 : b.fmt.ofInt w = b.fmt.withSign false t0 := by
    unfold Fmt.ofInt
    have hdec : decide ((w : Int) < 0) = false := decide_eq_false (by omega)
    rw [hdec, Int.natAbs_natCast]
    exact b.fmt.round_exact hmb1 (by decide) (by rw [Nat.mul_one]; exact hm0.symm) ht0
  have hh0 := Nat.lt_trans ht0 b.fmt.inf_lt_half
  have v0 : b.fmt.val (b.fmt.ofInt w) = .fin ((w * b.fmt.one : Nat) : Int) := by
    rw [e0, b.fmt.val_withSign_fin ht0, hm0]
    rfl
  have s0 : b.fmt.sign (b.fmt.ofInt w) = false := by rw [e0, b.fmt.sign_withSign hh0]
  -- the end
  have fin : ∀ t, (if pns.negative = true then b.fmt.neg (b.fmt.withSign false (min t b.fmt.inf)) else b.fmt.withSign false (min t b.fmt.inf)) =
      b.fmt.withSign pns.negative (min t b.fmt.inf) := by
    intro t
    cases pns.negative with
    | true => rw [if_pos rfl, neg_fin _ (lt_of_le_of_lt (Nat.min_le_right _ _) b.fmt.inf_lt_half)]
    | false => rw [if_neg (by simp)]
  unfold fastPath
  rw [hw, hq]
  by_cases hneg : q < 0
  · obtain ⟨k, rfl⟩ : ∃ k : Nat, q = -(k : Int) := ⟨(-q).toNat, by omega⟩
    obtain ⟨p, p1, p2, p3⟩ := r3 k (by omega)
    rw [if_pos hneg, show (- -(k : Int)).toNat = k by omega, p1, some_bind]
    have e1 : b.fmt.div (b.fmt.ofInt w) p = b.fmt.withSign false (min (b.fmt.roundMag (w * b.fmt.one * b.fmt.one) (10 ^ k * b.fmt.one)) b.fmt.inf) := by
      unfold Fmt.div
      rw [v0, p3]
      simp only
      have hpos : 0 < 10 ^ k * b.fmt.one := Nat.mul_pos (Nat.pow_pos (by decide)) hone
      rw [if_neg (by exact_mod_cast hpos.ne'), s0, p2, Int.natAbs_natCast, Int.natAbs_natCast]
      rfl
    have hpos : 0 < 10 ^ k * b.fmt.one := Nat.mul_pos (Nat.pow_pos (by decide)) hone
    refine ⟨_, (nearest_cross b.fmt hpos (decDen_pos _) ?_).1 (b.fmt.roundMag_nearest (n := w * b.fmt.one * b.fmt.one) hmb1 hpos), ?_⟩
    · unfold decNum decDen
      rw [show (-(k : Int)).toNat = 0 by omega, show (- -(k : Int)).toNat = k by omega]
      ring
    · rw [e1]
      show some (if pns.negative = true then _ else _) = _
      rw [fin]
  · obtain ⟨k, rfl⟩ : ∃ k : Nat, q = k := ⟨q.toNat, by omega⟩
    obtain ⟨p, p1, p2, p3⟩ := r3 k (by omega)
    rw [if_neg hneg, show ((k : Int)).toNat = k by omega, p1, some_bind]
    have e1 : b.fmt.mul (b.fmt.ofInt w) p = b.fmt.withSign false (min (b.fmt.roundMag (w * b.fmt.one * (10 ^ k * b.fmt.one)) b.fmt.one) b.fmt.inf) := by
      unfold Fmt.mul
      rw [v0, p3]
      simp only
      rw [s0, p2, Int.natAbs_natCast, Int.natAbs_natCast]
      rfl
    refine ⟨_, (nearest_cross b.fmt hone (decDen_pos _) ?_).1 (b.fmt.roundMag_nearest (n := w * b.fmt.one * (10 ^ k * b.fmt.one)) hmb1 hone), ?_⟩
    · unfold decNum decDen
      rw [show (-(k : Int)).toNat = 0 by omega, show ((k : Int)).toNat = k by omega]
      ring
    · rw [e1]
      show some (if pns.negative = true then _ else _) = _
      rw [fin]

end Nanostl.FastFloat

import Verif.FastFloat.Product
import Verif.Float.Decimal
import Verif.Float.Real
import Mathlib.Tactic.Positivity
import Mathlib.Tactic.FieldSimp
import Mathlib.Tactic.Linarith

/-!
`compute_float`: its result is the nearest value, or it says that it does not know and gives an estimate.
-/

namespace Nanostl.FastFloat
open Nanostl.Float
open Nanostl.Ryu (w64 chk some_bind chk_pos)

/-! ### Bits -/

theorem clearBit_top {k r : Nat} (hk : k < 64) (hr : r < 2 ^ k) : clearBit (2 ^ k + r) k = r := by
  unfold clearBit
  refine Nat.eq_of_testBit_eq fun i => ?_
  rw [Nat.testBit_and, Nat.testBit_xor, Nat.one_shiftLeft, Nat.testBit_two_pow, show 0xFFFFFFFFFFFFFFFF = 2 ^ 64 - 1 by decide,
    Nat.testBit_two_pow_sub_one]
  rcases Nat.lt_trichotomy i k with h | h | h
  · rw [Nat.testBit_two_pow_add_gt h]
    simp [show i < 64 by omega, show k ≠ i by omega]
  · subst h
    simp [hk, Nat.testBit_lt_two_pow hr]
  · have h1 : 2 ^ k + r < 2 ^ i := lt_of_lt_of_le (by rw [Nat.pow_succ]; omega) (Nat.pow_le_pow_right (by decide) (show k + 1 ≤ i from h))
    rw [Nat.testBit_lt_two_pow h1, Nat.testBit_lt_two_pow (lt_of_le_of_lt (Nat.le_add_left _ _) h1), Bool.false_and]

theorem clearBit_zero {m : Nat} (hm : m < 2 ^ 64) (ho : m % 2 = 1) : clearBit m 0 = m - 1 := by
  unfold clearBit
  refine Nat.eq_of_testBit_eq fun i => ?_
  rw [Nat.testBit_and, Nat.testBit_xor, Nat.one_shiftLeft, Nat.testBit_two_pow, show 0xFFFFFFFFFFFFFFFF = 2 ^ 64 - 1 by decide,
    Nat.testBit_two_pow_sub_one]
  cases i with
  | zero => simp [Nat.testBit_zero]; omega
  | succ i =>
    rw [Nat.testBit_succ, Nat.testBit_succ, show (m - 1) / 2 = m / 2 by omega]
    by_cases h : i + 1 < 64
    · simp [h]
    · have : m / 2 < 2 ^ i := lt_of_lt_of_le (show m / 2 < 2 ^ 63 by omega) (Nat.pow_le_pow_right (by decide) (by omega))
      rw [Nat.testBit_lt_two_pow this, Bool.false_and]

/-! ### Rounding -/

/-- The significand the code makes of `Q` half units: to even where it holds the value for a tie, else up at the half. -/
def roundQ (tie : Prop) [Decidable tie] (Q : Nat) : Nat :=
  let Q := if tie ∧ Q % 4 = 1 then Q - 1 else Q
  (Q + Q % 2) / 2

/-- `Q` is the value `2 n / d` in units of `2^s`, rounded down. -/
theorem round_half (φ : Fmt) (hmb : 1 ≤ φ.mb) {n d s Q : Nat} (h1 : Q * (d * 2 ^ s) ≤ 2 * n) (h2 : 2 * n < (Q + 1) * (d * 2 ^ s))
    (h3 : Q < 2 ^ (φ.mb + 2)) (h4 : s ≠ 0 → 2 ^ φ.mb ≤ Q / 2) (tie : Prop) [Decidable tie] (ht : Q % 4 = 1 → (tie ↔ 2 * n = Q * (d * 2 ^ s))) :
    φ.Nearest n d (s * 2 ^ φ.mb + roundQ tie Q) := by
  have hd : 0 < d * 2 ^ s := by
    rcases Nat.eq_zero_or_pos (d * 2 ^ s) with h | h
    · rw [h] at h1 h2; omega
    · exact h
  have hQ : Q / 2 < 2 ^ (φ.mb + 1) := by rw [Nat.div_lt_iff_lt_mul (by decide), ← Nat.pow_succ]; exact h3
  have hm0 := φ.mag_of (Q / 2) s hQ.le h4
  have hm1 := φ.mag_of (Q / 2 + 1) s hQ (fun h => le_trans (h4 h) (Nat.le_succ _))
  rw [← Nat.add_assoc] at hm1
  have he : s * 2 ^ φ.mb % 2 = 0 := by
    obtain ⟨j, hj⟩ := Nat.exists_eq_add_of_le hmb
    rw [hj, Nat.pow_add, Nat.pow_one, Nat.mul_left_comm, Nat.mul_mod_right]
  have e0 : φ.mag (s * 2 ^ φ.mb + Q / 2) * d = (Q / 2) * (d * 2 ^ s) := by rw [hm0, Nat.mul_assoc, Nat.mul_comm (2 ^ s)]
  have e1 : φ.mag (s * 2 ^ φ.mb + Q / 2 + 1) * d = (Q / 2) * (d * 2 ^ s) + d * 2 ^ s := by
    rw [hm1, Nat.mul_assoc, Nat.mul_comm (2 ^ s), Nat.add_mul, Nat.one_mul]
  have hQe : Q * (d * 2 ^ s) = 2 * ((Q / 2) * (d * 2 ^ s)) + Q % 2 * (d * 2 ^ s) := by
    rw [← Nat.mul_assoc 2, ← Nat.add_mul, Nat.div_add_mod]
  rw [Nat.add_mul, Nat.one_mul] at h2
  rw [hQe] at h1 h2 ht
  generalize hD : d * 2 ^ s = D at *
  generalize hA : Q / 2 * D = A at *
  rcases Nat.mod_two_eq_zero_or_one Q with hp | hp
  · -- below the half
    have : roundQ tie Q = Q / 2 := by
      unfold roundQ
      rw [if_neg (by omega)]
      simp [hp]
    rw [this]
    rw [hp, Nat.zero_mul] at h1 h2
    exact φ.nearest_lo (by omega) (by omega) (Or.inl (by omega))
  · rw [hp, Nat.one_mul] at h1 h2 ht
    by_cases hc : tie ∧ Q % 4 = 1
    · have : roundQ tie Q = Q / 2 := by
        unfold roundQ
        rw [if_pos hc]
        simp only
        omega
      rw [this]
      have := (ht hc.2).1 hc.1
      exact φ.nearest_lo (by omega) (by omega) (Or.inr ⟨by omega, by omega⟩)
    · have : roundQ tie Q = Q / 2 + 1 := by
        unfold roundQ
        rw [if_neg hc]
        simp only
        omega
      rw [this, ← Nat.add_assoc]
      refine φ.nearest_hi (by omega) (by omega) ?_
      by_cases h : 2 * n = 2 * A + D
      · refine Or.inr ⟨by omega, ?_⟩
        by_contra h0
        have hq4 : Q % 4 = 1 := by omega
        exact hc ⟨(ht hq4).2 h, hq4⟩
      · exact Or.inl (by omega)

/-! ### The formats -/

/-- What the constants of a format have to satisfy. -/
structure BinOK (b : Bin) : Prop where
  good : b.fmt.Good
  mbits : b.mantissaBits = b.fmt.mb
  mb_le : b.fmt.mb ≤ 60
  minexp : b.minimumExponent = -(b.fmt.bias : Int)
  infpow : b.infinitePower = (b.fmt.emax : Int)
  ties : TieRange b.fmt.mb (61 - b.fmt.mb) b.minRoundToEven b.maxRoundToEven
  small : -342 ≤ b.smallestPowerOfTen
  small0 : b.smallestPowerOfTen ≤ 0
  large : b.largestPowerOfTen ≤ 308
  large0 : 0 ≤ b.largestPowerOfTen
  under : 2 * (2 ^ 64 * b.fmt.one) < 10 ^ (-(b.smallestPowerOfTen - 1)).toNat
  over : b.fmt.mag b.fmt.inf ≤ 10 ^ (b.largestPowerOfTen + 1).toNat * b.fmt.one
  bias_ge : 100 ≤ b.fmt.bias
  bias_le : b.fmt.bias ≤ 1023

theorem binOK64 : BinOK bin64 where
  good := Fmt.good64
  mbits := rfl
  mb_le := by decide
  minexp := by decide
  infpow := by decide
  ties := tieRange64
  small := by decide
  small0 := by decide
  large := by decide
  large0 := by decide
  under := by decide +kernel
  over := by decide +kernel
  bias_ge := by decide
  bias_le := by decide

theorem binOK32 : BinOK bin32 where
  good := Fmt.good32
  mbits := rfl
  mb_le := by decide
  minexp := by decide
  infpow := by decide
  ties := tieRange32
  small := by decide
  small0 := by decide
  large := by decide
  large0 := by decide
  under := by decide +kernel
  over := by decide +kernel
  bias_ge := by decide
  bias_le := by decide

/-- `am` is the pattern `t`, which may be beyond infinity. -/
structure Packed (b : Bin) (am : AM) (t : Nat) : Prop where
  pow : 0 ≤ am.power2
  eq : am.power2.toNat <<< b.fmt.mb ||| am.mantissa = min t b.fmt.inf

theorem Packed.of_lt {b : Bin} {am : AM} {t : Nat} (h1 : 0 ≤ am.power2) (h2 : am.mantissa < 2 ^ b.fmt.mb)
    (h3 : am.power2.toNat * 2 ^ b.fmt.mb + am.mantissa = min t b.fmt.inf) : Packed b am t :=
  ⟨h1, by rw [← Nat.shiftLeft_add_eq_or_of_lt h2, Nat.shiftLeft_eq, h3]⟩

/-- The significand `m'`, possibly just carried over, with the exponent `power2`. -/
theorem pack_normal {b : Bin} (g : BinOK b) {m' : Nat} {power2 : Int} (h1 : 2 ^ b.fmt.mb ≤ m') (h2 : m' ≤ 2 ^ (b.fmt.mb + 1)) (hp : 0 < power2) :
    Packed b
      (let a : AM := if m' ≥ 2 <<< b.mantissaBits then ⟨1 <<< b.mantissaBits, power2 + 1⟩ else ⟨m', power2⟩
       let a : AM := ⟨clearBit a.mantissa b.mantissaBits, a.power2⟩
       if a.power2 ≥ b.infinitePower then ⟨0, b.infinitePower⟩ else a) ((power2 - 1).toNat * 2 ^ b.fmt.mb + m') := by
  rw [g.mbits, g.infpow, Nat.shiftLeft_eq, Nat.shiftLeft_eq, Nat.one_mul, ← Nat.pow_succ', Nat.succ_eq_add_one]
  have hmb := g.mb_le
  have hpp : 0 < 2 ^ b.fmt.mb := Nat.two_pow_pos _
  -- the result before the test for infinity
  obtain ⟨r, p, ha, hr, ht⟩ : ∃ r p, (let a : AM := if m' ≥ 2 ^ (b.fmt.mb + 1) then ⟨2 ^ b.fmt.mb, power2 + 1⟩ else ⟨m', power2⟩
      (⟨clearBit a.mantissa b.fmt.mb, a.power2⟩ : AM)) = ⟨r, (p : Nat)⟩ ∧ r < 2 ^ b.fmt.mb ∧
      (power2 - 1).toNat * 2 ^ b.fmt.mb + m' = p * 2 ^ b.fmt.mb + r := by
    obtain ⟨p, rfl⟩ : ∃ p : Nat, power2 = p + 1 := ⟨(power2 - 1).toNat, by omega⟩
    have ep : ((p : Int) + 1 - 1).toNat = p := by omega
    rw [ep]
    by_cases hc : m' ≥ 2 ^ (b.fmt.mb + 1)
    · refine ⟨0, p + 2, ?_, hpp, ?_⟩
      · simp only [if_pos hc]
        have := clearBit_top (k := b.fmt.mb) (r := 0) (by omega) hpp
        rw [Nat.add_zero] at this
        rw [this]
        congr 1
      · rw [show m' = 2 ^ (b.fmt.mb + 1) by omega, Nat.pow_succ]; ring
    · refine ⟨m' - 2 ^ b.fmt.mb, p + 1, ?_, ?_, ?_⟩
      · simp only [if_neg hc]
        have hr : m' - 2 ^ b.fmt.mb < 2 ^ b.fmt.mb := by rw [Nat.pow_succ] at hc; omega
        have := clearBit_top (k := b.fmt.mb) (by omega) hr
        rw [show 2 ^ b.fmt.mb + (m' - 2 ^ b.fmt.mb) = m' by omega] at this
        rw [this]
        congr 1
      · rw [Nat.pow_succ] at hc; omega
      · rw [Nat.add_mul]; omega
  have ha1 := congrArg AM.mantissa ha
  have ha2 := congrArg AM.power2 ha
  simp only at ha1 ha2
  simp only [ha1, ha2]
  rw [ht]
  have hinf : b.fmt.inf = b.fmt.emax * 2 ^ b.fmt.mb := rfl
  by_cases hi : (p : Int) ≥ (b.fmt.emax : Int)
  · rw [if_pos hi]
    refine Packed.of_lt (by simp) hpp ?_
    have : b.fmt.emax * 2 ^ b.fmt.mb ≤ p * 2 ^ b.fmt.mb := Nat.mul_le_mul_right _ (by omega)
    rw [hinf, Nat.min_eq_right (by omega)]
    simp
  · rw [if_neg hi]
    refine Packed.of_lt (by simp) hr ?_
    have : (p + 1) * 2 ^ b.fmt.mb ≤ b.fmt.emax * 2 ^ b.fmt.mb := Nat.mul_le_mul_right _ (by omega)
    rw [Nat.add_mul] at this
    rw [hinf, Nat.min_eq_left (by omega)]
    simp

/-- A subnormal significand, possibly just the least normal one. -/
theorem pack_subnormal {b : Bin} (g : BinOK b) {m' : Nat} (h : m' ≤ 2 ^ b.fmt.mb) :
    Packed b ⟨m', if m' < 1 <<< b.mantissaBits then 0 else 1⟩ m' := by
  have : 2 ^ b.fmt.mb ≤ b.fmt.inf := by
    unfold Fmt.inf
    exact Nat.le_mul_of_pos_left _ (by have := g.good.emax; omega)
  rw [g.mbits, Nat.shiftLeft_eq, Nat.one_mul]
  by_cases hlt : m' < 2 ^ b.fmt.mb
  · rw [if_pos hlt]
    refine Packed.of_lt (by simp) hlt ?_
    rw [Nat.min_eq_left (by omega)]
    simp
  · rw [if_neg hlt]
    refine ⟨by simp, ?_⟩
    rw [Nat.min_eq_left (by omega), show m' = 2 ^ b.fmt.mb by omega]
    simp [Nat.shiftLeft_eq]

/-! ### Values -/

/-- `c * 10^k` in units of the least subnormal value. -/
def decQ (φ : Fmt) (c : Nat) (k : Int) : ℚ := c * 10 ^ k * φ.one

theorem toNat_zpow {a : ℚ} (ha : a ≠ 0) (z : Int) : a ^ z.toNat = a ^ z * a ^ (-z).toNat := by
  rcases le_or_gt 0 z with h | h
  · rw [show (-z).toNat = 0 by omega, pow_zero, mul_one, ← zpow_natCast, Int.toNat_of_nonneg h]
  · rw [show z.toNat = 0 by omega, pow_zero, ← zpow_natCast, Int.toNat_of_nonneg (by omega), ← zpow_add₀ ha]
    simp

theorem dec_value (φ : Fmt) (c : Nat) (k : Int) : (decNum φ c k : ℚ) = decQ φ c k * decDen k := by
  unfold decNum decDen decQ
  push_cast
  rw [toNat_zpow (by norm_num) k]
  ring

/-- `round_half` in terms of the value. -/
theorem round_halfQ (φ : Fmt) (hmb : 1 ≤ φ.mb) {n d s Q : Nat} {x : ℚ} (hd : 0 < d) (hx : (n : ℚ) = x * d) (h1 : Q * 2 ^ s ≤ 2 * x)
    (h2 : 2 * x < (Q + 1) * 2 ^ s) (h3 : Q < 2 ^ (φ.mb + 2)) (h4 : s ≠ 0 → 2 ^ φ.mb ≤ Q / 2) (tie : Prop) [Decidable tie]
    (ht : Q % 4 = 1 → (tie ↔ 2 * x = Q * 2 ^ s)) : φ.Nearest n d (s * 2 ^ φ.mb + roundQ tie Q) := by
  have hd' : (0 : ℚ) < d := by exact_mod_cast hd
  have hn : (2 : ℚ) * n = 2 * x * d := by rw [hx]; ring
  refine round_half φ hmb ?_ ?_ h3 h4 tie fun h => (ht h).trans ?_
  · have : ((Q * (d * 2 ^ s) : Nat) : ℚ) ≤ ((2 * n : Nat) : ℚ) := by
      push_cast
      rw [hn, show (Q : ℚ) * (d * 2 ^ s) = Q * 2 ^ s * d by ring]
      exact mul_le_mul_of_nonneg_right h1 hd'.le
    exact_mod_cast this
  · have : ((2 * n : Nat) : ℚ) < (((Q + 1) * (d * 2 ^ s) : Nat) : ℚ) := by
      push_cast
      rw [hn, show ((Q : ℚ) + 1) * (d * 2 ^ s) = (Q + 1) * 2 ^ s * d by ring]
      exact mul_lt_mul_of_pos_right h2 hd'
    exact_mod_cast this
  · have e : (2 * x = Q * 2 ^ s) ↔ (((2 * n : Nat) : ℚ) = ((Q * (d * 2 ^ s) : Nat) : ℚ)) := by
      push_cast
      rw [hn, show (Q : ℚ) * (d * 2 ^ s) = Q * 2 ^ s * d by ring]
      exact (mul_left_inj' (ne_of_gt hd')).symm
    rw [e]
    exact Nat.cast_inj

/-- The product of the normalised significand with `5^q`, as the code scales it. -/
def hval (w : Nat) (q : Int) : ℚ := ((w * pnum q : Nat) : ℚ) / ((pden q * 2 ^ 128 : Nat) : ℚ)

theorem pden_pos' (q : Int) : (0 : ℚ) < ((pden q * 2 ^ 128 : Nat) : ℚ) := by
  exact_mod_cast Nat.mul_pos (pden_pos q) (by decide)

theorem hval_eq (w : Nat) (q : Int) : hval w q = w * 5 ^ q * 2 ^ (-1 - expo q) := by
  rw [hval, div_eq_iff (ne_of_gt (pden_pos' q))]
  unfold pnum pden
  push_cast
  rw [toNat_zpow (by norm_num) q, toNat_zpow (by norm_num) (127 - expo q), show -(127 - expo q) = expo q - 127 by ring,
    show (127 - expo q) = (-1 - expo q) + (128 : Nat) by push_cast; ring, zpow_add₀ (by norm_num), zpow_natCast]
  ring

/-- The value is the scaled product times a power of two. -/
theorem dec_hval (φ : Fmt) (hb : 1 ≤ φ.bias) (w lz : Nat) (q : Int) :
    decQ φ w q = hval (w * 2 ^ lz) q * 2 ^ (power q - lz + φ.bias + φ.mb - 63) := by
  rw [hval_eq, decQ, Fmt.one]
  push_cast
  have h2 : (2 : ℚ) ≠ 0 := by norm_num
  have e10 : (10 : ℚ) ^ q = 5 ^ q * 2 ^ q := by rw [← mul_zpow]; norm_num
  have e : (2 : ℚ) ^ q * 2 ^ (φ.bias + φ.mb - 1) = 2 ^ lz * 2 ^ (-1 - expo q) * 2 ^ (power q - lz + φ.bias + φ.mb - 63) := by
    rw [← zpow_natCast, ← zpow_natCast, ← zpow_add₀ h2, ← zpow_add₀ h2, ← zpow_add₀ h2]
    congr 1
    unfold expo
    rw [Nat.cast_sub (by omega)]
    push_cast
    ring
  rw [e10]
  calc (w : ℚ) * (5 ^ q * 2 ^ q) * 2 ^ (φ.bias + φ.mb - 1) = w * 5 ^ q * (2 ^ q * 2 ^ (φ.bias + φ.mb - 1)) := by ring
    _ = _ := by rw [e]; ring

theorem Near.hval {w H : Nat} {q : Int} (h : Near (w * pnum q) (pden q) H) : (H : ℚ) ≤ hval w q ∧ hval w q < H + 2 := by
  have hp := pden_pos' q
  unfold FastFloat.hval
  rw [le_div_iff₀ hp, div_lt_iff₀ hp]
  exact ⟨by exact_mod_cast h.le, by exact_mod_cast h.lt⟩

theorem hval_floor {w : Nat} {q : Int} {k Q : Nat} (h : w * pnum q / (pden q * 2 ^ 128) / 2 ^ k = Q) :
    (Q : ℚ) * 2 ^ k ≤ hval w q ∧ hval w q < (Q + 1) * 2 ^ k := by
  have hp := pden_pos' q
  have hD : 0 < pden q * 2 ^ 128 := Nat.mul_pos (pden_pos q) (by decide)
  rw [Nat.div_div_eq_div_mul] at h
  have hD' : 0 < pden q * 2 ^ 128 * 2 ^ k := Nat.mul_pos hD (Nat.two_pow_pos _)
  have h1 : Q * (pden q * 2 ^ 128 * 2 ^ k) ≤ w * pnum q := by rw [← h]; exact Nat.div_mul_le_self _ _
  have h2 : w * pnum q < (Q + 1) * (pden q * 2 ^ 128 * 2 ^ k) := by rw [← h]; exact Nat.lt_mul_of_div_lt (Nat.lt_succ_self _) hD'
  unfold FastFloat.hval
  rw [le_div_iff₀ hp, div_lt_iff₀ hp]
  constructor
  · have : ((Q * (pden q * 2 ^ 128 * 2 ^ k) : Nat) : ℚ) ≤ ((w * pnum q : Nat) : ℚ) := by exact_mod_cast h1
    calc (Q : ℚ) * 2 ^ k * ((pden q * 2 ^ 128 : Nat) : ℚ) = ((Q * (pden q * 2 ^ 128 * 2 ^ k) : Nat) : ℚ) := by push_cast; ring
      _ ≤ _ := this
  · have : ((w * pnum q : Nat) : ℚ) < (((Q + 1) * (pden q * 2 ^ 128 * 2 ^ k) : Nat) : ℚ) := by exact_mod_cast h2
    calc _ < _ := this
      _ = _ := by push_cast; ring

theorem hval_tie {w : Nat} {q : Int} {Q k : Nat} : w * pnum q = Q * 2 ^ k * (pden q * 2 ^ 128) ↔ hval w q = Q * 2 ^ k := by
  have hp := pden_pos' q
  unfold FastFloat.hval
  rw [div_eq_iff (ne_of_gt hp)]
  constructor
  · intro h
    rw [h]
    push_cast
    ring
  · intro h
    have : ((w * pnum q : Nat) : ℚ) = ((Q * 2 ^ k * (pden q * 2 ^ 128) : Nat) : ℚ) := by rw [h]; push_cast; ring
    exact_mod_cast this

end Nanostl.FastFloat

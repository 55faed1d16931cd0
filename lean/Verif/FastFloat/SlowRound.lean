import Verif.FastFloat.ComputeProps
import Verif.FastFloat.Hi64
import Verif.FastFloat.SlowModel

/-!
The rounding functions of the slow path, and `to_float`.
-/

namespace Nanostl.FastFloat
open Nanostl.Float
open Nanostl.Ryu (w64 chk some_bind chk_pos)

/-- What else the constants of a format have to satisfy on the slow path. -/
structure SlowOK (b : Bin) : Prop extends BinOK b where
  mb57 : b.fmt.mb ≤ 57
  sgn : b.signIndex = b.fmt.mb + b.fmt.eb
  eb_le : b.fmt.mb + b.fmt.eb ≤ 63
  emask : b.exponentMask = (2 ^ b.fmt.eb - 1) <<< b.fmt.mb
  mmask : b.mantissaMask = 2 ^ b.fmt.mb - 1
  hidden : b.hiddenBitMask = 2 ^ b.fmt.mb
  digits : 2 ^ (b.fmt.mb + 2) * 5 ^ (b.fmt.mb + b.fmt.bias) ≤ 10 ^ b.maxDigits
  digits_ge : b.largestPowerOfTen + 20 ≤ b.maxDigits
  digits_le : b.maxDigits ≤ 769
  bias_mb : b.fmt.bias + b.fmt.mb ≤ 1075

theorem slowOK64 : SlowOK bin64 where
  toBinOK := binOK64
  mb57 := by decide
  sgn := rfl
  eb_le := by decide
  emask := by decide
  mmask := by decide
  hidden := by decide
  digits := by decide +kernel
  digits_ge := by decide
  digits_le := by decide
  bias_mb := by decide

theorem slowOK32 : SlowOK bin32 where
  toBinOK := binOK32
  mb57 := by decide
  sgn := rfl
  eb_le := by decide
  emask := by decide
  mmask := by decide
  hidden := by decide
  digits := by decide +kernel
  digits_ge := by decide
  digits_le := by decide
  bias_mb := by decide

/-! ### `to_float` -/

theorem toFloat_packed {b : Bin} (g : SlowOK b) {am : AM} {t : Nat} (p : Packed b am t) (neg : Bool) :
    toFloat b neg am = b.fmt.withSign neg (min t b.fmt.inf) := by
  obtain ⟨h1, h2⟩ := p
  have hh : min t b.fmt.inf < b.fmt.half := lt_of_le_of_lt (Nat.min_le_right _ _) b.fmt.inf_lt_half
  have h64 : b.fmt.half ≤ 2 ^ 63 := Nat.pow_le_pow_right (by decide) g.eb_le
  obtain ⟨p, hp⟩ : ∃ p : Nat, am.power2 = p := ⟨am.power2.toNat, by omega⟩
  rw [hp, Int.toNat_natCast] at h2
  have hle : p <<< b.fmt.mb ≤ min t b.fmt.inf := by rw [← h2]; exact Nat.left_le_or
  have hlep : p ≤ p <<< b.fmt.mb := by rw [Nat.shiftLeft_eq]; exact Nat.le_mul_of_pos_right _ (Nat.two_pow_pos _)
  have hu : u64 am.power2 = p := by unfold u64; rw [hp]; omega
  unfold toFloat
  rw [hu, g.mbits, g.sgn]
  have hw : w64 (p <<< b.fmt.mb) = p <<< b.fmt.mb := by unfold w64; exact Nat.mod_eq_of_lt (by omega)
  rw [hw, Nat.or_comm, h2]
  have e2 : 2 ^ (b.fmt.mb + b.fmt.eb + 1) = 2 * b.fmt.half := by rw [Nat.pow_succ]; unfold Fmt.half; ring
  cases neg with
  | false =>
    simp only [Bool.false_eq_true, if_false, Fmt.withSign]
    rw [e2]
    exact Nat.mod_eq_of_lt (by omega)
  | true =>
    simp only [if_true, Fmt.withSign]
    have : min t b.fmt.inf ||| 1 <<< (b.fmt.mb + b.fmt.eb) = b.fmt.half + min t b.fmt.inf := by
      rw [Nat.or_comm, ← Nat.shiftLeft_add_eq_or_of_lt hh, Nat.shiftLeft_eq, Nat.one_mul]
      rfl
    rw [this, e2]
    exact Nat.mod_eq_of_lt (by omega)

/-! ### `round` -/

/-- Where the significand `m` with the exponent `P` is cut: by `sh` bits, which leaves units of `2^s` least subnormals. -/
structure Cut (mb m : Nat) (P : Int) (sh s : Nat) : Prop where
  exp : (s : Int) = sh + P - 1
  sh_ge : 63 - mb ≤ sh
  lt : m / 2 ^ sh < 2 ^ (mb + 1)
  norm : s ≠ 0 → 2 ^ mb ≤ m / 2 ^ sh
  carry : 2 ^ mb ≤ m / 2 ^ sh ∨ s = 0

theorem cut_exists {mb m : Nat} {P : Int} (hmb : mb ≤ 57) (h1 : 2 ^ 63 ≤ m) (h2 : m < 2 ^ 64) :
    ∃ sh s, Cut mb m P sh s ∧ (if -P ≥ 63 - mb then s = 0 ∧ (sh : Int) = 1 - P ∧ m / 2 ^ sh < 2 ^ mb else sh = 63 - mb ∧ 2 ^ mb ≤ m / 2 ^ sh) := by
  by_cases h : -P ≥ 63 - mb
  · have hlt : m / 2 ^ (1 - P).toNat < 2 ^ mb := by
      rw [Nat.div_lt_iff_lt_mul (Nat.two_pow_pos _), ← Nat.pow_add]
      exact lt_of_lt_of_le h2 (Nat.pow_le_pow_right (by decide) (by omega))
    refine ⟨(1 - P).toNat, 0, ⟨by omega, by omega, lt_trans hlt (Nat.pow_lt_pow_right (by decide) (by omega)), fun h => absurd rfl h, Or.inr rfl⟩, ?_⟩
    rw [if_pos h]
    exact ⟨rfl, by omega, hlt⟩
  · have hge : 2 ^ mb ≤ m / 2 ^ (63 - mb) := by
      rw [Nat.le_div_iff_mul_le (Nat.two_pow_pos _), ← Nat.pow_add, show mb + (63 - mb) = 63 by omega]
      exact h1
    refine ⟨63 - mb, (63 - mb + P - 1).toNat, ⟨by omega, by omega, ?_, fun _ => hge, Or.inl hge⟩, ?_⟩
    · rw [Nat.div_lt_iff_lt_mul (Nat.two_pow_pos _), ← Nat.pow_add, show mb + 1 + (63 - mb) = 64 by omega]
      exact h2
    · rw [if_neg h]
      exact ⟨rfl, hge⟩

/-- `round` with a callback that makes `m / 2^sh + up` of the significand. -/
theorem round_spec {b : Bin} (g : SlowOK b) {m : Nat} {P : Int} {sh s : Nat}
    (hc : Cut b.fmt.mb m P sh s)
    (hs : if -P ≥ 63 - b.fmt.mb then s = 0 ∧ (sh : Int) = 1 - P ∧ m / 2 ^ sh < 2 ^ b.fmt.mb else sh = 63 - b.fmt.mb ∧ 2 ^ b.fmt.mb ≤ m / 2 ^ sh)
    {up : Nat} (hup : up ≤ 1) (cb : AM → Nat → Option AM)
    (hcb : cb ⟨m, P⟩ (min sh 64) = some ⟨m / 2 ^ sh + up, P + (min sh 64 : Nat)⟩) :
    ∃ am, round b ⟨m, P⟩ cb = some am ∧ Packed b am (s * 2 ^ b.fmt.mb + (m / 2 ^ sh + up)) := by
  have hmb := g.mb57
  have hmb1 := g.good.mb
  unfold round
  simp only [g.mbits]
  by_cases h : -P ≥ 63 - b.fmt.mb
  · rw [if_pos h] at hs
    obtain ⟨a1, a2, a3⟩ := hs
    rw [if_pos (by omega), show (min (-P + 1) 64).toNat = min sh 64 by omega, hcb, some_bind]
    refine ⟨_, rfl, ?_⟩
    have := pack_subnormal g.toBinOK (m' := m / 2 ^ sh + up) (by omega)
    rw [g.mbits] at this
    rw [a1, Nat.zero_mul, Nat.zero_add]
    exact this
  · rw [if_neg h] at hs
    obtain ⟨a1, a2⟩ := hs
    have hm : min sh 64 = sh := by omega
    rw [hm] at hcb
    rw [if_neg (by omega), show ((64 : Int) - b.fmt.mb - 1).toNat = sh by omega, hcb, some_bind]
    have hp : 0 < P + (sh : Int) := by omega
    have hlt := hc.lt
    have := pack_normal g.toBinOK (m' := m / 2 ^ sh + up) (power2 := P + sh) (by omega) (by omega) hp
    rw [g.mbits] at this
    refine ⟨_, rfl, ?_⟩
    rw [show (P + (sh : Int) - 1).toNat = s by have := hc.exp; omega] at this
    exact this

theorem roundDown_spec {m : Nat} {P : Int} {sh : Nat} (h2 : m < 2 ^ 64) :
    roundDown ⟨m, P⟩ (min sh 64) = some ⟨m / 2 ^ sh, P + (min sh 64 : Nat)⟩ := by
  rw [roundDown, chk_pos (by omega), some_bind]
  simp only
  have : (if min sh 64 = 64 then 0 else m >>> min sh 64) = m / 2 ^ sh := by
    by_cases h : 64 ≤ sh
    · rw [if_pos (by omega), Nat.div_eq_of_lt (lt_of_lt_of_le h2 (Nat.pow_le_pow_right (by decide) h))]
    · rw [if_neg (by omega), Nat.min_eq_left (by omega), Nat.shiftRight_eq_div_pow]
  rw [this]
  rfl

theorem nearestTie_spec {m : Nat} {P : Int} {sh : Nat} (h2 : m < 2 ^ 64) (h0 : 0 < sh) (cb : Bool → Bool → Bool → Bool) :
    ∃ up : Bool, roundNearestTieEven cb ⟨m, P⟩ (min sh 64) = some ⟨m / 2 ^ sh + up.toNat, P + (min sh 64 : Nat)⟩ ∧
      ∃ hw ab, up = cb (decide (m / 2 ^ sh % 2 = 1)) hw ab ∧
        (sh ≤ 64 → hw = decide (2 * (m % 2 ^ sh) = 2 ^ sh) ∧ ab = decide (2 ^ sh < 2 * (m % 2 ^ sh))) := by
  rw [roundNearestTieEven, chk_pos (by omega), some_bind]
  simp only
  have hm : (if min sh 64 = 64 then 0 else m >>> min sh 64) = m / 2 ^ sh := by
    by_cases h : 64 ≤ sh
    · rw [if_pos (by omega), Nat.div_eq_of_lt (lt_of_lt_of_le h2 (Nat.pow_le_pow_right (by decide) h))]
    · rw [if_neg (by omega), Nat.min_eq_left (by omega), Nat.shiftRight_eq_div_pow]
  rw [hm, if_neg (show ¬min sh 64 = 0 by omega), Nat.and_one_is_mod]
  have hq : m / 2 ^ sh < 2 ^ 63 := by
    rw [Nat.div_lt_iff_lt_mul (Nat.two_pow_pos _)]
    calc m < 2 ^ 63 * 2 ^ 1 := h2
      _ ≤ _ := Nat.mul_le_mul_left _ (Nat.pow_le_pow_right (by decide) h0)
  have hw64 : ∀ u : Bool, w64 (m / 2 ^ sh + u.toNat) = m / 2 ^ sh + u.toNat := by
    intro u
    have := Bool.toNat_le u
    unfold w64
    exact Nat.mod_eq_of_lt (by omega)
  rw [hw64]
  refine ⟨_, rfl, _, _, rfl, ?_⟩
  · intro h64
    have hmask : (m &&& if min sh 64 = 64 then 0xFFFFFFFFFFFFFFFF else w64 (1 <<< min sh 64) - 1) = m % 2 ^ sh := by
      rw [Nat.min_eq_left h64]
      by_cases h : sh = 64
      · rw [if_pos h, h]
        exact Nat.and_two_pow_sub_one_eq_mod m 64
      · rw [if_neg h, Nat.shiftLeft_eq, Nat.one_mul, w64, Nat.mod_eq_of_lt (Nat.pow_lt_pow_right (by decide) (by omega)),
          Nat.and_two_pow_sub_one_eq_mod]
    rw [hmask, Nat.min_eq_left h64, Nat.shiftLeft_eq, Nat.one_mul]
    obtain ⟨k, rfl⟩ : ∃ k, sh = k + 1 := ⟨sh - 1, by omega⟩
    rw [Nat.add_sub_cancel]
    generalize m % 2 ^ (k + 1) = r
    rw [Nat.pow_succ]
    constructor
    · rw [decide_eq_decide]; omega
    · rw [decide_eq_decide]; omega

/-! ### Nearest value -/

/-- The value is at least `F` units of `2^s` and less than one and a half more. -/
theorem pick {φ : Fmt} {n d s F : Nat} {x : ℚ} (hd : 0 < d) (hx : (n : ℚ) = x * d) (hF : F < 2 ^ (φ.mb + 1)) (hs : s ≠ 0 → 2 ^ φ.mb ≤ F)
    (hmb : 1 ≤ φ.mb) (h1 : (F : ℚ) * 2 ^ s ≤ x) (h2 : 2 * x < (2 * F + 3) * 2 ^ s) {up : Bool}
    (hlo : 2 * x < (2 * F + 1) * 2 ^ s → up = false) (hhi : (2 * F + 1) * 2 ^ s < 2 * x → up = true)
    (htie : 2 * x = (2 * F + 1) * 2 ^ s → up = decide (F % 2 = 1)) : φ.Nearest n d (s * 2 ^ φ.mb + (F + up.toNat)) := by
  have hd' : (0 : ℚ) < d := by exact_mod_cast hd
  have hm0 := φ.mag_of F s hF.le hs
  have hm1 := φ.mag_of (F + 1) s hF (fun h => le_trans (hs h) (Nat.le_succ _))
  have hmt := φ.mag_succ (s * 2 ^ φ.mb + (F + 1))
  have hm2 : (F + 2) * 2 ^ s ≤ φ.mag (s * 2 ^ φ.mb + (F + 1) + 1) := by
    by_cases hc : F + 2 ≤ 2 ^ (φ.mb + 1)
    · have := φ.mag_of (F + 2) s hc (fun h => le_trans (hs h) (by omega))
      rw [show s * 2 ^ φ.mb + (F + 1) + 1 = s * 2 ^ φ.mb + (F + 2) by omega, this]
    · have hF' : F + 1 = 2 ^ (φ.mb + 1) := by omega
      have e := φ.mag_of (2 ^ φ.mb + 1) (s + 1) (by rw [Nat.pow_succ]; have := Nat.one_le_two_pow (n := φ.mb); omega) (fun _ => Nat.le_succ _)
      have e' : s * 2 ^ φ.mb + (F + 1) + 1 = (s + 1) * 2 ^ φ.mb + (2 ^ φ.mb + 1) := by rw [hF', Nat.pow_succ, Nat.add_mul]; omega
      rw [e', e, show F + 2 = 2 ^ φ.mb * 2 + 1 by rw [Nat.pow_succ] at hF'; omega, Nat.pow_succ]
      have := Nat.two_pow_pos s
      nlinarith
  have he : s * 2 ^ φ.mb % 2 = 0 := by
    obtain ⟨j, hj⟩ := Nat.exists_eq_add_of_le hmb
    rw [hj, Nat.pow_add, Nat.pow_one, Nat.mul_left_comm, Nat.mul_mod_right]
  -- everything over the integers
  have k1 : F * 2 ^ s * d ≤ n := by
    have : ((F * 2 ^ s * d : Nat) : ℚ) ≤ n := by
      rw [hx]; push_cast
      exact mul_le_mul_of_nonneg_right h1 hd'.le
    exact_mod_cast this
  have tr : ∀ A : Nat, ((2 * x < A * 2 ^ s ↔ 2 * n < A * 2 ^ s * d) ∧ (A * 2 ^ s < 2 * x ↔ A * 2 ^ s * d < 2 * n) ∧
      (2 * x = A * 2 ^ s ↔ 2 * n = A * 2 ^ s * d)) := by
    intro A
    have e1 : ((2 * n : Nat) : ℚ) = 2 * x * d := by push_cast; rw [hx]; ring
    have e2 : ((A * 2 ^ s * d : Nat) : ℚ) = A * 2 ^ s * d := by push_cast; ring
    refine ⟨?_, ?_, ?_⟩
    · rw [← Nat.cast_lt (α := ℚ), e1, e2, mul_lt_mul_iff_left₀ hd']
    · rw [← Nat.cast_lt (α := ℚ), e1, e2, mul_lt_mul_iff_left₀ hd']
    · rw [← Nat.cast_inj (R := ℚ), e1, e2, mul_left_inj' (ne_of_gt hd')]
  have t1 := tr (2 * F + 1)
  have t3 := (tr (2 * F + 3)).1.1 (by push_cast; exact h2)
  push_cast at t1
  have lo' : 2 * n < (2 * F + 1) * 2 ^ s * d → up = false := fun h => hlo (t1.1.2 h)
  have hi' : (2 * F + 1) * 2 ^ s * d < 2 * n → up = true := fun h => hhi (t1.2.1.2 h)
  have tie' : 2 * n = (2 * F + 1) * 2 ^ s * d → up = decide (F % 2 = 1) := fun h => htie (t1.2.2.2 h)
  clear hlo hhi htie t1 tr h1 h2
  have m0 : φ.mag (s * 2 ^ φ.mb + F) * d = F * (2 ^ s * d) := by rw [hm0]; ring
  have m1 : φ.mag (s * 2 ^ φ.mb + F + 1) * d = F * (2 ^ s * d) + 2 ^ s * d := by rw [Nat.add_assoc, hm1]; ring
  have m2 : F * (2 ^ s * d) + 2 * (2 ^ s * d) ≤ φ.mag (s * 2 ^ φ.mb + F + 1 + 1) * d := by
    calc _ = (F + 2) * 2 ^ s * d := by ring
      _ ≤ _ := Nat.mul_le_mul_right _ hm2
  have c1 : (2 * F + 1) * 2 ^ s * d = 2 * (F * (2 ^ s * d)) + 2 ^ s * d := by ring
  have c3 : (2 * F + 3) * 2 ^ s * d = 2 * (F * (2 ^ s * d)) + 3 * (2 ^ s * d) := by ring
  have k1' : F * (2 ^ s * d) ≤ n := by rw [← Nat.mul_assoc]; exact k1
  rw [c1] at lo' hi' tie'
  rw [c3] at t3
  have hDpos : 0 < 2 ^ s * d := Nat.mul_pos (Nat.two_pow_pos _) hd
  rw [← Nat.add_assoc]
  generalize s * 2 ^ φ.mb = S at *
  generalize F * (2 ^ s * d) = A at *
  generalize 2 ^ s * d = D at *
  rcases Nat.lt_trichotomy (2 * n) (2 * A + D) with h | h | h
  · rw [lo' h]
    exact φ.nearest_lo (by rw [Bool.toNat_false, Nat.add_zero, m0]; exact k1') (by rw [Bool.toNat_false, Nat.add_zero, m1]; omega)
      (Or.inl (by rw [Bool.toNat_false, Nat.add_zero, m0, m1]; omega))
  · rw [tie' h]
    by_cases hp : F % 2 = 1
    · rw [decide_eq_true hp, Bool.toNat_true]
      exact φ.nearest_hi (by omega) (by omega) (Or.inr ⟨by omega, by omega⟩)
    · rw [decide_eq_false hp, Bool.toNat_false, Nat.add_zero]
      exact φ.nearest_lo (by omega) (by omega) (Or.inr ⟨by omega, by omega⟩)
  · rw [hi' h, Bool.toNat_true]
    by_cases hc : n ≤ A + D
    · exact φ.nearest_hi (by omega) (by omega) (Or.inl (by omega))
    · exact φ.nearest_lo (by omega) (by omega) (Or.inl (by omega))

end Nanostl.FastFloat

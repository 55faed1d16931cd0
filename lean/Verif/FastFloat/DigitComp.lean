import Verif.FastFloat.SlowRound

/-!
`positive_digit_comp` and `negative_digit_comp`.
-/

namespace Nanostl.FastFloat
open Nanostl.Float
open Nanostl.Ryu (w64 chk some_bind chk_pos)

variable [Limb]

theorem cap_ge : 2 ^ 3968 ≤ cap := by
  unfold cap
  apply Nat.pow_le_pow_right (by decide)
  rcases limbBits_cases with ⟨h1, h2⟩ | ⟨h1, h2⟩ <;> simp [h1, h2]

omit [Limb] in
theorem must_some {v : Limbs} : must (some (true, v)) = some v := by
  rw [must, some_bind, chk_pos rfl, some_bind]
  rfl

omit [Limb] in
theorem one_zpow (φ : Fmt) (h : 1 ≤ φ.bias + φ.mb) : ((φ.one : Nat) : ℚ) = 2 ^ ((φ.bias : Int) + φ.mb - 1) := by
  unfold Fmt.one
  push_cast
  rw [← zpow_natCast]
  congr 1
  omega

/-! ### `positive_digit_comp` -/

omit [Limb] in
/-- The decision of the callback of `positive_digit_comp`. -/
theorem positive_up {m sh : Nat} {y : ℚ} {tr : Bool} (hsh : 0 < sh) (h1 : tr = false → y = m) (h2 : tr = true → (m : ℚ) < y ∧ y < m + 1) {up : Bool}
    (hup : up = (decide (2 ^ sh < 2 * (m % 2 ^ sh)) || (decide (2 * (m % 2 ^ sh) = 2 ^ sh) && tr) ||
      (decide (m / 2 ^ sh % 2 = 1) && decide (2 * (m % 2 ^ sh) = 2 ^ sh)))) :
    (2 * y < (2 * (m / 2 ^ sh : Nat) + 1) * 2 ^ sh → up = false) ∧ ((2 * (m / 2 ^ sh : Nat) + 1) * 2 ^ sh < 2 * y → up = true) ∧
      (2 * y = (2 * (m / 2 ^ sh : Nat) + 1) * 2 ^ sh → up = decide (m / 2 ^ sh % 2 = 1)) := by
  obtain ⟨k, rfl⟩ : ∃ k, sh = k + 1 := ⟨sh - 1, by omega⟩
  have hm := Nat.div_add_mod m (2 ^ (k + 1))
  have hr := Nat.mod_lt m (Nat.two_pow_pos (k + 1))
  have hh : ((2 * (m / 2 ^ (k + 1) : Nat) + 1) * 2 ^ (k + 1) : ℚ) = 2 * ((2 ^ (k + 1) * (m / 2 ^ (k + 1)) + 2 ^ k : Nat) : ℚ) := by
    push_cast
    ring
  rw [hh]
  rw [hup]
  rw [Nat.pow_succ] at *
  generalize m / (2 ^ k * 2) = F at *
  generalize m % (2 ^ k * 2) = r at *
  generalize hA : 2 ^ k * 2 * F = A at *
  generalize 2 ^ k = K at *
  have lt_iff : ∀ a : Nat, (2 * y < 2 * (a : ℚ) → m < a) ∧ (2 * (a : ℚ) < 2 * y → (a < m ∨ a = m ∧ tr = true)) ∧
      (2 * y = 2 * (a : ℚ) → a = m ∧ tr = false) := by
    intro a
    cases tr with
    | false =>
      rw [h1 rfl]
      refine ⟨fun h => ?_, fun h => ?_, fun h => ?_⟩
      · have : (m : ℚ) < a := by linarith
        exact_mod_cast this
      · have : (a : ℚ) < m := by linarith
        exact Or.inl (by exact_mod_cast this)
      · have : (m : ℚ) = a := by linarith
        exact ⟨by exact_mod_cast this.symm, rfl⟩
    | true =>
      obtain ⟨b1, b2⟩ := h2 rfl
      refine ⟨fun h => ?_, fun h => ?_, fun h => ?_⟩
      · have : (m : ℚ) < a := by linarith
        exact_mod_cast this
      · have : (a : ℚ) < m + 1 := by linarith
        have : a < m + 1 := by exact_mod_cast this
        rcases Nat.lt_or_ge a m with h | h
        · exact Or.inl h
        · exact Or.inr ⟨by omega, rfl⟩
      · exfalso
        have c1 : (m : ℚ) < a := by linarith
        have c2 : (a : ℚ) < m + 1 := by linarith
        have c1 : m < a := by exact_mod_cast c1
        have c2 : a < m + 1 := by exact_mod_cast c2
        omega
  obtain ⟨l1, l2, l3⟩ := lt_iff (A + K)
  refine ⟨fun h => ?_, fun h => ?_, fun h => ?_⟩
  · have := l1 h
    rw [decide_eq_false (by omega), decide_eq_false (by omega), Bool.false_and, Bool.and_false]
    rfl
  · rcases l2 h with h | ⟨h, ht⟩
    · rw [decide_eq_true (by omega)]
      rfl
    · rw [ht, decide_eq_true (show 2 * r = K * 2 by omega)]
      simp
  · obtain ⟨h, ht⟩ := l3 h
    rw [ht, decide_eq_true (show 2 * r = K * 2 by omega), decide_eq_false (show ¬K * 2 < 2 * r by omega)]
    simp

theorem positive_spec {b : Bin} (g : SlowOK b) {v : Limbs} {N e : Nat} (hv : Big v N) (h0 : 0 < N) (hc : N * 10 ^ e < cap) :
    ∃ am, positiveDigitComp b v e = some am ∧ ∃ t, DecNearest b.fmt N e t ∧ Packed b am t := by
  have hmb := g.mb57
  have hmb1 := g.good.mb
  have hb := g.bias_ge
  obtain ⟨v', p1, p2⟩ := pow10_spec hv h0 hc
  obtain ⟨bl, m, tr, l1, l2, l3⟩ := hi64_spec p2 (Nat.mul_pos h0 (Nat.pow_pos (by decide)))
  unfold positiveDigitComp
  rw [Int.toNat_natCast, p1, must_some, some_bind, l2, some_bind]
  dsimp only
  rw [l1, some_bind, g.mbits, g.minexp]
  generalize hP : ((bl : Int) - 64 + ((b.fmt.mb : Int) - -(b.fmt.bias : Int))) = P
  have hbl := l3.pos
  obtain ⟨sh, s, hcut, hs⟩ := cut_exists (mb := b.fmt.mb) (P := P) hmb l3.m_ge l3.m_lt
  have hs' := hs
  rw [if_neg (by omega)] at hs'
  obtain ⟨up, u1, hw, ab, u2, u3⟩ := nearestTie_spec (P := P) (sh := sh) l3.m_lt (by omega)
    (fun isOdd isHalfway isAbove => isAbove || (isHalfway && tr) || (isOdd && isHalfway))
  obtain ⟨u4, u5⟩ := u3 (by omega)
  obtain ⟨am, a1, a2⟩ := round_spec g hcut hs (Bool.toNat_le up) _ u1
  refine ⟨am, a1, _, ?_, a2⟩
  -- the value
  have hX : decQ b.fmt N e = ((N * 10 ^ e : Nat) : ℚ) * 2 ^ ((b.fmt.bias : Int) + b.fmt.mb - 1) := by
    rw [decQ, one_zpow _ (by omega)]
    push_cast
    rw [zpow_natCast]
  generalize N * 10 ^ e = X at *
  have h2 : (2 : ℚ) ≠ 0 := by norm_num
  obtain ⟨y, hy⟩ : ∃ y : ℚ, y = (X * 2 ^ 64 : Nat) / (2 ^ bl : Nat) := ⟨_, rfl⟩
  have hblp : (0 : ℚ) < (2 ^ bl : Nat) := by exact_mod_cast Nat.two_pow_pos bl
  have hxy : decQ b.fmt N e * 2 ^ sh = y * 2 ^ s := by
    rw [hX, hy, div_mul_eq_mul_div, eq_div_iff (ne_of_gt hblp)]
    push_cast
    have e1 : (2 : ℚ) ^ ((b.fmt.bias : Int) + b.fmt.mb - 1) * 2 ^ sh * 2 ^ bl = 2 ^ 64 * 2 ^ s := by
      rw [← zpow_natCast, ← zpow_natCast, ← zpow_natCast 2 64, ← zpow_natCast, ← zpow_add₀ h2, ← zpow_add₀ h2, ← zpow_add₀ h2]
      congr 1
      have := hcut.exp
      push_cast
      omega
    calc (X : ℚ) * 2 ^ ((b.fmt.bias : Int) + b.fmt.mb - 1) * 2 ^ sh * 2 ^ bl
        = X * (2 ^ ((b.fmt.bias : Int) + b.fmt.mb - 1) * 2 ^ sh * 2 ^ bl) := by ring
      _ = _ := by rw [e1]; ring
  have hshp : (0 : ℚ) < 2 ^ sh := by positivity
  have hsp : (0 : ℚ) < 2 ^ s := by positivity
  have y1 : tr = false → y = m := by
    intro h
    rw [hy, l3.exact h, div_eq_iff (ne_of_gt hblp)]
    push_cast; ring
  have y2 : tr = true → (m : ℚ) < y ∧ y < m + 1 := by
    intro h
    obtain ⟨c1, c2⟩ := l3.trunc h
    rw [hy, lt_div_iff₀ hblp, div_lt_iff₀ hblp]
    exact ⟨by exact_mod_cast c1, by exact_mod_cast c2⟩
  have hym : (m : ℚ) ≤ y ∧ y < m + 1 := by
    cases tr with
    | false => rw [y1 rfl]; exact ⟨le_refl _, by linarith⟩
    | true => exact ⟨(y2 rfl).1.le, (y2 rfl).2⟩
  obtain ⟨d1, d2, d3⟩ := positive_up (sh := sh) (by omega) y1 y2 (up := up) (by rw [u2, u4, u5])
  have hFm : ((m / 2 ^ sh : Nat) : ℚ) * 2 ^ sh ≤ m := by exact_mod_cast Nat.div_mul_le_self m (2 ^ sh)
  have hFm' : (m : ℚ) + 1 ≤ ((m / 2 ^ sh : Nat) + 1) * 2 ^ sh := by
    have : m + 1 ≤ (m / 2 ^ sh + 1) * 2 ^ sh := Nat.lt_mul_of_div_lt (Nat.lt_succ_self _) (Nat.two_pow_pos _)
    exact_mod_cast this
  generalize hF : m / 2 ^ sh = F at *
  -- from the scale of `y` to that of the value
  have sc : ∀ a : ℚ, (2 * decQ b.fmt N e < a * 2 ^ s ↔ 2 * y < a * 2 ^ sh) ∧ (a * 2 ^ s < 2 * decQ b.fmt N e ↔ a * 2 ^ sh < 2 * y) ∧
      (2 * decQ b.fmt N e = a * 2 ^ s ↔ 2 * y = a * 2 ^ sh) := by
    intro a
    have k1 : 2 * decQ b.fmt N e * 2 ^ sh = 2 * y * 2 ^ s := by rw [mul_assoc, hxy]; ring
    have k2 : a * 2 ^ s * 2 ^ sh = a * 2 ^ sh * 2 ^ s := by ring
    refine ⟨?_, ?_, ?_⟩
    · rw [← mul_lt_mul_iff_left₀ hshp, k1, k2, mul_lt_mul_iff_left₀ hsp]
    · rw [← mul_lt_mul_iff_left₀ hshp, k1, k2, mul_lt_mul_iff_left₀ hsp]
    · rw [← mul_left_inj' (ne_of_gt hshp), k1, k2, mul_left_inj' (ne_of_gt hsp)]
  have hlt := hcut.lt
  have hnorm := hcut.norm
  rw [hF] at hlt hnorm
  refine pick (decDen_pos _) (dec_value b.fmt N e) hlt hnorm hmb1 ?_ ?_ (fun h => d1 ((sc _).1.1 h)) (fun h => d2 ((sc _).2.1.1 h))
    (fun h => d3 ((sc _).2.2.1 h))
  · by_contra h
    have h' : 2 * decQ b.fmt N e < (2 * F : ℚ) * 2 ^ s := by linarith [not_le.1 h]
    have := (sc _).1.1 h'
    nlinarith [hym.1]
  · refine (sc _).1.2 ?_
    nlinarith [hym.2]

/-! ### `negative_digit_comp` -/

omit [Limb] in
/-- `to_extended_halfway` of a pattern: twice the significand and one, and half the exponent. -/
theorem halfway_spec {b : Bin} (g : SlowOK b) {s F : Nat} (hF : F < 2 ^ (b.fmt.mb + 1)) (hs : s ≠ 0 → 2 ^ b.fmt.mb ≤ F)
    (ht : s * 2 ^ b.fmt.mb + F ≤ b.fmt.inf) :
    toExtendedHalfway b (s * 2 ^ b.fmt.mb + F) = ⟨2 * F + 1, (s : Int) - (b.fmt.mb + b.fmt.bias : Nat)⟩ := by
  have hmb := g.mb57
  have hpp : 0 < 2 ^ b.fmt.mb := Nat.two_pow_pos _
  have hpw : 2 ^ (b.fmt.mb + 1) ≤ 2 ^ 58 := Nat.pow_le_pow_right (by decide) (by omega)
  -- the fields of the pattern
  have hfield : ∀ {q r : Nat}, r < 2 ^ b.fmt.mb → q < 2 ^ b.fmt.eb → (q * 2 ^ b.fmt.mb + r) &&& b.mantissaMask = r ∧
      (q * 2 ^ b.fmt.mb + r) &&& b.exponentMask = q * 2 ^ b.fmt.mb := by
    intro q r hr hq
    rw [g.mmask, g.emask]
    constructor
    · rw [Nat.and_two_pow_sub_one_eq_mod, Nat.add_comm, Nat.add_mul_mod_self_right, Nat.mod_eq_of_lt hr]
    · refine Nat.eq_of_testBit_eq fun i => ?_
      rw [Nat.testBit_and, Nat.testBit_shiftLeft, Nat.testBit_two_pow_sub_one, ← Nat.shiftLeft_eq, Nat.shiftLeft_add_eq_or_of_lt hr, Nat.testBit_or,
        Nat.testBit_shiftLeft]
      by_cases hi : i ≥ b.fmt.mb
      · rw [Nat.testBit_lt_two_pow (lt_of_lt_of_le hr (Nat.pow_le_pow_right (by decide) hi)), Bool.or_false]
        by_cases hi2 : i - b.fmt.mb < b.fmt.eb
        · simp [hi, hi2]
        · rw [Nat.testBit_lt_two_pow (lt_of_lt_of_le hq (Nat.pow_le_pow_right (by decide) (by omega)))]
          simp
      · simp [hi]
  have hem : b.fmt.emax < 2 ^ b.fmt.eb := by unfold Fmt.emax; exact Nat.sub_lt (Nat.two_pow_pos _) (by decide)
  have hw : ∀ F, F < 2 ^ (b.fmt.mb + 1) → w64 (w64 (F <<< 1) + 1) = 2 * F + 1 := by
    intro F hF
    rw [Nat.shiftLeft_eq, Nat.pow_one]
    unfold w64
    rw [Nat.mod_eq_of_lt (show F * 2 < 2 ^ 64 by omega), Nat.mod_eq_of_lt (by omega)]
    omega
  unfold toExtendedHalfway toExtended
  simp only [g.mbits, g.minexp]
  by_cases hlt : F < 2 ^ b.fmt.mb
  · have hs0 : s = 0 := by
      by_contra h
      exact absurd (hs h) (by omega)
    subst hs0
    obtain ⟨f1, f2⟩ := hfield (q := 0) hlt (Nat.two_pow_pos _)
    rw [f1, f2, Nat.zero_mul, if_pos rfl]
    simp only
    rw [hw F hF]
    congr 1
    push_cast
    omega
  · have e0 : s * 2 ^ b.fmt.mb + F = (s + 1) * 2 ^ b.fmt.mb + (F - 2 ^ b.fmt.mb) := by rw [Nat.add_mul]; omega
    have hr : F - 2 ^ b.fmt.mb < 2 ^ b.fmt.mb := by rw [Nat.pow_succ] at hF; omega
    have hq : s + 1 < 2 ^ b.fmt.eb := by
      refine lt_of_le_of_lt ?_ hem
      unfold Fmt.inf at ht
      refine Nat.le_of_mul_le_mul_right (?_ : (s + 1) * 2 ^ b.fmt.mb ≤ _) hpp
      omega
    obtain ⟨f1, f2⟩ := hfield hr hq
    rw [e0, f1, f2, if_neg (Nat.mul_pos (Nat.succ_pos s) hpp).ne']
    simp only
    have e3 : F - 2 ^ b.fmt.mb ||| b.hiddenBitMask = F := by
      rw [g.hidden, Nat.or_comm]
      have := Nat.shiftLeft_add_eq_or_of_lt hr 1
      rw [Nat.shiftLeft_eq, Nat.one_mul] at this
      rw [← this]
      omega
    rw [e3, hw F hF, Nat.shiftRight_eq_div_pow, Nat.mul_div_cancel _ hpp]
    congr 1
    push_cast
    omega

/-- `x` and `y` compare alike with every point half way between two values. -/
def Alike (φ : Fmt) (y x : ℚ) : Prop :=
  ∀ F s : Nat, F < 2 ^ (φ.mb + 1) → ((2 * y < (2 * F + 1) * 2 ^ s ↔ 2 * x < (2 * F + 1) * 2 ^ s) ∧
    ((2 * F + 1) * 2 ^ s < 2 * y ↔ (2 * F + 1) * 2 ^ s < 2 * x))

omit [Limb] in
theorem Alike.refl (φ : Fmt) (x : ℚ) : Alike φ x x := fun _ _ _ => ⟨Iff.rfl, Iff.rfl⟩

omit [Limb] in
theorem Alike.eq {φ : Fmt} {y x : ℚ} (h : Alike φ y x) {F s : Nat} (hF : F < 2 ^ (φ.mb + 1)) :
    2 * y = (2 * F + 1) * 2 ^ s ↔ 2 * x = (2 * F + 1) * 2 ^ s := by
  obtain ⟨h1, h2⟩ := h F s hF
  constructor
  · intro e
    exact le_antisymm (not_lt.1 fun c => absurd (h2.2 c) (by rw [e]; exact lt_irrefl _)) (not_lt.1 fun c => absurd (h1.2 c) (by rw [e]; exact lt_irrefl _))
  · intro e
    exact le_antisymm (not_lt.1 fun c => absurd (h2.1 c) (by rw [e]; exact lt_irrefl _)) (not_lt.1 fun c => absurd (h1.1 c) (by rw [e]; exact lt_irrefl _))

/-- The comparison of the big integers. -/
theorem theor_compare {b : Bin} (g : SlowOK b) {v : Limbs} {Y e : Nat} (hv : Big v Y) (h0 : 0 < Y) (hY : Y < 10 ^ 770) (he : e ≤ 1190) (he0 : 0 < e)
    {F s : Nat} (hF : F < 2 ^ (b.fmt.mb + 1)) (hs : F = 0 → s = 0) (hx : (F : ℚ) * 2 ^ s ≤ 2 * decQ b.fmt Y (-(e : Int))) (f : Int → Option AM) :
    (do
      let theorDigits := ofU64 (2 * F + 1)
      let pow2Exp := (s : Int) - (b.fmt.mb + b.fmt.bias : Nat) - -(e : Int)
      let pow5Exp := (- -(e : Int)).toNat
      let theorDigits ← if pow5Exp ≠ 0 then must (pow5 theorDigits pow5Exp) else pure theorDigits
      let theorDigits ← if pow2Exp > 0 then must (pow2 theorDigits pow2Exp.toNat) else pure theorDigits
      let realDigits ← if pow2Exp < 0 then must (pow2 v (-pow2Exp).toNat) else pure v
      let ord ← compare realDigits theorDigits
      f ord) =
    f (if (2 * F + 1) * 2 ^ s < 2 * decQ b.fmt Y (-(e : Int)) then 1 else if 2 * decQ b.fmt Y (-(e : Int)) < (2 * F + 1) * 2 ^ s then -1 else 0) := by
  have hmb := g.mb57
  have hbm := g.bias_mb
  have hb := g.bias_ge
  have hpw : 2 ^ (b.fmt.mb + 1) ≤ 2 ^ 58 := Nat.pow_le_pow_right (by decide) (by omega)
  have hM : 2 * F + 1 < 2 ^ 64 := by omega
  have hM0 : 0 < 2 * F + 1 := by omega
  have h2 : (2 : ℚ) ≠ 0 := by norm_num
  have h5 : (5 : ℚ) ≠ 0 := by norm_num
  -- scales
  obtain ⟨a, ha⟩ : ∃ a : Nat, a = (-((s : Int) - (b.fmt.mb + b.fmt.bias : Nat) - -(e : Int))).toNat := ⟨_, rfl⟩
  obtain ⟨c, hc⟩ : ∃ c : Nat, c = ((s : Int) - (b.fmt.mb + b.fmt.bias : Nat) - -(e : Int)).toNat := ⟨_, rfl⟩
  have hac : (s : Int) + a + e = c + (b.fmt.mb + b.fmt.bias : Nat) := by omega
  obtain ⟨K, hK⟩ : ∃ K : ℚ, K = 5 ^ e * 2 ^ ((a : Int) + e - b.fmt.bias - b.fmt.mb) := ⟨_, rfl⟩
  have hKp : 0 < K := by rw [hK]; exact mul_pos (pow_pos (by norm_num) _) (zpow_pos (by norm_num) _)
  have hA : 2 * decQ b.fmt Y (-(e : Int)) * K = ((Y * 2 ^ a : Nat) : ℚ) := by
    rw [hK, decQ, one_zpow _ (by omega)]
    have e10 : (10 : ℚ) ^ (-(e : Int)) = 5 ^ (-(e : Int)) * 2 ^ (-(e : Int)) := by rw [← mul_zpow]; norm_num
    rw [e10]
    push_cast
    have k1 : (5 : ℚ) ^ (-(e : Int)) * 5 ^ e = 1 := by rw [← zpow_natCast, ← zpow_add₀ h5]; simp
    have k2 : 2 * (2 : ℚ) ^ (-(e : Int)) * 2 ^ ((b.fmt.bias : Int) + b.fmt.mb - 1) * 2 ^ ((a : Int) + e - b.fmt.bias - b.fmt.mb) = 2 ^ a := by
      rw [← zpow_natCast, ← zpow_one_add₀ h2, ← zpow_add₀ h2, ← zpow_add₀ h2]
      congr 1
      ring
    calc _ = (Y : ℚ) * ((5 : ℚ) ^ (-(e : Int)) * 5 ^ e) *
          (2 * (2 : ℚ) ^ (-(e : Int)) * 2 ^ ((b.fmt.bias : Int) + b.fmt.mb - 1) * 2 ^ ((a : Int) + e - b.fmt.bias - b.fmt.mb)) := by ring
      _ = _ := by rw [k1, k2, mul_one]
  have hB : ∀ M : Nat, (M : ℚ) * 2 ^ s * K = ((M * 5 ^ e * 2 ^ c : Nat) : ℚ) := by
    intro M
    rw [hK]
    push_cast
    have k2 : (2 : ℚ) ^ s * 2 ^ ((a : Int) + e - b.fmt.bias - b.fmt.mb) = 2 ^ c := by
      rw [← zpow_natCast, ← zpow_natCast, ← zpow_add₀ h2]
      congr 1
      push_cast at hac
      omega
    calc _ = (M : ℚ) * 5 ^ e * ((2 : ℚ) ^ s * 2 ^ ((a : Int) + e - b.fmt.bias - b.fmt.mb)) := by ring
      _ = _ := by rw [k2]
  -- sizes
  have hYa : Y * 2 ^ a < cap := by
    have : a ≤ 1075 := by omega
    calc Y * 2 ^ a ≤ Y * 2 ^ 1075 := Nat.mul_le_mul_left _ (Nat.pow_le_pow_right (by decide) this)
      _ ≤ 10 ^ 770 * 2 ^ 1075 := Nat.mul_le_mul_right _ hY.le
      _ < cap := lt_of_lt_of_le (by decide +kernel) cap_ge
  have h5e : (5 : Nat) ^ e ≤ 5 ^ 1190 := Nat.pow_le_pow_right (by decide) he
  have hM5 : (2 * F + 1) * 5 ^ e < cap := by
    calc (2 * F + 1) * 5 ^ e ≤ 2 ^ 64 * 5 ^ 1190 := Nat.mul_le_mul hM.le h5e
      _ < cap := lt_of_lt_of_le (by decide +kernel) cap_ge
  have hMc : (2 * F + 1) * 5 ^ e * 2 ^ c < cap := by
    rcases Nat.eq_zero_or_pos F with hz | hz
    · have hs0 := hs hz
      have : c ≤ e := by omega
      rw [hz]
      calc (2 * 0 + 1) * 5 ^ e * 2 ^ c ≤ 5 ^ e * 2 ^ e := by
            rw [Nat.mul_zero, Nat.zero_add, Nat.one_mul]
            exact Nat.mul_le_mul_left _ (Nat.pow_le_pow_right (by decide) this)
        _ = 10 ^ e := by rw [← Nat.mul_pow]
        _ ≤ 10 ^ 1190 := Nat.pow_le_pow_right (by decide) he
        _ < cap := lt_of_lt_of_le (by decide +kernel) cap_ge
    · have : ((F * 5 ^ e * 2 ^ c : Nat) : ℚ) ≤ ((Y * 2 ^ a : Nat) : ℚ) := by
        rw [← hA, ← hB]
        exact mul_le_mul_of_nonneg_right hx hKp.le
      have h : F * 5 ^ e * 2 ^ c ≤ Y * 2 ^ a := by exact_mod_cast this
      have ha' : a ≤ 1075 := by omega
      calc (2 * F + 1) * 5 ^ e * 2 ^ c ≤ 3 * F * 5 ^ e * 2 ^ c := Nat.mul_le_mul_right _ (Nat.mul_le_mul_right _ (by omega))
        _ = 3 * (F * 5 ^ e * 2 ^ c) := by ring
        _ ≤ 3 * (Y * 2 ^ a) := Nat.mul_le_mul_left _ h
        _ ≤ 3 * (10 ^ 770 * 2 ^ 1075) := Nat.mul_le_mul_left _ (Nat.mul_le_mul hY.le (Nat.pow_le_pow_right (by decide) ha'))
        _ < cap := lt_of_lt_of_le (by decide +kernel) cap_ge
  -- the code
  dsimp only
  rw [show (- -(e : Int)).toNat = e by omega, if_pos (by omega)]
  obtain ⟨v1, p1, b1⟩ := pow5_spec (ofU64_spec hM) hM0 hM5
  rw [p1, must_some, some_bind, ← hc, ← ha]
  have st2 : ∃ v2, (if (s : Int) - (b.fmt.mb + b.fmt.bias : Nat) - -(e : Int) > 0 then must (pow2 v1 c) else pure v1) = some v2 ∧
      Big v2 ((2 * F + 1) * 5 ^ e * 2 ^ c) := by
    by_cases h : (s : Int) - (b.fmt.mb + b.fmt.bias : Nat) - -(e : Int) > 0
    · rw [if_pos h]
      obtain ⟨v2, p2, b2⟩ := pow2_spec b1 (Nat.mul_pos hM0 (Nat.pow_pos (by decide))) hMc
      exact ⟨v2, by rw [p2, must_some], b2⟩
    · rw [if_neg h]
      exact ⟨v1, rfl, by rw [show c = 0 by omega, Nat.pow_zero, Nat.mul_one]; exact b1⟩
  have st3 : ∃ v3, (if (s : Int) - (b.fmt.mb + b.fmt.bias : Nat) - -(e : Int) < 0 then must (pow2 v a) else pure v) = some v3 ∧ Big v3 (Y * 2 ^ a) := by
    by_cases h : (s : Int) - (b.fmt.mb + b.fmt.bias : Nat) - -(e : Int) < 0
    · rw [if_pos h]
      obtain ⟨v2, p2, b2⟩ := pow2_spec hv h0 hYa
      exact ⟨v2, by rw [p2, must_some], b2⟩
    · rw [if_neg h]
      exact ⟨v, rfl, by rw [show a = 0 by omega, Nat.pow_zero, Nat.mul_one]; exact hv⟩
  obtain ⟨v2, p2, b2⟩ := st2
  obtain ⟨v3, p3, b3⟩ := st3
  have q1 : Y * 2 ^ a > (2 * F + 1) * 5 ^ e * 2 ^ c ↔ (2 * F + 1) * 2 ^ s < 2 * decQ b.fmt Y (-(e : Int)) := by
    rw [gt_iff_lt, ← Nat.cast_lt (α := ℚ), ← hA, ← hB, mul_lt_mul_iff_left₀ hKp]
    push_cast
    exact Iff.rfl
  have q2 : Y * 2 ^ a < (2 * F + 1) * 5 ^ e * 2 ^ c ↔ 2 * decQ b.fmt Y (-(e : Int)) < (2 * F + 1) * 2 ^ s := by
    rw [← Nat.cast_lt (α := ℚ), ← hA, ← hB, mul_lt_mul_iff_left₀ hKp]
    push_cast
    exact Iff.rfl
  have q3 : compare v3 v2 = some (if (2 * F + 1) * 2 ^ s < 2 * decQ b.fmt Y (-(e : Int)) then 1
      else if 2 * decQ b.fmt Y (-(e : Int)) < (2 * F + 1) * 2 ^ s then -1 else 0) := by
    rw [compare_spec b3 b2]
    simp only [q1, q2]
  by_cases k1 : (s : Int) - (b.fmt.mb + b.fmt.bias : Nat) - -(e : Int) > 0
  · rw [if_pos k1] at p2 ⊢
    rw [p2, some_bind]
    rw [if_neg (not_lt.2 k1.le)] at p3 ⊢
    rw [p3, some_bind, q3, some_bind]
  · rw [if_neg k1] at p2 ⊢
    rw [p2, some_bind]
    by_cases k2 : (s : Int) - (b.fmt.mb + b.fmt.bias : Nat) - -(e : Int) < 0
    · rw [if_pos k2] at p3 ⊢
      rw [p3, some_bind, q3, some_bind]
    · rw [if_neg k2] at p3 ⊢
      rw [p3, some_bind, q3, some_bind]

/-- `negative_digit_comp`, from an estimate of the value. -/
theorem negative_spec {b : Bin} (g : SlowOK b) {v : Limbs} {Y e : Nat} (hv : Big v Y) (h0 : 0 < Y) (hY : Y < 10 ^ 770) (he : e ≤ 1190) (he0 : 0 < e)
    {m n d : Nat} {P : Int} {x : ℚ} (hd : 0 < d) (hx : (n : ℚ) = x * d) (h1 : 2 ^ 63 ≤ m) (h2 : m < 2 ^ 64) (lo : (m : ℚ) * 2 ^ (P - 1) ≤ x)
    (hi : x < (m + 32) * 2 ^ (P - 1)) (al : Alike b.fmt (decQ b.fmt Y (-(e : Int))) x) (hxy : x ≤ 2 * decQ b.fmt Y (-(e : Int))) :
    ∃ am, negativeDigitComp b v ⟨m, P⟩ (-(e : Int)) = some am ∧ ∃ t, b.fmt.Nearest n d t ∧ Packed b am t := by
  have hmb := g.mb57
  have hmb1 := g.good.mb
  have hpp : 0 < 2 ^ b.fmt.mb := Nat.two_pow_pos _
  have z2 : (2 : ℚ) ≠ 0 := by norm_num
  obtain ⟨sh, s, hcut, hs⟩ := cut_exists (mb := b.fmt.mb) (P := P) hmb h1 h2
  have hsh := hcut.sh_ge
  have hexp := hcut.exp
  obtain ⟨am0, r1, r2⟩ := round_spec g hcut hs (up := 0) (by omega) _ (roundDown_spec (P := P) h2)
  rw [Nat.add_zero] at r2
  unfold negativeDigitComp
  rw [r1, some_bind]
  dsimp only
  rw [toFloat_packed g r2]
  simp only [Fmt.withSign, Bool.false_eq_true, if_false]
  -- the bounds in units of `2^s`
  have hscale : ∀ y : ℚ, y * 2 ^ (P - 1) * 2 ^ sh = y * 2 ^ s := by
    intro y
    rw [mul_assoc, ← zpow_natCast, ← zpow_natCast, ← zpow_add₀ z2, show P - 1 + (sh : Int) = s by omega]
  have hshp : (0 : ℚ) < 2 ^ sh := by positivity
  have hsp : (0 : ℚ) < 2 ^ s := by positivity
  have hFm : ((m / 2 ^ sh : Nat) : ℚ) * 2 ^ sh ≤ m := by exact_mod_cast Nat.div_mul_le_self m (2 ^ sh)
  have hFm' : (m : ℚ) + 1 ≤ ((m / 2 ^ sh : Nat) + 1) * 2 ^ sh := by
    have : m + 1 ≤ (m / 2 ^ sh + 1) * 2 ^ sh := Nat.lt_mul_of_div_lt (Nat.lt_succ_self _) (Nat.two_pow_pos _)
    exact_mod_cast this
  have hsh64 : (64 : ℚ) ≤ 2 ^ sh := by
    calc (64 : ℚ) = 2 ^ 6 := by norm_num
      _ ≤ 2 ^ sh := pow_le_pow_right₀ (by norm_num) (by omega)
  have b1 : ((m / 2 ^ sh : Nat) : ℚ) * 2 ^ s ≤ x := by
    refine le_trans ?_ lo
    rw [← mul_le_mul_iff_left₀ hshp, hscale]
    calc ((m / 2 ^ sh : Nat) : ℚ) * 2 ^ s * 2 ^ sh = ((m / 2 ^ sh : Nat) : ℚ) * 2 ^ sh * 2 ^ s := by ring
      _ ≤ _ := mul_le_mul_of_nonneg_right hFm hsp.le
  have b2 : 2 * x < (2 * ((m / 2 ^ sh : Nat) : ℚ) + 3) * 2 ^ s := by
    have k : 2 * x * 2 ^ sh < (2 * ((m / 2 ^ sh : Nat) : ℚ) + 3) * 2 ^ s * 2 ^ sh := by
      calc 2 * x * 2 ^ sh < 2 * ((m + 32) * 2 ^ (P - 1)) * 2 ^ sh := by
            refine mul_lt_mul_of_pos_right ?_ hshp
            linarith
        _ = 2 * ((m + 32) * 2 ^ (P - 1) * 2 ^ sh) := by ring
        _ = (2 * m + 64) * 2 ^ s := by rw [hscale]; ring
        _ ≤ (2 * ((m / 2 ^ sh : Nat) : ℚ) + 3) * 2 ^ sh * 2 ^ s := by
            refine mul_le_mul_of_nonneg_right ?_ hsp.le
            linarith
        _ = _ := by ring
    exact (mul_lt_mul_iff_left₀ hshp).1 k
  have hlt := hcut.lt
  have hnorm := hcut.norm
  generalize hFdef : m / 2 ^ sh = F at *
  have hF0 : F = 0 → s = 0 := by
    intro hz
    by_contra h
    have := hnorm h
    omega
  -- the decision of the callback
  have fin : ∀ (ord : Int), ∃ (up : Bool) (am : AM), round b ⟨m, P⟩ (roundNearestTieEven fun isOdd _ _ => if ord > 0 then true else if ord < 0 then false else isOdd) =
      some am ∧ Packed b am (s * 2 ^ b.fmt.mb + (F + up.toNat)) ∧ up = if ord > 0 then true else if ord < 0 then false else decide (F % 2 = 1) := by
    intro ord
    obtain ⟨up, u1, hw, ab, u2, _⟩ := nearestTie_spec (P := P) (sh := sh) h2 (by omega)
      (fun isOdd _ _ => if ord > 0 then true else if ord < 0 then false else isOdd)
    rw [hFdef] at u2 u1
    obtain ⟨am, a1, a2⟩ := round_spec g hcut (by rw [hFdef]; exact hs) (Bool.toNat_le up) _ (by rw [hFdef]; exact u1)
    rw [hFdef] at a2
    exact ⟨up, am, a1, a2, u2⟩
  by_cases hinf : s * 2 ^ b.fmt.mb + F ≤ b.fmt.inf
  · rw [Nat.min_eq_left hinf, halfway_spec g hlt hnorm hinf]
    rw [theor_compare g hv h0 hY he he0 hlt hF0 (le_trans b1 hxy)
      (fun ord => round b ⟨m, P⟩ (roundNearestTieEven fun isOdd _ _ => if ord > 0 then true else if ord < 0 then false else isOdd))]
    obtain ⟨a1, a2⟩ := al F s hlt
    have a3 := al.eq (s := s) hlt
    generalize hord : (if (2 * F + 1) * 2 ^ s < 2 * decQ b.fmt Y (-(e : Int)) then (1 : Int)
      else if 2 * decQ b.fmt Y (-(e : Int)) < (2 * F + 1) * 2 ^ s then -1 else 0) = ord
    obtain ⟨up, am, c1, c2, c3⟩ := fin ord
    refine ⟨am, c1, _, ?_, c2⟩
    refine pick hd hx hlt hnorm hmb1 b1 b2 ?_ ?_ ?_
    · intro h
      have h' := a1.2 h
      rw [if_neg (not_lt.2 h'.le), if_pos h'] at hord
      rw [c3, ← hord]
      rfl
    · intro h
      have h' := a2.2 h
      rw [if_pos h'] at hord
      rw [c3, ← hord]
      rfl
    · intro h
      have h' := a3.2 h
      rw [h', if_neg (lt_irrefl _), if_neg (lt_irrefl _)] at hord
      rw [c3, ← hord]
      rfl
  · -- beyond infinity the comparison does not matter
    have hie : b.fmt.inf = (b.fmt.emax - 1) * 2 ^ b.fmt.mb + 2 ^ b.fmt.mb := by
      have := g.good.emax
      unfold Fmt.inf
      rw [← Nat.succ_mul]
      congr 1
      omega
    rw [Nat.min_eq_right (by omega), hie, halfway_spec g (Nat.pow_lt_pow_right (by decide) (Nat.lt_succ_self _)) (fun _ => le_refl _) (by rw [← hie])]
    have hmag : (((2 ^ b.fmt.mb : Nat) : ℚ)) * 2 ^ (b.fmt.emax - 1) ≤ F * 2 ^ s := by
      have m1 := b.fmt.mag_of F s hlt.le hnorm
      have m2 := b.fmt.mag_of (2 ^ b.fmt.mb) (b.fmt.emax - 1) (Nat.pow_le_pow_right (by decide) (Nat.le_succ _)) (fun _ => le_refl _)
      rw [← hie] at m2
      have := b.fmt.mag_le_iff.2 (show b.fmt.inf ≤ s * 2 ^ b.fmt.mb + F by omega)
      rw [m1, m2] at this
      exact_mod_cast this
    rw [theor_compare g hv h0 hY he he0 (Nat.pow_lt_pow_right (by decide) (Nat.lt_succ_self _)) (fun h => absurd h hpp.ne') (le_trans hmag (le_trans b1 hxy))
      (fun ord => round b ⟨m, P⟩ (roundNearestTieEven fun isOdd _ _ => if ord > 0 then true else if ord < 0 then false else isOdd))]
    obtain ⟨up, am, c1, c2, _⟩ := fin (if (2 * (2 ^ b.fmt.mb : Nat) + 1) * 2 ^ (b.fmt.emax - 1) < 2 * decQ b.fmt Y (-(e : Int)) then (1 : Int)
      else if 2 * decQ b.fmt Y (-(e : Int)) < (2 * (2 ^ b.fmt.mb : Nat) + 1) * 2 ^ (b.fmt.emax - 1) then -1 else 0)
    refine ⟨am, c1, s * 2 ^ b.fmt.mb + (F + (decide ((2 * F + 1) * 2 ^ s < 2 * x) || (decide (2 * x = (2 * F + 1) * 2 ^ s) && decide (F % 2 = 1))).toNat), ?_, ?_⟩
    · refine pick hd hx hlt hnorm hmb1 b1 b2 ?_ ?_ ?_
      · intro h
        rw [decide_eq_false (not_lt.2 h.le), decide_eq_false (ne_of_lt h)]
        rfl
      · intro h
        rw [decide_eq_true h]
        rfl
      · intro h
        rw [decide_eq_false (by rw [h]; exact lt_irrefl _), decide_eq_true h]
        simp
    · refine ⟨c2.pow, ?_⟩
      rw [c2.eq, Nat.min_eq_right (by omega), Nat.min_eq_right (by omega)]

end Nanostl.FastFloat

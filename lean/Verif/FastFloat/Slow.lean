import Verif.FastFloat.Mantissa
import Verif.FastFloat.Fast
import Verif.Float.Real

/-!
The conversion of a number that has been read: the fast path, `compute_float`, and the comparison of all digits.
-/

namespace Nanostl.FastFloat
open Nanostl.Float
open Nanostl.Str (Byte digitsValue)
open Nanostl.Ryu (w64 sub64 chk IsDigit digitsValue_lt sigLen sigLen_bounds sigLen_append_pos sigLen_append_zero sigLen_zero_iff chk_pos some_bind)

variable [Limb]

omit [Limb] in
theorem dec_exists {φ : Fmt} (hmb : 1 ≤ φ.mb) (c : Nat) (k : Int) : ∃ t, DecNearest φ c k t := ⟨_, φ.roundMag_nearest hmb (n := decNum φ c k) (decDen_pos k)⟩

omit [Limb] in
theorem nearest_mono {φ : Fmt} (hmb : 1 ≤ φ.mb) {n n' d t u : Nat} (hd : 0 < d) (h : n ≤ n') (h1 : φ.Nearest n d t) (h2 : φ.Nearest n' d u) : t ≤ u := by
  by_contra hc
  have hm : φ.mag u * d < φ.mag t * d := Nat.mul_lt_mul_of_pos_right (φ.mag_lt_iff.2 (by omega)) hd
  have q1 := (h1 u).1
  have q2 := (h2 t).1
  unfold Fmt.dist at q1 q2
  have : n = n' := by omega
  subst this
  rw [Fmt.nearest_iff φ hmb hd] at h1 h2
  omega

omit [Limb] in
theorem dec_mono {φ : Fmt} (hmb : 1 ≤ φ.mb) {x y t u : Nat} {k : Int} (h : x ≤ y) (h1 : DecNearest φ x k t) (h2 : DecNearest φ y k u) : t ≤ u :=
  nearest_mono hmb (decDen_pos k) (decNum_mono φ h k) h1 h2

omit [Limb] in
theorem decQ_shift (φ : Fmt) (c j : Nat) (k : Int) : decQ φ (c * 10 ^ j) k = decQ φ c (k + j) := by
  unfold decQ
  rw [zpow_add₀ (by norm_num), zpow_natCast]
  push_cast; ring

omit [Limb] in
theorem one_posQ (φ : Fmt) : (0 : ℚ) < φ.one := by
  have : 0 < φ.one := by unfold Fmt.one; exact Nat.two_pow_pos _
  exact_mod_cast this

omit [Limb] in
theorem decQ_le (φ : Fmt) {c c' : Nat} (h : c ≤ c') (k : Int) : decQ φ c k ≤ decQ φ c' k := by
  unfold decQ
  have h1 : (c : ℚ) ≤ c' := by exact_mod_cast h
  have h2 : (0 : ℚ) < 10 ^ k := zpow_pos (by norm_num) k
  exact mul_le_mul_of_nonneg_right (mul_le_mul_of_nonneg_right h1 h2.le) (one_posQ φ).le

omit [Limb] in
theorem decQ_lt (φ : Fmt) {c c' : Nat} (h : c < c') (k : Int) : decQ φ c k < decQ φ c' k := by
  unfold decQ
  have h1 : (c : ℚ) < c' := by exact_mod_cast h
  have h2 : (0 : ℚ) < 10 ^ k := zpow_pos (by norm_num) k
  exact mul_lt_mul_of_pos_right (mul_lt_mul_of_pos_right h1 h2) (one_posQ φ)

omit [Limb] in
theorem decQ_double (φ : Fmt) (c : Nat) (k : Int) : decQ φ (2 * c) k = 2 * decQ φ c k := by
  unfold decQ; push_cast; ring

omit [Limb] in
/-- What has been read, whether all digits are in the mantissa or not. -/
theorem reads_split {s a bb : List Byte} {pns : PNS} {k : Int} (R : Reads s pns a bb k) :
    ∃ d1 d2, a ++ bb = d1 ++ d2 ∧ pns.mantissa = digitsValue d1 ∧ pns.exponent = k + d2.length ∧ sigLen d1 ≤ 19 ∧
      ((pns.tooManyDigits = false ∧ d2 = []) ∨ (pns.tooManyDigits = true ∧ sigLen d1 = 19)) := by
  by_cases h : sigLen (a ++ bb) ≤ 19
  · obtain ⟨h1, h2, h3⟩ := R.few h
    exact ⟨a ++ bb, [], by simp, h1, by simpa using h2, h, Or.inl ⟨h3, rfl⟩⟩
  · obtain ⟨h1, d1, d2, h2, h3, h4, h5⟩ := R.many (by omega)
    exact ⟨d1, d2, h2, h3, h5, by omega, Or.inr ⟨h1, h4⟩⟩

/-- The comparison of all digits. -/
theorem digitComp_spec {b : Bin} (g : SlowOK b) {s a bb : List Byte} {pns : PNS} {k : Int} (R : Reads s pns a bb k) (hw : 0 < pns.mantissa)
    (q1 : b.smallestPowerOfTen ≤ pns.exponent) (q2 : pns.exponent ≤ b.largestPowerOfTen) {am : AM} (E : Est 32 am (decQ b.fmt (digitsValue (a ++ bb)) k)) :
    ∃ am', digitComp b s pns am = some am' ∧ ∃ t, DecNearest b.fmt (digitsValue (a ++ bb)) k t ∧ Packed b am' t := by
  obtain ⟨d1, d2, e12, ew, eq, hs1, -⟩ := reads_split R
  have hD := R.digits
  have hd1 : ∀ c ∈ d1, IsDigit c := fun c hc => hD c (by rw [e12]; exact List.mem_append_left _ hc)
  have hb1 := sigLen_bounds d1 hd1
  have hpos : 0 < sigLen d1 := by
    by_contra hc
    have := (sigLen_zero_iff hd1).1 (by omega)
    omega
  have hL : sigLen (a ++ bb) = sigLen d1 + d2.length := by rw [e12, sigLen_append_pos hpos]
  have hsm := g.small
  have hlg := g.large
  have hl0 := g.large0
  have hdg := g.digits_ge
  have hdl := g.digits_le
  have sci := scientificExponent_spec (pns := pns) (j := sigLen d1 - 1) (by rw [ew]; exact hb1.2 hpos) (by rw [ew, Nat.sub_add_cancel hpos]; exact hb1.1) (by omega)
    (by omega) (by omega)
  have hNp : 0 < digitsValue (a ++ bb) := by
    rw [e12, digitsValue_append]
    rw [ew] at hw
    have := Nat.mul_pos hw (Nat.pow_pos (n := d2.length) (show 0 < 10 by decide))
    omega
  have hbN := sigLen_bounds _ hD
  obtain ⟨big, cnt, Y, pm1, pm2, pm3⟩ := parseMantissa_spec R (maxD := b.maxDigits) (by omega) hdl
  have hten : ∀ {x n : Nat}, x < 10 ^ n → n ≤ 770 → x < 10 ^ 770 := fun h h' => lt_of_lt_of_le h (Nat.pow_le_pow_right (by decide) h')
  unfold digitComp
  dsimp only
  rw [sci, some_bind, pm1, some_bind]
  dsimp only
  have hkL : pns.exponent + ((sigLen d1 - 1 : Nat) : Int) + 1 = k + sigLen (a ++ bb) := by rw [hL]; omega
  rw [hkL]
  have neg : ∀ {Y : Nat} {e : Nat}, Big big Y → 0 < Y → Y < 10 ^ 770 → e ≤ 1190 → 0 < e → Alike b.fmt (decQ b.fmt Y (-(e : Int))) (decQ b.fmt (digitsValue (a ++ bb)) k) →
      decQ b.fmt (digitsValue (a ++ bb)) k ≤ 2 * decQ b.fmt Y (-(e : Int)) →
      ∃ am', negativeDigitComp b big ⟨am.mantissa, am.power2 - invalidBias⟩ (-(e : Int)) = some am' ∧
        ∃ t, DecNearest b.fmt (digitsValue (a ++ bb)) k t ∧ Packed b am' t := by
    intro Y e h1 h2 h3 h4 h5 h6 h7
    exact negative_spec g h1 h2 h3 h4 h5 (decDen_pos k) (dec_value b.fmt _ k) E.ge E.lt E.low E.high h6 h7
  rcases pm3 with ⟨hLM, rfl, rfl⟩ | ⟨u1, u2, eu, hu1, hcase⟩
  · rw [show k + (sigLen (a ++ bb) : Int) - sigLen (a ++ bb) = k by ring]
    by_cases hk : k ≥ 0
    · rw [if_pos hk]
      obtain ⟨e, rfl⟩ : ∃ e : Nat, k = e := ⟨k.toNat, by omega⟩
      refine positive_spec g pm2 hNp (lt_trans ?_ ten770)
      calc digitsValue (a ++ bb) * 10 ^ e < 10 ^ sigLen (a ++ bb) * 10 ^ e := Nat.mul_lt_mul_of_pos_right hbN.1 (Nat.pow_pos (by decide))
        _ = 10 ^ (sigLen (a ++ bb) + e) := (Nat.pow_add ..).symm
        _ ≤ 10 ^ 770 := Nat.pow_le_pow_right (by decide) (by omega)
    · rw [if_neg hk]
      obtain ⟨e, rfl⟩ : ∃ e : Nat, k = -(e : Int) := ⟨(-k).toNat, by omega⟩
      refine neg pm2 hNp (hten hbN.1 (by omega)) (by omega) (by omega) (Alike.refl _ _) ?_
      have := decQ_le b.fmt (Nat.zero_le (digitsValue (a ++ bb))) (-(e : Int))
      have h0 : decQ b.fmt 0 (-(e : Int)) = 0 := by unfold decQ; simp
      rw [h0] at this
      linarith
  · have hdu1 : ∀ c ∈ u1, IsDigit c := fun c hc => hD c (by rw [eu]; exact List.mem_append_left _ hc)
    have hdu2 : ∀ c ∈ u2, IsDigit c := fun c hc => hD c (by rw [eu]; exact List.mem_append_right _ hc)
    have hbu := sigLen_bounds u1 hdu1
    have hM0 : 0 < sigLen u1 := by omega
    have hLu : sigLen (a ++ bb) = b.maxDigits + u2.length := by rw [eu, sigLen_append_pos hM0, hu1]
    have hT := hbu.2 hM0
    have hTp : 0 < digitsValue u1 := lt_of_lt_of_le (Nat.pow_pos (by decide)) hT
    have hlt := digitsValue_lt u2 hdu2
    have eN : digitsValue (a ++ bb) = digitsValue u1 * 10 ^ u2.length + digitsValue u2 := by rw [eu, digitsValue_append]
    have hT2 : digitsValue u1 < 10 ^ b.maxDigits := by have := hbu.1; rwa [hu1] at this
    rcases hcase with ⟨hz, rfl, rfl⟩ | ⟨hz, rfl, rfl⟩
    · rw [if_neg (by omega)]
      obtain ⟨e, he⟩ : ∃ e : Nat, k + (sigLen (a ++ bb) : Int) - b.maxDigits = -(e : Int) := ⟨(-(k + (sigLen (a ++ bb) : Int) - b.maxDigits)).toNat, by omega⟩
      have hx : decQ b.fmt (digitsValue (a ++ bb)) k = decQ b.fmt (digitsValue u1) (-(e : Int)) := by
        rw [eN, hz, Nat.add_zero, decQ_shift]; congr 1; omega
      rw [he]
      refine neg pm2 hTp (hten hT2 (by omega)) (by omega) (by omega) (by rw [hx]; exact Alike.refl _ _) ?_
      rw [hx]
      have := decQ_le b.fmt (Nat.zero_le (digitsValue u1)) (-(e : Int))
      have h0 : decQ b.fmt 0 (-(e : Int)) = 0 := by unfold decQ; simp
      rw [h0] at this
      linarith
    · rw [if_neg (by push_cast; omega)]
      obtain ⟨e, he⟩ : ∃ e : Nat, k + (sigLen (a ++ bb) : Int) - (b.maxDigits + 1 : Nat) = -(e : Int) :=
        ⟨(-(k + (sigLen (a ++ bb) : Int) - (b.maxDigits + 1 : Nat))).toNat, by omega⟩
      have hj : k + u2.length = -(e : Int) + 1 := by rw [hLu] at he; push_cast at he; omega
      have x1 : decQ b.fmt (digitsValue u1) (k + u2.length) < decQ b.fmt (digitsValue (a ++ bb)) k := by
        rw [← decQ_shift]; exact decQ_lt _ (by omega) _
      have x2 : decQ b.fmt (digitsValue (a ++ bb)) k < decQ b.fmt (digitsValue u1 + 1) (k + u2.length) := by
        rw [← decQ_shift]; exact decQ_lt _ (by rw [eN, Nat.add_mul]; omega) _
      have y1 : decQ b.fmt (digitsValue u1) (k + u2.length) < decQ b.fmt (10 * digitsValue u1 + 1) (-(e : Int)) := by
        rw [hj, show (1 : Int) = ((1 : Nat) : Int) from rfl, ← decQ_shift]; exact decQ_lt _ (by omega) _
      have y2 : decQ b.fmt (10 * digitsValue u1 + 1) (-(e : Int)) < decQ b.fmt (digitsValue u1 + 1) (k + u2.length) := by
        rw [hj, show (1 : Int) = ((1 : Nat) : Int) from rfl, ← decQ_shift]; exact decQ_lt _ (by omega) _
      rw [he]
      refine neg pm2 (by omega) ?_ (by omega) (by omega) (alike_trunc g (by omega) (by rw [← hu1]; exact hT) x1 x2 y1 y2) ?_
      · refine hten (n := b.maxDigits + 1) ?_ (by omega)
        rw [Nat.pow_succ]; omega
      · have h1 := decQ_le b.fmt (show digitsValue u1 + 1 ≤ 2 * digitsValue u1 by omega) (k + u2.length)
        rw [decQ_double] at h1
        linarith

/-- The conversion of a number of any length. -/
theorem slowPath_spec {b : Bin} (g : SlowOK b) {s a bb : List Byte} {pns : PNS} {k : Int} (R : Reads s pns a bb k) :
    ∃ t, DecNearest b.fmt (digitsValue (a ++ bb)) k t ∧ slowPath b s pns = some (b.fmt.withSign pns.negative (min t b.fmt.inf)) := by
  obtain ⟨d1, d2, e12, ew, eq, hs1, htm⟩ := reads_split R
  have hD := R.digits
  have hmb1 := g.good.mb
  have hd1 : ∀ c ∈ d1, IsDigit c := fun c hc => hD c (by rw [e12]; exact List.mem_append_left _ hc)
  have hd2 : ∀ c ∈ d2, IsDigit c := fun c hc => hD c (by rw [e12]; exact List.mem_append_right _ hc)
  have hb1 := sigLen_bounds d1 hd1
  have hw19 : pns.mantissa < 10 ^ 19 := by
    rw [ew]; exact lt_of_lt_of_le hb1.1 (Nat.pow_le_pow_right (by decide) hs1)
  have hw64 : pns.mantissa < 2 ^ 64 := by omega
  have hlt := digitsValue_lt d2 hd2
  have eN : digitsValue (a ++ bb) = pns.mantissa * 10 ^ d2.length + digitsValue d2 := by rw [e12, digitsValue_append, ew]
  obtain ⟨am, c1, c2⟩ := computeFloat_spec g.toBinOK pns.exponent hw64
  -- after an estimate the digits decide
  have slow : ∀ {am : AM}, Est 32 am (decQ b.fmt (digitsValue (a ++ bb)) k) → 0 < pns.mantissa → b.smallestPowerOfTen ≤ pns.exponent → pns.exponent ≤ b.largestPowerOfTen →
      ∃ t, DecNearest b.fmt (digitsValue (a ++ bb)) k t ∧ (do
        let am ← if am.power2 < 0 then digitComp b s pns am else pure am
        pure (toFloat b pns.negative am)) = some (b.fmt.withSign pns.negative (min t b.fmt.inf)) := by
    intro am E h1 h2 h3
    obtain ⟨am', r1, t, r2, r3⟩ := digitComp_spec g R h1 h2 h3 E
    refine ⟨t, r2, ?_⟩
    rw [if_pos E.neg, r1, some_bind]
    show some _ = _
    rw [toFloat_packed g r3]
  have fast : ∀ {am : AM} {t u : Nat}, Packed b am t → min t b.fmt.inf = min u b.fmt.inf → (do
        let am ← if am.power2 < 0 then digitComp b s pns am else pure am
        pure (toFloat b pns.negative am)) = some (b.fmt.withSign pns.negative (min u b.fmt.inf)) := by
    intro am t u P h
    rw [if_neg (by have := P.pow; omega), show (pure am : Option AM) = some am from rfl, some_bind]
    show some _ = _
    rw [toFloat_packed g P, h]
  -- an estimate of the first digits is one of all
  have widen : ∀ {am : AM}, Est 4 am (decQ b.fmt pns.mantissa pns.exponent) → Est 32 am (decQ b.fmt (digitsValue (a ++ bb)) k) := by
    intro am E
    rcases htm with ⟨-, hn⟩ | ⟨-, h19⟩
    · rw [eN, hn]
      rw [hn] at eq
      simp only [List.length_nil, Nat.pow_zero, Nat.mul_one, Int.natCast_zero, Int.add_zero] at eq ⊢
      rw [show digitsValue ([] : List Byte) = 0 from rfl, Nat.add_zero, ← eq]
      refine ⟨E.ge, E.lt, E.low, lt_of_lt_of_le E.high ?_, E.neg, E.range⟩
      have : (0 : ℚ) < 2 ^ (am.power2 - invalidBias - 1) := zpow_pos (by norm_num) _
      push_cast
      nlinarith
    · have hw18 : 10 ^ 18 ≤ pns.mantissa := by rw [ew]; have := hb1.2 (by omega); rwa [h19] at this
      have l1 : decQ b.fmt pns.mantissa pns.exponent ≤ decQ b.fmt (digitsValue (a ++ bb)) k := by
        rw [eq, ← decQ_shift]; exact decQ_le _ (by omega) _
      have l2 : decQ b.fmt (digitsValue (a ++ bb)) k ≤ decQ b.fmt (pns.mantissa + 1) pns.exponent := by
        rw [eq, ← decQ_shift]; exact decQ_le _ (by rw [Nat.add_mul]; omega) _
      refine ⟨E.ge, E.lt, le_trans E.low l1, lt_of_le_of_lt l2 ?_, E.neg, E.range⟩
      have hu : (0 : ℚ) < 2 ^ (am.power2 - invalidBias - 1) := zpow_pos (by norm_num) _
      have hh := E.high
      have e1 : decQ b.fmt (pns.mantissa + 1) pns.exponent = decQ b.fmt pns.mantissa pns.exponent + decQ b.fmt 1 pns.exponent := by
        unfold decQ; push_cast; ring
      have e2 : decQ b.fmt pns.mantissa pns.exponent = pns.mantissa * decQ b.fmt 1 pns.exponent := by
        unfold decQ; push_cast; ring
      have hD : 0 ≤ decQ b.fmt 1 pns.exponent := by
        unfold decQ
        exact mul_nonneg (mul_nonneg (by norm_num) (zpow_pos (by norm_num) _).le) (one_posQ _).le
      have e3 : (10 : ℚ) ^ 18 * decQ b.fmt 1 pns.exponent ≤ decQ b.fmt pns.mantissa pns.exponent := by
        rw [e2]
        have : (10 : ℚ) ^ 18 ≤ pns.mantissa := by exact_mod_cast hw18
        exact mul_le_mul_of_nonneg_right this hD
      have hm : (am.mantissa : ℚ) ≤ 2 ^ 64 := by exact_mod_cast E.lt.le
      have e4 : (am.mantissa : ℚ) * 2 ^ (am.power2 - invalidBias - 1) ≤ 2 ^ 64 * 2 ^ (am.power2 - invalidBias - 1) := mul_le_mul_of_nonneg_right hm hu.le
      rw [e1]
      generalize decQ b.fmt 1 pns.exponent = D at *
      generalize decQ b.fmt pns.mantissa pns.exponent = X at *
      generalize (2 : ℚ) ^ (am.power2 - invalidBias - 1) = U at *
      push_cast at hh ⊢
      rw [add_mul] at hh ⊢
      generalize (am.mantissa : ℚ) * U = V at *
      norm_num at e3 e4
      linarith
  unfold slowPath
  rw [c1, some_bind]
  rcases c2 with ⟨t, t1, t2⟩ | ⟨E, h1, h2, h3⟩
  · rcases htm with ⟨hf, hn⟩ | ⟨hf, h19⟩
    · rw [if_neg (by rw [hf]; simp)]
      refine ⟨t, ?_, fast t2 rfl⟩
      rw [eN, hn]
      rw [hn] at eq
      simp only [List.length_nil, Nat.pow_zero, Nat.mul_one, Int.natCast_zero, Int.add_zero] at eq ⊢
      rw [show digitsValue ([] : List Byte) = 0 from rfl, Nat.add_zero, ← eq]
      exact t1
    · rw [if_pos ⟨hf, t2.pow⟩]
      have hw18 : 10 ^ 18 ≤ pns.mantissa := by rw [ew]; have := hb1.2 (by omega); rwa [h19] at this
      have hww : w64 (pns.mantissa + 1) = pns.mantissa + 1 := by unfold w64; omega
      obtain ⟨am', c1', c2'⟩ := computeFloat_spec g.toBinOK pns.exponent (w := pns.mantissa + 1) (by omega)
      rw [hww, c1', some_bind]
      by_cases hne : am ≠ am'
      · rw [if_pos hne]
        have hrange : b.smallestPowerOfTen ≤ pns.exponent ∧ pns.exponent ≤ b.largestPowerOfTen := by
          by_contra hc
          apply hne
          unfold computeFloat at c1 c1'
          by_cases hs : pns.exponent < b.smallestPowerOfTen
          · rw [if_pos (Or.inr hs)] at c1 c1'
            exact Option.some.inj (c1.symm.trans c1')
          · rw [if_neg (by omega), if_pos (by omega)] at c1 c1'
            exact Option.some.inj (c1.symm.trans c1')
        have := g.small
        have := g.large
        obtain ⟨am2, r1, r2⟩ := computeError_spec g.toBinOK (q := pns.exponent) (by omega) (by omega) (w := pns.mantissa) (by omega) hw64
        rw [r1, some_bind]
        exact slow (widen r2) (by omega) hrange.1 hrange.2
      · rw [if_neg hne, show (pure am : Option AM) = some am from rfl, some_bind]
        have heq : am = am' := by simpa using hne
        rcases c2' with ⟨t', t1', t2'⟩ | ⟨E, -⟩
        · obtain ⟨u, hu⟩ := dec_exists hmb1 (φ := b.fmt) (digitsValue (a ++ bb)) k
          refine ⟨u, hu, fast t2 ?_⟩
          rw [eq, ← decNearest_shift] at t1 t1'
          have m1 := dec_mono hmb1 (by omega) t1 hu
          have m2 := dec_mono hmb1 (by rw [Nat.add_mul]; omega) hu t1'
          have m3 : min t b.fmt.inf = min t' b.fmt.inf := by rw [← t2.eq, ← t2'.eq, heq]
          omega
        · have := E.neg
          have := t2.pow
          rw [heq] at this
          omega
  · rw [if_neg (by have := E.neg; omega)]
    exact slow (widen E) h1 h2 h3

/-- Fast or not, the conversion is right. -/
theorem convert_spec {b : Bin} (g : FastOK b) {s a bb : List Byte} {pns : PNS} {k : Int} (R : Reads s pns a bb k) :
    ∃ t, DecNearest b.fmt (digitsValue (a ++ bb)) k t ∧
      (if b.minFast ≤ pns.exponent ∧ pns.exponent ≤ b.maxFast ∧ pns.mantissa ≤ b.maxMantissaFast ∧ pns.tooManyDigits = false then fastPath b pns else slowPath b s pns) =
        some (b.fmt.withSign pns.negative (min t b.fmt.inf)) := by
  by_cases h : b.minFast ≤ pns.exponent ∧ pns.exponent ≤ b.maxFast ∧ pns.mantissa ≤ b.maxMantissaFast ∧ pns.tooManyDigits = false
  · rw [if_pos h]
    have hf : sigLen (a ++ bb) ≤ 19 := by
      by_contra hc
      have := (R.many (by omega)).1
      rw [h.2.2.2] at this
      exact absurd this (by decide)
    obtain ⟨h1, h2, -⟩ := R.few hf
    have := fastPath_spec g h.1 h.2.1 h.2.2.1
    rwa [h1, h2] at this
  · rw [if_neg h]; exact slowPath_spec g.toSlowOK R

end Nanostl.FastFloat

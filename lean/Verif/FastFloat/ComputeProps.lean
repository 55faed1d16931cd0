import Verif.FastFloat.Compute

/-!
The theorem about `compute_float` and `compute_error`.
-/

namespace Nanostl.FastFloat
open Nanostl.Float
open Nanostl.Ryu (w64 chk some_bind chk_pos)

/-- An estimate with the bias of invalid results: a normalised significand, at most the value and too low by less than `c`. -/
structure Est (c : Nat) (am : AM) (x : ℚ) : Prop where
  ge : 2 ^ 63 ≤ am.mantissa
  lt : am.mantissa < 2 ^ 64
  low : (am.mantissa : ℚ) * 2 ^ (am.power2 - invalidBias - 1) ≤ x
  high : x < (am.mantissa + c) * 2 ^ (am.power2 - invalidBias - 1)
  neg : am.power2 < 0
  range : -3000 ≤ am.power2 - invalidBias

theorem normalise {w : Nat} (h0 : 0 < w) (hw : w < 2 ^ 64) :
    ∃ lz, leadingZeroes w = some lz ∧ lz ≤ 63 ∧ w64 (w <<< lz) = w * 2 ^ lz ∧ 2 ^ 63 ≤ w * 2 ^ lz ∧ w * 2 ^ lz < 2 ^ 64 := by
  have hne : w ≠ 0 := by omega
  have h1 := Nat.log2_self_le hne
  have h2 := Nat.lt_log2_self (n := w)
  have h3 : Nat.log2 w < 64 := (Nat.log2_lt hne).2 hw
  refine ⟨63 - Nat.log2 w, ?_, by omega, ?_, ?_, ?_⟩
  · rw [leadingZeroes, chk_pos (by omega), some_bind]; rfl
  · rw [Nat.shiftLeft_eq, w64, Nat.mod_eq_of_lt]
    calc w * 2 ^ (63 - Nat.log2 w) < 2 ^ (Nat.log2 w + 1) * 2 ^ (63 - Nat.log2 w) := Nat.mul_lt_mul_of_pos_right h2 (Nat.two_pow_pos _)
      _ = 2 ^ 64 := by rw [← Nat.pow_add]; congr 1; omega
  · calc 2 ^ 63 = 2 ^ Nat.log2 w * 2 ^ (63 - Nat.log2 w) := by rw [← Nat.pow_add]; congr 1; omega
      _ ≤ _ := Nat.mul_le_mul_right _ h1
  · calc w * 2 ^ (63 - Nat.log2 w) < 2 ^ (Nat.log2 w + 1) * 2 ^ (63 - Nat.log2 w) := Nat.mul_lt_mul_of_pos_right h2 (Nat.two_pow_pos _)
      _ = 2 ^ 64 := by rw [← Nat.pow_add]; congr 1; omega

theorem entry_hi_ge {q : Int} {hi lo : Nat} (e : Entry q hi lo) : 2 ^ 63 ≤ hi := by
  have hD := pden_pos q
  have hlo := e.lo_lt
  have h : 2 ^ 127 < hi * 2 ^ 64 + lo + 1 := by
    by_cases hq : q < -27 ∨ 0 ≤ q
    · exact Nat.lt_of_mul_lt_mul_right (lt_of_le_of_lt e.le (e.down hq).2)
    · have := Nat.le_of_mul_le_mul_right (le_trans e.le (e.up (by omega) (by omega)).1) hD
      exact Nat.lt_succ_of_le this
  have h127 : (2 : Nat) ^ 127 = 2 ^ 63 * 2 ^ 64 := by decide
  rw [h127] at h
  clear * - h hlo
  omega

theorem prod_ge {K w hi lo H L : Nat} (hw : 2 ^ 63 ≤ w) (hh : 2 ^ 63 ≤ hi) (p : Prod K w hi lo H L) : 2 ^ 62 ≤ H := by
  have h1 : 2 ^ 63 * 2 ^ 63 ≤ w * hi := Nat.mul_le_mul hw hh
  obtain ⟨_, hL, ⟨h, _⟩ | ⟨h, _⟩⟩ := p
  · omega
  · have := Nat.le_add_right (w * hi) (w * lo / 2 ^ 64)
    omega

theorem power_bounds {q : Int} (h1 : -342 ≤ q) (h2 : q ≤ 308) : -1074 ≤ power q ∧ power q ≤ 1087 := by
  unfold power
  omega

/-- `compute_error_scaled` of the high word. -/
theorem errorScaled_est {b : Bin} (g : BinOK b) {q : Int} (q1 : -342 ≤ q) (q2 : q ≤ 308) {w lz H : Nat} (hlz : lz ≤ 63) (hH : 2 ^ 62 ≤ H)
    (hH' : H < 2 ^ 64) (near : Near (w * 2 ^ lz * pnum q) (pden q) H) : Est 4 (computeErrorScaled b q H lz) (decQ b.fmt w q) := by
  obtain ⟨n1, n2⟩ := near.hval
  have hpw := power_bounds q1 q2
  have hbl := g.bias_le
  have hmb := g.mb_le
  have hb1 := g.bias_ge
  have h2 : (2 : ℚ) ≠ 0 := by norm_num
  have hz : ∃ z, (H >>> 63) ^^^ 1 = z ∧ z ≤ 1 ∧ 2 ^ 63 ≤ H * 2 ^ z ∧ H * 2 ^ z < 2 ^ 64 := by
    rw [Nat.shiftRight_eq_div_pow]
    rcases Nat.lt_or_ge H (2 ^ 63) with h | h
    · refine ⟨1, ?_, le_refl _, by omega, by omega⟩
      rw [Nat.div_eq_of_lt h]; rfl
    · refine ⟨0, ?_, by omega, by omega, by omega⟩
      rw [show H / 2 ^ 63 = 1 by omega]; rfl
  obtain ⟨z, hz, hz1, hz2, hz3⟩ := hz
  unfold computeErrorScaled
  rw [hz]
  simp only [g.mbits, g.minexp]
  rw [Nat.shiftLeft_eq, w64, Nat.mod_eq_of_lt hz3]
  have he : ∀ y : ℚ, y * 2 ^ (power q - lz + b.fmt.bias + b.fmt.mb - 63) =
      y * 2 ^ z * 2 ^ (power q + (b.fmt.mb - -(b.fmt.bias : Int)) - z - lz - 62 + invalidBias - invalidBias - 1) := by
    intro y
    rw [mul_assoc, ← zpow_natCast, ← zpow_add₀ h2]
    congr 2
    ring
  have hpos : ∀ z : Int, (0 : ℚ) < 2 ^ z := fun z => zpow_pos (by norm_num) z
  have hz4 : (1 : ℚ) ≤ 2 ^ z ∧ (2 : ℚ) ^ z ≤ 2 := by
    rcases Nat.le_one_iff_eq_zero_or_eq_one.1 hz1 with h | h <;> rw [h] <;> norm_num
  refine ⟨hz2, hz3, ?_, ?_, ?_, ?_⟩
  · rw [dec_hval b.fmt (by omega) w lz q, he]
    push_cast
    exact mul_le_mul_of_nonneg_right (mul_le_mul_of_nonneg_right n1 (by positivity)) (hpos _).le
  · rw [dec_hval b.fmt (by omega) w lz q, he]
    push_cast
    refine mul_lt_mul_of_pos_right ?_ (hpos _)
    have : hval (w * 2 ^ lz) q * 2 ^ z < (H + 2) * 2 ^ z := mul_lt_mul_of_pos_right n2 (by positivity)
    calc _ < _ := this
      _ = H * 2 ^ z + 2 * 2 ^ z := by ring
      _ ≤ _ := by linarith [hz4.2]
  · simp only [invalidBias]
    omega
  · simp only [invalidBias]
    omega

/-- `compute_error`. -/
theorem computeError_spec {b : Bin} (g : BinOK b) {q : Int} (q1 : -342 ≤ q) (q2 : q ≤ 308) {w : Nat} (h0 : 0 < w) (hw : w < 2 ^ 64) :
    ∃ am, computeError b q w = some am ∧ Est 4 am (decQ b.fmt w q) := by
  obtain ⟨lz, l1, l2, l3, l4, l5⟩ := normalise h0 hw
  obtain ⟨hi, lo, t1, t2, e⟩ := tab_entry q1 q2
  have hmb := g.mb_le
  have hmb1 := g.good.mb
  obtain ⟨H, L, hp, p⟩ := product_spec (K := 61 - b.fmt.mb) (by omega) (by omega) l5 e.hi_lt e.lo_lt t1 t2
  rw [show 64 - (61 - b.fmt.mb) = b.fmt.mb + 3 by omega] at hp
  refine ⟨computeErrorScaled b q H lz, ?_, errorScaled_est g q1 q2 l2 (prod_ge l4 (entry_hi_ge e) p) p.1 (prod_near e l5 p)⟩
  unfold computeError
  rw [l1, some_bind]
  simp only [l3, g.mbits]
  rw [hp, some_bind]
  rfl

/-- No tie in the range of the subnormal values. -/
theorem no_sub_tie {q : Int} {w Q j lz : Nat} {bias : Int} (hw : w < 2 ^ 64) (ho : Q % 2 = 1) (hlz : lz ≤ 63) (hb : 100 ≤ bias)
    (hp : power q - lz + bias ≤ 0) (h : w * pnum q = Q * 2 ^ j * (pden q * 2 ^ 128)) : False := by
  have hq : q < -27 := by
    by_contra hc
    unfold power at hp
    omega
  have e0 : q.toNat = 0 := by omega
  have hd : 5 ^ (-q).toNat ∣ w * 2 ^ (127 - expo q).toNat := by
    refine ⟨Q * 2 ^ j * 2 ^ (expo q - 127).toNat * 2 ^ 128, ?_⟩
    unfold pnum pden at h
    rw [e0, Nat.pow_zero, Nat.one_mul] at h
    rw [h]
    generalize (2 : Nat) ^ 128 = B
    ring
  have hwpos : 0 < w := by
    rcases Nat.eq_zero_or_pos w with h0 | h0
    · exfalso
      rw [h0, Nat.zero_mul] at h
      have : 0 < Q * 2 ^ j * (pden q * 2 ^ 128) :=
        Nat.mul_pos (Nat.mul_pos (by omega) (Nat.two_pow_pos _)) (Nat.mul_pos (pden_pos q) (Nat.two_pow_pos _))
      omega
    · exact h0
  have h5 := five_dvd hd hw hwpos
  have : 5 ^ 28 ≤ 5 ^ (-q).toNat := Nat.pow_le_pow_right (by decide) (by omega)
  have h28 : (2 : Nat) ^ 64 < 5 ^ 28 := by decide
  omega

/-- The part after the product, for a normal result. -/
theorem computeNormal_spec {b : Bin} (g : BinOK b) {q : Int} {w hi lo H L : Nat} (e : Entry q hi lo) (t : tab (2 * (q - -342)) = some hi)
    (h0 : 0 < w) (hw : w < 2 ^ 64) (p : Prod (61 - b.fmt.mb) w hi lo H L) {k Q : Nat} (hk : 61 - b.fmt.mb ≤ k)
    (hQ : H / 2 ^ k = Q) (hfl : w * pnum q / (pden q * 2 ^ 128) / 2 ^ k = Q) (hQ1 : 2 ^ (b.fmt.mb + 1) ≤ Q) (hQ2 : Q < 2 ^ (b.fmt.mb + 2))
    {power2 : Int} (hp2 : 0 < power2) {n d : Nat} {x : ℚ} (hd : 0 < d) (hx : (n : ℚ) = x * d) (hv : 2 * x = hval w q / 2 ^ k * 2 ^ (power2 - 1)) :
    ∃ t, b.fmt.Nearest n d t ∧ Packed b (computeNormal b q H L k Q power2) t := by
  have hmb1 := g.good.mb
  have hmb2 := g.mb_le
  obtain ⟨f1, f2⟩ := hval_floor hfl
  have hk2 : (0 : ℚ) < 2 ^ k := by positivity
  -- the test for a tie
  let tie : Prop := L ≤ 1 ∧ q ≥ b.minRoundToEven ∧ q ≤ b.maxRoundToEven ∧ H = Q * 2 ^ k
  have htie : Q % 4 = 1 → (tie ↔ hval w q = Q * 2 ^ k) := by
    intro h4
    rw [← hval_tie]
    constructor
    · rintro ⟨a1, a2, a3, a4⟩
      have := tie_sound g.ties e t h0 hw p a2 a3 a1 (by
        obtain ⟨j, rfl⟩ := Nat.exists_eq_add_of_le hk
        rw [a4, Nat.pow_add, Nat.mul_left_comm, Nat.mul_mod_right])
      rwa [a4] at this
    · intro h
      obtain ⟨a1, a2, a3, a4⟩ := tie_complete g.ties e hw p hk (by omega) hQ1 hQ2 h
      exact ⟨a3, a1, a2, a4⟩
  let instT : Decidable tie := inferInstanceAs (Decidable (_ ∧ _ ∧ _ ∧ _))
  have hs : (2 : ℚ) ^ (power2 - 1) = 2 ^ (power2 - 1).toNat := by rw [← zpow_natCast, Int.toNat_of_nonneg (by omega)]
  rw [hs] at hv
  have hs0 : (0 : ℚ) < 2 ^ (power2 - 1).toNat := by positivity
  have near := round_halfQ b.fmt hmb1 (s := (power2 - 1).toNat) (Q := Q) hd hx
    (by rw [hv]; exact mul_le_mul_of_nonneg_right ((le_div_iff₀ hk2).2 f1) hs0.le)
    (by rw [hv]; exact mul_lt_mul_of_pos_right ((div_lt_iff₀ hk2).2 f2) hs0)
    hQ2 (fun _ => by rw [Nat.le_div_iff_mul_le (by decide), ← Nat.pow_succ]; exact hQ1) tie
    (fun h4 => by
      rw [htie h4, hv, mul_left_inj' (ne_of_gt hs0), div_eq_iff (ne_of_gt hk2)])
  refine ⟨_, near, ?_⟩
  -- the significand of the code
  have hpow : 2 ^ (b.fmt.mb + 2) ≤ 2 ^ 62 := Nat.pow_le_pow_right (by decide) (by omega)
  have hQH : Q * 2 ^ k ≤ H := by rw [← hQ]; exact Nat.div_mul_le_self _ _
  have hH := p.1
  have c1 : (if L ≤ 1 ∧ q ≥ b.minRoundToEven ∧ q ≤ b.maxRoundToEven ∧ Q &&& 3 = 1 then if w64 (Q <<< k) = H then clearBit Q 0 else Q else Q) =
      if tie ∧ Q % 4 = 1 then Q - 1 else Q := by
    rw [show Q &&& 3 = Q % 4 from Nat.and_two_pow_sub_one_eq_mod Q 2, Nat.shiftLeft_eq, w64,
      Nat.mod_eq_of_lt (show Q * 2 ^ k < 2 ^ 64 from lt_of_le_of_lt hQH hH)]
    by_cases h4 : Q % 4 = 1
    · have hcb := clearBit_zero (m := Q) (by omega) (by omega)
      by_cases hc : L ≤ 1 ∧ q ≥ b.minRoundToEven ∧ q ≤ b.maxRoundToEven
      · rw [if_pos ⟨hc.1, hc.2.1, hc.2.2, h4⟩, hcb]
        by_cases hh : Q * 2 ^ k = H
        · rw [if_pos hh, if_pos ⟨⟨hc.1, hc.2.1, hc.2.2, hh.symm⟩, h4⟩]
        · rw [if_neg hh, if_neg (fun h => hh h.1.2.2.2.symm)]
      · rw [if_neg (fun h => hc ⟨h.1, h.2.1, h.2.2.1⟩), if_neg (fun h => hc ⟨h.1.1, h.1.2.1, h.1.2.2.1⟩)]
    · rw [if_neg (fun h => h4 h.2.2.2), if_neg (fun h => h4 h.2)]
  have c2 : (w64 ((if tie ∧ Q % 4 = 1 then Q - 1 else Q) + ((if tie ∧ Q % 4 = 1 then Q - 1 else Q) &&& 1))) >>> 1 = roundQ tie Q := by
    rw [Nat.and_one_is_mod, Nat.shiftRight_eq_div_pow, Nat.pow_one, w64, Nat.mod_eq_of_lt]
    · rfl
    · split <;> omega
  unfold computeNormal
  rw [c1]
  simp only [c2]
  refine pack_normal g ?_ ?_ hp2
  · unfold roundQ
    simp only
    rw [Nat.pow_succ] at hQ1
    split <;> omega
  · unfold roundQ
    simp only
    rw [Nat.pow_succ] at hQ2
    split <;> omega

/-- The part after the product, for a subnormal result. -/
theorem computeSubnormal_spec {b : Bin} (g : BinOK b) {q : Int} {w lz : Nat} (hlz : lz ≤ 63)
    (hw : w < 2 ^ 64) {k u Q : Nat} (hfl : w * pnum q / (pden q * 2 ^ 128) / 2 ^ k = Q) (hQ2 : Q < 2 ^ (b.fmt.mb + 2))
    {power2 : Int} (hpe : power2 = power q + u - lz + b.fmt.bias) (hp2 : power2 ≤ 0) {n d : Nat} {x : ℚ} (hd : 0 < d) (hx : (n : ℚ) = x * d)
    (hv : 2 * x = hval w q / 2 ^ k * 2 ^ (power2 - 1)) : ∃ am, computeSubnormal b Q power2 = some am ∧ ∃ t, b.fmt.Nearest n d t ∧ Packed b am t := by
  have hmb1 := g.good.mb
  have hmb2 := g.mb_le
  have hb := g.bias_ge
  have hpow : 2 ^ (b.fmt.mb + 2) ≤ 2 ^ 62 := Nat.pow_le_pow_right (by decide) (by omega)
  obtain ⟨sh, hsh⟩ : ∃ sh : Nat, -power2 + 1 = sh := ⟨(-power2 + 1).toNat, by omega⟩
  have hsh1 : 1 ≤ sh := by omega
  have hv' : 2 * x = hval w q / 2 ^ (k + sh) := by
    rw [hv, show power2 - 1 = -(sh : Int) by omega, zpow_neg, zpow_natCast, pow_add, div_mul_eq_div_div, div_eq_mul_inv (_ / _)]
  have hfl' : w * pnum q / (pden q * 2 ^ 128) / 2 ^ (k + sh) = Q / 2 ^ sh := by
    rw [Nat.pow_add, ← Nat.div_div_eq_div_mul, hfl]
  obtain ⟨f1, f2⟩ := hval_floor hfl'
  have hks : (0 : ℚ) < 2 ^ (k + sh) := by positivity
  have hQ' : Q / 2 ^ sh < 2 ^ (b.fmt.mb + 1) := by
    rw [Nat.div_lt_iff_lt_mul (Nat.two_pow_pos _)]
    calc Q < 2 ^ (b.fmt.mb + 2) := hQ2
      _ = 2 ^ (b.fmt.mb + 1) * 2 ^ 1 := by rw [← Nat.pow_add]
      _ ≤ _ := Nat.mul_le_mul_left _ (Nat.pow_le_pow_right (by decide) hsh1)
  have near := round_halfQ b.fmt hmb1 (s := 0) (Q := Q / 2 ^ sh) hd hx
    (by rw [hv', pow_zero, mul_one]; exact (le_div_iff₀ hks).2 f1)
    (by rw [hv', pow_zero, mul_one]; exact (div_lt_iff₀ hks).2 f2)
    (lt_trans hQ' (Nat.pow_lt_pow_right (by decide) (by omega))) (fun h => absurd rfl h) False
    (fun h4 => by
      refine ⟨fun h => h.elim, fun h => ?_⟩
      rw [hv', pow_zero, mul_one, div_eq_iff (ne_of_gt hks)] at h
      exact no_sub_tie (Q := Q / 2 ^ sh) (bias := b.fmt.bias) hw (by omega) hlz (by omega) (by omega) (hval_tie.2 h))
  rw [Nat.zero_mul, Nat.zero_add] at near
  have hle : roundQ False (Q / 2 ^ sh) ≤ 2 ^ b.fmt.mb := by
    unfold roundQ
    simp only [false_and, if_false]
    rw [Nat.pow_succ] at hQ'
    omega
  have hpk := pack_subnormal g hle
  unfold computeSubnormal
  rw [hsh]
  by_cases h64 : (sh : Int) ≥ 64
  · rw [if_pos h64]
    refine ⟨_, rfl, _, near, ?_⟩
    have hz : Q / 2 ^ sh = 0 := Nat.div_eq_of_lt (by
      have : 2 ^ 64 ≤ 2 ^ sh := Nat.pow_le_pow_right (by decide) (by omega)
      omega)
    rw [hz] at hpk ⊢
    have h0 : roundQ False 0 = 0 := by simp [roundQ]
    rw [h0, g.mbits, if_pos (by rw [Nat.shiftLeft_eq, Nat.one_mul]; exact Nat.two_pow_pos _)] at hpk
    rw [h0]
    exact hpk
  · rw [if_neg h64]
    dsimp only
    rw [chk_pos (by omega), some_bind]
    have hq62 : Q / 2 ^ sh < 2 ^ 62 := lt_of_lt_of_le (lt_trans hQ' (Nat.pow_lt_pow_right (by decide) (by omega))) hpow
    have c : w64 (Q >>> (sh : Int).toNat + (Q >>> (sh : Int).toNat &&& 1)) >>> 1 = roundQ False (Q / 2 ^ sh) := by
      rw [Int.toNat_natCast, Nat.and_one_is_mod, Nat.shiftRight_eq_div_pow, Nat.shiftRight_eq_div_pow, Nat.pow_one, w64, Nat.mod_eq_of_lt (by omega)]
      simp [roundQ]
    simp only [c]
    exact ⟨_, rfl, _, near, hpk⟩

/-- Powers below the range give zero, powers above give infinity. -/
theorem under_spec {b : Bin} (g : BinOK b) {q : Int} {w : Nat} (hw : w < 2 ^ 64) (hq : q < b.smallestPowerOfTen) : DecNearest b.fmt w q 0 := by
  have h0 := g.small0
  have hu := g.under
  refine b.fmt.nearest_lo ?_ ?_ (Or.inl ?_)
  · rw [b.fmt.mag_zero]; omega
  all_goals
    have hm1 : b.fmt.mag (0 + 1) = 1 := by
      have := b.fmt.mag_of 1 0 Nat.one_le_two_pow (by simp)
      simpa using this
    have hn : decNum b.fmt w q ≤ 2 ^ 64 * b.fmt.one := by
      unfold decNum
      rw [show q.toNat = 0 by omega, Nat.pow_zero, Nat.mul_one]
      exact Nat.mul_le_mul_right _ hw.le
    have hd : 10 ^ (-(b.smallestPowerOfTen - 1)).toNat ≤ decDen q := Nat.pow_le_pow_right (by decide) (by omega)
    rw [hm1]
    try rw [b.fmt.mag_zero]
    generalize decNum b.fmt w q = n at *
    generalize decDen q = d at *
    generalize 2 ^ 64 * b.fmt.one = y at *
    omega

theorem over_spec {b : Bin} (g : BinOK b) {q : Int} {w : Nat} (h0 : 0 < w) (hq : q > b.largestPowerOfTen) :
    ∃ t, DecNearest b.fmt w q t ∧ b.fmt.inf ≤ t := by
  have hl := g.large0
  refine ⟨_, b.fmt.roundMag_nearest g.good.mb (decDen_pos q), b.fmt.le_roundMag g.good.mb (decDen_pos q) ?_⟩
  unfold decDen decNum
  rw [show (-q).toNat = 0 by omega, Nat.pow_zero, Nat.mul_one]
  calc b.fmt.mag b.fmt.inf ≤ 10 ^ (b.largestPowerOfTen + 1).toNat * b.fmt.one := g.over
    _ ≤ 10 ^ q.toNat * b.fmt.one := Nat.mul_le_mul_right _ (Nat.pow_le_pow_right (by decide) (by omega))
    _ ≤ _ := Nat.mul_le_mul_right _ (Nat.le_mul_of_pos_left _ h0)

theorem dec_zero_nearest (φ : Fmt) (q : Int) : DecNearest φ 0 q 0 := by
  refine φ.nearest_exact (decDen_pos q) ?_
  rw [φ.mag_zero]
  unfold decNum
  ring

theorem packed_zero {b : Bin} (g : BinOK b) : Packed b ⟨0, 0⟩ 0 := by
  have := pack_subnormal g (Nat.zero_le (2 ^ b.fmt.mb))
  rwa [g.mbits, if_pos (by rw [Nat.shiftLeft_eq, Nat.one_mul]; exact Nat.two_pow_pos _)] at this

theorem packed_inf {b : Bin} (g : BinOK b) {t : Nat} (h : b.fmt.inf ≤ t) : Packed b ⟨0, b.infinitePower⟩ t := by
  refine Packed.of_lt (by simp [g.infpow]) (Nat.two_pow_pos _) ?_
  rw [Nat.min_eq_right h, g.infpow]
  simp [Fmt.inf]

/-- `compute_float`: the nearest value, or an estimate. -/
theorem computeFloat_spec {b : Bin} (g : BinOK b) (q : Int) {w : Nat} (hw : w < 2 ^ 64) :
    ∃ am, computeFloat b q w = some am ∧ ((∃ t, DecNearest b.fmt w q t ∧ Packed b am t) ∨
      (Est 4 am (decQ b.fmt w q) ∧ 0 < w ∧ b.smallestPowerOfTen ≤ q ∧ q ≤ b.largestPowerOfTen)) := by
  unfold computeFloat
  by_cases hA : w = 0 ∨ q < b.smallestPowerOfTen
  · rw [if_pos hA]
    refine ⟨_, rfl, Or.inl ⟨0, ?_, packed_zero g⟩⟩
    rcases hA with h | h
    · rw [h]; exact dec_zero_nearest _ q
    · exact under_spec g hw h
  rw [if_neg hA]
  have h0 : 0 < w := by omega
  by_cases hB : q > b.largestPowerOfTen
  · rw [if_pos hB]
    obtain ⟨t, h1, h2⟩ := over_spec g h0 hB
    exact ⟨_, rfl, Or.inl ⟨t, h1, packed_inf g h2⟩⟩
  rw [if_neg hB]
  have q1 : -342 ≤ q := le_trans g.small (by omega)
  have q2 : q ≤ 308 := le_trans (by omega) g.large
  obtain ⟨lz, l1, l2, l3, l4, l5⟩ := normalise h0 hw
  obtain ⟨hi, lo, t1, t2, e⟩ := tab_entry q1 q2
  have hmb := g.mb_le
  have hmb1 := g.good.mb
  obtain ⟨H, L, hp, p⟩ := product_spec (K := 61 - b.fmt.mb) (by omega) (by omega) l5 e.hi_lt e.lo_lt t1 t2
  rw [show 64 - (61 - b.fmt.mb) = b.fmt.mb + 3 by omega] at hp
  have near := prod_near e l5 p
  have hH := prod_ge l4 (entry_hi_ge e) p
  have hH' := p.1
  rw [l1, some_bind]
  simp only [l3, g.mbits]
  rw [hp, some_bind]
  by_cases hC : L = 0xFFFFFFFFFFFFFFFF ∧ ¬(q ≥ -27 ∧ q ≤ 55)
  · rw [if_pos hC]
    exact ⟨_, rfl, Or.inr ⟨errorScaled_est g q1 q2 l2 hH hH' near, h0, by omega, by omega⟩⟩
  rw [if_neg hC]
  have ok : L ≠ 2 ^ 64 - 1 ∨ -27 ≤ q ∧ q ≤ 55 := by
    by_cases h : L = 2 ^ 64 - 1
    · by_cases h' : q ≥ -27 ∧ q ≤ 55
      · exact Or.inr h'
      · exact absurd ⟨h, h'⟩ hC
    · exact Or.inl h
  -- the upper bit
  obtain ⟨u, hu, hu1, hu2, hu3⟩ : ∃ u, H >>> 63 = u ∧ u ≤ 1 ∧ 2 ^ (u + 62) ≤ H ∧ H < 2 ^ (u + 63) := by
    rw [Nat.shiftRight_eq_div_pow]
    rcases Nat.lt_or_ge H (2 ^ 63) with h | h
    · exact ⟨0, by omega, by omega, hH, h⟩
    · exact ⟨1, by omega, by omega, h, hH'⟩
  rw [hu, chk_pos (by omega), some_bind]
  obtain ⟨k, hk⟩ : ∃ k : Nat, ((u : Int) + 64 - b.fmt.mb - 3) = k := ⟨u + 61 - b.fmt.mb, by omega⟩
  rw [hk, Int.toNat_natCast, Nat.shiftRight_eq_div_pow]
  have hk' : k + b.fmt.mb = u + 61 := by omega
  obtain ⟨Q, hQ⟩ : ∃ Q, H / 2 ^ k = Q := ⟨_, rfl⟩
  rw [hQ]
  have hfl := prod_floor e l5 p ok (k := k) (by omega)
  rw [hQ] at hfl
  have hQ1 : 2 ^ (b.fmt.mb + 1) ≤ Q := by
    rw [← hQ, Nat.le_div_iff_mul_le (Nat.two_pow_pos _), ← Nat.pow_add, show b.fmt.mb + 1 + k = u + 62 by omega]
    exact hu2
  have hQ2 : Q < 2 ^ (b.fmt.mb + 2) := by
    rw [← hQ, Nat.div_lt_iff_lt_mul (Nat.two_pow_pos _), ← Nat.pow_add, show b.fmt.mb + 2 + k = u + 63 by omega]
    exact hu3
  rw [g.minexp]
  obtain ⟨power2, hp2⟩ : ∃ p : Int, power q + u - lz - -(b.fmt.bias : Int) = p := ⟨_, rfl⟩
  rw [hp2]
  have hb := g.bias_ge
  have hv : 2 * decQ b.fmt w q = hval (w * 2 ^ lz) q / 2 ^ k * 2 ^ (power2 - 1) := by
    rw [dec_hval b.fmt (by omega) w lz q, ← hp2, div_mul_eq_mul_div, mul_comm 2, mul_assoc]
    rw [mul_div_assoc]
    congr 1
    have h2 : (2 : ℚ) ≠ 0 := by norm_num
    rw [eq_div_iff (by positivity), ← zpow_natCast, ← zpow_add_one₀ h2, ← zpow_add₀ h2]
    congr 1
    omega
  by_cases hD : power2 ≤ 0
  · rw [if_pos hD]
    obtain ⟨am, a1, t, a2, a3⟩ := computeSubnormal_spec g l2 l5 (u := u) hfl hQ2 (by omega) hD (decDen_pos q) (dec_value b.fmt w q) hv
    exact ⟨am, a1, Or.inl ⟨t, a2, a3⟩⟩
  · rw [if_neg hD]
    obtain ⟨t, a1, a2⟩ := computeNormal_spec g e t1 (by omega) l5 p (by omega) hQ hfl hQ1 hQ2 (by omega) (decDen_pos q) (dec_value b.fmt w q) hv
    exact ⟨_, rfl, Or.inl ⟨t, a1, a2⟩⟩

end Nanostl.FastFloat

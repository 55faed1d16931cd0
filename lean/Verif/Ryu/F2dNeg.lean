import Verif.Ryu.F2d

/-!
Step 3 of `f2d` for negative binary exponents.
-/

namespace Nanostl.Ryu

/-- The part of `f2dNeg` after the products. -/
def negTail (q : Nat) (e10 : Int) (mv mmShift : Nat) (acc : Bool) (vr vp vm last : Nat) : Option (Red × Int) :=
  if q ≤ 1 then
    if acc then some (⟨vr, vp, vm, mmShift == 1, true, last, 0⟩, e10)
    else some (⟨vr, sub32 vp 1, vm, false, true, last, 0⟩, e10)
  else if q < 31 then (multipleOfPowerOf2_32 mv (q - 1)).bind fun b => some (⟨vr, vp, vm, false, b, last, 0⟩, e10)
  else some (⟨vr, vp, vm, false, false, last, 0⟩, e10)

theorem half_case {q i mv : Nat} (hi : 1 ≤ i) (h1 : 2 ^ q ∣ mv) (h2 : ¬2 ^ (q + 1) ∣ mv) :
    2 * (mv * 5 ^ i % 2 ^ (q + 1)) = 2 ^ (q + 1) ∧ (mv * 5 ^ i / 2 ^ (q + 1) % 10 = 2 ∨ mv * 5 ^ i / 2 ^ (q + 1) % 10 = 7) ∧
      10 * (mv * 5 ^ i) / 2 ^ (q + 1) % 10 = 5 := by
  obtain ⟨k, rfl⟩ := h1
  have hodd : k % 2 = 1 := by
    by_contra hc
    apply h2
    obtain ⟨l, hl⟩ : ∃ l, k = 2 * l := ⟨k / 2, by omega⟩
    exact ⟨l, by rw [hl, Nat.pow_succ]; ring⟩
  obtain ⟨t, ht⟩ : ∃ t, k * 5 ^ i = 10 * t + 5 := by
    obtain ⟨j, rfl⟩ : ∃ j, i = j + 1 := ⟨i - 1, by omega⟩
    have hj : (5 ^ j) % 2 = 1 := by rw [Nat.pow_mod]; simp
    have : (k * 5 ^ j) % 2 = 1 := by rw [Nat.mul_mod, hj, hodd]
    refine ⟨k * 5 ^ j / 2, ?_⟩
    rw [Nat.pow_succ, ← Nat.mul_assoc]
    generalize k * 5 ^ j = y at *
    omega
  have hp : 0 < 2 ^ q := Nat.two_pow_pos q
  have e1 : 2 ^ q * k * 5 ^ i = 2 ^ (q + 1) * (5 * t + 2) + 2 ^ q := by
    rw [Nat.mul_assoc, ht, Nat.pow_succ]; ring
  have e2 : 10 * (2 ^ q * k * 5 ^ i) = 2 ^ (q + 1) * (50 * t + 25) := by
    rw [Nat.mul_assoc, ht, Nat.pow_succ]; ring
  have h3 : 2 ^ q < 2 ^ (q + 1) := by rw [Nat.pow_succ]; omega
  rw [e2, e1, Nat.mul_add_mod, Nat.mod_eq_of_lt h3, Nat.mul_add_div (by omega), Nat.div_eq_of_lt h3, Nat.mul_div_cancel_left _ (by omega)]
  refine ⟨by rw [Nat.pow_succ]; ring, by omega, by omega⟩

theorem eight_of {q m : Nat} (hq : 2 ≤ q) (hd : 2 ^ (q + 1) ∣ m) : m % 8 = 0 := by
  have := Nat.dvd_trans (Nat.pow_dvd_pow 2 (show 3 ≤ q + 1 by omega)) hd
  norm_num at this
  exact Nat.mod_eq_zero_of_dvd this

theorem two_of {q m : Nat} (hd : 2 ^ (q + 1) ∣ m) : m % 2 = 0 := by
  have := Nat.dvd_trans (Nat.pow_dvd_pow 2 (show 1 ≤ q + 1 by omega)) hd
  norm_num at this
  exact Nat.mod_eq_zero_of_dvd this

theorem dvd_le1 {q m : Nat} (hq : q ≤ 1) (h : m % 2 = 0) : 2 ^ q ∣ m := by
  have h1 : 2 ^ q ∣ 2 ^ 1 := Nat.pow_dvd_pow 2 hq
  exact Nat.dvd_trans h1 (by rw [Nat.pow_one]; exact Nat.dvd_of_mod_eq_zero h)

theorem negTail_start {q i m2 mm mv mp sh : Nat} {e10 : Int} {acc : Bool} (hi : 1 ≤ i) (hND : 2 ^ q ≤ 5 ^ i)
    (hmt : Mant32 acc m2 mm mv mp sh)
    (hvp1 : 1 ≤ mp * 5 ^ i / 2 ^ q) (hbvp : mp * 5 ^ i / 2 ^ q < 900000000) (hbvm : mm * 5 ^ i / 2 ^ q < 900000000) :
    ∃ s, negTail q e10 mv sh acc (mv * 5 ^ i / 2 ^ q) (mp * 5 ^ i / 2 ^ q) (mm * 5 ^ i / 2 ^ q)
          (hiddenDigit q (mp * 5 ^ i / 2 ^ q) (mm * 5 ^ i / 2 ^ q) (10 * (mv * 5 ^ i) / 2 ^ q)) = some (s, e10) ∧
      Start acc (mm * 5 ^ i) (mv * 5 ^ i) (mp * 5 ^ i) (2 ^ q) s ∧ s.vp < 900000000 ∧ s.vm < 900000000 := by
  obtain ⟨b1, b2, b3, b4, b5, b6, b7⟩ := hmt.bnd
  have hmp' := hmt.hmp
  have hmv' := hmt.hmv
  have hmm' := hmt.hmm
  have hsh' := hmt.hsh
  have hpos := hmt.pos
  have hD : 0 < 2 ^ q := Nat.two_pow_pos q
  have hdv : ∀ m, 2 ^ q ∣ m * 5 ^ i ↔ 2 ^ q ∣ m := fun m => dvd2
  have hdv' : ∀ m, 2 ^ q * 10 ∣ m * 5 ^ i → 2 ^ (q + 1) ∣ m := fun m => dvd2'
  have hval : ∀ vp', (vp' = mp * 5 ^ i / 2 ^ q ∨ vp' = mp * 5 ^ i / 2 ^ q - 1) → vp' / 10 ≤ mm * 5 ^ i / 2 ^ q / 10 →
    hiddenDigit q (mp * 5 ^ i / 2 ^ q) (mm * 5 ^ i / 2 ^ q) (10 * (mv * 5 ^ i) / 2 ^ q) = 10 * (mv * 5 ^ i) / 2 ^ q % 10 :=
    fun vp' => hidden_val (fun h => by rw [h, Nat.pow_zero])
  have hzero : 2 ^ q ∣ mv * 5 ^ i → hiddenDigit q (mp * 5 ^ i / 2 ^ q) (mm * 5 ^ i / 2 ^ q) (10 * (mv * 5 ^ i) / 2 ^ q) = 0 := hidden_zero hD
  have hcase : ∀ x, hiddenDigit q (mp * 5 ^ i / 2 ^ q) (mm * 5 ^ i / 2 ^ q) x = 0 ∨
      hiddenDigit q (mp * 5 ^ i / 2 ^ q) (mm * 5 ^ i / 2 ^ q) x = x % 10 := by
    intro x; rw [hiddenDigit]; split
    · exact Or.inr rfl
    · exact Or.inl rfl
  have hcase := hcase (10 * (mv * 5 ^ i) / 2 ^ q)
  generalize hiddenDigit q (mp * 5 ^ i / 2 ^ q) (mm * 5 ^ i / 2 ^ q) (10 * (mv * 5 ^ i) / 2 ^ q) = hd at *
  unfold negTail
  by_cases h1 : q ≤ 1
  · have hv : 2 ^ q ∣ mv * 5 ^ i := (hdv mv).2 (dvd_le1 h1 (by omega))
    rw [if_pos h1]
    cases acc with
    | false =>
      rw [if_neg (by decide), sub32_of_le hvp1 (by omega)]
      exact ⟨_, rfl, mkStart (dec := true) hD hND b4 b5 b7 rfl rfl rfl (fun _ => ⟨rfl, (hdv mp).2 (dvd_le1 h1 (by omega))⟩) (by simp) (by simp)
        (by simp) (hval _ (Or.inr rfl)) (fun _ => Or.inl ⟨hv, hzero hv⟩) rfl, Nat.lt_of_le_of_lt (Nat.sub_le _ _) hbvp, hbvm⟩
    | true =>
      rw [if_pos rfl]
      refine ⟨_, rfl, mkStart (dec := false) hD hND b4 b5 b7 rfl rfl rfl (by simp) (fun _ => Or.inl rfl) (fun h => ⟨rfl, ?_⟩) (fun _ h => ?_)
        (hval _ (Or.inl rfl)) (fun _ => Or.inl ⟨hv, hzero hv⟩) rfl, hbvp, hbvm⟩
      · have h : sh = 1 := by simpa using h
        exact (hdv mm).2 (dvd_le1 h1 (by omega))
      · have := two_of (hdv' _ h)
        have : sh = 1 := by omega
        simp [this]
  · rw [if_neg h1]
    have hmp8 : ¬2 ^ q * 10 ∣ mp * 5 ^ i := by
      intro h
      have := eight_of (by omega) (hdv' _ h)
      omega
    have hmm8 : ¬2 ^ q * 10 ∣ mm * 5 ^ i := by
      intro h
      have := eight_of (by omega) (hdv' _ h)
      omega
    by_cases h31 : q < 31
    · rw [if_pos h31, mult2_32 (by omega), Option.bind_some]
      refine ⟨_, rfl, mkStart (dec := false) hD hND b4 b5 b7 rfl rfl rfl (by simp) (fun _ => Or.inr hmp8) (by simp)
        (fun _ h => absurd h hmm8) (hval _ (Or.inl rfl)) (fun h => ?_) rfl, hbvp, hbvm⟩
      have h := of_decide_eq_true h
      by_cases hq : 2 ^ q ∣ mv
      · exact Or.inl ⟨(hdv mv).2 hq, hzero ((hdv mv).2 hq)⟩
      · obtain ⟨q', rfl⟩ : ∃ q', q = q' + 1 := ⟨q - 1, by omega⟩
        rw [Nat.add_sub_cancel] at h
        obtain ⟨c1, c2, c3⟩ := half_case hi h hq
        rw [c3] at hcase
        exact Or.inr ⟨c1, c2, hcase⟩
    · rw [if_neg h31]
      exact ⟨_, rfl, mkStart (dec := false) hD hND b4 b5 b7 rfl rfl rfl (by simp) (fun _ => Or.inr hmp8) (by simp)
        (fun _ h => absurd h hmm8) (hval _ (Or.inl rfl)) (by simp) rfl, hbvp, hbvm⟩

theorem f2dNeg_run (p : Bool) {e q N D m2 mm mv mp sh : Nat} {acc : Bool} (hlog : log10Pow5 (e : Int) = some q) (hqe : q < e)
    (hi326 : e - q + 1 < 326)
    (hi1 : lg (e - q) + 1 ≤ q + 61) (hi2 : q ≠ 0 → lg (e - q + 1) + 1 ≤ q - 1 + 61)
    (hsc : Scale32 q N D (negC (e - q)) (q + 61 - (lg (e - q) + 1)) (negC (e - q + 1)) (q - 1 + 61 - (lg (e - q + 1) + 1)))
    (hmt : Mant32 acc m2 mm mv mp sh) (hvp1 : 1 ≤ mp * N / D) :
    f2dNeg p (-(e : Int)) mv mp mm sh acc =
      negTail q ((q : Int) + -(e : Int)) mv sh acc (mv * N / D) (mp * N / D) (mm * N / D) (hiddenDigit q (mp * N / D) (mm * N / D) (10 * (mv * N) / D)) := by
  obtain ⟨b1, b2, b3, b4, b5, b6, b7⟩ := hmt.bnd
  have hin : -(-(e : Int)) - (q : Int) = ((e - q : Nat) : Int) := by omega
  have hin2 : ((e - q : Nat) : Int) + 1 = ((e - q + 1 : Nat) : Int) := by omega
  have hshift : ((q : Int) - (((lg (e - q) + 1 : Nat) : Int) - floatPow5Bitcount)) = ((q + 61 - (lg (e - q) + 1) : Nat) : Int) := by
    rw [floatPow5Bitcount, powBitcount]; omega
  have hmul : ∀ m, m ≤ 67108864 → mulPow5divPow2 p m (e - q) ((q + 61 - (lg (e - q) + 1) : Nat) : Int) = some (m * N / D) := by
    intro m hm
    have hb := hsc.bound (m := m) (by norm_num; omega)
    have hx := hsc.exact m (by norm_num; omega)
    have := hsc.hi
    rw [mulPow_eq p (by omega) hsc.hC (by omega) (by omega) (by omega) (by rw [Int.toNat_natCast, hx]; omega), Int.toNat_natCast, hx]
  have hbvp := hsc.bound (m := mp) (by norm_num; omega)
  have hsub : sub32 (mp * N / D) 1 = mp * N / D - 1 := sub32_of_le hvp1 (by omega)
  rw [f2dNeg]
  simp only
  rw [Int.neg_neg] at hin
  rw [Int.neg_neg, hlog, some_bind, hin, hin2, Int.toNat_natCast, Int.toNat_natCast, lgNat (e - q) (by omega), some_bind]
  rw [hshift, hmul mv b1, some_bind, hmul mp b2, some_bind, hmul mm b3, some_bind]
  have hlast : (if q ≠ 0 ∧ sub32 (mp * N / D) 1 / 10 ≤ mm * N / D / 10 then do
      let pb ← pow5bits ((e - q + 1 : Nat) : Int)
      let x ← mulPow5divPow2 p mv (e - q + 1) ((q : Int) - 1 - (pb - floatPow5Bitcount))
      pure (x % 10)
    else pure 0) = some (hiddenDigit q (mp * N / D) (mm * N / D) (10 * (mv * N) / D)) := by
    rw [hiddenDigit, hsub]
    by_cases hc : q ≠ 0 ∧ (mp * N / D - 1) / 10 ≤ mm * N / D / 10
    · rw [if_pos hc, if_pos hc, lgNat (e - q + 1) (by omega), some_bind]
      have hi2 := hi2 hc.1
      have hi3 := hsc.hi' hc.1
      have hs : ((q : Int) - 1 - (((lg (e - q + 1) + 1 : Nat) : Int) - floatPow5Bitcount)) = ((q - 1 + 61 - (lg (e - q + 1) + 1) : Nat) : Int) := by
        rw [floatPow5Bitcount, powBitcount]; omega
      have hl := hsc.hidden_lt hmt hc.2
      rw [hs, mulPow_eq p (by omega) (hsc.hC' hc.1) (by omega) (by omega) (by omega)
        (by rw [Int.toNat_natCast, hsc.hidden hc.1 hmt]; exact hl), Int.toNat_natCast, hsc.hidden hc.1 hmt, some_bind]
      rfl
    · rw [if_neg hc, if_neg hc]; rfl
  rw [hlast, some_bind, negTail]
  rfl

theorem f2dNeg_start (p : Bool) {e m2 mm mv mp sh : Nat} {acc : Bool} (he0 : 0 < e) (he : e < 152) (hmt : Mant32 acc m2 mm mv mp sh) :
    ∃ q s, q < e ∧ f2dNeg p (-(e : Int)) mv mp mm sh acc = some (s, (q : Int) + -(e : Int)) ∧
      Start acc (mm * 5 ^ (e - q)) (mv * 5 ^ (e - q)) (mp * 5 ^ (e - q)) (2 ^ q) s ∧ s.vp < 900000000 ∧ s.vm < 900000000 := by
  have hchk := allBelow_sound negChk32_all e he
  simp only [negChk32, force_eq, Bool.and_eq_true, Bool.or_eq_true, Nat.ble_eq, Nat.blt_eq, Nat.beq_eq] at hchk
  obtain ⟨⟨⟨⟨hqe, hi326⟩, hi1⟩, hi2⟩, hsc⟩ := hchk.resolve_left (by omega)
  have hsc := scaleChk32_sound hsc
  have hlog : log10Pow5 (e : Int) = some (negQ e) := by
    rw [(log10Pow5_val (e := (e : Int)) (by omega) (by omega)).1, Int.toNat_natCast, negQ]
  obtain ⟨b1, b2, b3, b4, b5, b6, b7⟩ := hmt.bnd
  refine ⟨negQ e, ?_⟩
  generalize negQ e = q at *
  have hvp1 : 1 ≤ mp * 5 ^ (e - q) / 2 ^ q := by
    rw [Nat.le_div_iff_mul_le hsc.hD, Nat.one_mul]
    exact Nat.le_trans hsc.hND (Nat.le_mul_of_pos_left _ (by omega))
  have hbvp := hsc.bound (m := mp) (by norm_num; omega)
  have hbvm := hsc.bound (m := mm) (by norm_num; omega)
  obtain ⟨s, h1, h2, h3⟩ := negTail_start (e10 := (q : Int) + -(e : Int)) (by omega) hsc.hND hmt hvp1 (by omega) (by omega)
  exact ⟨s, hqe, by rw [f2dNeg_run p hlog hqe hi326 hi1 (fun h => hi2.resolve_left h) hsc hmt hvp1, h1], h2, h3⟩

end Nanostl.Ryu

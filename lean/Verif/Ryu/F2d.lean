import Verif.Ryu.F2dScale

/-!
Step 3 of `f2d` computes the scaled interval exactly.
-/

namespace Nanostl.Ryu

theorem last_dvd {v D : Nat} (hD : 0 < D) (h : D ∣ v) : 10 * v / D % 10 = 0 := by
  obtain ⟨k, rfl⟩ := h
  rw [show 10 * (D * k) = D * (10 * k) by ring, Nat.mul_div_cancel_left _ hD]
  omega

/-- The hidden digit as the code computes it. -/
def hiddenDigit (q vp vm x : Nat) : Nat := if q ≠ 0 ∧ (vp - 1) / 10 ≤ vm / 10 then x % 10 else 0

theorem hidden_zero {q vp vm v D : Nat} (hD : 0 < D) (h : D ∣ v) : hiddenDigit q vp vm (10 * v / D) = 0 := by
  rw [hiddenDigit, last_dvd hD h]
  split <;> rfl

theorem hidden_val {q vp vm v D vp' : Nat} (hq : q = 0 → D = 1) (h1 : vp' = vp ∨ vp' = vp - 1) (h2 : vp' / 10 ≤ vm / 10) :
    hiddenDigit q vp vm (10 * v / D) = 10 * v / D % 10 := by
  rw [hiddenDigit]
  by_cases hq0 : q = 0
  · rw [if_neg (by omega), hq hq0, Nat.div_one]; omega
  · rw [if_pos ⟨hq0, by omega⟩]

/-- The part of `f2dPos` after the products. -/
def posTail (q mv mp mm : Nat) (acc : Bool) (vr vp vm last : Nat) : Option (Red × Int) :=
  if q ≤ 9 then
    if mv % 5 = 0 then (multipleOfPowerOf5_32 mv q).bind fun b => some (⟨vr, vp, vm, false, b, last, 0⟩, (q : Int))
    else if acc then (multipleOfPowerOf5_32 mm q).bind fun b => some (⟨vr, vp, vm, b, false, last, 0⟩, (q : Int))
    else (multipleOfPowerOf5_32 mp q).bind fun b => some (⟨vr, sub32 vp (if b then 1 else 0), vm, false, false, last, 0⟩, (q : Int))
  else some (⟨vr, vp, vm, false, false, last, 0⟩, (q : Int))

theorem Mant32.bnd {acc : Bool} {m2 mm mv mp sh : Nat} (h : Mant32 acc m2 mm mv mp sh) :
    mv ≤ 67108864 ∧ mp ≤ 67108864 ∧ mm ≤ 67108864 ∧ 0 < mm ∧ mm < mv ∧ mv < mp ∧ 2 * mv ≤ mm + mp := by
  have := h.hmv; have := h.hmp; have := h.hmm; have := h.lt; have := h.pos; have := h.hsh
  omega

theorem big32a {q : Nat} (h10 : 10 ≤ q) : 48828125 ∣ 5 ^ (q + 1) := by
  rw [show q + 1 = 11 + (q - 10) by omega, Nat.pow_add, show (5 : Nat) ^ 11 = 48828125 by norm_num]
  exact Nat.dvd_mul_right _ _

theorem big32b {m k : Nat} (h : m = 48828125 * k) (hm0 : 0 < m) (hm : m ≤ 67108864) (hev : m % 2 = 0) : False := by
  omega

theorem big32 {q m : Nat} (h10 : 10 ≤ q) (hd : 5 ^ (q + 1) ∣ m) (hm0 : 0 < m) (hm : m ≤ 67108864) (hev : m % 2 = 0) : False :=
  (Nat.dvd_trans (big32a h10) hd).elim fun _ h => big32b h hm0 hm hev

theorem five_of {q m : Nat} (hd : 5 ^ (q + 1) ∣ m) : m % 5 = 0 := by
  have := Nat.dvd_trans (Nat.pow_dvd_pow 5 (show 1 ≤ q + 1 by omega)) hd
  omega

theorem pow5_down {q m : Nat} (hd : 5 ^ (q + 1) ∣ m) : 5 ^ q ∣ m := Nat.dvd_trans (Nat.pow_dvd_pow 5 (by omega)) hd

theorem posTail_start {q N D m2 mm mv mp sh : Nat} {acc : Bool} (hD : 0 < D) (hND : D ≤ N) (hq0 : q = 0 → D = 1)
    (hdv : ∀ m, D ∣ m * N ↔ 5 ^ q ∣ m) (hdv' : ∀ m, D * 10 ∣ m * N → 5 ^ (q + 1) ∣ m) (hm2 : 8388608 ≤ m2) (hmt : Mant32 acc m2 mm mv mp sh)
    (hvp1 : 1 ≤ mp * N / D) (hbvp : mp * N / D < 900000000) (hbvm : mm * N / D < 900000000) :
    ∃ s, posTail q mv mp mm acc (mv * N / D) (mp * N / D) (mm * N / D) (hiddenDigit q (mp * N / D) (mm * N / D) (10 * (mv * N) / D)) =
        some (s, (q : Int)) ∧
      Start acc (mm * N) (mv * N) (mp * N) D s ∧ s.vp < 900000000 ∧ s.vm < 900000000 := by
  obtain ⟨b1, b2, b3, b4, b5, b6, b7⟩ := hmt.bnd
  have hmp' := hmt.hmp
  have hmv' := hmt.hmv
  have hmm' := hmt.hmm
  have hsh' := hmt.hsh
  have hval : ∀ vp', (vp' = mp * N / D ∨ vp' = mp * N / D - 1) → vp' / 10 ≤ mm * N / D / 10 →
    hiddenDigit q (mp * N / D) (mm * N / D) (10 * (mv * N) / D) = 10 * (mv * N) / D % 10 := fun vp' => hidden_val hq0
  have hzero : D ∣ mv * N → hiddenDigit q (mp * N / D) (mm * N / D) (10 * (mv * N) / D) = 0 := hidden_zero hD
  generalize hiddenDigit q (mp * N / D) (mm * N / D) (10 * (mv * N) / D) = hd at *
  unfold posTail
  by_cases h9 : q ≤ 9
  · rw [if_pos h9]
    by_cases h5 : mv % 5 = 0
    · rw [if_pos h5, mult5_32 (by omega) (by omega)]
      refine ⟨_, rfl, mkStart (dec := false) hD hND b4 b5 b7 rfl rfl rfl (by simp) (fun _ => Or.inr fun h => ?_) (by simp) (fun _ h => ?_)
        (hval _ (Or.inl rfl)) (fun h => ?_) rfl, hbvp, hbvm⟩
      · have := five_of (hdv' _ h)
        omega
      · have := five_of (hdv' _ h)
        omega
      · have h := (hdv mv).2 (of_decide_eq_true h)
        exact Or.inl ⟨h, hzero h⟩
    · rw [if_neg h5]
      cases acc with
      | false =>
        rw [if_neg (by decide), mult5_32 (by omega) (by omega), Option.bind_some]
        have hsub2 : ∀ b : Bool, sub32 (mp * N / D) (if b then 1 else 0) = mp * N / D - (if b then 1 else 0) := by
          intro b
          cases b
          · exact sub32_of_le (by simp) (by omega)
          · exact sub32_of_le (by simpa using hvp1) (by omega)
        rw [hsub2]
        refine ⟨_, rfl, mkStart (dec := decide (5 ^ q ∣ mp)) hD hND b4 b5 b7 rfl rfl rfl (fun h => ⟨rfl, (hdv mp).2 (of_decide_eq_true h)⟩)
          (fun h => Or.inr fun h' => of_decide_eq_false h (pow5_down (hdv' _ h'))) (by simp) (by simp) (hval _ ?_) (by simp) rfl,
          Nat.lt_of_le_of_lt (Nat.sub_le _ _) hbvp, hbvm⟩
        cases decide (5 ^ q ∣ mp)
        · exact Or.inl rfl
        · exact Or.inr rfl
      | true =>
        rw [if_pos rfl, mult5_32 (by omega) (by omega), Option.bind_some]
        exact ⟨_, rfl, mkStart (dec := false) hD hND b4 b5 b7 rfl rfl rfl (by simp) (fun _ => Or.inl rfl)
          (fun h => ⟨rfl, (hdv mm).2 (of_decide_eq_true h)⟩) (fun _ h => decide_eq_true (pow5_down (hdv' _ h)))
          (hval _ (Or.inl rfl)) (by simp) rfl, hbvp, hbvm⟩
  · rw [if_neg h9]
    refine ⟨_, rfl, mkStart (dec := false) hD hND b4 b5 b7 rfl rfl rfl (by simp) (fun _ => Or.inr fun h => ?_) (by simp) (fun _ h => ?_)
      (hval _ (Or.inl rfl)) (by simp) rfl, hbvp, hbvm⟩
    · exact big32 (by omega) (hdv' _ h) (by omega) b2 (by omega)
    · exfalso
      rcases hsh' with h1 | ⟨h1, h2⟩
      · exact big32 (by omega) (hdv' _ h) (by omega) b3 (by omega)
      · have := five_of (hdv' _ h)
        omega

theorem lgNat : ∀ k : Nat, k < 342 → pow5bits (k : Int) = some ((lg k + 1 : Nat) : Int) := by
  intro k hk
  rw [pow5bits_val (by omega) (by omega), Int.toNat_natCast, lg]

theorem f2dPos_run (p : Bool) {e q N D m2 mm mv mp sh : Nat} {acc : Bool} (he : e < 103) (hlog : log10Pow2 (e : Int) = some q) (hq342 : q < 342)
    (hi1 : e ≤ q + 61 + lg q) (hi2 : q ≠ 0 → e ≤ q - 1 + 61 + lg (q - 1))
    (hsc : Scale32 q N D (posC q) (q + 61 + lg q - e) (posC (q - 1)) (q - 1 + 61 + lg (q - 1) - e)) (hmt : Mant32 acc m2 mm mv mp sh)
    (hvp1 : 1 ≤ mp * N / D) :
    f2dPos p (e : Int) mv mp mm acc =
      posTail q mv mp mm acc (mv * N / D) (mp * N / D) (mm * N / D) (hiddenDigit q (mp * N / D) (mm * N / D) (10 * (mv * N) / D)) := by
  obtain ⟨b1, b2, b3, b4, b5, b6, b7⟩ := hmt.bnd
  have hshift : (-(e : Int) + (q : Int) + (floatPow5InvBitcount + ((lg q + 1 : Nat) : Int) - 1)) = ((q + 61 + lg q - e : Nat) : Int) := by
    rw [floatPow5InvBitcount, invBitcount]; omega
  have hmul : ∀ m, m ≤ 67108864 → mulPow5InvDivPow2 p m q ((q + 61 + lg q - e : Nat) : Int) = some (m * N / D) := by
    intro m hm
    have hb := hsc.bound (m := m) (by norm_num; omega)
    have hx := hsc.exact m (by norm_num; omega)
    have := hsc.hi
    rw [mulInv_eq p hq342 hsc.hC (by omega) (by omega) (by omega) (by rw [Int.toNat_natCast, hx]; omega), Int.toNat_natCast, hx]
  have hbvp := hsc.bound (m := mp) (by norm_num; omega)
  have hsub : sub32 (mp * N / D) 1 = mp * N / D - 1 := sub32_of_le hvp1 (by omega)
  rw [f2dPos, hlog, some_bind, lgNat q hq342, some_bind]
  simp only
  rw [hshift, hmul mv b1, some_bind, hmul mp b2, some_bind, hmul mm b3, some_bind, hsub]
  have hlast : (if q ≠ 0 ∧ (mp * N / D - 1) / 10 ≤ mm * N / D / 10 then do
      let pb ← pow5bits ((q - 1 : Nat) : Int)
      let x ← mulPow5InvDivPow2 p mv (q - 1) (-(e : Int) + q - 1 + (floatPow5InvBitcount + pb - 1))
      pure (x % 10)
    else pure 0) = some (hiddenDigit q (mp * N / D) (mm * N / D) (10 * (mv * N) / D)) := by
    rw [hiddenDigit]
    by_cases hc : q ≠ 0 ∧ (mp * N / D - 1) / 10 ≤ mm * N / D / 10
    · rw [if_pos hc, if_pos hc, lgNat (q - 1) (by omega), some_bind]
      have hi2 := hi2 hc.1
      have hi3 := hsc.hi' hc.1
      have hs : (-(e : Int) + q - 1 + (floatPow5InvBitcount + ((lg (q - 1) + 1 : Nat) : Int) - 1)) = ((q - 1 + 61 + lg (q - 1) - e : Nat) : Int) := by
        rw [floatPow5InvBitcount, invBitcount]; omega
      have hl := hsc.hidden_lt hmt hc.2
      rw [hs, mulInv_eq p (by omega) (hsc.hC' hc.1) (by omega) (by omega) (by omega)
        (by rw [Int.toNat_natCast, hsc.hidden hc.1 hmt]; exact hl), Int.toNat_natCast, hsc.hidden hc.1 hmt, some_bind]
      rfl
    · rw [if_neg hc, if_neg hc]; rfl
  rw [hlast, some_bind, posTail]
  rfl

theorem f2dPos_start (p : Bool) {e m2 mm mv mp sh : Nat} {acc : Bool} (he : e < 103) (hm2 : 8388608 ≤ m2) (hmt : Mant32 acc m2 mm mv mp sh) :
    ∃ q s, q ≤ e ∧ f2dPos p (e : Int) mv mp mm acc = some (s, (q : Int)) ∧
      Start acc (mm * 2 ^ (e - q)) (mv * 2 ^ (e - q)) (mp * 2 ^ (e - q)) (5 ^ q) s ∧ s.vp < 900000000 ∧ s.vm < 900000000 := by
  have hchk := allBelow_sound posChk32_all e he
  simp only [posChk32, force_eq, Bool.and_eq_true, Bool.or_eq_true, Nat.ble_eq, Nat.blt_eq, Nat.beq_eq] at hchk
  obtain ⟨⟨⟨⟨hqe, hq342⟩, hi1⟩, hi2⟩, hsc⟩ := hchk
  have hsc := scaleChk32_sound hsc
  have hlog : log10Pow2 (e : Int) = some (posQ e) := by
    rw [(log10Pow2_val (e := (e : Int)) (by omega) (by omega)).1, Int.toNat_natCast, posQ]
  obtain ⟨X, hX⟩ : ∃ X, X = 5 ^ posQ e := ⟨_, rfl⟩
  have hd1 : ∀ m, 5 ^ posQ e ∣ m * 2 ^ (e - posQ e) ↔ X ∣ m := fun m => by rw [hX]; exact dvd5
  have hd2 : ∀ m, 5 ^ posQ e * 10 ∣ m * 2 ^ (e - posQ e) → 5 ^ (posQ e + 1) ∣ m := fun m => dvd5'
  have hd3 : posQ e = 0 → 5 ^ posQ e = 1 := fun h => by rw [h, Nat.pow_zero]
  refine ⟨posQ e, ?_⟩
  generalize 2 ^ (e - posQ e) = N at *
  generalize hDd : 5 ^ posQ e = D at *
  rw [← hDd] at hX
  subst hX
  generalize posQ e = q at *
  obtain ⟨b1, b2, b3, b4, b5, b6, b7⟩ := hmt.bnd
  have hvp1 : 1 ≤ mp * N / D := by
    rw [Nat.le_div_iff_mul_le hsc.hD, Nat.one_mul]
    exact Nat.le_trans hsc.hND (Nat.le_mul_of_pos_left _ (by omega))
  have hbvp := hsc.bound (m := mp) (by norm_num; omega)
  have hbvm := hsc.bound (m := mm) (by norm_num; omega)
  obtain ⟨s, h1, h2, h3⟩ := posTail_start hsc.hD hsc.hND hd3 hd1 hd2 hm2 hmt hvp1 (by omega) (by omega)
  exact ⟨s, hqe, by rw [f2dPos_run p he hlog hq342 hi1 (fun h => hi2.resolve_left h) hsc hmt hvp1, h1], h2, h3⟩

end Nanostl.Ryu

import Verif.Ryu.D2dScale

/-!
Step 3 of `d2d` computes the scaled interval exactly.
-/

namespace Nanostl.Ryu

theorem pow5loop64_spec (p : Bool) : ∀ f v c, 0 < v → v < 5 ^ f → v < 18446744073709551616 →
    ∃ k, pow5FactorLoop p f v c = some (c + k) ∧ 5 ^ k ∣ v ∧ ¬5 ^ (k + 1) ∣ v := by
  intro f
  induction f with
  | zero => intro v c h1 h2; rw [Nat.pow_zero] at h2; omega
  | succ f ih =>
    intro v c h1 h2 h3
    rw [pow5FactorLoop, chk_pos (by omega), some_bind]
    simp only
    rw [mod5_eq p h3, div5_eq p h3]
    by_cases hr : v % 5 = 0
    · rw [if_neg (by omega)]
      obtain ⟨k, e, hk1, hk2⟩ := ih (v / 5) (c + 1) (by omega) (by rw [Nat.pow_succ] at h2; omega) (by omega)
      obtain ⟨w, hw⟩ : 5 ∣ v := Nat.dvd_of_mod_eq_zero hr
      subst hw
      rw [Nat.mul_div_cancel_left _ (by decide)] at e hk1 hk2
      refine ⟨k + 1, by rw [Nat.mul_div_cancel_left _ (by decide), e]; congr 1; omega, ?_, ?_⟩
      · rw [Nat.pow_succ, Nat.mul_comm]; exact Nat.mul_dvd_mul_left 5 hk1
      · rw [Nat.pow_succ, Nat.mul_comm]
        intro h; exact hk2 (Nat.dvd_of_mul_dvd_mul_left (by decide) h)
    · rw [if_pos hr]
      refine ⟨0, rfl, by simp, ?_⟩
      intro h
      rw [Nat.zero_add, Nat.pow_one] at h
      omega

theorem mult5_64 (p : Bool) {v q : Nat} (h1 : 0 < v) (h2 : v < 18446744073709551616) : multipleOfPowerOf5 p v q = some (decide (5 ^ q ∣ v)) := by
  obtain ⟨k, e, hk1, hk2⟩ := pow5loop64_spec p 64 v 0 h1 (Nat.lt_of_lt_of_le h2 (by norm_num)) h2
  rw [multipleOfPowerOf5, pow5Factor, e, some_bind]
  show some _ = some _
  congr 1
  apply decide_eq_decide.mpr
  rw [Nat.zero_add]
  constructor
  · intro h; exact Nat.dvd_trans (Nat.pow_dvd_pow 5 h) hk1
  · intro h
    by_contra hcon
    exact hk2 (Nat.dvd_trans (Nat.pow_dvd_pow 5 (by omega)) h)

theorem mult2_64 {v p : Nat} (h0 : v ≠ 0) (h : p < 64) : multipleOfPowerOf2 v p = some (decide (2 ^ p ∣ v)) := by
  rw [multipleOfPowerOf2, chk_pos h0, some_bind, chk_pos h, some_bind, w64, Nat.shiftLeft_eq, Nat.one_mul,
    Nat.mod_eq_of_lt (Nat.pow_lt_pow_right (by decide) h), and_mask]
  rfl

/-- Significand of a double. -/
structure Mant64 (acc : Bool) (m2 : Nat) (sh : Nat) : Prop where
  pos : 0 < m2
  lt : m2 < 9007199254740992
  hsh : sh = 1 ∨ (sh = 0 ∧ m2 = 4503599627370496)
  hacc : acc = decide (m2 % 2 = 0)

/-- No hidden digit is needed. -/
theorem last64 {q N D mm mp vN vp : Nat} (hD : 0 < D) (hq0 : q = 0 → D = 1) (h10 : q ≠ 0 → 10 * D ≤ N) (hmp : mm + 3 ≤ mp)
    (hvp : mp * N / D - 1 ≤ vp) (h : vp / 10 ≤ mm * N / D / 10) : 0 = 10 * vN / D % 10 := by
  by_cases hq : q = 0
  · rw [hq0 hq, Nat.div_one]; omega
  · exfalso
    have h1 : (mm * N + 3 * (10 * D)) / D ≤ mp * N / D := by
      refine Nat.div_le_div_right ?_
      calc mm * N + 3 * (10 * D) ≤ mm * N + 3 * N := by have := h10 hq; omega
        _ = (mm + 3) * N := by ring
        _ ≤ mp * N := Nat.mul_le_mul_right _ hmp
    rw [show mm * N + 3 * (10 * D) = mm * N + 30 * D by ring, Nat.add_mul_div_right _ _ hD] at h1
    omega

theorem big64a {q : Nat} (h : 22 ≤ q) : 11920928955078125 ∣ 5 ^ (q + 1) := by
  rw [show q + 1 = 23 + (q - 22) by omega, Nat.pow_add, show (5 : Nat) ^ 23 = 11920928955078125 by norm_num]
  exact Nat.dvd_mul_right _ _

theorem k_lt {x k : Nat} (h : x = 11920928955078125 * k) (h1 : x < 36028797018963968) : k = 0 ∨ k = 1 ∨ k = 2 ∨ k = 3 := by
  by_contra hc
  have : 11920928955078125 * 4 ≤ 11920928955078125 * k := Nat.mul_le_mul_left _ (by omega)
  omega

theorem odd64b {m2 P k : Nat} (hP : P % 4 = 1) (hk : k = 0 ∨ k = 1 ∨ k = 2 ∨ k = 3) (h : 4 * m2 - 2 = P * k) (h0 : 0 < m2) (h2 : m2 % 2 = 0) :
    False := by
  rcases hk with rfl | rfl | rfl | rfl <;> omega

theorem odd64c {m2 P k : Nat} (hP : P % 4 = 1) (hk : k = 0 ∨ k = 1 ∨ k = 2 ∨ k = 3) (h : 4 * m2 + 2 = P * k) (h2 : m2 % 2 = 1) : False := by
  rcases hk with rfl | rfl | rfl | rfl <;> omega

theorem big64b {q m2 : Nat} (hq : 22 ≤ q) (h : 5 ^ (q + 1) ∣ 4 * m2 - 2) (h0 : 0 < m2) (h1 : m2 < 9007199254740992) (h2 : m2 % 2 = 0) : False :=
  (Nat.dvd_trans (big64a hq) h).elim fun _ hk => odd64b (by norm_num) (k_lt hk (Nat.lt_of_le_of_lt (Nat.sub_le _ _) (by omega))) hk h0 h2

theorem big64c {q m2 : Nat} (hq : 22 ≤ q) (h : 5 ^ (q + 1) ∣ 4 * m2 + 2) (h1 : m2 < 9007199254740992) (h2 : m2 % 2 = 1) : False :=
  (Nat.dvd_trans (big64a hq) h).elim fun _ hk => odd64c (by norm_num) (k_lt hk (by clear hk; omega)) hk h2

/-- The part of `d2dPos` after the products. -/
def posTail64 (p : Bool) (q mv mmShift : Nat) (acc : Bool) (vr vp vm : Nat) : Option (Red × Int) :=
  if q ≤ 21 then
    if sub32 (w32 mv) (w32 (5 * w32 (div5 p mv))) = 0 then
      (multipleOfPowerOf5 p mv q).bind fun b => some (⟨vr, vp, vm, false, b, 0, 0⟩, (q : Int))
    else if acc then (multipleOfPowerOf5 p (sub64 (sub64 mv 1) mmShift) q).bind fun b => some (⟨vr, vp, vm, b, false, 0, 0⟩, (q : Int))
    else (multipleOfPowerOf5 p (w64 (mv + 2)) q).bind fun b => some (⟨vr, sub64 vp (if b then 1 else 0), vm, false, false, 0, 0⟩, (q : Int))
  else some (⟨vr, vp, vm, false, false, 0, 0⟩, (q : Int))

theorem posTail64_start (p : Bool) {q N D m2 sh : Nat} {acc : Bool} (hD : 0 < D) (hND : D ≤ N) (hq0 : q = 0 → D = 1)
    (hN10 : q ≠ 0 → 10 * D ≤ N) (hdv : ∀ m, D ∣ m * N ↔ 5 ^ q ∣ m) (hdv' : ∀ m, D * 10 ∣ m * N → 5 ^ (q + 1) ∣ m)
    (hmt : Mant64 acc m2 sh)
    (hvp1 : 1 ≤ (4 * m2 + 2) * N / D) (hbvp : (4 * m2 + 2) * N / D < 9223372036854775808) (hbvm : (4 * m2 - 1 - sh) * N / D < 9223372036854775808)
    (hbvr : 4 * m2 * N / D < 9223372036854775808) :
    ∃ s, posTail64 p q (4 * m2) sh acc (4 * m2 * N / D) ((4 * m2 + 2) * N / D) ((4 * m2 - 1 - sh) * N / D) = some (s, (q : Int)) ∧
      Start acc ((4 * m2 - 1 - sh) * N) (4 * m2 * N) ((4 * m2 + 2) * N) D s ∧ s.vp < 9223372036854775808 ∧ s.vm < 9223372036854775808 ∧
      s.vr < 9223372036854775808 ∧ s.last = 0 := by
  have hpos := hmt.pos
  have hlt := hmt.lt
  have hsh := hmt.hsh
  have hacc := hmt.hacc
  have b4 : 0 < 4 * m2 - 1 - sh := by omega
  have b5 : 4 * m2 - 1 - sh < 4 * m2 := by omega
  have b7 : 2 * (4 * m2) ≤ 4 * m2 - 1 - sh + (4 * m2 + 2) := by omega
  have hval : ∀ vp', (vp' = (4 * m2 + 2) * N / D ∨ vp' = (4 * m2 + 2) * N / D - 1) → vp' / 10 ≤ (4 * m2 - 1 - sh) * N / D / 10 →
    0 = 10 * (4 * m2 * N) / D % 10 := fun vp' h =>
    last64 (mm := 4 * m2 - 1 - sh) (mp := 4 * m2 + 2) hD hq0 hN10 (by omega) (by omega)
  unfold posTail64
  by_cases h9 : q ≤ 21
  · rw [if_pos h9, mod5_eq p (by unfold W64; omega)]
    by_cases h5 : 4 * m2 % 5 = 0
    · rw [if_pos h5, mult5_64 p (by omega) (by omega)]
      refine ⟨_, rfl, mkStart (dec := false) hD hND b4 b5 b7 rfl rfl rfl (by simp) (fun _ => Or.inr fun h => ?_) (by simp) (fun _ h => ?_)
        (hval _ (Or.inl rfl)) (fun h => ?_) rfl, hbvp, hbvm, hbvr, rfl⟩
      · have := five_of (hdv' _ h)
        omega
      · have := five_of (hdv' _ h)
        omega
      · exact Or.inl ⟨(hdv _).2 (of_decide_eq_true h), rfl⟩
    · rw [if_neg h5]
      cases acc with
      | false =>
        rw [if_neg (by decide), w64_of_lt (by omega), mult5_64 p (by omega) (by omega), Option.bind_some]
        have hsub2 : ∀ b : Bool, sub64 ((4 * m2 + 2) * N / D) (if b then 1 else 0) = (4 * m2 + 2) * N / D - (if b then 1 else 0) := by
          intro b
          cases b
          · exact sub64_of_le (by simp) (by omega)
          · exact sub64_of_le (by simpa using hvp1) (by omega)
        rw [hsub2]
        refine ⟨_, rfl, mkStart (dec := decide (5 ^ q ∣ 4 * m2 + 2)) hD hND b4 b5 b7 rfl rfl rfl (fun h => ⟨rfl, (hdv _).2 (of_decide_eq_true h)⟩)
          (fun h => Or.inr fun h' => of_decide_eq_false h (pow5_down (hdv' _ h'))) (by simp) (by simp) (hval _ ?_) (by simp) rfl,
          Nat.lt_of_le_of_lt (Nat.sub_le _ _) hbvp, hbvm, hbvr, rfl⟩
        cases decide (5 ^ q ∣ 4 * m2 + 2)
        · exact Or.inl rfl
        · exact Or.inr rfl
      | true =>
        rw [if_pos rfl, sub64_of_le (x := 4 * m2) (by omega) (by omega), sub64_of_le (by omega) (by omega), mult5_64 p (by omega) (by omega), Option.bind_some]
        exact ⟨_, rfl, mkStart (dec := false) hD hND b4 b5 b7 rfl rfl rfl (by simp) (fun _ => Or.inl rfl)
          (fun h => ⟨rfl, (hdv _).2 (of_decide_eq_true h)⟩) (fun _ h => decide_eq_true (pow5_down (hdv' _ h)))
          (hval _ (Or.inl rfl)) (by simp) rfl, hbvp, hbvm, hbvr, rfl⟩
  · rw [if_neg h9]
    refine ⟨_, rfl, mkStart (dec := false) hD hND b4 b5 b7 rfl rfl rfl (by simp) (fun _ => ?_) (by simp) (fun ha h => ?_)
      (hval _ (Or.inl rfl)) (by simp) rfl, hbvp, hbvm, hbvr, rfl⟩
    · by_cases hev : m2 % 2 = 0
      · exact Or.inl (by rw [hacc, decide_eq_true hev])
      · exact Or.inr fun h => big64c (Nat.lt_of_not_le h9) (hdv' _ h) hlt ((Nat.mod_two_eq_zero_or_one m2).resolve_left hev)
    · exfalso
      have hev : m2 % 2 = 0 := by rw [hacc] at ha; exact of_decide_eq_true ha
      have h := hdv' _ h
      rcases hsh with h1 | ⟨h1, h2⟩
      · subst h1
        exact big64b (Nat.lt_of_not_le h9) h hpos hlt hev
      · have h5 := five_of h
        clear * - h5 h1 h2
        subst h1 h2
        exact absurd h5 (by decide)

/-- The part of `d2dNeg` after the products. -/
def negTail64 (q : Nat) (e10 : Int) (mv mmShift : Nat) (acc : Bool) (vr vp vm : Nat) : Option (Red × Int) :=
  if q ≤ 1 then
    if acc then some (⟨vr, vp, vm, mmShift == 1, true, 0, 0⟩, e10)
    else some (⟨vr, sub64 vp 1, vm, false, true, 0, 0⟩, e10)
  else if q < 63 then (multipleOfPowerOf2 mv q).bind fun b => some (⟨vr, vp, vm, false, b, 0, 0⟩, e10)
  else some (⟨vr, vp, vm, false, false, 0, 0⟩, e10)

theorem negTail64_start {q i m2 sh : Nat} {e10 : Int} {acc : Bool} (hND : 2 ^ q ≤ 5 ^ i) (hN10 : q ≠ 0 → 10 * 2 ^ q ≤ 5 ^ i)
    (hmt : Mant64 acc m2 sh)
    (hvp1 : 1 ≤ (4 * m2 + 2) * 5 ^ i / 2 ^ q) (hbvp : (4 * m2 + 2) * 5 ^ i / 2 ^ q < 9223372036854775808)
    (hbvm : (4 * m2 - 1 - sh) * 5 ^ i / 2 ^ q < 9223372036854775808) (hbvr : 4 * m2 * 5 ^ i / 2 ^ q < 9223372036854775808) :
    ∃ s, negTail64 q e10 (4 * m2) sh acc (4 * m2 * 5 ^ i / 2 ^ q) ((4 * m2 + 2) * 5 ^ i / 2 ^ q) ((4 * m2 - 1 - sh) * 5 ^ i / 2 ^ q) = some (s, e10) ∧
      Start acc ((4 * m2 - 1 - sh) * 5 ^ i) (4 * m2 * 5 ^ i) ((4 * m2 + 2) * 5 ^ i) (2 ^ q) s ∧ s.vp < 9223372036854775808 ∧
      s.vm < 9223372036854775808 ∧ s.vr < 9223372036854775808 ∧ s.last = 0 := by
  have hpos := hmt.pos
  have hlt := hmt.lt
  have hsh := hmt.hsh
  have b4 : 0 < 4 * m2 - 1 - sh := by omega
  have b5 : 4 * m2 - 1 - sh < 4 * m2 := by omega
  have b7 : 2 * (4 * m2) ≤ 4 * m2 - 1 - sh + (4 * m2 + 2) := by omega
  have hD : 0 < 2 ^ q := Nat.two_pow_pos q
  have hdv : ∀ m, 2 ^ q ∣ m * 5 ^ i ↔ 2 ^ q ∣ m := fun m => dvd2
  have hdv' : ∀ m, 2 ^ q * 10 ∣ m * 5 ^ i → 2 ^ (q + 1) ∣ m := fun m => dvd2'
  have hval : ∀ vp', (vp' = (4 * m2 + 2) * 5 ^ i / 2 ^ q ∨ vp' = (4 * m2 + 2) * 5 ^ i / 2 ^ q - 1) →
    vp' / 10 ≤ (4 * m2 - 1 - sh) * 5 ^ i / 2 ^ q / 10 → 0 = 10 * (4 * m2 * 5 ^ i) / 2 ^ q % 10 := fun vp' h =>
    last64 (mm := 4 * m2 - 1 - sh) (mp := 4 * m2 + 2) hD (fun h => by rw [h, Nat.pow_zero]) hN10 (by omega) (by omega)
  unfold negTail64
  by_cases h1 : q ≤ 1
  · have hv : 2 ^ q ∣ 4 * m2 * 5 ^ i := (hdv _).2 (dvd_le1 h1 (by omega))
    rw [if_pos h1]
    cases acc with
    | false =>
      rw [if_neg (by decide), sub64_of_le hvp1 (by omega)]
      exact ⟨_, rfl, mkStart (dec := true) hD hND b4 b5 b7 rfl rfl rfl (fun _ => ⟨rfl, (hdv _).2 (dvd_le1 h1 (by omega))⟩) (by simp) (by simp)
        (by simp) (hval _ (Or.inr rfl)) (fun _ => Or.inl ⟨hv, rfl⟩) rfl, Nat.lt_of_le_of_lt (Nat.sub_le _ _) hbvp, hbvm, hbvr, rfl⟩
    | true =>
      rw [if_pos rfl]
      refine ⟨_, rfl, mkStart (dec := false) hD hND b4 b5 b7 rfl rfl rfl (by simp) (fun _ => Or.inl rfl) (fun h => ⟨rfl, ?_⟩) (fun _ h => ?_)
        (hval _ (Or.inl rfl)) (fun _ => Or.inl ⟨hv, rfl⟩) rfl, hbvp, hbvm, hbvr, rfl⟩
      · have h : sh = 1 := by simpa using h
        exact (hdv _).2 (dvd_le1 h1 (by omega))
      · have := two_of (hdv' _ h)
        have : sh = 1 := by omega
        simp [this]
  · rw [if_neg h1]
    have hmp8 : ¬2 ^ q * 10 ∣ (4 * m2 + 2) * 5 ^ i := by
      intro h
      have := eight_of (by omega) (hdv' _ h)
      omega
    have hmm8 : ¬2 ^ q * 10 ∣ (4 * m2 - 1 - sh) * 5 ^ i := by
      intro h
      have := eight_of (by omega) (hdv' _ h)
      omega
    by_cases h31 : q < 63
    · rw [if_pos h31, mult2_64 (by omega) (by omega), Option.bind_some]
      exact ⟨_, rfl, mkStart (dec := false) hD hND b4 b5 b7 rfl rfl rfl (by simp) (fun _ => Or.inr hmp8) (by simp)
        (fun _ h => absurd h hmm8) (hval _ (Or.inl rfl)) (fun h => Or.inl ⟨(hdv _).2 (of_decide_eq_true h), rfl⟩) rfl, hbvp, hbvm, hbvr, rfl⟩
    · rw [if_neg h31]
      exact ⟨_, rfl, mkStart (dec := false) hD hND b4 b5 b7 rfl rfl rfl (by simp) (fun _ => Or.inr hmp8) (by simp)
        (fun _ h => absurd h hmm8) (hval _ (Or.inl rfl)) (by simp) rfl, hbvp, hbvm, hbvr, rfl⟩

section
variable {q N D C i m2 sh : Nat} {acc : Bool}

theorem Scale64.bound (h : Scale64 q N D C i) {m : Nat} (hm : m ≤ 36028797018963968) : m * N / D < 9223372036854775808 := by
  have h1 : m * N ≤ 3602879701896396800 * D := by
    calc m * N ≤ 36028797018963968 * (100 * D) := Nat.mul_le_mul hm (Nat.le_of_lt h.hN)
      _ = 3602879701896396800 * D := by ring
  have : m * N / D ≤ 3602879701896396800 := Nat.div_le_of_le_mul (by rw [Nat.mul_comm D]; exact h1)
  omega

/-- The call of `mulShiftAll64` with an entry of a table. -/
theorem Scale64.mul (h : Scale64 q N D C i) (hmt : Mant64 acc m2 sh) {t : Nat × Nat} (h1 : t.1 < 18446744073709551616)
    (h3 : t.2 * 18446744073709551616 + t.1 = C) :
    mulShiftAll64 m2 t (i : Int) sh = some (4 * m2 * N / D, (4 * m2 + 2) * N / D, (4 * m2 - 1 - sh) * N / D) := by
  have hpos := hmt.pos
  have hlt := hmt.lt
  have hi := h.hi
  have hx : ∀ m, m ≤ 36028797018963968 → m * C / 2 ^ i = m * N / D := fun m hm => h.exact m (by norm_num; omega)
  have hCc := h.hC
  have hb := h.bound (m := 4 * m2 + 2) (by omega)
  have := mulShiftAll64_eq (C0 := t.1) (C1 := t.2) (C := C) (j := (i : Int)) (sh := sh) hpos hlt h1 (by omega) h3.symm h.hC0 (by omega) (by omega)
    hmt.hsh h.hmid (by rw [Int.toNat_natCast, hx _ (by omega)]; omega)
  rw [Int.toNat_natCast, hx _ (by omega), hx _ (by omega), hx _ (by omega)] at this
  exact this
end

theorem d2dPos_start (p : Bool) {e m2 sh : Nat} {acc : Bool} (he : e < 970) (hmt : Mant64 acc m2 sh) :
    ∃ q s, q ≤ e ∧ d2dPos p (e : Int) m2 (4 * m2) sh acc = some (s, (q : Int)) ∧
      Start acc ((4 * m2 - 1 - sh) * 2 ^ (e - q)) (4 * m2 * 2 ^ (e - q)) ((4 * m2 + 2) * 2 ^ (e - q)) (5 ^ q) s ∧
      s.vp < 9223372036854775808 ∧ s.vm < 9223372036854775808 ∧ s.vr < 9223372036854775808 ∧ s.last = 0 := by
  have hchk := allBelow_sound posChk64_all e he
  simp only [posChk64, force_eq, Bool.and_eq_true, Bool.or_eq_true, Nat.ble_eq, Nat.blt_eq] at hchk
  obtain ⟨⟨⟨⟨hqe, hq342⟩, hi1⟩, hi2⟩, hsc⟩ := hchk
  have hsc := scaleChk64_sound hsc
  have hlog : log10Pow2 (e : Int) = some (e * 78913 / 2 ^ 18) := by
    rw [(log10Pow2_val (e := (e : Int)) (by omega) (by omega)).1, Int.toNat_natCast]
  have hq : sub32 (e * 78913 / 2 ^ 18) (b2n ((e : Int) > 3)) = posQ64 e := by
    unfold posQ64 b2n
    have : e * 78913 / 2 ^ 18 < 4294967296 := by
      refine Nat.lt_of_le_of_lt (Nat.div_le_self _ _) ?_; omega
    by_cases h : 3 < e
    · rw [if_pos (by omega), if_pos h, sub32_of_le (by omega) this]
    · rw [if_neg (by omega), if_neg h, sub32_of_le (by omega) this]
  have hshift : (-(e : Int) + (posQ64 e : Int) + (invBitcount + ((lg (posQ64 e) + 1 : Nat) : Int) - 1)) = ((posQ64 e + 125 + lg (posQ64 e) - e : Nat) : Int) := by
    rw [invBitcount]; omega
  obtain ⟨t, ht, t1, t2, t3⟩ := inv_get hq342
  have hmul := hsc.mul hmt (t := t) t1 t3
  have hpos := hmt.pos
  have hlt := hmt.lt
  have hvp1 : 1 ≤ (4 * m2 + 2) * 2 ^ (e - posQ64 e) / 5 ^ posQ64 e := by
    rw [Nat.le_div_iff_mul_le hsc.hD, Nat.one_mul]
    exact Nat.le_trans hsc.hND (Nat.le_mul_of_pos_left _ (by omega))
  obtain ⟨s, hs1, hs2⟩ := posTail64_start p hsc.hD hsc.hND (fun h => by rw [h, Nat.pow_zero]) hsc.hN10 (fun m => dvd5) (fun m => dvd5') hmt hvp1
    (hsc.bound (by omega)) (hsc.bound (by omega)) (hsc.bound (by omega))
  refine ⟨posQ64 e, s, hqe, ?_, hs2⟩
  rw [← hs1, d2dPos, hlog, some_bind]
  simp only
  rw [hq, lgNat _ hq342, some_bind, hshift, ht, some_bind, hmul, some_bind, posTail64]
  rfl

theorem d2dNeg_start {e m2 sh : Nat} {acc : Bool} (he0 : 0 < e) (he : e < 1077) (hmt : Mant64 acc m2 sh) :
    ∃ q s, q < e ∧ d2dNeg (-(e : Int)) m2 (4 * m2) sh acc = some (s, (q : Int) + -(e : Int)) ∧
      Start acc ((4 * m2 - 1 - sh) * 5 ^ (e - q)) (4 * m2 * 5 ^ (e - q)) ((4 * m2 + 2) * 5 ^ (e - q)) (2 ^ q) s ∧
      s.vp < 9223372036854775808 ∧ s.vm < 9223372036854775808 ∧ s.vr < 9223372036854775808 ∧ s.last = 0 := by
  have hchk := allBelow_sound negChk64_all e he
  simp only [negChk64, force_eq, Bool.and_eq_true, Bool.or_eq_true, Nat.ble_eq, Nat.blt_eq, Nat.beq_eq] at hchk
  obtain ⟨⟨⟨⟨hqe, hi326⟩, hi1⟩, hi2⟩, hsc⟩ := hchk.resolve_left (by omega)
  have hsc := scaleChk64_sound hsc
  have hlog : log10Pow5 (e : Int) = some (e * 732923 / 2 ^ 20) := by
    rw [(log10Pow5_val (e := (e : Int)) (by omega) (by omega)).1, Int.toNat_natCast]
  have hq : sub32 (e * 732923 / 2 ^ 20) (b2n ((e : Int) > 1)) = negQ64 e := by
    unfold negQ64 b2n
    have : e * 732923 / 2 ^ 20 < 4294967296 := by
      refine Nat.lt_of_le_of_lt (Nat.div_le_self _ _) ?_; omega
    by_cases h : 1 < e
    · rw [if_pos (by omega), if_pos h, sub32_of_le (by omega) this]
    · rw [if_neg (by omega), if_neg h, sub32_of_le (by omega) this]
  have hin : (e : Int) - (negQ64 e : Int) = ((e - negQ64 e : Nat) : Int) := by omega
  have hshift : ((negQ64 e : Int) - (((lg (e - negQ64 e) + 1 : Nat) : Int) - powBitcount)) = ((negQ64 e + 125 - (lg (e - negQ64 e) + 1) : Nat) : Int) := by
    rw [powBitcount]; omega
  obtain ⟨t, ht, t1, t2, t3⟩ := pow_get hi326
  have hmul := hsc.mul hmt (t := t) t1 t3
  have hpos := hmt.pos
  have hlt := hmt.lt
  have hvp1 : 1 ≤ (4 * m2 + 2) * 5 ^ (e - negQ64 e) / 2 ^ negQ64 e := by
    rw [Nat.le_div_iff_mul_le hsc.hD, Nat.one_mul]
    exact Nat.le_trans hsc.hND (Nat.le_mul_of_pos_left _ (by omega))
  obtain ⟨s, hs1, hs2⟩ := negTail64_start (e10 := (negQ64 e : Int) + -(e : Int)) hsc.hND hsc.hN10 hmt hvp1
    (hsc.bound (by omega)) (hsc.bound (by omega)) (hsc.bound (by omega))
  refine ⟨negQ64 e, s, hqe, ?_, hs2⟩
  rw [← hs1, d2dNeg, Int.neg_neg, hlog, some_bind]
  simp only
  rw [hq, hin, Int.toNat_natCast, lgNat _ (by omega), some_bind, hshift, ht, some_bind, hmul, some_bind, negTail64]
  rfl

end Nanostl.Ryu

import Verif.Ryu.Logs
import Mathlib.Tactic.Linarith

/-!
The digit removal (step 4) of `f2d` and `d2d`: given the scaled interval exactly, it finds the largest power of ten that has a multiple in
the interval, and the multiple of it in the interval that is closest to the value.
-/

namespace Nanostl.Ryu

/-- `y` lies in the interval from `a` to `b`, ends included if `acc`. -/
def InI (acc : Bool) (a b y : Nat) : Prop := if acc then a ≤ y ∧ y ≤ b else a < y ∧ y < b

/-- Distance. -/
def ndist (x y : Nat) : Nat := (x - y) + (y - x)

/-- General case of step 4 for both formats, without word arithmetic. -/
def step4 (acc : Bool) (f : Nat) (s : Red) : Option (Nat × Nat) := do
  let s ← f2dLoop1 f s
  let s ← (if s.vmTZ then f2dLoop2 f s else pure s)
  let last := if s.vrTZ && s.last == 5 && s.vr % 2 == 0 then 4 else s.last
  pure (s.vr + (if (s.vr == s.vm && (!acc || !s.vmTZ)) || last ≥ 5 then 1 else 0), s.removed)

section
variable (acc : Bool) (aN vN bN D : Nat)

/-- Largest integer not above the upper end. -/
def upper : Nat := if acc then bN / D else (bN - 1) / D

/-- What step 3 has to deliver. -/
structure Start (s : Red) : Prop where
  hD : 0 < D
  ha : 0 < aN
  hav : aN + D ≤ vN
  hsym : 2 * vN ≤ aN + bN
  hvr : s.vr = vN / D
  hvm : s.vm = aN / D
  hvp : s.vp / 10 = upper acc bN D / 10
  hvm1 : s.vmTZ = true → acc = true ∧ D ∣ aN
  hvm2 : acc = true → D * 10 ∣ aN → s.vmTZ = true
  hlast : s.vp / 10 ≤ s.vm / 10 → s.last = 10 * vN / D % 10
  hvrTZ : s.vrTZ = true → (D ∣ vN ∧ s.last = 0) ∨ (2 * (vN % D) = D ∧ (vN / D % 10 = 2 ∨ vN / D % 10 = 7) ∧ (s.last = 0 ∨ s.last = 5))
  hrem : s.removed = 0

/-- Invariant of the loops. -/
structure Inv (s0 s : Red) (r : Nat) : Prop where
  rem : s.removed = r
  vr : s.vr = vN / (D * 10 ^ r)
  vm : s.vm = aN / (D * 10 ^ r)
  vp : s.vp / 10 = upper acc bN D / 10 ^ (r + 1)
  vm1 : s.vmTZ = true → acc = true ∧ D * 10 ^ r ∣ aN
  vm2 : acc = true → D * 10 ^ (r + 1) ∣ aN → s.vmTZ = true
  vm3 : 0 < r → acc = true → D * 10 ^ r ∣ aN → s.vmTZ = true
  zero : r = 0 → s = s0
  last : 0 < r → s.last = vN / (D * 10 ^ (r - 1)) % 10
  vrTZ : 0 < r → s.vrTZ = true → D * 10 ^ (r - 1) ∣ vN ∨ (r = 1 ∧ (s.last = 2 ∨ s.last = 7))
  cand : aN / (D * 10 ^ r) < upper acc bN D / 10 ^ r ∨ (acc = true ∧ D * 10 ^ r ∣ aN)

variable {acc aN vN bN D}

theorem le_upper {s : Red} (h : Start acc aN vN bN D s) {t r : Nat} :
    t ≤ upper acc bN D / 10 ^ r ↔ if acc then t * (D * 10 ^ r) ≤ bN else t * (D * 10 ^ r) < bN := by
  have hb : 0 < bN := by have := h.ha; have := h.hav; have := h.hsym; have := h.hD; omega
  have e : t * 10 ^ r * D = t * (D * 10 ^ r) := by ring
  rw [Nat.le_div_iff_mul_le (Nat.pow_pos (show 0 < 10 by decide)), upper]
  cases acc
  · simp only [Bool.false_eq_true, if_false]
    rw [Nat.le_div_iff_mul_le h.hD, e]; omega
  · simp only [if_true]
    rw [Nat.le_div_iff_mul_le h.hD, e]

theorem start_inv {s : Red} (h : Start acc aN vN bN D s) : Inv acc aN vN bN D s s 0 := by
  refine ⟨h.hrem, ?_, ?_, ?_, ?_, ?_, fun h => absurd h (by omega), fun _ => rfl, fun h => absurd h (by omega), fun h => absurd h (by omega), Or.inl ?_⟩
  · rw [h.hvr, Nat.pow_zero, Nat.mul_one]
  · rw [h.hvm, Nat.pow_zero, Nat.mul_one]
  · rw [h.hvp, Nat.zero_add, Nat.pow_one]
  · intro hv; rw [Nat.pow_zero, Nat.mul_one]; exact h.hvm1 hv
  · intro ha hv; rw [Nat.zero_add, Nat.pow_one] at hv; exact h.hvm2 ha hv
  · have h1 : aN / (D * 10 ^ 0) + 1 ≤ upper acc bN D / 10 ^ 0 := by
      rw [le_upper h]
      have h1 := Nat.div_mul_le_self aN (D * 10 ^ 0)
      have h2 := h.hav
      have h3 := h.hsym
      have h4 := h.hD
      have e : (aN / (D * 10 ^ 0) + 1) * (D * 10 ^ 0) = aN / (D * 10 ^ 0) * (D * 10 ^ 0) + D := by ring
      rw [e]
      split <;> omega
    omega

theorem ten_pow_pos (r : Nat) : 0 < 10 ^ r := Nat.pow_pos (show 0 < 10 by decide)

theorem step_div (x D r : Nat) : x / (D * 10 ^ r) / 10 = x / (D * 10 ^ (r + 1)) := by
  rw [Nat.div_div_eq_div_mul, Nat.pow_succ, Nat.mul_assoc]

theorem dvd_step {x D r : Nat} (hD : 0 < D) (h : D * 10 ^ r ∣ x) : D * 10 ^ (r + 1) ∣ x ↔ x / (D * 10 ^ r) % 10 = 0 := by
  obtain ⟨k, rfl⟩ := h
  have hp : 0 < D * 10 ^ r := Nat.mul_pos hD (ten_pow_pos r)
  rw [Nat.mul_div_cancel_left _ hp, show D * 10 ^ (r + 1) = D * 10 ^ r * 10 by ring]
  constructor
  · intro hk
    have := Nat.dvd_of_mul_dvd_mul_left hp hk
    omega
  · intro hk
    exact Nat.mul_dvd_mul_left _ (Nat.dvd_of_mod_eq_zero hk)

theorem step_vrTZ {s0 s : Red} {r : Nat} (h0 : Start acc aN vN bN D s0) (h : Inv acc aN vN bN D s0 s r) (hz : (s.vrTZ && s.last == 0) = true) :
    D * 10 ^ (r + 1 - 1) ∣ vN ∨ (r + 1 = 1 ∧ (s.vr % 10 = 2 ∨ s.vr % 10 = 7)) := by
  rw [Bool.and_eq_true, beq_iff_eq] at hz
  rw [Nat.add_sub_cancel]
  rcases Nat.eq_zero_or_pos r with hr | hr
  · subst hr
    obtain rfl := h.zero rfl
    rcases h0.hvrTZ hz.1 with ⟨h1, _⟩ | ⟨_, h2, _⟩
    · left; simpa using h1
    · right; rw [h0.hvr]; exact ⟨rfl, h2⟩
  · left
    have hl := h.last hr
    rw [hz.2] at hl
    rcases h.vrTZ hr hz.1 with h1 | ⟨_, h1⟩
    · have := (dvd_step h0.hD h1).2 hl.symm
      rwa [Nat.sub_add_cancel hr] at this
    · omega

/-- One more digit removed. -/
theorem inv_step {s0 s : Red} {r : Nat} (h0 : Start acc aN vN bN D s0) (h : Inv acc aN vN bN D s0 s r) (tz : Bool)
    (hc : aN / (D * 10 ^ (r + 1)) < upper acc bN D / 10 ^ (r + 1) ∨ (acc = true ∧ D * 10 ^ (r + 1) ∣ aN))
    (h1 : tz = true ↔ s.vmTZ = true ∧ s.vm % 10 = 0) :
    Inv acc aN vN bN D s0 ⟨s.vr / 10, s.vp / 10, s.vm / 10, tz, s.vrTZ && s.last == 0, s.vr % 10, s.removed + 1⟩ (r + 1) := by
  have key : acc = true → D * 10 ^ (r + 1) ∣ aN → tz = true := by
    intro ha hd1
    have hv := h.vm2 ha hd1
    refine h1.2 ⟨hv, ?_⟩
    rw [h.vm]; exact (dvd_step h0.hD (h.vm1 hv).2).1 hd1
  refine ⟨by rw [h.rem], ?_, ?_, ?_, ?_, ?_, fun _ => key, fun h => absurd h (by omega), fun _ => ?_, fun _ hz => ?_, hc⟩
  · simp only; rw [h.vr, step_div]
  · simp only; rw [h.vm, step_div]
  · simp only; rw [h.vp, Nat.div_div_eq_div_mul, ← Nat.pow_succ]
  · intro hz
    obtain ⟨hz1, hz2⟩ := h1.1 hz
    obtain ⟨ha, hd⟩ := h.vm1 hz1
    refine ⟨ha, (dvd_step h0.hD hd).2 ?_⟩
    rw [← h.vm]; exact hz2
  · intro ha hd
    exact key ha (Nat.dvd_trans ⟨10, by ring⟩ hd)
  · simp only; rw [h.vr, Nat.add_sub_cancel]
  · simp only at hz ⊢; exact step_vrTZ h0 h hz

theorem loop1_spec {s0 : Red} (h0 : Start acc aN vN bN D s0) : ∀ f s r, Inv acc aN vN bN D s0 s r → s.vp < 10 ^ f →
    ∃ s' r', f2dLoop1 (f + 1) s = some s' ∧ Inv acc aN vN bN D s0 s' r' ∧ s'.vp / 10 ≤ s'.vm / 10 ∧ s'.vm ≤ s.vm := by
  intro f
  induction f with
  | zero =>
    intro s r h hs
    refine ⟨s, r, ?_, h, by omega, Nat.le_refl _⟩
    rw [f2dLoop1, if_neg (by omega)]
  | succ f ih =>
    intro s r h hs
    by_cases hc : s.vp / 10 > s.vm / 10
    · have hi := inv_step h0 h (s.vmTZ && s.vm % 10 == 0) (Or.inl (by rw [← h.vp, ← step_div, ← h.vm]; exact hc))
        (by rw [Bool.and_eq_true, beq_iff_eq])
      obtain ⟨s', r', e, hi', he, hl⟩ := ih _ _ hi (by simp only; rw [Nat.pow_succ] at hs; omega)
      refine ⟨s', r', ?_, hi', he, Nat.le_trans hl (Nat.div_le_self _ _)⟩
      rw [f2dLoop1, if_pos hc]; exact e
    · exact ⟨s, r, by rw [f2dLoop1, if_neg hc], h, by omega, Nat.le_refl _⟩

theorem loop2_spec {s0 : Red} (h0 : Start acc aN vN bN D s0) : ∀ f s r, Inv acc aN vN bN D s0 s r → s.vmTZ = true → s.vm < 10 ^ f →
    s.vp / 10 ≤ s.vm / 10 →
    ∃ s' r', f2dLoop2 (f + 1) s = some s' ∧ Inv acc aN vN bN D s0 s' r' ∧ s'.vp / 10 ≤ s'.vm / 10 ∧ s'.vmTZ = true ∧ s'.vm % 10 ≠ 0 := by
  intro f
  induction f with
  | zero =>
    intro s r h htz hs he
    obtain ⟨ha, k, hk⟩ := h.vm1 htz
    have hvm := h.vm
    rw [hk, Nat.mul_div_cancel_left _ (Nat.mul_pos h0.hD (ten_pow_pos r))] at hvm
    have : s.vm = 0 := by omega
    rw [← hvm, this, Nat.mul_zero] at hk
    have := h0.ha
    omega
  | succ f ih =>
    intro s r h htz hs he
    by_cases hc : s.vm % 10 = 0
    · obtain ⟨ha, hd⟩ := h.vm1 htz
      have hd' : D * 10 ^ (r + 1) ∣ aN := (dvd_step h0.hD hd).2 (by rw [← h.vm]; exact hc)
      have hi := inv_step h0 h s.vmTZ (Or.inr ⟨ha, hd'⟩) ⟨fun h => ⟨h, hc⟩, fun h => h.1⟩
      obtain ⟨s', r', e, hi', he, ht, hm⟩ := ih _ _ hi htz (by simp only; rw [Nat.pow_succ] at hs; omega) (by simp only; omega)
      refine ⟨s', r', ?_, hi', he, ht, hm⟩
      rw [f2dLoop2, if_pos (by simp only [hc, beq_self_eq_true])]; exact e
    · exact ⟨s, r, by rw [f2dLoop2, if_neg (by simpa using hc)], h, he, htz, hc⟩

/-- What the digit removal achieves. -/
structure Best (acc : Bool) (aN vN bN D o r : Nat) : Prop where
  mem : InI acc aN bN (o * (D * 10 ^ r))
  shortest : ∀ c, ¬InI acc aN bN (c * (D * 10 ^ (r + 1)))
  closest : ∀ c, InI acc aN bN (c * (D * 10 ^ r)) → ndist (o * (D * 10 ^ r)) vN ≤ ndist (c * (D * 10 ^ r)) vN

theorem mem_upper {s : Red} (h : Start acc aN vN bN D s) {t r : Nat} (h1 : t ≤ upper acc bN D / 10 ^ r) (h2 : aN < t * (D * 10 ^ r)) :
    InI acc aN bN (t * (D * 10 ^ r)) := by
  rw [le_upper h] at h1
  unfold InI
  cases acc <;> simp only [Bool.false_eq_true, if_false, if_true] at h1 ⊢ <;> omega

theorem upper_of_mem {s : Red} (h : Start acc aN vN bN D s) {t r : Nat} (h1 : InI acc aN bN (t * (D * 10 ^ r))) :
    t ≤ upper acc bN D / 10 ^ r ∧ (aN < t * (D * 10 ^ r) ∨ acc = true ∧ aN = t * (D * 10 ^ r)) := by
  rw [le_upper h]
  unfold InI at h1
  cases acc <;> simp only [Bool.false_eq_true, if_false, if_true, true_and, false_and, or_false] at h1 ⊢ <;> omega

theorem mul_gap {c v X : Nat} (h : c < v) : c * X + X ≤ v * X := by
  calc c * X + X = (c + 1) * X := by ring
    _ ≤ v * X := Nat.mul_le_mul_right _ h

/-- Rounding. -/
theorem closest_down {X v c : Nat} (hX : 0 < X) (h : 2 * (v % X) ≤ X) : ndist (v / X * X) v ≤ ndist (c * X) v := by
  have e := Nat.div_add_mod v X
  rw [Nat.mul_comm] at e
  unfold ndist
  rcases (by omega : c = v / X ∨ c < v / X ∨ v / X < c) with hc | hc | hc
  · rw [hc]
  · have := mul_gap (X := X) hc; omega
  · have := mul_gap (X := X) hc; omega

theorem closest_up {X v c : Nat} (hX : 0 < X) (h : X ≤ 2 * (v % X)) : ndist ((v / X + 1) * X) v ≤ ndist (c * X) v := by
  have e := Nat.div_add_mod v X
  have hm := Nat.mod_lt v hX
  rw [Nat.mul_comm] at e
  rw [Nat.add_mul, Nat.one_mul]
  unfold ndist
  rcases (by omega : c = v / X ∨ c < v / X ∨ v / X < c) with hc | hc | hc
  · rw [hc]; omega
  · have := mul_gap (X := X) hc; omega
  · have := mul_gap (X := X) hc; omega

/-- The removed part in terms of the digits. -/
theorem rem_digit (v Y : Nat) : v % (Y * 10) = v / Y % 10 * Y + v % Y := by
  have h1 := Nat.div_add_mod v Y
  have h2 := Nat.div_add_mod (v / Y) 10
  have h3 := Nat.div_add_mod v (Y * 10)
  rw [Nat.div_div_eq_div_mul] at h2
  have h4 : Y * (v / Y) = Y * (10 * (v / (Y * 10)) + v / Y % 10) := by rw [h2]
  have h5 : Y * (10 * (v / (Y * 10)) + v / Y % 10) = Y * 10 * (v / (Y * 10)) + v / Y % 10 * Y := by ring
  omega

theorem last_spec {s0 s : Red} {r : Nat} (h0 : Start acc aN vN bN D s0) (hi : Inv acc aN vN bN D s0 s r) (he : s.vp / 10 ≤ s.vm / 10) :
    (s.last ≥ 5 → D * 10 ^ r ≤ 2 * (vN % (D * 10 ^ r))) ∧ (s.last < 5 → 2 * (vN % (D * 10 ^ r)) ≤ D * 10 ^ r) ∧
    (s.vrTZ = true → s.last = 5 → 2 * (vN % (D * 10 ^ r)) = D * 10 ^ r) := by
  rcases Nat.eq_zero_or_pos r with hr | hr
  · subst hr
    obtain rfl := hi.zero rfl
    have hl := h0.hlast he
    rw [Nat.pow_zero, Nat.mul_one]
    have hD := h0.hD
    have hm := Nat.mod_lt vN hD
    have e : 10 * vN = 10 * (vN % D) + D * (10 * (vN / D)) := by
      have := Nat.div_add_mod vN D
      calc 10 * vN = 10 * (D * (vN / D) + vN % D) := by rw [this]
        _ = _ := by ring
    have hl' : s.last = 10 * (vN % D) / D := by
      rw [hl, e, Nat.add_mul_div_left _ _ hD]
      have : 10 * (vN % D) / D < 10 := by rw [Nat.div_lt_iff_lt_mul hD]; omega
      generalize 10 * (vN % D) / D = k at *
      omega
    refine ⟨fun h => ?_, fun h => ?_, fun h1 h2 => ?_⟩
    · rw [hl', ge_iff_le, Nat.le_div_iff_mul_le hD] at h; omega
    · rw [hl', Nat.div_lt_iff_lt_mul hD] at h; omega
    · rcases h0.hvrTZ h1 with h | h
      · omega
      · exact h.1
  · obtain ⟨r, rfl⟩ := Nat.exists_eq_succ_of_ne_zero (by omega : r ≠ 0)
    have hY : 0 < D * 10 ^ r := Nat.mul_pos h0.hD (ten_pow_pos r)
    have hl := hi.last hr
    have hz := hi.vrTZ hr
    rw [Nat.succ_sub_one] at hl hz
    have hm := Nat.mod_lt vN hY
    rw [Nat.pow_succ, ← Nat.mul_assoc, rem_digit, ← hl]
    generalize D * 10 ^ r = Y at *
    refine ⟨fun h => ?_, fun h => ?_, fun h1 h2 => ?_⟩
    · have := Nat.mul_le_mul_right Y h; omega
    · have := Nat.mul_le_mul_right Y (show s.last ≤ 4 by omega); omega
    · rcases hz h1 with h | h
      · rw [Nat.mod_eq_zero_of_dvd h, h2]; omega
      · omega

theorem step4_best {s0 : Red} {f : Nat} (h0 : Start acc aN vN bN D s0) (hf : s0.vp < 10 ^ f) (hf' : s0.vm < 10 ^ f) :
    ∃ o r, step4 acc (f + 1) s0 = some (o, r) ∧ Best acc aN vN bN D o r ∧ o ≤ upper acc bN D / 10 ^ r := by
  -- the loops
  have hloops : ∃ s r, (f2dLoop1 (f + 1) s0 >>= fun s => if s.vmTZ then f2dLoop2 (f + 1) s else pure s) = some s ∧
      Inv acc aN vN bN D s0 s r ∧ s.vp / 10 ≤ s.vm / 10 ∧ (s.vmTZ = true → s.vm % 10 ≠ 0) := by
    obtain ⟨s, r, e, hi, he, hl⟩ := loop1_spec h0 f s0 0 (start_inv h0) hf
    cases htz : s.vmTZ
    · refine ⟨s, r, ?_, hi, he, fun h => absurd (htz.symm.trans h) (by decide)⟩
      rw [e]; show (if s.vmTZ = true then _ else _) = _; rw [htz]; rfl
    · obtain ⟨s', r', e', hi', he', ht', hm'⟩ := loop2_spec h0 f s r hi htz (by omega) he
      refine ⟨s', r', ?_, hi', he', fun _ => hm'⟩
      rw [e]; show (if s.vmTZ = true then _ else _) = _; rw [htz, if_pos rfl]; exact e'
  obtain ⟨s, r, e, hi, he, hm⟩ := hloops
  have hstep : step4 acc (f + 1) s0 = some (s.vr + (if (s.vr == s.vm && (!acc || !s.vmTZ)) ||
      (if s.vrTZ && s.last == 5 && s.vr % 2 == 0 then 4 else s.last) ≥ 5 then 1 else 0), s.removed) := by
    have : step4 acc (f + 1) s0 = ((f2dLoop1 (f + 1) s0 >>= fun s => if s.vmTZ then f2dLoop2 (f + 1) s else pure s) >>= fun s =>
      some (s.vr + (if (s.vr == s.vm && (!acc || !s.vmTZ)) ||
        (if s.vrTZ && s.last == 5 && s.vr % 2 == 0 then 4 else s.last) ≥ 5 then 1 else 0), s.removed)) := by
      unfold step4
      cases f2dLoop1 (f + 1) s0 with
      | none => rfl
      | some a => rfl
    rw [this, e]; rfl
  rw [hstep, hi.rem]
  have hX : 0 < D * 10 ^ r := Nat.mul_pos h0.hD (ten_pow_pos r)
  -- the true rounding decision
  have hround : ((if s.vrTZ && s.last == 5 && s.vr % 2 == 0 then 4 else s.last) ≥ 5 → D * 10 ^ r ≤ 2 * (vN % (D * 10 ^ r))) ∧
      (¬(if s.vrTZ && s.last == 5 && s.vr % 2 == 0 then 4 else s.last) ≥ 5 → 2 * (vN % (D * 10 ^ r)) ≤ D * 10 ^ r) := by
    obtain ⟨h1, h2, h3⟩ := last_spec h0 hi he
    split
    · rename_i hc
      simp only [Bool.and_eq_true, beq_iff_eq] at hc
      have := h3 hc.1.1 hc.1.2
      omega
    · exact ⟨h1, fun h => h2 (by omega)⟩
  generalize hlast' : (if s.vrTZ && s.last == 5 && s.vr % 2 == 0 then 4 else s.last) = last' at hround ⊢
  have hdm := Nat.div_add_mod vN (D * 10 ^ r)
  rw [Nat.mul_comm] at hdm
  have hdma := Nat.div_add_mod aN (D * 10 ^ r)
  rw [Nat.mul_comm] at hdma
  have hmod := Nat.mod_lt vN hX
  have hmoda := Nat.mod_lt aN hX
  have hlt : aN < vN := by have := h0.hav; have := h0.hD; omega
  have hsym := h0.hsym
  have hge : s.vm ≤ s.vr := by rw [hi.vm, hi.vr]; exact Nat.div_le_div_right (Nat.le_of_lt hlt)
  -- nothing at the next power of ten
  have hshort : ∀ c, ¬InI acc aN bN (c * (D * 10 ^ (r + 1))) := by
    intro c hc
    obtain ⟨h1, h2⟩ := upper_of_mem h0 hc
    have h3 : c ≤ aN / (D * 10 ^ (r + 1)) := by
      rw [← step_div, ← hi.vm]
      have := hi.vp
      omega
    rw [Nat.le_div_iff_mul_le (Nat.mul_pos h0.hD (ten_pow_pos _))] at h3
    rcases h2 with h2 | ⟨h2, h4⟩
    · omega
    · have hd : D * 10 ^ (r + 1) ∣ aN := ⟨c, by rw [h4, Nat.mul_comm]⟩
      have htz := hi.vm2 h2 hd
      have := (dvd_step h0.hD (hi.vm1 htz).2).1 hd
      rw [← hi.vm] at this
      exact hm htz this
  -- the lower end is a candidate only if the flag says so
  have hex : s.vr = s.vm → acc = true → D * 10 ^ r ∣ aN → s.vmTZ = true := by
    intro hv ha hd
    rcases Nat.eq_zero_or_pos r with hr | hr
    · exfalso
      subst hr
      rw [hi.vr, hi.vm] at hv
      rw [Nat.pow_zero, Nat.mul_one] at *
      have := h0.hav
      have : (aN + D) / D ≤ vN / D := Nat.div_le_div_right this
      rw [Nat.add_div_right _ h0.hD] at this
      omega
    · exact hi.vm3 hr ha hd
  rw [hi.vr, hi.vm] at hge
  have hXX : (vN / (D * 10 ^ r) + 1) * (D * 10 ^ r) = vN / (D * 10 ^ r) * (D * 10 ^ r) + D * 10 ^ r := by ring
  -- the successor is in the interval when it is chosen
  have hup : last' ≥ 5 → vN / (D * 10 ^ r) + 1 ≤ upper acc bN D / 10 ^ r := by
    intro h5
    have h5 := hround.1 h5
    rcases Nat.lt_or_ge (aN / (D * 10 ^ r)) (vN / (D * 10 ^ r)) with hlt' | hge'
    · have := mul_gap (X := D * 10 ^ r) hlt'
      rw [le_upper h0, hXX]
      split <;> omega
    · have heq : vN / (D * 10 ^ r) = aN / (D * 10 ^ r) := by omega
      rcases hi.cand with hc | ⟨ha, hd⟩
      · omega
      · have := Nat.mod_eq_zero_of_dvd hd
        rw [le_upper h0, hXX, ha, heq]
        rw [heq] at hdm
        simp only [if_true]
        omega
  by_cases hcond : (s.vr == s.vm && (!acc || !s.vmTZ)) = true
  · -- the lower multiple is not in the interval
    simp only [hcond, Bool.true_or, if_true]
    simp only [Bool.and_eq_true, beq_iff_eq, Bool.or_eq_true, Bool.not_eq_eq_eq_not, Bool.not_true] at hcond
    obtain ⟨hv, hn⟩ := hcond
    have hnot : ¬(acc = true ∧ D * 10 ^ r ∣ aN) := by
      rintro ⟨ha, hd⟩
      have := hex hv ha hd
      rcases hn with hn | hn
      · rw [ha] at hn; cases hn
      · rw [this] at hn; cases hn
    rw [hi.vr, hi.vm] at hv
    have hle : vN / (D * 10 ^ r) + 1 ≤ upper acc bN D / 10 ^ r := by
      rcases hi.cand with hc | hc
      · omega
      · exact absurd hc hnot
    rw [hi.vr]
    refine ⟨_, _, rfl, ⟨mem_upper h0 hle (by rw [hXX]; omega), hshort, ?_⟩, hle⟩
    intro c hc
    obtain ⟨hc1, hc2⟩ := upper_of_mem h0 hc
    have hcv : vN / (D * 10 ^ r) < c := by
      rcases hc2 with hc2 | ⟨ha, hc2⟩
      · rw [hv]
        by_contra hcon
        have := Nat.mul_le_mul_right (D * 10 ^ r) (show c ≤ aN / (D * 10 ^ r) by omega)
        omega
      · exact absurd ⟨ha, ⟨c, by rw [hc2, Nat.mul_comm]⟩⟩ hnot
    have := mul_gap (X := D * 10 ^ r) hcv
    unfold ndist
    rw [hXX]
    omega
  · rw [Bool.not_eq_true] at hcond
    simp only [hcond, Bool.false_or]
    rw [hi.vr]
    by_cases h5 : last' ≥ 5
    · simp only [h5, decide_true, if_true]
      have hle := hup h5
      exact ⟨_, _, rfl, ⟨mem_upper h0 hle (by rw [hXX]; omega), hshort, fun c _ => closest_up hX (hround.1 h5)⟩, hle⟩
    · simp only [h5, decide_false, Bool.false_eq_true, if_false, Nat.add_zero]
      have hle : vN / (D * 10 ^ r) ≤ upper acc bN D / 10 ^ r := by
        rw [le_upper h0]
        split <;> omega
      refine ⟨_, _, rfl, ⟨?_, hshort, fun c _ => closest_down hX (hround.2 h5)⟩, hle⟩
      rcases Nat.lt_or_ge (aN / (D * 10 ^ r)) (vN / (D * 10 ^ r)) with hlt' | hge'
      · have := mul_gap (X := D * 10 ^ r) hlt'
        exact mem_upper h0 hle (by omega)
      · have heq : vN / (D * 10 ^ r) = aN / (D * 10 ^ r) := by omega
        have heq' : s.vr = s.vm := by rw [hi.vr, hi.vm, heq]
        rw [heq'] at hcond
        simp only [beq_self_eq_true, Bool.true_and, Bool.or_eq_false_iff, Bool.not_eq_false'] at hcond
        obtain ⟨ha, hd⟩ := hi.vm1 hcond.2
        have hz := Nat.mod_eq_zero_of_dvd hd
        rw [heq, InI, ha]
        simp only [if_true]
        omega

end
end Nanostl.Ryu

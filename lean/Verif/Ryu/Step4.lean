import Verif.Ryu.Core

/-!
Step 4 of `f2d` and of `d2d` compute the digit removal of `Core`.
-/

namespace Nanostl.Ryu

theorem loop3_flags : ∀ f s, s.vmTZ = false → s.vrTZ = false → f2dLoop3 f s = f2dLoop1 f s := by
  intro f
  induction f with
  | zero => intro s _ _; rfl
  | succ f ih =>
    intro s h1 h2
    rw [f2dLoop3, f2dLoop1]
    split
    · refine (ih ⟨s.vr / 10, s.vp / 10, s.vm / 10, s.vmTZ, s.vrTZ, s.vr % 10, s.removed + 1⟩ h1 h2).trans ?_
      simp only [h1, h2, Bool.false_and]
    · rfl

theorem loop1_flags : ∀ f s s', s.vmTZ = false → s.vrTZ = false → f2dLoop1 f s = some s' → s'.vmTZ = false ∧ s'.vrTZ = false := by
  intro f
  induction f with
  | zero => intro s s' _ _ h; cases h
  | succ f ih =>
    intro s s' h1 h2 h
    rw [f2dLoop1] at h
    split at h
    · exact ih _ _ (by simp [h1]) (by simp [h2]) h
    · cases h; exact ⟨h1, h2⟩

theorem f2dStep4_eq (acc : Bool) (s : Red) : f2dStep4 acc s = (step4 acc 20 s).map fun y => (w32 y.1, y.2) := by
  unfold f2dStep4 step4
  by_cases h : (s.vmTZ || s.vrTZ) = true
  · rw [if_pos h]
    cases f2dLoop1 20 s with
    | none => rfl
    | some a =>
      simp only [some_bind]
      generalize (if a.vmTZ = true then f2dLoop2 20 a else pure a) = x
      cases x <;> rfl
  · rw [if_neg h]
    rw [Bool.not_eq_true, Bool.or_eq_false_iff] at h
    rw [loop3_flags _ _ h.1 h.2]
    cases e : f2dLoop1 20 s with
    | none => rfl
    | some a =>
      obtain ⟨h1, h2⟩ := loop1_flags _ _ _ h.1 h.2 e
      simp only [some_bind, if_neg (show ¬a.vmTZ = true by rw [h1]; decide)]
      show _ = some (w32 (a.vr + (if (a.vr == a.vm && (!acc || !a.vmTZ)) || (if a.vrTZ && a.last == 5 && a.vr % 2 == 0 then 4 else a.last) ≥ 5 then 1
        else 0)), a.removed)
      simp only [h1, h2, Bool.false_eq_true, if_false, Bool.not_false, Bool.or_true, Bool.and_true, Bool.false_and]
      rfl

/-! ### d2d -/

abbrev W64 : Nat := 18446744073709551616

theorem r10 (x : Nat) : sub32 (w32 x) (w32 (10 * w32 (x / 10))) = x % 10 := rem32 10 (by decide) (by decide) x
theorem r100 (x : Nat) : sub32 (w32 x) (w32 (100 * w32 (x / 100))) = x % 100 := rem32 100 (by decide) (by decide) x

theorem mod10_eq {x : Nat} (p : Bool) (hx : x < W64) : sub32 (w32 x) (w32 (10 * w32 (div10 p x))) = x % 10 := by
  rw [div10_eq p hx, rem32 10 (by decide) (by decide)]

theorem mod100_eq {x : Nat} (p : Bool) (hx : x < W64) : sub32 (w32 x) (w32 (100 * w32 (div100 p x))) = x % 100 := by
  rw [div100_eq p hx, rem32 100 (by decide) (by decide)]

theorem mod5_eq {x : Nat} (p : Bool) (hx : x < W64) : sub32 (w32 x) (w32 (5 * w32 (div5 p x))) = x % 5 := by
  rw [div5_eq p hx, rem32 5 (by decide) (by decide)]

theorem d2dLoop1_eq (p : Bool) : ∀ f s, s.vp < W64 → s.vm < W64 → s.vr < W64 → d2dLoop1 p f s = f2dLoop1 f s := by
  intro f
  induction f with
  | zero => intros; rfl
  | succ f ih =>
    intro s h1 h2 h3
    rw [d2dLoop1, f2dLoop1]
    simp only [mod10_eq p h2, mod10_eq p h3]
    rw [div10_eq p h1, div10_eq p h2, div10_eq p h3]
    by_cases hc : s.vp / 10 > s.vm / 10
    · rw [if_pos hc, if_neg (by omega), ih]
      · rw [Nat.mod_eq_of_lt (show s.vr % 10 < 256 by omega)]
      · show s.vp / 10 < _; omega
      · show s.vm / 10 < _; omega
      · show s.vr / 10 < _; omega
    · rw [if_neg hc, if_pos (by omega)]

theorem d2dLoop2_eq (p : Bool) : ∀ f s, s.vp < W64 → s.vm < W64 → s.vr < W64 → d2dLoop2 p f s = f2dLoop2 f s := by
  intro f
  induction f with
  | zero => intros; rfl
  | succ f ih =>
    intro s h1 h2 h3
    rw [d2dLoop2, f2dLoop2]
    simp only [mod10_eq p h2, mod10_eq p h3]
    rw [div10_eq p h1, div10_eq p h2, div10_eq p h3]
    by_cases hc : s.vm % 10 = 0
    · rw [if_pos (by simp [hc] : (s.vm % 10 == 0) = true), if_neg (by simp [hc] : ¬(s.vm % 10 ≠ 0)), ih]
      · rw [Nat.mod_eq_of_lt (show s.vr % 10 < 256 by omega)]
      · show s.vp / 10 < _; omega
      · show s.vm / 10 < _; omega
      · show s.vr / 10 < _; omega
    · rw [if_neg (by simp [hc] : ¬(s.vm % 10 == 0) = true), if_pos hc]

theorem loop1_bounds : ∀ f s s', s.vp < W64 → s.vm < W64 → s.vr < W64 → f2dLoop1 f s = some s' → s'.vp < W64 ∧ s'.vm < W64 ∧ s'.vr < W64 := by
  intro f
  induction f with
  | zero => intro s s' _ _ _ h; cases h
  | succ f ih =>
    intro s s' h1 h2 h3 h
    rw [f2dLoop1] at h
    split at h
    · exact ih _ _ (by show s.vp / 10 < _; omega) (by show s.vm / 10 < _; omega) (by show s.vr / 10 < _; omega) h
    · cases h; exact ⟨h1, h2, h3⟩

/-- The common case keeps `roundUp` instead of the digit. -/
def toC (s : Red) : RedC := ⟨s.vr, s.vp, s.vm, decide (s.last ≥ 5), s.removed⟩

theorem d2dLoop3_eq (p : Bool) : ∀ f s, s.vp < W64 → s.vm < W64 → s.vr < W64 → d2dLoop3 p f (toC s) = (f2dLoop3 f s).map toC := by
  intro f
  induction f with
  | zero => intros; rfl
  | succ f ih =>
    intro s h1 h2 h3
    rw [d2dLoop3, f2dLoop3]
    simp only [toC, r10, div10_eq p h1, div10_eq p h2, div10_eq p h3]
    by_cases hc : s.vp / 10 > s.vm / 10
    · rw [if_pos hc, if_neg (by omega)]
      exact ih ⟨s.vr / 10, s.vp / 10, s.vm / 10, s.vmTZ, s.vrTZ, s.vr % 10, s.removed + 1⟩ (by show s.vp / 10 < _; omega)
        (by show s.vm / 10 < _; omega) (by show s.vr / 10 < _; omega)
    · rw [if_neg hc, if_pos (by omega)]; rfl

theorem loop3_mono : ∀ f s s', f2dLoop3 f s = some s' → f2dLoop3 (f + 1) s = some s' := by
  intro f
  induction f with
  | zero => intro s s' h; cases h
  | succ f ih =>
    intro s s' h
    rw [f2dLoop3] at h ⊢
    split at h
    · rename_i hc; rw [if_pos hc]; exact ih _ _ h
    · rename_i hc; rw [if_neg hc]; exact h

theorem loop3_two (f : Nat) (s : Red) (h : s.vp / 100 > s.vm / 100) :
    f2dLoop3 (f + 2) s = f2dLoop3 f ⟨s.vr / 100, s.vp / 100, s.vm / 100, s.vmTZ, s.vrTZ, s.vr / 10 % 10, s.removed + 2⟩ := by
  have e : ∀ x : Nat, x / 10 / 10 = x / 100 := fun x => by rw [Nat.div_div_eq_div_mul]
  rw [show f + 2 = (f + 1) + 1 from rfl, f2dLoop3, if_pos (by omega), f2dLoop3, if_pos (by simp only [e]; exact h)]
  simp only [e]

theorem loop3_total : ∀ f s, s.vp < 10 ^ f → ∃ s', f2dLoop3 (f + 1) s = some s' := by
  intro f
  induction f with
  | zero => intro s h; exact ⟨s, by rw [f2dLoop3, if_neg (by omega)]⟩
  | succ f ih =>
    intro s h
    rw [f2dLoop3]
    split
    · exact ih _ (by show s.vp / 10 < _; rw [Nat.pow_succ] at h; omega)
    · exact ⟨s, rfl⟩

theorem d2dStep4_eq (p acc : Bool) (s : Red) (h1 : s.vp < W64) (h2 : s.vm < W64) (h3 : s.vr < W64) (hl : s.last = 0) (hr : s.removed = 0) :
    d2dStep4 p acc s = (step4 acc 30 s).map fun y => (w64 y.1, y.2) := by
  unfold d2dStep4 step4
  by_cases h : (s.vmTZ || s.vrTZ) = true
  · rw [if_pos h, d2dLoop1_eq p 30 s h1 h2 h3]
    cases e : f2dLoop1 30 s with
    | none => rfl
    | some a =>
      obtain ⟨b1, b2, b3⟩ := loop1_bounds _ _ _ h1 h2 h3 e
      simp only [some_bind]
      rw [d2dLoop2_eq p 30 a b1 b2 b3]
      generalize (if a.vmTZ = true then f2dLoop2 30 a else pure a) = x
      cases x <;> rfl
  · rw [if_neg h]
    rw [Bool.not_eq_true, Bool.or_eq_false_iff] at h
    simp only [r100, div100_eq p h1, div100_eq p h2, div100_eq p h3]
    rw [← loop3_flags _ _ h.1 h.2]
    have key : d2dLoop3 p 30 (if s.vp / 100 > s.vm / 100 then ⟨s.vr / 100, s.vp / 100, s.vm / 100, decide (s.vr % 100 ≥ 50), 2⟩
        else ⟨s.vr, s.vp, s.vm, false, 0⟩) = (f2dLoop3 30 s).map toC := by
      split
      · rename_i hc
        have e : (⟨s.vr / 100, s.vp / 100, s.vm / 100, decide (s.vr % 100 ≥ 50), 2⟩ : RedC) =
            toC ⟨s.vr / 100, s.vp / 100, s.vm / 100, s.vmTZ, s.vrTZ, s.vr / 10 % 10, s.removed + 2⟩ := by
          simp only [toC, hr, RedC.mk.injEq, true_and, and_true]
          apply decide_eq_decide.mpr
          omega
        rw [e, d2dLoop3_eq]
        · rw [show (30 : Nat) = 28 + 2 from rfl, loop3_two _ _ hc]
          have hb : s.vp / 100 < 10 ^ 27 := by
            have : s.vp < 10 ^ 20 := Nat.lt_of_lt_of_le h1 (by norm_num)
            have : (10 : Nat) ^ 20 ≤ 10 ^ 27 := Nat.pow_le_pow_right (by decide) (by decide)
            omega
          obtain ⟨s', hs'⟩ := loop3_total 27 ⟨s.vr / 100, s.vp / 100, s.vm / 100, s.vmTZ, s.vrTZ, s.vr / 10 % 10, s.removed + 2⟩ hb
          rw [hs', loop3_mono _ _ _ (loop3_mono _ _ _ hs')]
        · show s.vp / 100 < _; omega
        · show s.vm / 100 < _; omega
        · show s.vr / 100 < _; omega
      · have e : (⟨s.vr, s.vp, s.vm, false, 0⟩ : RedC) = toC s := by simp [toC, hl, hr]
        rw [e, d2dLoop3_eq p 30 s h1 h2 h3]
    rw [key, loop3_flags _ _ h.1 h.2]
    cases e : f2dLoop1 30 s with
    | none => rfl
    | some a =>
      obtain ⟨h1, h2⟩ := loop1_flags _ _ _ h.1 h.2 e
      simp only [some_bind, Option.map_some, if_neg (show ¬a.vmTZ = true by rw [h1]; decide)]
      show _ = some (w64 (a.vr + (if (a.vr == a.vm && (!acc || !a.vmTZ)) || (if a.vrTZ && a.last == 5 && a.vr % 2 == 0 then 4 else a.last) ≥ 5 then 1
        else 0)), a.removed)
      simp only [h1, h2, Bool.false_eq_true, if_false, Bool.not_false, Bool.or_true, Bool.and_true, Bool.false_and]
      rfl

end Nanostl.Ryu

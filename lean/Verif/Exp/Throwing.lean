import Verif.Exp.Lemmas

/-!
`expected` of types whose moves may throw, in histories that never exchange a value for an error or the reverse.
-/

namespace Nanostl.Exp

open Opt (W M R Ev Ov hasValue declare ctorBody var setVar setHas)
open Spec

variable {α β : Type}

namespace Spec

/-- The command replaces a value by an error or an error by a value, or exchanges them. -/
def Mixed (f : Cont α β) : Cmd α β → Prop
  | .assignCopy i j | .assignMove i j | .swap i j => (f i).map Sum.isLeft ≠ (f j).map Sum.isLeft
  | .assignValue _ i _ | .emplace i _ => (f i).map Sum.isLeft ≠ some true
  | .assignError _ i _ => (f i).map Sum.isLeft ≠ some false
  | _ => False

/-- The same variables exist, and hold a value or an error alike. -/
def SameKinds (f g : Cont α β) : Prop := ∀ k, (f k).map Sum.isLeft = (g k).map Sum.isLeft

end Spec

/-- No command of the history is mixed. -/
def NeverMixed (c : Cls α β) : W (α ⊕ β) → List (Cmd α β) → Prop
  | _, [] => True
  | w, k :: ks => ¬ Mixed (cont w) k ∧ match step c k w with
    | .ok w' _ => NeverMixed c w' ks
    | .exc w' => NeverMixed c w' ks
    | _ => True

def May (c : Cls α β) (x : α ⊕ β) : Prop := c.nothrow x = false ∧ ∃ n, c.throws n = true

theorem call_eq (c : Cls α β) (nt : Bool) : ∃ p : Nat → Bool, (∀ n, p n = true → nt = false ∧ ∃ n, c.throws n = true) ∧
    ∀ w : W (α ⊕ β), call c nt w = if p w.calls then .exc { w with calls := w.calls + 1 } else .ok { w with calls := w.calls + 1 } () := by
  refine ⟨fun n => !nt && c.throws n, fun n h => ?_, fun w => rfl⟩
  simp only [Bool.and_eq_true, Bool.not_eq_true'] at h
  exact ⟨h.1, n, h.2⟩

theorem put_self {γ : Type} (st : Nat → Option (Nat × γ)) (i : Nat) (x : Option (Nat × γ)) : put st i x i = x := by simp [put]

/-- Done, or thrown with the kinds as before. -/
def Out (P : Prop) (r : R (W (α ⊕ β)) Unit) (f F : Nat → Option (α ⊕ β)) : Prop :=
  Done r F ∨ (P ∧ ∃ F', SameKinds F' f ∧ Threw r F')

theorem ctorDefault_out (c : Cls α β) {w : W (α ⊕ β)} (h : Inv w) {i : Nat} (hi : slot w i = none) :
    Out (∃ n, c.throws n = true) (ctorDefault c i w) (slot w) (upd (slot w) i (some (.inl c.dflt))) := by
  have hv := h.slot_none.1 hi
  have st : stOf w i = none := by simp [stOf, hv]
  obtain ⟨p, hp, hc⟩ := call_eq c false
  obtain ⟨q, hq, hd⟩ := call_eq c c.nothrowT
  by_cases p1 : p w.calls = true
  · refine .inr ⟨(hp _ p1).2, slot w, fun _ => rfl, ?_⟩
    unfold Threw
    simp [ctorDefault, bind_eq, declare, hv, ctorBody, withTemp, construct, hc, p1, var, W.set]
    refine h.same (fun j => ?_) rfl rfl
    by_cases e : j = i <;> simp [e, hv]
  by_cases q1 : q (w.calls + 1) = true
  · refine .inr ⟨(hq _ q1).2, slot w, fun _ => rfl, ?_⟩
    unfold Threw
    simp [ctorDefault, bind_eq, declare, hv, ctorBody, withTemp, construct, hc, hd, p1, q1, var, W.set]
    have h3 := h.own.tmpBirth.tmpDeath (by simp [noT])
    simp only [List.append_assoc, List.cons_append, List.nil_append] at h3
    refine Inv.of (stOf w) h3 (fun k => ?_) (fun k => slot_eq h k)
    by_cases e : k = i
    · simp [e, st]
    · simp [e, h.vars_eq]
  · left
    unfold Done
    simp [ctorDefault, bind_eq, declare, hv, ctorBody, withTemp, construct, hc, hd, p1, q1, var, W.set]
    have h3 := (h.own.tmpBirth.birth (i := i) (Sum.inl c.dflt) st).tmpDeath (by simp [noT])
    simp only [List.append_assoc, List.cons_append, List.nil_append] at h3
    refine Inv.of _ h3 (fun k => ?_) (fun k => ?_)
    · by_cases e : k = i
      · simp [e, put]
      · simp [e, put, h.vars_eq]
    · by_cases e : k = i
      · simp [e, upd, put]
      · simp [e, upd, put, slot_eq h]

theorem ctorMove_out (c : Cls α β) {w : W (α ⊕ β)} (h : Inv w) {i j : Nat} (hi : slot w i = none) {x : α ⊕ β}
    (hj : slot w j = some x) : Out (May c x) (ctorMove c i j w) (slot w) (upd (upd (slot w) j (some (c.moved x))) i (some x)) := by
  have hv := h.slot_none.1 hi
  have st : stOf w i = none := by simp [stOf, hv]
  obtain ⟨id, hu⟩ := h.slot_some hj
  have sj : stOf w j = some (id, x) := by simp [stOf, hu]
  have hij : j ≠ i := by rintro rfl; rw [hi] at hj; cases hj
  obtain ⟨p, hp, hc⟩ := call_eq c (c.nothrow x)
  by_cases p1 : p w.calls = true
  · refine .inr ⟨hp _ p1, slot w, fun _ => rfl, ?_⟩
    unfold Threw
    simp [ctorMove, bind_eq, pure_eq, declare, hv, hu, hij, ctorBody, hasValue, read, construct, hc, p1, var, W.set, write, setVar]
    refine h.same (fun j => ?_) rfl rfl
    by_cases e : j = i <;> simp [e, hv]
  · left
    unfold Done
    simp [ctorMove, bind_eq, pure_eq, declare, hv, hu, hij, ctorBody, hasValue, read, construct, hc, p1, var, W.set, write, setVar]
    have h2 := (h.own.birth (i := i) x st).setValue (i := j) (c.moved x) (by simpa [put, hij] using sj)
    refine Inv.of _ h2 (fun k => ?_) (fun k => ?_)
    · by_cases e : k = i
      · simp [e, put, hij.symm]
      · by_cases e' : k = j
        · simp [e', hij, put, moved_isLeft]
        · simp [e, e', put, h.vars_eq]
    · by_cases e : k = i
      · simp [e, upd, put, hij.symm]
      · by_cases e' : k = j
        · simp [e', hij, upd, put]
        · simp [e, e', upd, put, slot_eq h]

theorem swapSame_out (c : Cls α β) {w : W (α ⊕ β)} (h : Inv w) {i j : Nat} {x y : α ⊕ β} (hi : slot w i = some x)
    (hj : slot w j = some y) (b : Bool) (hx : x.isLeft = b) (hy : y.isLeft = b) :
    Out (May c x) (swapSame c b i j w) (slot w) (upd (upd (slot w) i (some y)) j (some x)) := by
  obtain ⟨id, hu⟩ := h.slot_some hi
  obtain ⟨id', hv⟩ := h.slot_some hj
  have h1 := h.own.tmpBirth
  have si : stOf w i = some (id, x) := by simp [stOf, hu]
  have sj : stOf w j = some (id', y) := by simp [stOf, hv]
  have hny : c.nothrow y = c.nothrow x := by cases x <;> cases y <;> simp_all [Cls.nothrow]
  have kx : (c.moved x).isLeft = b := (moved_isLeft c x).trans hx
  have ky : (c.moved y).isLeft = b := (moved_isLeft c y).trans hy
  have kk : (c.moved (c.moved x)).isLeft = b := (moved_isLeft c _).trans kx
  have hnm : c.nothrow (c.moved x) = c.nothrow x := by cases x <;> rfl
  obtain ⟨p, hp, hc⟩ := call_eq c (c.nothrow x)
  by_cases p1 : p w.calls = true
  · refine .inr ⟨hp _ p1, slot w, fun _ => rfl, ?_⟩
    unfold Threw
    simp [swapSame, bind_eq, pure_eq, withTemp, read, var, hu, hv, hx, hy, hc, p1]
    exact h.same (fun _ => rfl) rfl rfl
  by_cases hij : i = j
  · subst hij
    rw [hi] at hj
    cases hj
    rw [hu] at hv
    cases hv
    have h2 := h1.setValue (i := i) (c.moved x) si
    by_cases p2 : p (w.calls + 1) = true
    · refine .inr ⟨hp _ p2, upd (slot w) i (some (c.moved x)), ?_, ?_⟩
      · intro k; by_cases e : k = i <;> simp [upd, e, hi, kx, hx]
      · unfold Threw
        simp [swapSame, bind_eq, pure_eq, withTemp, read, write, setVar, var, W.set, hu, hx, kx, hnm, hc, p1, p2]
        have h3 := h2.tmpDeath (by simp [noT])
        simp only [List.append_assoc, List.cons_append, List.nil_append] at h3
        refine Inv.of _ h3 (fun k => ?_) (fun k => ?_)
        · by_cases e : k = i
          · simp [e, put, kx]
          · simp [e, put, h.vars_eq]
        · by_cases e : k = i <;> simp [e, upd, put, slot_eq h]
    have h3 := (h2.setValue (i := i) (c.moved x) (put_self ..)).setValue (i := i) (c.moved (c.moved x)) (put_self ..)
    by_cases p3 : p (w.calls + 1 + 1) = true
    · refine .inr ⟨hp _ p3, upd (slot w) i (some (c.moved (c.moved x))), ?_, ?_⟩
      · intro k; by_cases e : k = i <;> simp [upd, e, hi, kk, hx]
      · unfold Threw
        simp [swapSame, bind_eq, pure_eq, withTemp, read, write, setVar, var, W.set, hu, hx, kx, hnm, hc, p1, p2, p3]
        have h3 := h3.tmpDeath (by simp [noT])
        simp only [List.append_assoc, List.cons_append, List.nil_append] at h3
        refine Inv.of _ h3 (fun k => ?_) (fun k => ?_)
        · by_cases e : k = i
          · simp [e, put, kk]
          · simp [e, put, h.vars_eq]
        · by_cases e : k = i <;> simp [e, upd, put, slot_eq h]
    left
    unfold Done
    simp [swapSame, bind_eq, pure_eq, withTemp, read, write, setVar, var, W.set, hu, hx, kx, kk, hnm, hc, p1, p2, p3]
    have h3 := (h3.setValue (i := i) x (put_self ..)).tmpDeath (by simp [noT])
    simp only [List.append_assoc, List.cons_append, List.nil_append] at h3
    refine Inv.of _ h3 (fun k => ?_) (fun k => ?_)
    · by_cases e : k = i
      · simp [e, put, hx]
      · simp [e, put, h.vars_eq]
    · by_cases e : k = i <;> simp [e, upd, put, slot_eq h]
  · have hji : j ≠ i := fun e => hij e.symm
    have h2 := h1.setValue (i := i) (c.moved x) si
    by_cases p2 : p (w.calls + 1) = true
    · refine .inr ⟨hp _ p2, upd (slot w) i (some (c.moved x)), ?_, ?_⟩
      · intro k; by_cases e : k = i <;> simp [upd, e, hi, kx, hx]
      · unfold Threw
        simp [swapSame, bind_eq, pure_eq, withTemp, read, write, setVar, var, W.set, hu, hv, hij, hji, hx, hy, kx, hny, hc, p1, p2]
        have h3 := h2.tmpDeath (by simp [noT])
        simp only [List.append_assoc, List.cons_append, List.nil_append] at h3
        refine Inv.of _ h3 (fun k => ?_) (fun k => ?_)
        · by_cases e : k = i
          · simp [e, put, kx]
          · simp [e, put, h.vars_eq]
        · by_cases e : k = i <;> simp [e, upd, put, slot_eq h]
    have h3 := (h2.setValue (i := i) y (put_self ..)).setValue (i := j) (c.moved y) (by simpa [put, hji] using sj)
    by_cases p3 : p (w.calls + 1 + 1) = true
    · refine .inr ⟨hp _ p3, upd (upd (slot w) i (some y)) j (some (c.moved y)), ?_, ?_⟩
      · intro k; by_cases e : k = i <;> by_cases e' : k = j <;> simp [upd, e, e', hi, hj, hij, ky, hx, hy]
      · unfold Threw
        simp [swapSame, bind_eq, pure_eq, withTemp, read, write, setVar, var, W.set, hu, hv, hij, hji, hx, hy, kx, ky, hny, hc, p1, p2, p3]
        have h3 := h3.tmpDeath (by simp [noT])
        simp only [List.append_assoc, List.cons_append, List.nil_append] at h3
        refine Inv.of _ h3 (fun k => ?_) (fun k => ?_)
        · by_cases e : k = i
          · simp [e, put, hij, hy]
          · by_cases e' : k = j
            · simp [e', put, ky]
            · simp [e, e', put, h.vars_eq]
        · by_cases e : k = i <;> by_cases e' : k = j <;> simp [e, e', hij, upd, put, slot_eq h]
    left
    unfold Done
    simp [swapSame, bind_eq, pure_eq, withTemp, read, write, setVar, var, W.set, hu, hv, hij, hji, hx, hy, kx, ky, hny, hc, p1, p2, p3]
    have h3 := (h3.setValue (i := j) x (put_self ..)).tmpDeath (by simp [noT])
    simp only [List.append_assoc, List.cons_append, List.nil_append] at h3
    refine Inv.of _ h3 (fun k => ?_) (fun k => ?_)
    · by_cases e : k = i
      · simp [e, put, hij, hy]
      · by_cases e' : k = j
        · simp [e', put, hx]
        · simp [e, e', put, h.vars_eq]
    · by_cases e : k = i <;> by_cases e' : k = j <;> simp [e, e', hij, upd, put, slot_eq h]

theorem May.not {c : Cls α β} {x : α ⊕ β} (h : May c x) : (c.nothrowT && c.nothrowE) = false := by
  have := h.1
  cases x <;> simp_all [Cls.nothrow]

theorem Out.weak {P P' : Prop} {r : R (W (α ⊕ β)) Unit} {f F : Nat → Option (α ⊕ β)} (h : Out P r f F) (hP : P → P') : Out P' r f F :=
  h.imp_right fun a => ⟨hP a.1, a.2⟩

theorem Out.to {P : Prop} {r : R (W (α ⊕ β)) Unit} {f F F' : Nat → Option (α ⊕ β)} (h : Out P r f F) (e : F = F') : Out P r f F' := e ▸ h

/-- A `noexcept` function whose body does not throw when `noexcept` is in force. -/
theorem noexcept_out {P : Prop} {b : Bool} {m : M (α ⊕ β) Unit} {w : W (α ⊕ β)} {f F : Nat → Option (α ⊕ β)} (h : Out P (m w) f F)
    (hP : P → b = false) : Out P (M.noexcept b m w) f F := by
  rcases h with h | ⟨a, F', hF, w', e, h⟩
  · exact .inl (noexcept_done h)
  · exact .inr ⟨a, F', hF, w', by simp [M.noexcept, e, hP a], h⟩

theorem swap_out (c : Cls α β) {w : W (α ⊕ β)} (h : Inv w) {i j : Nat} {x y : α ⊕ β} (hi : slot w i = some x) (hj : slot w j = some y)
    (hk : x.isLeft = y.isLeft) : Out (May c x) (swap c i j w) (slot w) (upd (upd (slot w) i (some y)) j (some x)) := by
  refine noexcept_out ?_ May.not
  obtain ⟨id, hu⟩ := h.slot_some hi
  obtain ⟨id', hv⟩ := h.slot_some hj
  have ha : hasValue i w = .ok w x.isLeft := by simp [hasValue, bind_eq, pure_eq, var, hu]
  have hb : hasValue j w = .ok w y.isLeft := by simp [hasValue, bind_eq, pure_eq, var, hv]
  simp only [bind_eq, ha, hb]
  cases x <;> cases y <;> first | cases hk | simp only [Sum.isLeft_inl, Sum.isLeft_inr]
  · exact swapSame_out c h hi hj true rfl rfl
  · exact swapSame_out c h hi hj false rfl rfl

theorem withVar_out {P Q : Prop} {ctor body : M (α ⊕ β) Unit} {w w1 : W (α ⊕ β)} {t : Nat} {f F : Nat → Option (α ⊕ β)} {x z : α ⊕ β}
    (hc : ctor w = .ok w1 ()) (ht : slot w1 t = some x) (hk : SameKinds (upd (slot w1) t none) f) (hz : F t = some z) (hP : Q → P)
    (hb : Out Q (body w1) (slot w1) F) : Out P (withVar t ctor body w) f (upd F t none) := by
  rcases hb with ⟨w2, e, h2, s2⟩ | ⟨a, F', hF, w2, e, h2, s2⟩
  · obtain ⟨w3, e3, h3, s3⟩ := dtor_spec (x := z) h2 (i := t) (by rw [s2, hz])
    exact .inl ⟨w3, by simp [withVar, bind_eq, hc, e, e3], h3, by rw [s3, s2]⟩
  · have : ∃ z', F' t = some z' := by
      have := hF t
      rw [ht] at this
      cases hq : F' t with
      | none => simp [hq] at this
      | some z' => exact ⟨z', rfl⟩
    obtain ⟨z', hz'⟩ := this
    obtain ⟨w3, e3, h3, s3⟩ := dtor_spec (x := z') h2 (i := t) (by rw [s2, hz'])
    refine .inr ⟨hP a, upd F' t none, ?_, w3, by simp [withVar, bind_eq, hc, e, e3], h3, by rw [s3, s2]⟩
    intro k
    have h1 := hk k
    have h2 := hF k
    by_cases e : k = t
    · simp only [upd, e, if_true] at h1 ⊢; exact h1
    · simp only [upd, e, if_false] at h1 ⊢; rw [h2, h1]

theorem same_upd {f : Nat → Option (α ⊕ β)} {t : Nat} {a : Option (α ⊕ β)} (h : f t = none) : upd (upd f t a) t none = f := by
  funext k
  by_cases e : k = t <;> simp [upd, e, h]

/-- A temporary in slot `t` with `x`, exchanged with `i` and destroyed. -/
theorem viaTemp_out (c : Cls α β) {ctor : M (α ⊕ β) Unit} {w : W (α ⊕ β)} {t i : Nat} {x y : α ⊕ β} (h0 : slot w t = none)
    (hctor : Out (∃ n, c.throws n = true) (ctor w) (slot w) (upd (slot w) t (some x))) (hi : slot w i = some y) (hk : y.isLeft = x.isLeft) :
    Out (∃ n, c.throws n = true) (withVar t ctor (swap c t i) w) (slot w) (upd (slot w) i (some x)) := by
  have ti : i ≠ t := by rintro rfl; rw [h0] at hi; cases hi
  rcases hctor with ⟨w1, e, h1, s1⟩ | ⟨hn, F', hF, w1, e, h1⟩
  · have hi1 : slot w1 i = some y := by simp [s1, upd, ti, hi]
    have ht : slot w1 t = some x := by simp [s1, upd]
    have := withVar_out (ctor := ctor) (f := slot w) (P := ∃ n, c.throws n = true) (z := y) e ht (by rw [s1, same_upd h0]; exact fun _ => rfl)
      (by simp [upd, ti.symm]) (fun m => m.2) (swap_out c h1 ht hi1 hk.symm)
    refine this.to ?_
    rw [s1]
    funext k
    by_cases e : k = t
    · simp [upd, e, h0, ti.symm]
    · simp [upd, e]
  · exact .inr ⟨hn, F', hF, w1, by simp [withVar, bind_eq, e], h1⟩

theorem ctorOf_out (c : Cls α β) (nt : Bool) {w : W (α ⊕ β)} (h : Inv w) {i : Nat} (hi : slot w i = none) (x : α ⊕ β) :
    Out (nt = false ∧ ∃ n, c.throws n = true) (ctorOf c nt i x w) (slot w) (upd (slot w) i (some x)) := by
  rcases ctorOf_spec c nt h hi x with hd | ⟨hb, hn, hd⟩
  · exact .inl hd
  · exact .inr ⟨⟨hb, hn⟩, _, fun _ => rfl, hd⟩

theorem ctorCopy_out (c : Cls α β) {w : W (α ⊕ β)} (h : Inv w) {i j : Nat} (hi : slot w i = none) {x : α ⊕ β} (hj : slot w j = some x) :
    Out (∃ n, c.throws n = true) (ctorCopy c i j w) (slot w) (upd (slot w) i (some x)) := by
  rcases ctorCopy_spec c h hi hj with hd | ⟨hn, hd⟩
  · exact .inl hd
  · exact .inr ⟨hn, _, fun _ => rfl, hd⟩

theorem assignMove_out (c : Cls α β) {w : W (α ⊕ β)} (h : Inv w) {i j : Nat} {x y : α ⊕ β} (h0 : slot w 0 = none)
    (hi : slot w i = some y) (hj : slot w j = some x) (hk : y.isLeft = x.isLeft) :
    Out (May c x) (assignMove c i j w) (slot w) (upd (upd (slot w) j (some (c.moved x))) i (some x)) := by
  refine noexcept_out ?_ May.not
  have i0 : i ≠ 0 := by rintro rfl; rw [h0] at hi; cases hi
  have j0 : j ≠ 0 := by rintro rfl; rw [h0] at hj; cases hj
  rcases ctorMove_out c h h0 hj with ⟨w1, e, h1, s1⟩ | ⟨hn, F', hF, w1, e, h1⟩
  · have ⟨y', hi1, hy⟩ : ∃ y', slot w1 i = some y' ∧ y'.isLeft = y.isLeft := by
      rw [s1]
      by_cases e : i = j
      · subst e
        rw [hi] at hj; cases hj
        exact ⟨c.moved x, by simp [upd, i0], moved_isLeft c x⟩
      · exact ⟨y, by simp [upd, i0, e, hi], rfl⟩
    have ht : slot w1 0 = some x := by simp [s1, upd]
    have := withVar_out (ctor := ctorMove c 0 j) (w := w) (f := slot w) (P := May c x) (z := y') e ht
      (by
        intro k
        rw [s1]
        by_cases e : k = 0
        · simp [upd, e, h0]
        · by_cases e' : k = j <;> simp [upd, e, e', hj, j0, moved_isLeft]) (by simp [upd, i0.symm]) (fun m => m)
      (swap_out c h1 ht hi1 (by rw [hy, hk]))
    refine this.to ?_
    rw [s1]
    funext k
    by_cases e : k = 0
    · simp [upd, e, h0, i0.symm, j0.symm]
    · simp [upd, e]
  · exact .inr ⟨hn, F', hF, w1, by simp [withVar, bind_eq, e], h1⟩

theorem ctorValue_out (c : Cls α β) (m : Mode) {w : W (α ⊕ β)} (h : Inv w) {i : Nat} (hi : slot w i = none) (v : α) :
    Out (∃ n, c.throws n = true) (ctorValue c m i v w) (slot w) (upd (slot w) i (some (.inl v))) ∨
    (ctorValue c m i v w = .term ∧ m = .lvalue ∧ c.nothrowE = true ∧ ∃ n, c.throws n = true) := by
  cases m with
  | const => exact .inl ((ctorOf_out c false h hi _).weak fun a => a.2)
  | lvalue =>
    cases he : c.nothrowE with
    | false =>
      left
      refine (noexcept_out (b := true && c.nothrowE) (ctorOf_out c false h hi (.inl v)) fun _ => by rw [he]; rfl).weak fun a => a.2
    | true =>
      rcases ctorOf_spec c false h hi (.inl v) with hd | ⟨-, hn, w', e, hd⟩
      · exact .inl (.inl (noexcept_done hd))
      · exact .inr ⟨by simp [ctorValue, M.noexcept, e, he], rfl, rfl, hn⟩
  | rvalue => exact .inl ((noexcept_out (ctorOf_out c c.nothrowT h hi (.inl v)) fun a => by rw [a.1]; rfl).weak fun a => a.2)

theorem assignValue_out (c : Cls α β) (m : Mode) {w : W (α ⊕ β)} (h : Inv w) {i : Nat} {y : α ⊕ β} (h0 : slot w 0 = none) (h1 : slot w 1 = none)
    (hi : slot w i = some y) (hk : y.isLeft = true) (v : α) :
    Out (∃ n, c.throws n = true) (assignValue c m i v w) (slot w) (upd (slot w) i (some (.inl v))) ∨
    (assignValue c m i v w = .term ∧ m = .lvalue ∧ c.nothrowE = true ∧ ∃ n, c.throws n = true) := by
  have i1 : i ≠ 1 := by rintro rfl; rw [h1] at hi; cases hi
  rcases ctorValue_out c m h h1 v with (⟨w1, e, hw1, s1⟩ | ⟨hn, F', hF, w1, e, hw1⟩) | ⟨e, hm⟩
  · left
    have hi1 : slot w1 i = some y := by simp [s1, upd, i1, hi]
    have ht : slot w1 1 = some (.inl v) := by simp [s1, upd]
    have := withVar_out (ctor := ctorValue c m 1 v) (w := w) (f := slot w) (P := ∃ n, c.throws n = true) (z := c.moved (.inl v)) e ht
      (by rw [s1, same_upd h1]; exact fun _ => rfl) (by simp [upd, i1.symm]) (fun m => m.2)
      (assignMove_out c hw1 (by simp [s1, upd, h0]) hi1 ht hk)
    refine this.to ?_
    rw [s1]
    funext k
    by_cases e : k = 1
    · simp [upd, e, h1, i1.symm]
    · simp [upd, e]
  · exact .inl (.inr ⟨hn, F', hF, w1, by simp [withVar, assignValue, bind_eq, e], hw1⟩)
  · exact .inr ⟨by simp [withVar, assignValue, bind_eq, e], hm⟩

/-! ### Programs -/

/-- What an unmixed command does, whatever throws. -/
def Fair (c : Cls α β) (k : Cmd α β) (w : W (α ⊕ β)) : Prop :=
  (∃ w', step c k w = .ok w' () ∧ Inv0 w' ∧ cont w' = Spec.step c.moved c.dflt (cont w) k) ∨
  ((∃ n, c.throws n = true) ∧
    ((∃ w', step c k w = .exc w' ∧ Inv0 w' ∧ SameKinds (cont w') (cont w)) ∨ (step c k w = .term ∧ IsLvalue k ∧ c.nothrowE = true)))

theorem fair_of {c : Cls α β} {k : Cmd α β} {w : W (α ⊕ β)} (hw : Inv0 w) {F : Nat → Option (α ⊕ β)}
    (h : Out (∃ n, c.throws n = true) (step c k w) (slot w) F) (h0 : F 0 = none) (h1 : F 1 = none)
    (hF : ∀ i, F (i + 2) = Spec.step c.moved c.dflt (cont w) k i) : Fair c k w := by
  rcases h with ⟨w', e, hi, hs⟩ | ⟨hn, F', hk, w', e, hi, hs⟩
  · refine .inl ⟨w', e, ⟨hi, by rw [hs, h0], by rw [hs, h1]⟩, ?_⟩
    funext i
    rw [cont, hs, hF]
  · refine .inr ⟨hn, .inl ⟨w', e, ⟨hi, ?_, ?_⟩, fun n => ?_⟩⟩
    · have := hk 0
      rw [hw.t0] at this
      rw [hs]
      simpa using this
    · have := hk 1
      rw [hw.t1] at this
      rw [hs]
      simpa using this
    · rw [cont, hs]
      exact hk (n + 2)

theorem fair_step (c : Cls α β) {w : W (α ⊕ β)} (hw : Inv0 w) {k : Cmd α β} (hk : Legal (fun i => cont w i ≠ none) k)
    (hm : ¬ Mixed (cont w) k) : Fair c k w := by
  have h := hw.inv
  have h0 := hw.t0
  have h1 := hw.t1
  cases k with
  | dflt i =>
    have hi : slot w (i + 2) = none := not_not.1 hk
    exact fair_of hw (ctorDefault_out c h hi) (by simp [upd, h0]) (by simp [upd, h1]) fun k => upd_two _ _ _ _
  | ofValue m i v =>
    have hi : slot w (i + 2) = none := not_not.1 hk
    rcases ctorValue_out c m h hi v with hd | ⟨e, rfl, he, hn⟩
    · exact fair_of hw hd (by simp [upd, h0]) (by simp [upd, h1]) fun k => upd_two _ _ _ _
    · exact .inr ⟨hn, .inr ⟨e, trivial, he⟩⟩
  | ofError m i e =>
    have hi : slot w (i + 2) = none := not_not.1 hk
    exact fair_of hw ((ctorOf_out c (m && c.nothrowE) h hi (.inr e)).weak fun a => a.2) (by simp [upd, h0]) (by simp [upd, h1])
      fun k => upd_two _ _ _ _
  | copy i j =>
    have hi : slot w (i + 2) = none := not_not.1 hk.1
    obtain ⟨x, hx⟩ := Option.ne_none_iff_exists'.1 hk.2
    refine fair_of hw (ctorCopy_out c h hi hx) (by simp [upd, h0]) (by simp [upd, h1]) fun k => ?_
    rw [upd_two, Spec.step, hx]; rfl
  | move i j =>
    have hi : slot w (i + 2) = none := not_not.1 hk.1
    obtain ⟨x, hx⟩ := Option.ne_none_iff_exists'.1 hk.2
    refine fair_of hw ((ctorMove_out c h hi hx).weak fun a => a.2) (by simp [upd, h0]) (by simp [upd, h1]) fun k => ?_
    rw [upd_two, Spec.step, hx]
    simp only [upd_two]
    rfl
  | assignCopy i j =>
    obtain ⟨y, hy⟩ := Option.ne_none_iff_exists'.1 hk.1
    obtain ⟨x, hx⟩ := Option.ne_none_iff_exists'.1 hk.2
    have hyx : y.isLeft = x.isLeft := by simpa [Mixed, hy, hx] using hm
    refine fair_of hw (viaTemp_out c h0 (ctorCopy_out c h h0 hx) (i := i + 2) hy hyx) (by simp [upd, h0]) (by simp [upd, h1]) fun k => ?_
    rw [upd_two, Spec.step, hx]; rfl
  | assignMove i j =>
    obtain ⟨y, hy⟩ := Option.ne_none_iff_exists'.1 hk.1
    obtain ⟨x, hx⟩ := Option.ne_none_iff_exists'.1 hk.2
    have hyx : y.isLeft = x.isLeft := by simpa [Mixed, hy, hx] using hm
    refine fair_of hw ((assignMove_out c h h0 (i := i + 2) hy hx hyx).weak fun a => a.2) (by simp [upd, h0]) (by simp [upd, h1]) fun k => ?_
    rw [upd_two, Spec.step, hx]
    simp only [upd_two]
    rfl
  | assignValue m i v =>
    obtain ⟨y, hy⟩ := Option.ne_none_iff_exists'.1 hk
    have hyx : y.isLeft = true := by simpa [Mixed, hy] using hm
    rcases assignValue_out c m h h0 h1 (i := i + 2) hy hyx v with hd | ⟨e, rfl, he, hn⟩
    · exact fair_of hw hd (by simp [upd, h0]) (by simp [upd, h1]) fun k => upd_two _ _ _ _
    · exact .inr ⟨hn, .inr ⟨e, trivial, he⟩⟩
  | assignError m i e =>
    obtain ⟨y, hy⟩ := Option.ne_none_iff_exists'.1 hk
    have hyx : y.isLeft = false := by simpa [Mixed, hy] using hm
    exact fair_of hw (viaTemp_out c h0 ((ctorOf_out c (m && c.nothrowE) h h0 (.inr e)).weak fun a => a.2) (i := i + 2) hy hyx) (by simp [upd, h0])
      (by simp [upd, h1]) fun k => upd_two _ _ _ _
  | emplace i v =>
    obtain ⟨y, hy⟩ := Option.ne_none_iff_exists'.1 hk
    have hyx : y.isLeft = true := by simpa [Mixed, hy] using hm
    exact fair_of hw (viaTemp_out c h0 ((ctorOf_out c true h h0 (.inl v)).weak fun a => a.2) (i := i + 2) hy hyx) (by simp [upd, h0])
      (by simp [upd, h1]) fun k => upd_two _ _ _ _
  | swap i j =>
    obtain ⟨y, hy⟩ := Option.ne_none_iff_exists'.1 hk.1
    obtain ⟨x, hx⟩ := Option.ne_none_iff_exists'.1 hk.2
    have hyx : y.isLeft = x.isLeft := by simpa [Mixed, hy, hx] using hm
    refine fair_of hw ((swap_out c h (i := i + 2) (j := j + 2) hy hx hyx).weak fun a => a.2) (by simp [upd, h0]) (by simp [upd, h1]) fun k => ?_
    rw [upd_two, Spec.step, hx, hy]
    simp only [upd_two]
    rfl
  | destroy i =>
    obtain ⟨y, hy⟩ := Option.ne_none_iff_exists'.1 hk
    exact fair_of hw (.inl (dtor_spec h (i := i + 2) hy)) (by simp [upd, h0]) (by simp [upd, h1]) fun k => upd_two _ _ _ _

theorem fair_run (c : Cls α β) {w : W (α ⊕ β)} (hw : Inv0 w) (ks : List (Cmd α β)) (h : LegalRun c w ks) (hm : NeverMixed c w ks) :
    run c w ks ≠ .inl false ∧ ∀ w' ts, run c w ks = .inr (w', ts) → Inv0 w' := by
  induction ks generalizing w with
  | nil => exact ⟨by simp [run], fun w' ts e => by cases e; exact hw⟩
  | cons k ks ih =>
    obtain ⟨hk, h2⟩ := h
    obtain ⟨m1, m2⟩ := hm
    rcases fair_step c hw ((legal_congr hw.decl k).1 hk) m1 with ⟨w1, e, h1, -⟩ | ⟨-, ⟨w1, e, h1, -⟩ | ⟨e, -⟩⟩
    · rw [e] at h2 m2
      obtain ⟨a, b⟩ := ih h1 h2 m2
      constructor
      · simp only [run, e]
        cases hr : run c w1 ks with
        | inl q => rw [hr] at a; exact a
        | inr q => simp
      · intro w' ts q
        simp only [run, e] at q
        cases hr : run c w1 ks with
        | inl q' => simp [hr] at q
        | inr q' => simp [hr] at q; exact b w' q'.2 (by rw [hr, ← q.1])
    · rw [e] at h2 m2
      obtain ⟨a, b⟩ := ih h1 h2 m2
      constructor
      · simp only [run, e]
        cases hr : run c w1 ks with
        | inl q => rw [hr] at a; exact a
        | inr q => simp
      · intro w' ts q
        simp only [run, e] at q
        cases hr : run c w1 ks with
        | inl q' => simp [hr] at q
        | inr q' => simp [hr] at q; exact b w' q'.2 (by rw [hr, ← q.1])
    · exact ⟨by simp [run, e], fun w' ts q => by simp [run, e] at q⟩

end Nanostl.Exp

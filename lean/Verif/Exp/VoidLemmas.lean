import Verif.Exp.Void

/-!
Invariant of `expected<void, E>` and its proof for every command. `T`: the lost objects.
-/

namespace Nanostl.Exp.Void

open Opt (W M R Ev Ov Cls var setVar hasValue setHas declare ctorBody call destruct write)
open Spec

variable {β : Type}

structure Inv (w : W β) (T : Nat → Prop) : Prop where
  flags : ∀ i o, w.vars i = some o → o.has = false → o.st ≠ none
  own : Own (errOf w) w.next w.evs T

theorem inv_init : Inv (Opt.init : W β) noT := ⟨by simp [Opt.init], own_init.congr fun _ => rfl⟩

theorem bind_eq {γ δ ε : Type} (m : M γ δ) (f : δ → M γ ε) (w : W γ) : (m >>= f) w = match m w with
  | .ok s b => f b s
  | .exc s => .exc s
  | .term => .term
  | .bad => .bad := rfl

theorem pure_eq {γ δ : Type} (b : δ) (w : W γ) : (pure b : M γ δ) w = .ok w b := rfl

theorem slot_none {w : W β} {i : Nat} : slot w i = none ↔ w.vars i = none := by simp [slot]

theorem Inv.value {w : W β} {T : Nat → Prop} (h : Inv w T) {i : Nat} (hs : slot w i = some none) : ∃ st, w.vars i = some ⟨true, st⟩ := by
  cases hv : w.vars i with
  | none => simp [slot, hv] at hs
  | some o =>
    obtain ⟨b, st⟩ := o
    cases b with
    | true => exact ⟨st, rfl⟩
    | false =>
      have := h.flags i _ hv rfl
      cases st with
      | none => exact (this rfl).elim
      | some p => simp [slot, hv] at hs

theorem err_of {w : W β} {i : Nat} {e : β} (hs : slot w i = some (some e)) :
    ∃ id, w.vars i = some ⟨false, some (id, e)⟩ ∧ errOf w i = some (id, e) := by
  cases hv : w.vars i with
  | none => simp [slot, hv] at hs
  | some o =>
    obtain ⟨b, st⟩ := o
    cases b with
    | true => simp [slot, hv] at hs
    | false =>
      cases st with
      | none => simp [slot, hv] at hs
      | some p =>
        obtain ⟨id, x⟩ := p
        simp [slot, hv] at hs
        subst hs
        exact ⟨id, rfl, by simp [errOf, hv]⟩

/-- The invariant from the error objects and the flags. -/
theorem Inv.of {w : W β} {T : Nat → Prop} (f : Nat → Option (Nat × β)) {F : Nat → Option (Option β)} (ho : Own f w.next w.evs T)
    (h : ∀ j, (w.vars j = none ∧ f j = none ∧ F j = none) ∨ ((∃ st, w.vars j = some ⟨true, st⟩) ∧ f j = none ∧ F j = some none) ∨
      ∃ id e, w.vars j = some ⟨false, some (id, e)⟩ ∧ f j = some (id, e) ∧ F j = some (some e)) : Inv w T ∧ slot w = F := by
  refine ⟨⟨?_, ho.congr fun j => ?_⟩, ?_⟩
  · intro j o hj hb
    rcases h j with ⟨a, -⟩ | ⟨⟨st, a⟩, -⟩ | ⟨id, e, a, -⟩ <;> rw [a] at hj <;> cases hj
    · cases hb
    · simp
  · rcases h j with ⟨a, b, -⟩ | ⟨⟨st, a⟩, b, -⟩ | ⟨id, e, a, b, -⟩ <;> simp [errOf, a, b]
  · funext j
    rcases h j with ⟨a, -, b⟩ | ⟨⟨st, a⟩, -, b⟩ | ⟨id, e, a, -, b⟩ <;> simp [slot, a, b]

/-- The three cases for a variable that does not change. -/
theorem Inv.keep {w : W β} {T : Nat → Prop} (h : Inv w T) (j : Nat) :
    (w.vars j = none ∧ errOf w j = none ∧ slot w j = none) ∨ ((∃ st, w.vars j = some ⟨true, st⟩) ∧ errOf w j = none ∧ slot w j = some none) ∨
      ∃ id e, w.vars j = some ⟨false, some (id, e)⟩ ∧ errOf w j = some (id, e) ∧ slot w j = some (some e) := by
  cases hv : w.vars j with
  | none => simp [errOf, slot, hv]
  | some o =>
    obtain ⟨b, st⟩ := o
    cases b with
    | true => exact .inr (.inl ⟨⟨st, rfl⟩, by simp [errOf, hv], by simp [slot, hv]⟩)
    | false =>
      have := h.flags j _ hv rfl
      cases st with
      | none => exact (this rfl).elim
      | some p => exact .inr (.inr ⟨p.1, p.2, rfl, by simp [errOf, hv], by simp [slot, hv]⟩)

def Done (r : R (W β) Unit) (T : Nat → Prop) (F : Nat → Option (Option β)) : Prop := ∃ w', r = .ok w' () ∧ Inv w' T ∧ slot w' = F

def Threw (r : R (W β) Unit) (T : Nat → Prop) (F : Nat → Option (Option β)) : Prop := ∃ w', r = .exc w' ∧ Inv w' T ∧ slot w' = F

theorem call_cases (c : Cls β) (m : Bool) (w : W β) :
    (∃ n, call c m w = .ok { w with calls := n } ()) ∨
    (∃ n, (m && c.nothrowMove) = false ∧ (∃ k, c.throws k = true) ∧ call c m w = .exc { w with calls := n }) := by
  unfold call
  split
  · exact .inl ⟨w.calls, rfl⟩
  · split
    · exact .inr ⟨_, by simp_all, ⟨_, by assumption⟩, rfl⟩
    · exact .inl ⟨_, rfl⟩

/-- A throwing operation: it is not a `noexcept` move. -/
def May (c : Cls β) (m : Bool) : Prop := (m && c.nothrowMove) = false ∧ ∃ k, c.throws k = true

theorem call_eq (c : Cls β) (m : Bool) : ∃ (p : Nat → Bool) (g : Nat → Nat), (∀ n, p n = true → May c m) ∧
    ∀ w : W β, call c m w = if p w.calls then .exc { w with calls := g w.calls } else .ok { w with calls := g w.calls } () := by
  by_cases h : (m && c.nothrowMove) = true
  · exact ⟨fun _ => false, fun n => n, by simp, fun w => by simp [call, h]⟩
  · refine ⟨c.throws, fun n => n + 1, fun n hn => ⟨by simpa using h, n, hn⟩, fun w => ?_⟩
    simp [call, h]

theorem put_self {γ : Type} (st : Nat → Option (Nat × γ)) (i : Nat) (x : Option (Nat × γ)) : put st i x i = x := by simp [put]

variable {w : W β} {T : Nat → Prop}

/-! ### Constructors and destructor -/

theorem ctorDefault_spec (h : Inv w T) {i : Nat} (hi : slot w i = none) : Done (ctorDefault i w) T (upd (slot w) i (some none)) := by
  have hv := slot_none.1 hi
  unfold Done
  simp [ctorDefault, declare, hv, W.set]
  refine Inv.of (errOf w) h.own fun j => ?_
  by_cases e : j = i
  · simp [e, upd, errOf, hv]
  · simpa [e, upd] using h.keep j

theorem ctorError_spec (c : Cls β) (m : Bool) (h : Inv w T) {i : Nat} (hi : slot w i = none) (x : β) :
    Done (ctorError c m i x w) T (upd (slot w) i (some (some x))) ∨ (May c m ∧ Threw (ctorError c m i x w) T (slot w)) := by
  have hv := slot_none.1 hi
  rcases call_cases c m (w.set i (some ⟨false, none⟩)) with ⟨n, hcall⟩ | ⟨n, hm, hk, hcall⟩
  · left
    unfold Done
    simp [W.set] at hcall
    simp [ctorError, bind_eq, declare, hv, ctorBody, construct, var, W.set, hcall]
    refine Inv.of (put (errOf w) i (some (w.next, x))) (h.own.birth x (by simp [errOf, hv])) fun j => ?_
    by_cases e : j = i
    · simp [e, upd, put]
    · simpa [e, upd, put] using h.keep j
  · right
    refine ⟨⟨hm, hk⟩, ?_⟩
    unfold Threw
    simp [W.set] at hcall
    simp [ctorError, bind_eq, declare, hv, ctorBody, construct, W.set, hcall]
    refine Inv.of (errOf w) h.own fun j => ?_
    by_cases e : j = i
    · simp [e, errOf, hv, slot]
    · simpa [e] using h.keep j

theorem ctorCopy_spec (c : Cls β) (h : Inv w T) {i j : Nat} (hi : slot w i = none) {x : Option β} (hj : slot w j = some x) :
    Done (ctorCopy c i j w) T (upd (slot w) i (some x)) ∨ ((∃ k, c.throws k = true) ∧ Threw (ctorCopy c i j w) T (slot w)) := by
  have hv := slot_none.1 hi
  have hij : j ≠ i := by rintro rfl; rw [hi] at hj; cases hj
  cases x with
  | none =>
    left
    obtain ⟨st, hu⟩ := h.value hj
    unfold Done
    simp [ctorCopy, bind_eq, pure_eq, hasValue, var, declare, ctorBody, hv, hu, W.set]
    refine Inv.of (errOf w) h.own fun k => ?_
    by_cases e : k = i
    · simp [e, upd, errOf, hv]
    · simpa [e, upd] using h.keep k
  | some x =>
    obtain ⟨id, hu, -⟩ := err_of hj
    rcases call_cases c false (w.set i (some ⟨false, none⟩)) with ⟨n, hcall⟩ | ⟨n, hm, hk, hcall⟩
    · left
      unfold Done
      simp [W.set] at hcall
      simp [ctorCopy, bind_eq, pure_eq, hasValue, var, declare, ctorBody, Opt.read, construct, hv, hu, hij, W.set, hcall]
      refine Inv.of (put (errOf w) i (some (w.next, x))) (h.own.birth x (by simp [errOf, hv])) fun j => ?_
      by_cases e : j = i
      · simp [e, upd, put]
      · simpa [e, upd, put] using h.keep j
    · right
      refine ⟨hk, ?_⟩
      unfold Threw
      simp [W.set] at hcall
      simp [ctorCopy, bind_eq, pure_eq, hasValue, var, declare, ctorBody, Opt.read, construct, hv, hu, hij, W.set, hcall]
      refine Inv.of (errOf w) h.own fun j => ?_
      by_cases e : j = i
      · simp [e, errOf, hv, slot]
      · simpa [e] using h.keep j

theorem ctorMove_spec (c : Cls β) (h : Inv w T) {i j : Nat} (hi : slot w i = none) {x : Option β} (hj : slot w j = some x) :
    Done (ctorMove c i j w) T (upd (upd (slot w) j (some (x.map c.moved))) i (some x)) ∨
    (May c true ∧ Threw (ctorMove c i j w) T (slot w)) := by
  have hv := slot_none.1 hi
  have hij : j ≠ i := by rintro rfl; rw [hi] at hj; cases hj
  cases x with
  | none =>
    left
    obtain ⟨st, hu⟩ := h.value hj
    unfold Done
    simp [ctorMove, bind_eq, pure_eq, hasValue, var, declare, ctorBody, hv, hu, W.set]
    refine Inv.of (errOf w) h.own fun k => ?_
    by_cases e : k = i
    · simp [e, upd, errOf, hv]
    · by_cases e' : k = j
      · subst e'; simp [e, upd, hu, errOf]
      · simpa [e, e', upd] using h.keep k
  | some x =>
    obtain ⟨id, hu, hs⟩ := err_of hj
    rcases call_cases c true (w.set i (some ⟨false, none⟩)) with ⟨n, hcall⟩ | ⟨n, hm, hk, hcall⟩
    · left
      unfold Done
      simp [W.set] at hcall
      simp [ctorMove, bind_eq, pure_eq, hasValue, var, declare, ctorBody, Opt.read, write, setVar, construct, hv, hu, hij, W.set, hcall]
      refine Inv.of _ ((h.own.birth (i := i) x (by simp [errOf, hv])).setValue (i := j) (c.moved x) (by simpa [put, hij] using hs)) fun k => ?_
      by_cases e : k = i
      · subst e; simp [upd, put, hij.symm]
      · by_cases e' : k = j
        · simp [e', hij, upd, put]
        · simpa [e, e', upd, put] using h.keep k
    · right
      refine ⟨⟨hm, hk⟩, ?_⟩
      unfold Threw
      simp [W.set] at hcall
      simp [ctorMove, bind_eq, pure_eq, hasValue, var, declare, ctorBody, Opt.read, construct, hv, hu, hij, W.set, hcall]
      refine Inv.of (errOf w) h.own fun j => ?_
      by_cases e : j = i
      · simp [e, errOf, hv, slot]
      · simpa [e] using h.keep j

theorem dtor_spec (h : Inv w T) {i : Nat} {x : Option β} (hi : slot w i = some x) : Done (dtor i w) T (upd (slot w) i none) := by
  unfold Done
  cases x with
  | none =>
    obtain ⟨st, hu⟩ := h.value hi
    simp [dtor, bind_eq, pure_eq, hasValue, var, hu, W.set]
    refine Inv.of (errOf w) h.own fun k => ?_
    by_cases e : k = i
    · simp [e, upd, errOf, hu]
    · simpa [e, upd] using h.keep k
  | some x =>
    obtain ⟨id, hu, hs⟩ := err_of hi
    simp [dtor, bind_eq, pure_eq, hasValue, var, destruct, hu, W.set]
    refine Inv.of _ (h.own.death hs) fun k => ?_
    by_cases e : k = i
    · simp [e, upd, put]
    · simpa [e, upd, put] using h.keep k

/-! ### swap -/

theorem swapSame_spec (c : Cls β) (h : Inv w T) {i j : Nat} {x y : β} (hi : slot w i = some (some x)) (hj : slot w j = some (some y)) :
    Done (swapSame c i j w) T (upd (upd (slot w) i (some (some y))) j (some (some x))) ∨
    (May c true ∧ ∃ F, SameKinds F (slot w) ∧ Threw (swapSame c i j w) T F) := by
  obtain ⟨id, hu, si⟩ := err_of hi
  obtain ⟨id', hv, sj⟩ := err_of hj
  obtain ⟨fT, -⟩ := h.own.fresh
  have h1 := h.own.tmpBirth
  obtain ⟨p, g, hp, hc⟩ := call_eq c true
  by_cases p1 : p w.calls = true
  · right
    refine ⟨hp _ p1, slot w, fun _ => rfl, ?_⟩
    unfold Threw
    simp [swapSame, bind_eq, pure_eq, Opt.read, var, hu, hv, hc, p1]
    exact Inv.of (errOf w) h.own h.keep
  by_cases hij : i = j
  · subst hij
    rw [hi] at hj; cases hj
    rw [hu] at hv; cases hv
    have h2 := h1.setValue (i := i) (c.moved x) si
    by_cases p2 : p (g w.calls) = true
    · right
      refine ⟨hp _ p2, upd (slot w) i (some (some (c.moved x))), ?_, ?_⟩
      · intro k; by_cases e : k = i <;> simp [upd, e, hi]
      · unfold Threw
        simp [swapSame, bind_eq, pure_eq, Opt.read, write, setVar, var, hu, hc, p1, p2, W.set]
        have h3 := h2.tmpDeath fT
        simp only [List.append_assoc, List.cons_append, List.nil_append] at h3
        refine Inv.of _ h3 fun k => ?_
        by_cases e : k = i
        · simp [e, upd, put]
        · simpa [e, upd, put] using h.keep k
    have h3 := (h2.setValue (i := i) (c.moved x) (put_self ..)).setValue (i := i) (c.moved (c.moved x)) (put_self ..)
    by_cases p3 : p (g (g w.calls)) = true
    · right
      refine ⟨hp _ p3, upd (slot w) i (some (some (c.moved (c.moved x)))), ?_, ?_⟩
      · intro k; by_cases e : k = i <;> simp [upd, e, hi]
      · unfold Threw
        simp [swapSame, bind_eq, pure_eq, Opt.read, write, setVar, var, hu, hc, p1, p2, p3, W.set]
        have h3 := h3.tmpDeath fT
        simp only [List.append_assoc, List.cons_append, List.nil_append] at h3
        refine Inv.of _ h3 fun k => ?_
        by_cases e : k = i
        · simp [e, upd, put]
        · simpa [e, upd, put] using h.keep k
    left
    unfold Done
    simp [swapSame, bind_eq, pure_eq, Opt.read, write, setVar, var, hu, hc, p1, p2, p3, W.set]
    have h3 := (h3.setValue (i := i) x (put_self ..)).tmpDeath fT
    simp only [List.append_assoc, List.cons_append, List.nil_append] at h3
    refine Inv.of _ h3 fun k => ?_
    by_cases e : k = i
    · simp [e, upd, put]
    · simpa [e, upd, put] using h.keep k
  · have hji : j ≠ i := fun e => hij e.symm
    have h2 := h1.setValue (i := i) (c.moved x) si
    by_cases p2 : p (g w.calls) = true
    · right
      refine ⟨hp _ p2, upd (slot w) i (some (some (c.moved x))), ?_, ?_⟩
      · intro k; by_cases e : k = i <;> simp [upd, e, hi]
      · unfold Threw
        simp [swapSame, bind_eq, pure_eq, Opt.read, write, setVar, var, hu, hv, hij, hji, hc, p1, p2, W.set]
        have h3 := h2.tmpDeath fT
        simp only [List.append_assoc, List.cons_append, List.nil_append] at h3
        refine Inv.of _ h3 fun k => ?_
        by_cases e : k = i
        · simp [e, upd, put]
        · simpa [e, upd, put] using h.keep k
    have h3 := (h2.setValue (i := i) y (put_self ..)).setValue (i := j) (c.moved y) (by simpa [put, hji] using sj)
    by_cases p3 : p (g (g w.calls)) = true
    · right
      refine ⟨hp _ p3, upd (upd (slot w) i (some (some y))) j (some (some (c.moved y))), ?_, ?_⟩
      · intro k; by_cases e : k = i <;> by_cases e' : k = j <;> simp [upd, e, e', hi, hj, hij]
      · unfold Threw
        simp [swapSame, bind_eq, pure_eq, Opt.read, write, setVar, var, hu, hv, hij, hji, hc, p1, p2, p3, W.set]
        have h3 := h3.tmpDeath fT
        simp only [List.append_assoc, List.cons_append, List.nil_append] at h3
        refine Inv.of _ h3 fun k => ?_
        by_cases e : k = i
        · simp [e, upd, put, hij]
        · by_cases e' : k = j
          · simp [e', upd, put]
          · simpa [e, e', upd, put] using h.keep k
    left
    unfold Done
    simp [swapSame, bind_eq, pure_eq, Opt.read, write, setVar, var, hu, hv, hij, hji, hc, p1, p2, p3, W.set]
    have h3 := (h3.setValue (i := j) x (put_self ..)).tmpDeath fT
    simp only [List.append_assoc, List.cons_append, List.nil_append] at h3
    refine Inv.of _ h3 fun k => ?_
    by_cases e : k = i
    · simp [e, upd, put, hij]
    · by_cases e' : k = j
      · simp [e', upd, put]
      · simpa [e, e', upd, put] using h.keep k

theorem swapMixed_spec (c : Cls β) (h : Inv w T) {i j : Nat} {y : β} (hi : slot w i = some none) (hj : slot w j = some (some y)) :
    (∃ id, ¬ T id ∧ Done (swapMixed c i j w) (fun n => T n ∨ n = id) (upd (upd (slot w) i (some (some y))) j (some none))) ∨
    (May c true ∧ Threw (swapMixed c i j w) T (slot w)) := by
  obtain ⟨st, hu⟩ := h.value hi
  obtain ⟨id, hv, sj⟩ := err_of hj
  have hij : i ≠ j := by rintro rfl; rw [hi] at hj; cases hj
  have hji := hij.symm
  obtain ⟨p, g, hp, hc⟩ := call_eq c true
  by_cases p1 : p w.calls = true
  · right
    refine ⟨hp _ p1, ?_⟩
    unfold Threw
    simp [swapMixed, error, construct, hasValue, bind_eq, pure_eq, Opt.read, var, hu, hv, hc, p1]
    exact Inv.of (errOf w) h.own h.keep
  · left
    refine ⟨id, h.own.tmp j id y sj, ?_⟩
    unfold Done
    simp [swapMixed, error, construct, hasValue, setHas, write, setVar, bind_eq, pure_eq, Opt.read, var, hu, hv, hc, p1, hij, hji, W.set]
    have h1 := h.own.birth (i := i) y (by simp [errOf, hu])
    refine Inv.of _ (h1.lose (i := j) (id := id) (v := y) (by simpa [put, hji] using sj)) fun k => ?_
    by_cases e : k = i
    · simp [e, upd, put, hij]
    · by_cases e' : k = j
      · simp [e', upd, put, hji]
      · simpa [e, e', upd, put] using h.keep k

/-- Outcome of a command from contents `f`: it has contents `F`, with one more lost object if and only if `m`; or it throws. -/
def Out (c : Cls β) (P : Prop) (r : R (W β) Unit) (T : Nat → Prop) (f F : Nat → Option (Option β)) (m : Prop) : Prop :=
  (¬ m ∧ Done r T F) ∨ (m ∧ ∃ id, ¬ T id ∧ Done r (fun n => T n ∨ n = id) F) ∨
  (P ∧ ∃ F', SameKinds F' f ∧ (c.nothrowMove = true → F' = f) ∧ Threw r T F')

theorem Out.to {c : Cls β} {P : Prop} {r : R (W β) Unit} {T : Nat → Prop} {f F F' : Nat → Option (Option β)} {m m' : Prop}
    (h : Out c P r T f F m) (hF : F = F') (hm : m ↔ m') : Out c P r T f F' m' := by
  obtain rfl := hF
  obtain rfl := propext hm
  exact h

theorem Out.weak {c : Cls β} {P P' : Prop} {r : R (W β) Unit} {T : Nat → Prop} {f F : Nat → Option (Option β)} {m : Prop}
    (h : Out c P r T f F m) (hP : P → P') : Out c P' r T f F m := h.imp_right (·.imp_right fun a => ⟨hP a.1, a.2⟩)

theorem May.not {c : Cls β} (h : May c true) : c.nothrowMove = false := by simpa using h.1

theorem upd_comm (f : Nat → Option (Option β)) {i j : Nat} (h : i ≠ j) (a b : Option (Option β)) : upd (upd f i a) j b = upd (upd f j b) i a := by
  funext k
  by_cases e : k = i <;> by_cases e' : k = j <;> simp [upd, e, e', h, h.symm]

theorem upd_id {f : Nat → Option (Option β)} {i : Nat} {a : Option (Option β)} (h : f i = a) : upd f i a = f := by
  funext k
  by_cases e : k = i
  · simp [upd, e, h]
  · simp [upd, e]

theorem upd_upd (f : Nat → Option (Option β)) (i : Nat) (a b : Option (Option β)) : upd (upd f i a) i b = upd f i b := by
  funext k
  by_cases e : k = i <;> simp [upd, e]

theorem upd_self (f : Nat → Option (Option β)) (i : Nat) (a : Option (Option β)) : upd f i a i = a := by simp [upd]

theorem upd_ne (f : Nat → Option (Option β)) {i j : Nat} (h : j ≠ i) (a : Option (Option β)) : upd f i a j = f j := by simp [upd, h]

theorem noexcept_out {c : Cls β} {m : M β Unit} {f F : Nat → Option (Option β)} {q : Prop} (h : Out c (May c true) (m w) T f F q) :
    Out c (May c true) (M.noexcept c.nothrowMove m w) T f F q := by
  by_cases hn : c.nothrowMove = true
  · rcases h with ⟨a, w', e, h⟩ | ⟨a, id, hT, w', e, h⟩ | ⟨a, -⟩
    · exact .inl ⟨a, w', by simp [M.noexcept, e], h⟩
    · exact .inr (.inl ⟨a, id, hT, w', by simp [M.noexcept, e], h⟩)
    · rw [a.not] at hn; cases hn
  · have : M.noexcept c.nothrowMove m w = m w := by
      simp only [M.noexcept, hn]
      cases m w <;> rfl
    rw [this]; exact h

theorem swap_out (c : Cls β) (h : Inv w T) {i j : Nat} {x y : Option β} (hi : slot w i = some x) (hj : slot w j = some y) :
    Out c (May c true) (swap c i j w) T (slot w) (upd (upd (slot w) i (some y)) j (some x)) (x.isSome ≠ y.isSome) := by
  refine noexcept_out ?_
  cases x with
  | none =>
    obtain ⟨st, hu⟩ := h.value hi
    cases y with
    | none =>
      obtain ⟨st', hv⟩ := h.value hj
      refine .inl ⟨by simp, w, ?_, h, ?_⟩
      · simp [hasValue, var, bind_eq, pure_eq, hu, hv]
      · rw [upd_id hi, upd_id hj]
    | some y =>
      obtain ⟨id, hv, -⟩ := err_of hj
      have e : ∀ r, r = swapMixed c i j w → Out c (May c true) r T (slot w) (upd (upd (slot w) i (some (some y))) j (some none)) ((none : Option β).isSome ≠ (some y).isSome) := by
        rintro r rfl
        rcases swapMixed_spec c h hi hj with a | ⟨m, a⟩
        · exact .inr (.inl ⟨by simp, a⟩)
        · exact .inr (.inr ⟨m, _, fun _ => rfl, fun _ => rfl, a⟩)
      apply e
      simp [hasValue, var, bind_eq, pure_eq, hu, hv]
  | some x =>
    obtain ⟨id, hu, -⟩ := err_of hi
    cases y with
    | none =>
      obtain ⟨st', hv⟩ := h.value hj
      have e : ∀ r, r = swapMixed c j i w → Out c (May c true) r T (slot w) (upd (upd (slot w) i (some none)) j (some (some x))) ((some x).isSome ≠ (none : Option β).isSome) := by
        rintro r rfl
        have hij : i ≠ j := by rintro rfl; rw [hi] at hj; cases hj
        rw [upd_comm _ hij]
        rcases swapMixed_spec c h hj hi with a | ⟨m, a⟩
        · exact .inr (.inl ⟨by simp, a⟩)
        · exact .inr (.inr ⟨m, _, fun _ => rfl, fun _ => rfl, a⟩)
      apply e
      simp [hasValue, var, bind_eq, pure_eq, hu, hv]
    | some y =>
      obtain ⟨id', hv, -⟩ := err_of hj
      have e : ∀ r, r = swapSame c i j w → Out c (May c true) r T (slot w) (upd (upd (slot w) i (some (some y))) j (some (some x))) ((some x).isSome ≠ (some y).isSome) := by
        rintro r rfl
        rcases swapSame_spec c h hi hj with a | ⟨m, F, hF, a⟩
        · exact .inl ⟨by simp, a⟩
        · exact .inr (.inr ⟨m, F, hF, fun q => (by rw [m.not] at q; cases q), a⟩)
      apply e
      simp [hasValue, var, bind_eq, pure_eq, hu, hv]

theorem withVar_out {c : Cls β} {ctor body : M β Unit} {w1 : W β} {t : Nat} {f F : Nat → Option (Option β)} {x z : Option β} {q P : Prop}
    (hc : ctor w = .ok w1 ()) (ht : slot w1 t = some x) (hk : SameKinds (upd (slot w1) t none) f) (hz : F t = some z)
    (hP : May c true → P) (hb : Out c (May c true) (body w1) T (slot w1) F q) : Out c P (withVar t ctor body w) T f (upd F t none) q := by
  rcases hb with ⟨a, w2, e, h2, s2⟩ | ⟨a, id, hT, w2, e, h2, s2⟩ | ⟨a, F', hF, -, w2, e, h2, s2⟩
  · obtain ⟨w3, e3, h3, s3⟩ := dtor_spec (x := z) h2 (i := t) (by rw [s2, hz])
    exact .inl ⟨a, w3, by simp [withVar, bind_eq, hc, e, e3], h3, by rw [s3, s2]⟩
  · obtain ⟨w3, e3, h3, s3⟩ := dtor_spec (x := z) h2 (i := t) (by rw [s2, hz])
    exact .inr (.inl ⟨a, id, hT, w3, by simp [withVar, bind_eq, hc, e, e3], h3, by rw [s3, s2]⟩)
  · have : ∃ z', F' t = some z' := by
      have := hF t
      rw [ht] at this
      cases hq : F' t with
      | none => simp [hq] at this
      | some z' => exact ⟨z', rfl⟩
    obtain ⟨z', hz'⟩ := this
    obtain ⟨w3, e3, h3, s3⟩ := dtor_spec (x := z') h2 (i := t) (by rw [s2, hz'])
    refine .inr (.inr ⟨hP a, upd F' t none, ?_, fun q => (by rw [a.not] at q; cases q), w3, by simp [withVar, bind_eq, hc, e, e3], h3, by rw [s3, s2]⟩)
    intro k
    have h1 := hk k
    have h2 := hF k
    by_cases e : k = t
    · simp only [upd, e, if_true] at h1 ⊢; exact h1
    · simp only [upd, e, if_false] at h1 ⊢; rw [h2, h1]

theorem withVar_throw {c : Cls β} {ctor body : M β Unit} {t : Nat} {F : Nat → Option (Option β)} {q P : Prop} (hP : P)
    (h : Threw (ctor w) T (slot w)) : Out c P (withVar t ctor body w) T (slot w) F q := by
  obtain ⟨w1, e, h1⟩ := h
  exact .inr (.inr ⟨hP, _, fun _ => rfl, fun _ => rfl, w1, by simp [withVar, bind_eq, e], h1⟩)

theorem same_upd {f : Nat → Option (Option β)} {t : Nat} {a : Option (Option β)} (h : f t = none) : upd (upd f t a) t none = f := by
  rw [upd_upd, upd_id h]

theorem assignCopy_out (c : Cls β) (h : Inv w T) {i j : Nat} {x y : Option β} (h0 : slot w 0 = none) (i0 : i ≠ 0)
    (hi : slot w i = some x) (hj : slot w j = some y) :
    Out c (∃ k, c.throws k = true) (assignCopy c i j w) T (slot w) (upd (slot w) i (some y)) (x.isSome ≠ y.isSome) := by
  rcases ctorCopy_spec c h h0 hj with ⟨w1, e, h1, s1⟩ | ⟨m, a⟩
  · have hi1 : slot w1 i = some x := by rw [s1, upd_ne _ i0, hi]
    have ht : slot w1 0 = some y := by rw [s1, upd_self]
    have := swap_out c h1 ht hi1
    have := withVar_out (ctor := ctorCopy c 0 j) (w := w) (f := slot w) (P := ∃ k, c.throws k = true) (z := x) e ht
      (by rw [s1, same_upd h0]; exact fun _ => rfl) (by rw [upd_ne _ i0.symm, upd_self]) (fun m => m.2) this
    refine this.to ?_ ne_comm
    rw [s1]
    funext k
    by_cases e : k = 0
    · simp [upd, e, h0, i0.symm]
    · simp [upd, e]
  · exact withVar_throw m a

theorem assignMove_out (c : Cls β) (h : Inv w T) {i j : Nat} {x y : Option β} (h0 : slot w 0 = none) (i0 : i ≠ 0)
    (hi : slot w i = some x) (hj : slot w j = some y) :
    Out c (May c true) (assignMove c i j w) T (slot w) (upd (upd (slot w) j (some (y.map c.moved))) i (some y)) (x.isSome ≠ y.isSome) := by
  refine noexcept_out ?_
  have j0 : j ≠ 0 := by rintro rfl; rw [h0] at hj; cases hj
  rcases ctorMove_spec c h h0 hj with ⟨w1, e, h1, s1⟩ | ⟨m, a⟩
  · have ⟨x', hi1, hx⟩ : ∃ x', slot w1 i = some x' ∧ x'.isSome = x.isSome := by
      rw [s1, upd_ne _ i0]
      by_cases e : i = j
      · subst e
        rw [hi] at hj; cases hj
        exact ⟨_, upd_self .., by simp⟩
      · exact ⟨x, by rw [upd_ne _ e, hi], rfl⟩
    have ht : slot w1 0 = some y := by rw [s1, upd_self]
    have := swap_out c h1 ht hi1
    have := withVar_out (ctor := ctorMove c 0 j) (w := w) (f := slot w) (P := May c true) (z := x') e ht
      (by
        intro k
        rw [s1]
        by_cases e : k = 0
        · simp [upd, e, h0]
        · by_cases e' : k = j <;> simp [upd, e, e', hj, j0]) (by rw [upd_ne _ i0.symm, upd_self]) (fun m => m) this
    refine this.to ?_ (by rw [hx]; exact ne_comm)
    rw [s1]
    funext k
    by_cases e : k = 0
    · simp [upd, e, h0, i0.symm, j0.symm]
    · simp [upd, e]
  · exact withVar_throw m a

theorem assignError_out (c : Cls β) (m : Bool) (h : Inv w T) {i : Nat} {x : Option β} (e : β) (h0 : slot w 0 = none) (h1 : slot w 1 = none)
    (i0 : i ≠ 0) (i1 : i ≠ 1) (hi : slot w i = some x) :
    Out c (∃ k, c.throws k = true) (assignError c m i e w) T (slot w) (upd (slot w) i (some (some e))) (x.isSome = false) := by
  rcases ctorError_spec c m h h1 e with ⟨w1, he, hw1, s1⟩ | ⟨m, a⟩
  · have hi1 : slot w1 i = some x := by rw [s1, upd_ne _ i1, hi]
    have ht : slot w1 1 = some (some e) := by rw [s1, upd_self]
    have := assignMove_out c hw1 (by rw [s1, upd_ne _ (by decide), h0]) i0 hi1 ht
    have := withVar_out (ctor := ctorError c m 1 e) (w := w) (f := slot w) (P := ∃ k, c.throws k = true) (z := some (c.moved e)) he ht
      (by rw [s1, same_upd h1]; exact fun _ => rfl) (by rw [upd_ne _ i1.symm, upd_self]; rfl) (fun m => m.2) this
    refine this.to ?_ (by simp)
    rw [s1]
    funext k
    by_cases e : k = 1
    · simp [upd, e, h1, i1.symm]
    · simp [upd, e]
  · exact withVar_throw m.2 a

theorem emplace_out (c : Cls β) (h : Inv w T) {i : Nat} {x : Option β} (h0 : slot w 0 = none) (i0 : i ≠ 0) (hi : slot w i = some x) :
    Out c (May c true) (emplace c i w) T (slot w) (upd (slot w) i (some none)) (x.isSome = true) := by
  obtain ⟨w1, e, h1, s1⟩ := ctorDefault_spec h h0
  have hi1 : slot w1 i = some x := by rw [s1, upd_ne _ i0, hi]
  have ht : slot w1 0 = some none := by rw [s1, upd_self]
  have := swap_out c h1 ht hi1
  have := withVar_out (ctor := ctorDefault 0) (w := w) (f := slot w) (P := May c true) (z := x) e ht
    (by rw [s1, same_upd h0]; exact fun _ => rfl) (by rw [upd_ne _ i0.symm, upd_self]) (fun m => m) this
  refine this.to ?_ (by cases x <;> simp)
  rw [s1]
  funext k
  by_cases e : k = 0
  · simp [upd, e, h0, i0.symm]
  · simp [upd, e]

/-! ### Histories -/

/-- Between commands no temporary variable exists. -/
structure Good (w : W β) (T : Nat → Prop) : Prop where
  inv : Inv w T
  t0 : slot w 0 = none
  t1 : slot w 1 = none

theorem good_init : Good (Opt.init : W β) noT := ⟨inv_init, rfl, rfl⟩

theorem Good.congrT {w : W β} {T T' : Nat → Prop} (h : Good w T) (e : ∀ n, T n ↔ T' n) : Good w T' := by
  obtain rfl : T = T' := funext fun n => propext (e n)
  exact h

/-- Two slots below the variables of the program. -/
def shift (f : Spec.Cont β) : Nat → Option (Option β) := fun k => match k with
  | 0 => none
  | 1 => none
  | k + 2 => f k

theorem shift_upd (f : Spec.Cont β) (i : Nat) (a : Option (Option β)) : upd (shift f) (i + 2) a = shift (upd f i a) := by
  funext k
  match k with
  | 0 => simp [upd, shift]
  | 1 => simp [upd, shift]
  | k + 2 => simp [upd, shift]

theorem Good.shift {w : W β} {T : Nat → Prop} (h : Good w T) : slot w = shift (cont w) := by
  funext k
  match k with
  | 0 => exact h.t0
  | 1 => exact h.t1
  | k + 2 => rfl

theorem decl {w : W β} {i : Nat} (h : w.vars (i + 2) ≠ none) : ∃ x, slot w (i + 2) = some x ∧ cont w i = some x := by
  cases e : w.vars (i + 2) with
  | none => exact (h e).elim
  | some o =>
    have hs : slot w (i + 2) = some (if o.has then none else o.st.map Prod.snd) := by simp [slot, e]
    exact ⟨_, hs, hs⟩

theorem undecl {w : W β} {i : Nat} (h : ¬ w.vars (i + 2) ≠ none) : slot w (i + 2) = none := slot_none.2 (not_not.1 h)

theorem step_out (c : Cls β) {w : W β} {T : Nat → Prop} (h : Good w T) (k : Cmd β) (hl : Legal (fun i => w.vars (i + 2) ≠ none) k) :
    Out c (∃ k, c.throws k = true) (step c k w) T (shift (cont w)) (shift (Spec.step c.moved (cont w) k)) (Mixed (cont w) k) := by
  rw [← h.shift]
  have sh : ∀ i a, upd (slot w) (i + 2) a = shift (upd (cont w) i a) := fun i a => by rw [h.shift, shift_upd]
  have sh' : ∀ i a j b, upd (upd (slot w) (i + 2) a) (j + 2) b = shift (upd (upd (cont w) i a) j b) := fun i a j b => by
    rw [h.shift, shift_upd, shift_upd]
  cases k with
  | dflt i => exact .inl ⟨fun q => q, by rw [Spec.step, ← sh]; exact ctorDefault_spec h.inv (undecl hl)⟩
  | ofError m i e =>
    rw [Spec.step, ← sh]
    rcases ctorError_spec c m h.inv (undecl hl) e with a | ⟨m, a⟩
    · exact .inl ⟨fun q => q, a⟩
    · exact .inr (.inr ⟨m.2, _, fun _ => rfl, fun _ => rfl, a⟩)
  | copy i j =>
    obtain ⟨x, hx, hx'⟩ := decl hl.2
    rw [Spec.step, ← sh, hx']
    rcases ctorCopy_spec c h.inv (undecl hl.1) hx with a | ⟨m, a⟩
    · exact .inl ⟨fun q => q, a⟩
    · exact .inr (.inr ⟨m, _, fun _ => rfl, fun _ => rfl, a⟩)
  | move i j =>
    obtain ⟨x, hx, hx'⟩ := decl hl.2
    rw [Spec.step, ← sh', hx']
    rcases ctorMove_spec c h.inv (undecl hl.1) hx with a | ⟨m, a⟩
    · exact .inl ⟨fun q => q, a⟩
    · exact .inr (.inr ⟨m.2, _, fun _ => rfl, fun _ => rfl, a⟩)
  | assignCopy i j =>
    obtain ⟨x, hx, hx'⟩ := decl hl.1
    obtain ⟨y, hy, hy'⟩ := decl hl.2
    rw [Spec.step, ← sh, hy']
    exact (assignCopy_out c h.inv h.t0 (by omega) hx hy).to rfl (by simp [Mixed, differ, hx', hy'])
  | assignMove i j =>
    obtain ⟨x, hx, hx'⟩ := decl hl.1
    obtain ⟨y, hy, hy'⟩ := decl hl.2
    rw [Spec.step, ← sh', hy']
    exact ((assignMove_out c h.inv h.t0 (by omega) hx hy).to rfl (by simp [Mixed, differ, hx', hy'])).weak fun m => m.2
  | assignError m i e =>
    obtain ⟨x, hx, hx'⟩ := decl hl
    rw [Spec.step, ← sh]
    exact (assignError_out c m h.inv e h.t0 h.t1 (by omega) (by omega) hx).to rfl (by cases x <;> simp [Mixed, hx'])
  | emplace i =>
    obtain ⟨x, hx, hx'⟩ := decl hl
    rw [Spec.step, ← sh]
    exact ((emplace_out c h.inv h.t0 (by omega) hx).to rfl (by cases x <;> simp [Mixed, hx'])).weak fun m => m.2
  | swap i j =>
    obtain ⟨x, hx, hx'⟩ := decl hl.1
    obtain ⟨y, hy, hy'⟩ := decl hl.2
    rw [Spec.step, ← sh', hy', hx']
    exact ((swap_out c h.inv hx hy).to rfl (by simp [Mixed, differ, hx', hy'])).weak fun m => m.2
  | destroy i =>
    obtain ⟨x, hx, hx'⟩ := decl hl
    exact .inl ⟨fun q => q, by rw [Spec.step, ← sh]; exact dtor_spec h.inv hx⟩

theorem good_of {w' : W β} {T : Nat → Prop} {F : Spec.Cont β} (h : Inv w' T) (s : slot w' = Void.shift F) : Good w' T ∧ cont w' = F :=
  ⟨⟨h, by rw [s]; rfl, by rw [s]; rfl⟩, by funext k; show slot w' (k + 2) = F k; rw [s]; rfl⟩

/-- What one command does between commands. -/
theorem good_step (c : Cls β) {w : W β} {T : Nat → Prop} (h : Good w T) (k : Cmd β) (hl : Legal (fun i => w.vars (i + 2) ≠ none) k) :
    (∃ w', step c k w = .ok w' () ∧ cont w' = Spec.step c.moved (cont w) k ∧
      ((¬ Mixed (cont w) k ∧ Good w' T) ∨ (Mixed (cont w) k ∧ ∃ id, ¬ T id ∧ Good w' fun n => T n ∨ n = id))) ∨
    ((∃ k, c.throws k = true) ∧ ∃ w', step c k w = .exc w' ∧ SameKinds (cont w') (cont w) ∧ (c.nothrowMove = true → cont w' = cont w) ∧ Good w' T) := by
  rcases step_out c h k hl with ⟨a, w', e, hi, s⟩ | ⟨a, id, hT, w', e, hi, s⟩ | ⟨a, F', hk, hn, w', e, hi, s⟩
  · obtain ⟨g, hc⟩ := good_of hi s
    exact .inl ⟨w', e, hc, .inl ⟨a, g⟩⟩
  · obtain ⟨g, hc⟩ := good_of hi s
    exact .inl ⟨w', e, hc, .inr ⟨a, id, hT, g⟩⟩
  · have s' : slot w' = Void.shift fun k => F' (k + 2) := by
      funext k
      match k with
      | 0 =>
        have := hk 0
        rw [s]
        simpa [Void.shift] using this
      | 1 =>
        have := hk 1
        rw [s]
        simpa [Void.shift] using this
      | k + 2 => rw [s]; rfl
    obtain ⟨g, hc⟩ := good_of hi s'
    refine .inr ⟨a, w', e, ?_, ?_, g⟩
    · intro k
      rw [hc]
      exact hk (k + 2)
    · intro q
      rw [hc]
      funext k
      show F' (k + 2) = _
      rw [hn q]
      rfl

theorem kinds_step (m : β → β) {f g : Spec.Cont β} (h : SameKinds f g) (k : Cmd β) : SameKinds (Spec.step m f k) (Spec.step m g k) := by
  intro n
  have hm : ∀ (f : Spec.Cont β) j, ((f j).map (·.map m)).map Option.isSome = (f j).map Option.isSome := by
    intro f j
    rcases f j with _ | _ | _ <;> rfl
  cases k <;> simp only [Spec.step, upd] <;> split <;> (try split) <;> first | rfl | exact h _ | (rw [hm, hm]; exact h _)

theorem kinds_mixed {f g : Spec.Cont β} (h : SameKinds f g) (k : Cmd β) : Mixed f k ↔ Mixed g k := by
  have key : ∀ i, f i = some none ↔ g i = some none := by
    intro i
    have := h i
    constructor <;> intro e <;> rw [e] at this
    · cases hg : g i with
      | none => simp [hg] at this
      | some x => cases x with
        | none => rfl
        | some x => simp [hg] at this
    · cases hg : f i with
      | none => simp [hg] at this
      | some x => cases x with
        | none => rfl
        | some x => simp [hg] at this
  cases k <;> simp [Mixed, differ, h _, key]

theorem replay_kinds (m : β → β) {f g : Spec.Cont β} (h : SameKinds f g) (ks : List (Cmd β)) (ts : List Bool) :
    SameKinds (replay m f ks ts) (replay m g ks ts) ∧ leaks m f ks ts = leaks m g ks ts := by
  induction ks generalizing f g ts with
  | nil => exact ⟨h, rfl⟩
  | cons k ks ih =>
    match ts with
    | [] => exact ⟨h, rfl⟩
    | true :: ts => simpa [replay, leaks] using ih h ts
    | false :: ts =>
      obtain ⟨a, b⟩ := ih (kinds_step m h k) ts
      exact ⟨by simpa [replay] using a, by
        by_cases hm : Mixed f k
        · simp [leaks, hm, (kinds_mixed h k).1 hm, b]
        · simp [leaks, hm, mt (kinds_mixed h k).2 hm, b]⟩

/-- A whole history from a state between commands. -/
theorem run_spec (c : Cls β) {w : W β} {ids : List Nat} (h : Good w (· ∈ ids)) (hd : ids.Nodup) (ks : List (Cmd β)) (hl : LegalRun c w ks) :
    ∃ w' ts, ∃ ids' : List Nat, run c w ks = .inr (w', ts) ∧ ts.length = ks.length ∧ Good w' (· ∈ ids') ∧ ids'.Nodup ∧
      ids'.length = ids.length + leaks c.moved (cont w) ks ts ∧
      SameKinds (cont w') (replay c.moved (cont w) ks ts) ∧ (c.nothrowMove = true ∨ (∀ n, c.throws n = false) → cont w' = replay c.moved (cont w) ks ts) ∧
      ((∀ n, c.throws n = false) → ts = ks.map fun _ => false) := by
  induction ks generalizing w ids with
  | nil => exact ⟨w, [], ids, rfl, rfl, h, hd, rfl, fun _ => rfl, fun _ => rfl, fun _ => rfl⟩
  | cons k ks ih =>
    obtain ⟨h1, h2⟩ := hl
    rcases good_step c h k h1 with ⟨w1, e, hc, hm⟩ | ⟨⟨n, hn⟩, w1, e, hk, hq, hg⟩
    · rw [e] at h2
      have ⟨ids1, hg, hd1, hlen⟩ : ∃ ids1 : List Nat, Good w1 (· ∈ ids1) ∧ ids1.Nodup ∧
          ids1.length = ids.length + leaks c.moved (cont w) [k] [false] := by
        rcases hm with ⟨m, hg⟩ | ⟨m, id, hT, hg⟩
        · exact ⟨ids, hg, hd, by simp [leaks, m]⟩
        · refine ⟨id :: ids, ?_, List.nodup_cons.2 ⟨hT, hd⟩, by simp [leaks, m]⟩
          have : (fun n => n ∈ ids ∨ n = id) = (· ∈ id :: ids) := by
            funext n
            simp [or_comm]
          rw [← this]; exact hg
      obtain ⟨w', ts, ids', a1, a2, a3, a4, a5, a6, a7, a8⟩ := ih hg hd1 h2
      refine ⟨w', false :: ts, ids', by simp [run, e, a1], by simp [a2], a3, a4, ?_, ?_, ?_, ?_⟩
      · rw [a5, hlen, hc]
        simp [leaks, Nat.add_assoc]
      · rw [hc] at a6; simpa [replay] using a6
      · intro q; rw [a7 q, hc]; simp [replay]
      · intro q; rw [a8 q]; rfl
    · rw [e] at h2
      obtain ⟨w', ts, ids', a1, a2, a3, a4, a5, a6, a7, a8⟩ := ih hg hd h2
      obtain ⟨b1, b2⟩ := replay_kinds c.moved hk ks ts
      refine ⟨w', true :: ts, ids', by simp [run, e, a1], by simp [a2], a3, a4, ?_, ?_, ?_, ?_⟩
      · rw [a5, b2]; simp [leaks]
      · exact fun n => (a6 n).trans (by simpa [replay] using b1 n)
      · intro q
        rcases id q with q' | q'
        · rw [a7 q, hq q']; simp [replay]
        · rw [q' n] at hn; cases hn
      · intro q; rw [q n] at hn; cases hn

theorem never_leaks (c : Cls β) {w : W β} {T : Nat → Prop} (h : Good w T) (ks : List (Cmd β)) (hl : LegalRun c w ks) (hm : NeverMixed c w ks)
    {w' : W β} {ts : List Bool} (e : run c w ks = .inr (w', ts)) : leaks c.moved (cont w) ks ts = 0 := by
  induction ks generalizing w T ts with
  | nil => rfl
  | cons k ks ih =>
    obtain ⟨h1, h2⟩ := hl
    obtain ⟨m1, m2⟩ := hm
    rcases good_step c h k h1 with ⟨w1, e1, hc, hm⟩ | ⟨⟨n, hn⟩, w1, e1, hk, hq, hg⟩
    · rw [e1] at h2 m2
      have hg : Good w1 T := by
        rcases hm with ⟨-, hg⟩ | ⟨m, -⟩
        · exact hg
        · exact (m1 m).elim
      simp only [run, e1] at e
      cases hr : run c w1 ks with
      | inl b => simp [hr] at e
      | inr p =>
        obtain ⟨w2, ts2⟩ := p
        simp [hr] at e
        obtain ⟨rfl, rfl⟩ := e
        have := ih hg h2 m2 hr
        rw [hc] at this
        simp [leaks, m1, this]
    · rw [e1] at h2 m2
      simp only [run, e1] at e
      cases hr : run c w1 ks with
      | inl b => simp [hr] at e
      | inr p =>
        obtain ⟨w2, ts2⟩ := p
        simp [hr] at e
        obtain ⟨rfl, rfl⟩ := e
        have := ih hg h2 m2 hr
        rw [(replay_kinds c.moved hk ks ts2).2] at this
        simp [leaks, this]

theorem replay_calm (m : β → β) (f : Spec.Cont β) (ks : List (Cmd β)) : replay m f ks (ks.map fun _ => false) = ks.foldl (Spec.step m) f := by
  induction ks generalizing f with
  | nil => rfl
  | cons k ks ih => simp [replay, ih]

end Nanostl.Exp.Void

import Verif.Any.Lemmas

/-! C76: `any` holds one value of any type, owns it, and gives it back to those who know its type. -/

namespace Nanostl.Any

variable {α : Type}

open Spec

/-- In every history, wherever allocations and constructors throw, no dead object is used or destroyed (`bad`); the record of constructions and
destructions is proper; the living objects are exactly those held by the variables, each by one; so nothing is leaked or shared. -/
theorem c76_lifetime (c : Cls α) (ks : List (Cmd α)) (h : LegalRun c init ks) :
    run c init ks ≠ .inl false ∧
    ∀ w ts, run c init ks = .inr (w, ts) →
      ∃ f, life w.evs (fun _ => none) = some f ∧
        ∀ b, (f b = some true ↔ w.heap b ≠ none) ∧ (f b = some true → ∃! i, w.vars (.user i) = some (some b)) ∧
          ∀ i, w.vars (.user i) = some (some b) → f b = some true := by
  obtain ⟨h1, h2⟩ := inv_run c inv_init noTmp_init ks h
  refine ⟨h1, fun w ts e => ?_⟩
  obtain ⟨hI, hN⟩ := h2 w ts e
  obtain ⟨f, t1, -, t3⟩ := hI.tr
  refine ⟨f, t1, fun b => ⟨t3 b, fun hl => ?_, fun i hi => (t3 b).2 ((hI.own b).2 ⟨_, hi⟩)⟩⟩
  obtain ⟨x, hx⟩ := (hI.own b).1 ((t3 b).1 hl)
  cases x with
  | user i =>
    refine ⟨i, hx, fun j hj => ?_⟩
    have := hI.inj _ _ _ hj hx
    simpa using this
  | tmp n => have := cv_none.1 (hN.2 n); rw [hx] at this; cases this
  | obj => have := cv_none.1 hN.1; rw [hx] at this; cases this

theorem life_count (es : List Ev) (f g : Life) (h : life es f = some g) (id : Nat) :
    (f id = none → es.count (.cons id) = (if g id = none then 0 else 1) ∧ es.count (.dest id) = (if g id = some false then 1 else 0)) ∧
    (f id = some true → es.count (.cons id) = 0 ∧ g id ≠ none ∧ es.count (.dest id) = (if g id = some false then 1 else 0)) ∧
    (f id = some false → es.count (.cons id) = 0 ∧ g id = some false ∧ es.count (.dest id) = 0) := by
  induction es generalizing f with
  | nil =>
    simp only [life, Option.some.injEq] at h
    subst h
    refine ⟨fun h => by simp [h], fun h => by simp [h], fun h => by simp [h]⟩
  | cons e es ih =>
    cases e with
    | cons i =>
      simp only [life] at h
      split at h
      · rename_i hi
        have := ih _ h
        by_cases hid : id = i
        · subst hid; simp_all
        · simp_all [Ne.symm hid]
      · cases h
    | dest i =>
      simp only [life] at h
      split at h
      · rename_i hi
        have := ih _ h
        by_cases hid : id = i
        · subst hid; simp_all
        · simp_all [Ne.symm hid]
      · cases h

/-- When all variables have ended or are empty every object has been destroyed, once. -/
theorem c76_no_leak (c : Cls α) (ks : List (Cmd α)) (h : LegalRun c init ks) (w : W α) (ts : List Bool) (e : run c init ks = .inr (w, ts))
    (hend : ∀ i v, cont w i ≠ some (some v)) (id : Nat) : w.evs.count (.dest id) = w.evs.count (.cons id) ∧ w.evs.count (.cons id) ≤ 1 := by
  obtain ⟨-, h2⟩ := c76_lifetime c ks h
  obtain ⟨f, t1, t2⟩ := h2 w ts e
  have hf : f id ≠ some true := by
    intro hl
    obtain ⟨i, hi, -⟩ := (t2 id).2.1 hl
    obtain ⟨v, hv⟩ := Option.ne_none_iff_exists'.1 ((t2 id).1.1 hl)
    exact hend i v (by simp [cont, hi, hv])
  obtain ⟨a, b⟩ := (life_count _ _ _ t1 id).1 rfl
  rw [a, b]
  cases hg : f id with
  | none => simp
  | some x => cases x <;> simp_all

/-- Legal by the specification alone. -/
def Spec.LegalAll : Cont α → List (Cmd α) → Prop
  | _, [] => True
  | f, k :: ks => Legal f k ∧ LegalAll (Spec.step f k) ks

theorem refines (c : Cls α) (hc : ∀ n, c.throws n = false) {w : W α} (hI : Inv w) (hN : NoTmp (cv w)) (ks : List (Cmd α)) (h : LegalAll (cont w) ks) :
    ∃ w', run c w ks = .inr (w', ks.map fun _ => false) ∧ cont w' = ks.foldl Spec.step (cont w) := by
  induction ks generalizing w with
  | nil => exact ⟨w, rfl, rfl⟩
  | cons k ks ih =>
    obtain ⟨hk, hs⟩ := h
    rcases good_step c hI hN hk with ⟨w1, e, ⟨h1, n1⟩, h2⟩ | ⟨-, ⟨n, hn⟩, -⟩ | ⟨-, ⟨n, hn⟩, -⟩
    · rw [← h2] at hs
      obtain ⟨w', e', h'⟩ := ih h1 n1 hs
      refine ⟨w', ?_, ?_⟩
      · simp only [run, e, e', List.map_cons]
      · rw [h', h2]; rfl
    · rw [hc] at hn; cases hn
    · rw [hc] at hn; cases hn

/-- If nothing throws, every history acts as the specification says: copies are independent, moves leave the source empty, moving an `any` to itself
keeps its value. -/
theorem c76_contents (c : Cls α) (hc : ∀ n, c.throws n = false) (ks : List (Cmd α)) (h : LegalAll (fun _ => none) ks) :
    ∃ w, run c init ks = .inr (w, ks.map fun _ => false) ∧ cont w = ks.foldl Spec.step (fun _ => none) :=
  refines c hc inv_init noTmp_init ks h

/-- In a state reached by any history a command does what the specification says, or an exception reaches the caller and all variables are as
before, or the program ends.
Missing: construction from a value and assignment of one never let the exception reach the caller, `emplace` not always, see `c76_value_false`. -/
theorem c76_exceptions_partial (c : Cls α) (ks : List (Cmd α)) (h : LegalRun c init ks) (w : W α) (ts : List Bool) (e : run c init ks = .inr (w, ts))
    (k : Cmd α) (hk : Legal (cont w) k) :
    (∃ w', step c k w = .ok w' () ∧ cont w' = Spec.step (cont w) k) ∨ (lets k ∧ ∃ w', step c k w = .exc w' ∧ cont w' = cont w) ∨
    (step c k w = .term ∧ inside k ∧ ∃ n, c.throws n = true) := by
  obtain ⟨hI, hN⟩ := (inv_run c inv_init noTmp_init ks h).2 w ts e
  rcases good_step c hI hN hk with ⟨w1, e, -, h2⟩ | ⟨h1, -, w1, e, -, h2⟩ | ⟨h1, h2, e⟩
  · exact .inl ⟨w1, e, h2⟩
  · exact .inr (.inl ⟨h1, w1, e, h2⟩)
  · exact .inr (.inr ⟨e, h1, h2⟩)

/-- `any a(value)` ends the program for every value whose allocation fails, in every state. -/
theorem c76_value_false (c : Cls α) (w : W α) (i : Nat) (m : Bool) (v : Nat × α) (ht : c.throws w.calls = true) : step c (.ofValue i m v) w = .term := by
  simp [step, ctorValue, M.noexcept, newHolder, call, ht, bind_eq, M.bind]

/-- Access in a state reached by any history, to a variable that holds `x`: `has_value`, `type`, and `any_cast<T>(&a)`, which points to the value
exactly if the type is right. -/
theorem c76_access (c : Cls α) (ks : List (Cmd α)) (h : LegalRun c init ks) (w : W α) (ts : List Bool) (e : run c init ks = .inr (w, ts))
    (i : Nat) (x : Option (Nat × α)) (hx : cont w i = some x) (t : Nat) (l : Bool) :
    hasValue (.user i) w = .ok w x.isSome ∧ type (.user i) w = .ok w (x.map Prod.fst) ∧
    (∃ r, castPtr l (some (.user i)) t false w = .ok w r ∧ (r ≠ none ↔ x.map Prod.fst = some t) ∧
      ∀ b, r = some b → w.vars (.user i) = some (some b) ∧ w.heap b = x) ∧
    castPtr l none t false w = .ok w none := by
  obtain ⟨hI, hN⟩ := (inv_run c inv_init noTmp_init ks h).2 w ts e
  cases hv : w.vars (.user i) with
  | none => simp [cont, hv] at hx
  | some p =>
    cases p with
    | none =>
      have : x = none := by simpa [cont, hv] using hx.symm
      subst this
      refine ⟨by simp [hasValue, content, hv, bind_eq, pure_eq, M.bind, M.pure], by simp [type, hasValue, content, hv, bind_eq, pure_eq, M.bind, M.pure],
        ⟨none, by simp [castPtr, type, hasValue, content, hv, bind_eq, pure_eq, M.bind, M.pure], by simp, by simp⟩, rfl⟩
    | some b =>
      obtain ⟨v, hb⟩ := hI.cell hv
      have : x = some v := by simpa [cont, hv, hb] using hx.symm
      subst this
      refine ⟨by simp [hasValue, content, hv, bind_eq, pure_eq, M.bind, M.pure], by simp [type, hasValue, content, hv, deref, hb, bind_eq, pure_eq, M.bind, M.pure],
        ?_, rfl⟩
      by_cases ht : v.1 = t
      · exact ⟨some b, by simp [castPtr, type, toPtr, hasValue, content, hv, deref, hb, ht, bind_eq, pure_eq, M.bind, M.pure], by simp [ht], by simp [hb]⟩
      · exact ⟨none, by simp [castPtr, type, toPtr, hasValue, content, hv, deref, hb, ht, bind_eq, pure_eq, M.bind, M.pure], by simp [ht], by simp⟩

/-- `any_cast<T>(a)` of a variable that is not `const`, or with a lenient compiler of any: the value if the type is right, else `bad_any_cast`
(`none`); the exception of the value's copy reaches the caller; the variable keeps its value, an rvalue's too. -/
theorem c76_cast_partial (c : Cls α) (ks : List (Cmd α)) (h : LegalRun c init ks) (w : W α) (ts : List Bool) (e : run c init ks = .inr (w, ts))
    (i : Nat) (x : Option (Nat × α)) (hx : cont w i = some x) (t : Nat) (l k : Bool) (hl : k = false ∨ l = true) :
    (∃ w', castValue c l (.user i) t k w = .ok w' (x.bind fun v => if v.1 = t then some v.2 else none) ∧ cont w' = cont w) ∨
    (c.throws w.calls = true ∧ ∃ w', castValue c l (.user i) t k w = .exc w' ∧ cont w' = cont w) := by
  obtain ⟨hI, hN⟩ := (inv_run c inv_init noTmp_init ks h).2 w ts e
  cases hv : w.vars (.user i) with
  | none => simp [cont, hv] at hx
  | some p =>
    cases p with
    | none =>
      have : x = none := by simpa [cont, hv] using hx.symm
      subst this
      exact .inl ⟨w, by simp [castValue, castPtr, type, hasValue, content, hv, bind_eq, pure_eq, M.bind, M.pure], rfl⟩
    | some b =>
      obtain ⟨v, hb⟩ := hI.cell hv
      have : x = some v := by simpa [cont, hv, hb] using hx.symm
      subst this
      by_cases ht : v.1 = t
      · by_cases hc : c.throws w.calls = true
        · exact .inr ⟨hc, { w with calls := w.calls + 1 }, by
            simp [castValue, castPtr, type, toPtr, hasValue, content, hv, deref, hb, ht, hl, call, hc, bind_eq, pure_eq, M.bind, M.pure], rfl⟩
        · exact .inl ⟨{ w with calls := w.calls + 1 }, by
            simp [castValue, castPtr, type, toPtr, hasValue, content, hv, deref, hb, ht, hl, call, hc, bind_eq, pure_eq, M.bind, M.pure], rfl⟩
      · exact .inl ⟨w, by simp [castValue, castPtr, type, hasValue, content, hv, deref, hb, ht, bind_eq, pure_eq, M.bind, M.pure], rfl⟩

/-- `any_cast<T>(a)` of a `const` variable that holds a `T` is undefined, always: the cell is cast to another class. -/
theorem c76_cast_false (c : Cls α) (ks : List (Cmd α)) (h : LegalRun c init ks) (w : W α) (ts : List Bool) (e : run c init ks = .inr (w, ts))
    (i : Nat) (v : Nat × α) (hx : cont w i = some (some v)) : castValue c false (.user i) v.1 true w = .bad := by
  obtain ⟨hI, hN⟩ := (inv_run c inv_init noTmp_init ks h).2 w ts e
  cases hv : w.vars (.user i) with
  | none => simp [cont, hv] at hx
  | some p =>
    cases p with
    | none => simp [cont, hv] at hx
    | some b =>
      have hb : w.heap b = some v := by simpa [cont, hv] using hx
      simp [castValue, castPtr, type, toPtr, hasValue, content, hv, deref, hb, bind_eq, pure_eq, M.bind, M.pure]

/-! ### Hypotheses are met -/

/-- The sixth call throws: the copy in `assignCopy`. -/
def demoCls : Cls Nat := ⟨fun t => t == 1, fun _ _ => 0, fun n => n == 5⟩

def demo : List (Cmd Nat) := [.empty 0, .ofValue 1 true (1, 7), .inPlace 2 (2, 8), .assignCopy 0 2, .assignCopy 0 1, .assignMove 1 2, .assignValue 0 false (3, 4),
  .emplace 1 (2, 2), .swap 0 1, .copy 3 0, .reset 0, .destroy 1, .destroy 2]

example : LegalRun demoCls init demo ∧ ∃ w, run demoCls init demo = .inr (w, [false, false, false, true, false, false, false, false, false, false, false, false, false]) ∧
    cont w 3 = some (some (2, 2)) := by
  constructor <;>
  simp [LegalRun, demo, run, demoCls, Legal, cont, step, ctorEmpty, ctorValue, ctorInPlace, ctorCopy, ctorMove, reset, dtor, Any.assignCopy, Any.assignMove,
    Any.assignValue, Any.emplace, Any.swap, M.noexcept, M.finally_, M.bind, M.pure, declare, undeclare, mkObj, holderFromObj, newHolder, place, del, clone, deref,
    write, content, setContent, call, bind_eq, pure_eq, W.set, init]

example : LegalAll (fun _ => none) demo := by
  simp [LegalAll, demo, Legal, Spec.step, upd]

end Nanostl.Any

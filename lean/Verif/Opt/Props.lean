import Verif.Opt.Lemmas

/-!
C60, C61: `optional` manages the lifetime of its value, under exceptions too, and follows the option model.
-/

namespace Nanostl.Opt

variable {α : Type}

open Spec

/-! ### C60 -/

/-- C60: in every history, wherever `T`'s constructors and assignments throw, no object is built over a living one, used or destroyed when
dead (`bad`); the record of constructions and destructions is proper; the living objects are exactly those of the optionals that hold a
value, each of one optional. -/
theorem c60_lifetime (c : Cls α) (ks : List (Cmd α)) (h : LegalRun c init ks) :
    run c init ks ≠ .inl false ∧
    ∀ w ts, run c init ks = .inr (w, ts) →
      (∀ i o, w.vars i = some o → (o.has = true ↔ o.st ≠ none)) ∧
      ∃ f, life w.evs (fun _ => none) = some f ∧
        ∀ id, (f id = some true → ∃! i, ∃ o v, w.vars i = some o ∧ o.st = some (id, v)) ∧
          ((∃ i o v, w.vars i = some o ∧ o.st = some (id, v)) → f id = some true) := by
  obtain ⟨h1, h2⟩ := inv_run c inv_init ks h
  refine ⟨h1, fun w ts e => ?_⟩
  have hI := h2 w ts e
  refine ⟨?_, ?_⟩
  · intro i o ho
    rw [hI.flags i o ho]
    cases o.st <;> simp
  · obtain ⟨f, t1, -, t3⟩ := hI.tr
    refine ⟨f, t1, fun id => ⟨fun hl => ?_, fun hl => (t3 id).2 (.inr hl)⟩⟩
    rcases (t3 id).1 hl with ht | ⟨i, o, v, a, b⟩
    · exact ht.elim
    · refine ⟨i, ⟨o, v, a, b⟩, ?_⟩
      rintro j ⟨o', v', a', b'⟩
      exact hI.inj j i o' o id v' v a' a b' b

/-- C60: at the end of all variables every object has been destroyed, once. -/
theorem c60_no_leak (c : Cls α) (ks : List (Cmd α)) (h : LegalRun c init ks) (w : W α) (ts : List Bool) (e : run c init ks = .inr (w, ts))
    (hend : ∀ i, cont w i = none) (id : Nat) : w.evs.count (.dest id) = w.evs.count (.cons id) ∧ w.evs.count (.cons id) ≤ 1 := by
  have hI := (inv_run c inv_init ks h).2 w ts e
  obtain ⟨f, t1, -, t3⟩ := hI.tr
  have hf : f id ≠ some true := by
    intro hl
    rcases (t3 id).1 hl with ht | ⟨i, o, v, a, b⟩
    · exact ht
    · have := hend i
      rw [undecl_of this] at a
      cases a
  obtain ⟨h1, -, -⟩ := life_count _ _ _ t1 id
  obtain ⟨a, b⟩ := h1 rfl
  rw [a, b]
  cases hg : f id with
  | none => simp
  | some x => cases x <;> simp_all

/-- Legal by the specification alone. -/
def Spec.LegalAll (moved : α → α) : Cont α → List (Cmd α) → Prop
  | _, [] => True
  | f, k :: ks => Legal f k ∧ LegalAll moved (Spec.step moved f k) ks

theorem refines (c : Cls α) (hc : ∀ n, c.throws n = false) {w : W α} (hI : Inv w noT) (ks : List (Cmd α)) (h : LegalAll c.moved (cont w) ks) :
    ∃ w', run c w ks = .inr (w', ks.map fun _ => false) ∧ cont w' = ks.foldl (Spec.step c.moved) (cont w) := by
  induction ks generalizing w with
  | nil => exact ⟨w, rfl, rfl⟩
  | cons k ks ih =>
    obtain ⟨hk, hs⟩ := h
    rcases good_step c hI hk with ⟨w1, e, h1, h2⟩ | ⟨⟨n, hn⟩, -⟩
    · rw [← h2] at hs
      obtain ⟨w', e', h'⟩ := ih h1 hs
      refine ⟨w', ?_, ?_⟩
      · simp only [run, e, e', List.map_cons]
      · rw [h', h2]; rfl
    · rw [hc] at hn; cases hn

/-- C60: if nothing throws, every history acts as the option model: a copy copies, a move leaves the moved-from value, `= nullopt` and
`reset` empty, `swap` exchanges, `emplace` and assignment put the value. -/
theorem c60_contents (c : Cls α) (hc : ∀ n, c.throws n = false) (ks : List (Cmd α)) (h : LegalAll c.moved (fun _ => none) ks) :
    ∃ w, run c init ks = .inr (w, ks.map fun _ => false) ∧ cont w = ks.foldl (Spec.step c.moved) (fun _ => none) :=
  refines c hc inv_init ks h

/-- C60: what a program reads in a state reached by any history. `value()` throws (`none`) on an empty optional and gives the value
otherwise; `value_or` gives the value or the default; equality and order are those of options, an empty one first. -/
theorem c60_access (c : Cls α) (ks : List (Cmd α)) (h : LegalRun c init ks) (w : W α) (ts : List Bool) (e : run c init ks = .inr (w, ts))
    (i j : Nat) (x y : Option α) (hx : cont w i = some x) (hy : cont w j = some y) (d : α) (eq lt : α → α → Bool) :
    hasValue i w = .ok w x.isSome ∧ value i w = .ok w x ∧ valueOr i d w = .ok w (x.getD d) ∧
    opEq eq i j w = .ok w (match x, y with
      | none, none => true
      | some a, some b => eq a b
      | _, _ => false) ∧
    opLt lt i j w = .ok w (match x, y with
      | none, some _ => true
      | some a, some b => lt a b
      | _, none => false) := by
  have hI := (inv_run c inv_init ks h).2 w ts e
  rcases decl_of hI (i := i) (by rw [hx]; simp) with hv | ⟨id, v, hv⟩ <;> rcases decl_of hI (i := j) (by rw [hy]; simp) with hu | ⟨id', u, hu⟩ <;>
    (have ex : cont w i = some x := hx
     have ey : cont w j = some y := hy
     simp [cont, hv] at ex
     simp [cont, hu] at ey
     subst ex
     subst ey
     simp [hasValue, value, valueOr, opEq, opLt, deref, read, var, bind_eq, pure_eq, hv, hu])

/-! ### C61: exceptions of `T` -/

/-- C61, what holds: in a state reached by any history, a command either does what the model says, or throws, leaving the contents as they were
(`emplace` leaves the optional empty, a `swap` of two values keeps both optionals full), or ends the program. The last happens only in copy
assignment of a `T` whose moves do not throw, and in move assignment of a `T` whose moves may.
Missing: copy assignment and move assignment do not let the exception reach the caller then, see `c61_copy_assign_false`. -/
theorem c61_exceptions_partial (c : Cls α) (ks : List (Cmd α)) (h : LegalRun c init ks) (w : W α) (ts : List Bool) (e : run c init ks = .inr (w, ts))
    (k : Cmd α) (hk : Legal (cont w) k) :
    (∃ w', step c k w = .ok w' () ∧ cont w' = Spec.step c.moved (cont w) k) ∨
    (∃ w', step c k w = .exc w' ∧ AfterThrow (cont w) (cont w') k) ∨
    (step c k w = .term ∧ ((∃ i j, k = .assignCopy i j) ∧ c.nothrowMove = true ∨ (∃ i j, k = .assignMove i j) ∧ c.nothrowMove = false)) := by
  have hI := (inv_run c inv_init ks h).2 w ts e
  rcases good_step c hI hk with ⟨w1, e, -, h2⟩ | ⟨-, ⟨w1, e, -, h2⟩ | h2⟩
  · exact .inl ⟨w1, e, h2⟩
  · exact .inr (.inl ⟨w1, e, h2⟩)
  · exact .inr (.inr h2)

/-- A class like a string: moves do not throw, the third copy does. -/
def strLike : Cls Nat := ⟨true, fun _ => 0, fun n => n == 2⟩

/-- C61 is false: copying into an engaged optional ends the program when `T`'s copy throws, although the operation threw nothing before. -/
theorem c61_copy_assign_false :
    run strLike init [.ofValue 0 7, .ofValue 1 8, .assignCopy 0 1] = .inl true := by
  simp [run, step, strLike, ctorValue, declare, ctorBody, construct, call, var, bind_eq, pure_eq, init, W.set, Opt.assignCopy, M.noexcept, hasValue,
    deref, read]

/-! ### Hypotheses are met -/

/-- A class whose second operation throws. -/
def demoCls : Cls Nat := ⟨false, fun _ => 0, fun n => n == 1⟩

def demo : List (Cmd Nat) := [.ofValue 0 7, .empty 1, .assignValue 1 5, .assignCopy 1 0, .emplace 0 9, .swap 0 1, .move 2 1, .destroy 0, .destroy 2]

example : LegalRun demoCls init demo ∧ ∃ w, run demoCls init demo = .inr (w, [false, false, true, false, false, false, false, false, false]) := by
  constructor <;>
  simp [LegalRun, demo, run, demoCls, Legal, cont, step, ctorEmpty, ctorValue, ctorMove, reset, dtor, initial, Opt.assignCopy,
    withTemp, Opt.assignValue, Opt.emplace, Opt.swap, M.noexcept, declare, ctorBody, construct, destruct, read, write, deref, setHas, setVar, hasValue,
    call, var, bind_eq, pure_eq, W.set, init]

example : LegalAll (fun _ => 0) (fun _ => none) demo := by
  simp [LegalAll, demo, Legal, Spec.step, upd]

example : demo.foldl (Spec.step fun _ => 0) (fun _ => none) 1 = some (some 0) := by
  simp [demo, Spec.step, upd]

end Nanostl.Opt

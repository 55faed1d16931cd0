import Verif.Exp.Lemmas
import Verif.Opt.Lemmas

/-!
C102 to C104: `expected<T, E>`.
-/

namespace Nanostl.Exp

open Opt (W M R Ev Ov hasValue life_count)
open Opt.Spec (life Life)
open Spec

variable {α β : Type}

/-! ### C102: lifetimes -/

/-- C102 where moves of `T` and `E` do not throw: in every history, wherever copies and other constructions throw, no object is built over a
living one, used or destroyed when dead or as the other alternative (`bad`); the flag of each variable tells which alternative lives in it; the
record of constructions and destructions is proper; the living objects are exactly one per variable.
Missing: types whose moves throw, see `c102_throwing_value_move_false`, `c102_throwing_error_move_false`. -/
theorem c102_lifetime_partial (c : Cls α β) (hc : Calm c) (ks : List (Cmd α β)) (h : LegalRun c init ks) :
    run c init ks ≠ .inl false ∧
    ∀ w ts, run c init ks = .inr (w, ts) →
      (∀ i o, w.vars i = some o → ∃ id x, o.st = some (id, x) ∧ (o.has = true ↔ ∃ v, x = .inl v)) ∧
      (∀ i, w.vars i ≠ none → 2 ≤ i) ∧
      ∃ f, life w.evs (fun _ => none) = some f ∧
        ∀ id, (f id = some true → ∃! i, ∃ o x, w.vars i = some o ∧ o.st = some (id, x)) ∧
          ((∃ i o x, w.vars i = some o ∧ o.st = some (id, x)) → f id = some true) := by
  obtain ⟨h1, -, h2⟩ := inv_run hc inv0_init ks h
  refine ⟨h1, fun w ts e => ?_⟩
  have hw := h2 w ts e
  have hI := hw.inv
  have key : ∀ i id x, stOf w i = some (id, x) ↔ ∃ o, w.vars i = some o ∧ o.st = some (id, x) := by
    intro i id x
    simp [stOf, Option.bind_eq_some_iff]
  refine ⟨?_, ?_, ?_⟩
  · intro i o ho
    obtain ⟨id, x, a, b⟩ := hI.flags i o ho
    refine ⟨id, x, a, ?_⟩
    rw [b]
    cases x <;> simp
  · intro i hi
    rcases i with _ | _ | i
    · exact (hi (hI.slot_none.1 hw.t0)).elim
    · exact (hi (hI.slot_none.1 hw.t1)).elim
    · omega
  · obtain ⟨f, t1, -, t3⟩ := hI.own.tr
    refine ⟨f, t1, fun id => ⟨fun hl => ?_, ?_⟩⟩
    · rcases (t3 id).1 hl with ht | ⟨i, x, a⟩
      · exact ht.elim
      · obtain ⟨o, b⟩ := (key i id x).1 a
        refine ⟨i, ⟨o, x, b⟩, ?_⟩
        rintro j ⟨o', x', b'⟩
        exact hI.own.inj j i id x' x ((key j id x').2 ⟨o', b'⟩) a
    · rintro ⟨i, o, x, b⟩
      exact (t3 id).2 (.inr ⟨i, x, (key i id x).2 ⟨o, b⟩⟩)

/-- C102 where moves do not throw: at the end of all variables every object of type `T` or `E` has been destroyed, once. -/
theorem c102_no_leak_partial (c : Cls α β) (hc : Calm c) (ks : List (Cmd α β)) (h : LegalRun c init ks) (w : W (α ⊕ β)) (ts : List Bool)
    (e : run c init ks = .inr (w, ts)) (hend : ∀ i, w.vars i = none) (id : Nat) :
    w.evs.count (.dest id) = w.evs.count (.cons id) ∧ w.evs.count (.cons id) ≤ 1 := by
  have hI := ((inv_run hc inv0_init ks h).2.2 w ts e).inv
  obtain ⟨f, t1, -, t3⟩ := hI.own.tr
  have hf : f id ≠ some true := by
    intro hl
    rcases (t3 id).1 hl with ht | ⟨i, x, a⟩
    · exact ht
    · simp [stOf, hend i] at a
  obtain ⟨h1, -, -⟩ := life_count _ _ _ t1 id
  obtain ⟨a, b⟩ := h1 rfl
  rw [a, b]
  cases hg : f id with
  | none => simp
  | some x => cases x <;> simp_all

/-- A value whose third operation, its move, throws. -/
def badT : Cls Nat Nat := ⟨false, true, id, id, 0, fun n => n == 3⟩

/-- C102 is false if the move of `T` throws: a `swap` of a value with an error (a legal one, which throws) leaves a variable without object
whose flag says "error"; its destructor destroys a dead object. -/
theorem c102_throwing_value_move_false :
    LegalRun badT init [.ofValue .const 0 7, .ofError false 1 8, .swap 0 1, .destroy 1] ∧
    run badT init [.ofValue .const 0 7, .ofError false 1 8, .swap 0 1] ≠ .inl false ∧
    run badT init [.ofValue .const 0 7, .ofError false 1 8, .swap 0 1, .destroy 1] = .inl false := by
  simp [LegalRun, Legal, run, step, badT, ctorValue, ctorError, ctorOf, swap, swapMixed, withTemp, error, dtor, M.noexcept, Opt.declare, Opt.ctorBody,
    construct, destruct, read, write, Opt.setVar, hasValue, call, Opt.var, bind_eq, pure_eq, W.set, init, Opt.init, Cls.moved]

/-- Likewise for `E`: its second move, into the variable that lost its value, throws. -/
def badE : Cls Nat Nat := ⟨true, false, id, id, 0, fun n => n == 4⟩

theorem c102_throwing_error_move_false :
    LegalRun badE init [.ofValue .const 0 7, .ofError false 1 8, .swap 0 1, .destroy 0] ∧
    run badE init [.ofValue .const 0 7, .ofError false 1 8, .swap 0 1] ≠ .inl false ∧
    run badE init [.ofValue .const 0 7, .ofError false 1 8, .swap 0 1, .destroy 0] = .inl false := by
  simp [LegalRun, Legal, run, step, badE, ctorValue, ctorError, ctorOf, swap, swapMixed, withTemp, error, dtor, M.noexcept, Opt.declare, Opt.ctorBody,
    construct, destruct, read, write, Opt.setVar, hasValue, call, Opt.var, bind_eq, pure_eq, W.set, init, Opt.init, Cls.moved]

/-- All assignments swap; the copy assignment of an error over a value whose move throws is itself undefined. -/
theorem c102_assignment_false :
    LegalRun { badT with throws := fun n => n == 4 } init [.ofValue .const 0 7, .ofError false 1 8, .assignCopy 0 1] ∧
    run { badT with throws := fun n => n == 4 } init [.ofValue .const 0 7, .ofError false 1 8, .assignCopy 0 1] = .inl false := by
  simp [LegalRun, Legal, run, step, badT, ctorValue, ctorError, ctorOf, ctorCopy, assignCopy, withVar, swap, swapMixed, withTemp, error, dtor,
    M.noexcept, Opt.declare, Opt.ctorBody,
    construct, destruct, read, write, Opt.setVar, hasValue, call, Opt.var, bind_eq, pure_eq, W.set, init, Opt.init, Cls.moved]

/-! ### C103: contents and exceptions -/

theorem refines (c : Cls α β) (hc : ∀ n, c.throws n = false) {w : W (α ⊕ β)} (hw : Inv0 w) (ks : List (Cmd α β))
    (h : LegalAll c.moved c.dflt (cont w) ks) :
    ∃ w', run c w ks = .inr (w', ks.map fun _ => false) ∧ cont w' = ks.foldl (Spec.step c.moved c.dflt) (cont w) := by
  induction ks generalizing w with
  | nil => exact ⟨w, rfl, rfl⟩
  | cons k ks ih =>
    obtain ⟨hk, hs⟩ := h
    rcases good_step ⟨fun _ => hc, fun _ => hc⟩ hw hk with ⟨w1, e, h1, h2⟩ | ⟨⟨n, hn⟩, -⟩
    · rw [← h2] at hs
      obtain ⟨w', e', h'⟩ := ih h1 hs
      refine ⟨w', ?_, ?_⟩
      · simp only [run, e, e', List.map_cons]
      · rw [h', h2]; rfl
    · rw [hc] at hn; cases hn

/-- C103: if nothing throws, every history acts as the model in which a variable holds a value or an error: construction and assignment put it,
a copy copies it, a move leaves the moved-from one of the same kind, `swap` exchanges, `emplace` puts the value. -/
theorem c103_contents (c : Cls α β) (hc : ∀ n, c.throws n = false) (ks : List (Cmd α β)) (h : LegalAll c.moved c.dflt (fun _ => none) ks) :
    ∃ w, run c init ks = .inr (w, ks.map fun _ => false) ∧ cont w = ks.foldl (Spec.step c.moved c.dflt) (fun _ => none) :=
  refines c hc inv0_init ks h

/-- C103 where moves do not throw: in a state reached by any history a command does what the model says, or throws and leaves every content as
it was (also the one assigned to), or ends the program. The last happens only when a value is copied from an lvalue that is not `const`.
Missing: that copy lets the exception through, see `c103_lvalue_false`; and types whose moves throw. -/
theorem c103_exceptions_partial (c : Cls α β) (hc : Calm c) (ks : List (Cmd α β)) (h : LegalRun c init ks) (w : W (α ⊕ β)) (ts : List Bool)
    (e : run c init ks = .inr (w, ts)) (k : Cmd α β) (hk : Legal (fun i => w.vars (i + 2) ≠ none) k) :
    (∃ w', step c k w = .ok w' () ∧ cont w' = Spec.step c.moved c.dflt (cont w) k) ∨
    ((∃ n, c.throws n = true) ∧
      ((∃ w', step c k w = .exc w' ∧ cont w' = cont w ∧ ¬ (IsLvalue k ∧ c.nothrowE = true)) ∨
       (step c k w = .term ∧ IsLvalue k ∧ c.nothrowE = true))) := by
  have hw := (inv_run hc inv0_init ks h).2.2 w ts e
  rcases good_step hc hw ((legal_congr hw.decl k).1 hk) with ⟨w1, e, -, h2⟩ | ⟨hn, ⟨w1, e, -, h2⟩ | h2⟩
  · exact .inl ⟨w1, e, h2⟩
  · exact .inr ⟨hn, .inl ⟨w1, e, h2⟩⟩
  · exact .inr ⟨hn, .inr h2⟩

/-- Copies throw, moves do not. -/
def copyThrows : Cls Nat Nat := ⟨true, true, id, id, 0, fun _ => true⟩

/-- C103 is false for `expected<T, E> x(v)` with `v` an lvalue that is not `const`: an exception of `T`'s copy ends the program, whereas it
reaches the caller if `v` is `const`. -/
theorem c103_lvalue_false :
    run copyThrows init [.ofValue .lvalue 0 7] = .inl true ∧ ∃ w, run copyThrows init [.ofValue .const 0 7] = .inr (w, [true]) := by
  simp [run, step, copyThrows, ctorValue, ctorOf, M.noexcept, Opt.declare, Opt.ctorBody, construct, call, bind_eq, W.set, init, Opt.init]

/-! ### C104: observers and comparison -/

theorem hasValue_slot {w : W (α ⊕ β)} (h : Inv w) {i : Nat} {x : α ⊕ β} (hx : slot w i = some x) : hasValue i w = .ok w x.isLeft := by
  obtain ⟨id, hv⟩ := h.slot_some hx
  simp [hasValue, bind_eq, pure_eq, Opt.var, hv]

theorem read_slot {w : W (α ⊕ β)} (h : Inv w) {i : Nat} {x : α ⊕ β} (hx : slot w i = some x) (b : Bool) :
    read b i w = if x.isLeft = b then .ok w x else .bad := by
  obtain ⟨id, hv⟩ := h.slot_some hx
  simp only [read, bind_eq, Opt.var, hv]
  split <;> rfl

/-- C104: what a program reads of a variable in a state reached by any history. `value()` gives the value or throws `bad_expected_access` with
the error (`inr`); `*` and `error()` give what they name and are undefined on the other kind; `value_or` gives the value or the default;
the rvalue `value_or` moves the value out; `has_exception` needs an error. -/
theorem c104_access (c : Cls α β) (hc : Calm c) (ks : List (Cmd α β)) (h : LegalRun c init ks) (w : W (α ⊕ β)) (ts : List Bool)
    (e : run c init ks = .inr (w, ts)) (i : Nat) (x : α ⊕ β) (hx : cont w i = some x) (d : α) (base : Bool) :
    hasValue (i + 2) w = .ok w x.isLeft ∧
    value (i + 2) w = .ok w x ∧
    deref (i + 2) w = (if x.isLeft then .ok w x else .bad) ∧
    error (i + 2) w = (if x.isLeft then .bad else .ok w x) ∧
    getUnexpected (i + 2) w = (if x.isLeft then .bad else .ok w x) ∧
    hasException base (i + 2) w = .ok w (x.isRight && base) ∧
    valueOr (i + 2) d w = .ok w (x.elim .inl fun _ => .inl d) ∧
    ∃ w', valueOrMove c (i + 2) d w = .ok w' (x.elim .inl fun _ => .inl d) ∧
      cont w' = if x.isLeft then upd (cont w) i (some (c.moved x)) else cont w := by
  have hw := (inv_run hc inv0_init ks h).2.2 w ts e
  have hI := hw.inv
  have hs : slot w (i + 2) = some x := hx
  have h1 := hasValue_slot hI hs
  have h2 := read_slot hI hs
  obtain ⟨id, hv⟩ := hI.slot_some hs
  cases x with
  | inl v =>
    simp only [Sum.isLeft_inl] at h1 hv
    simp only [Sum.isLeft_inl] at h2
    refine ⟨h1, ?_, ?_, ?_, ?_, ?_, ?_, ?_⟩
    · simp [value, bind_eq, h1, h2]
    · simp [deref, bind_eq, h1, h2]
    · simp [error, bind_eq, h1]
    · simp [getUnexpected, h2]
    · simp [hasException, bind_eq, pure_eq, h1]
    · simp [valueOr, bind_eq, h1, h2]
    · simp [valueOrMove, bind_eq, pure_eq, h1, h2, call_x hc, write, Opt.var, hv, Opt.setVar, W.set]
      funext k
      by_cases q : k = i <;> simp [cont, slot, upd, q, Cls.moved]
  | inr v =>
    simp only [Sum.isLeft_inr] at h1 hv
    simp only [Sum.isLeft_inr] at h2
    refine ⟨h1, ?_, ?_, ?_, ?_, ?_, ?_, ?_⟩
    · simp [value, bind_eq, h1, h2]
    · simp [deref, bind_eq, h1]
    · simp [error, bind_eq, h1, h2]
    · simp [getUnexpected, h2]
    · simp [hasException, bind_eq, pure_eq, h1]
    · simp [valueOr, bind_eq, pure_eq, h1]
    · simp [valueOrMove, bind_eq, pure_eq, h1]

/-- Equality of two contents. -/
def Spec.eq (q : Eqs α β) : α ⊕ β → α ⊕ β → Bool
  | .inl v, .inl u => q.eqT v u
  | .inr e, .inr d => q.eqE e d
  | _, _ => false

/-- C104: comparisons. Two `expected` are equal if both hold equal values or both equal errors; `!=` is the negation; a value is equal to an
`expected` that holds an equal value, an `unexpected` to one that holds an equal error. Equal ones have equal hashes if `T`'s hash respects `==`. -/
theorem c104_compare (c : Cls α β) (hc : Calm c) (ks : List (Cmd α β)) (h : LegalRun c init ks) (w : W (α ⊕ β)) (ts : List Bool)
    (e : run c init ks = .inr (w, ts)) (i j : Nat) (x y : α ⊕ β) (hx : cont w i = some x) (hy : cont w j = some y) (q : Eqs α β)
    (hne : ∀ a b, q.neT a b = !q.eqT a b) (v : α) (u : β) (hsh : α → Nat) :
    opEq q (i + 2) (j + 2) w = .ok w (Spec.eq q x y) ∧
    opNe q (i + 2) (j + 2) w = .ok w (!Spec.eq q x y) ∧
    opEqV q (i + 2) v w = .ok w (Spec.eq q x (.inl v)) ∧
    opEqV' q v (i + 2) w = .ok w (Spec.eq q (.inl v) x) ∧
    opNeV q (i + 2) v w = .ok w (!Spec.eq q x (.inl v)) ∧
    opNeV' q v (i + 2) w = .ok w (!Spec.eq q (.inl v) x) ∧
    opEqU q (i + 2) u w = .ok w (Spec.eq q x (.inr u)) ∧
    opNeU q (i + 2) u w = .ok w (!Spec.eq q x (.inr u)) ∧
    ((∀ a b, q.eqT a b = true → hsh a = hsh b) → Spec.eq q x y = true →
      ∃ n, hash hsh (i + 2) w = .ok w n ∧ hash hsh (j + 2) w = .ok w n) := by
  have hw := (inv_run hc inv0_init ks h).2.2 w ts e
  have hI := hw.inv
  have hs : slot w (i + 2) = some x := hx
  have ht : slot w (j + 2) = some y := hy
  have h1 := hasValue_slot hI hs
  have h2 := read_slot hI hs
  have h3 := hasValue_slot hI ht
  have h4 := read_slot hI ht
  have eqq : opEq q (i + 2) (j + 2) w = .ok w (Spec.eq q x y) := by
    cases x <;> cases y <;> simp_all [opEq, bind_eq, pure_eq, error, deref, Spec.eq]
  have eqU : opEqU q (i + 2) u w = .ok w (Spec.eq q x (.inr u)) := by
    cases x <;> simp_all [opEqU, getUnexpected, bind_eq, pure_eq, Spec.eq]
  refine ⟨eqq, ?_, ?_, ?_, ?_, ?_, eqU, ?_, ?_⟩
  · simp [opNe, bind_eq, pure_eq, eqq]
  · cases x <;> simp_all [opEqV, deref, bind_eq, pure_eq, Spec.eq]
  · cases x <;> simp_all [opEqV', deref, bind_eq, pure_eq, Spec.eq]
  · cases x <;> simp_all [opNeV, deref, bind_eq, pure_eq, Spec.eq]
  · cases x <;> simp_all [opNeV', deref, bind_eq, pure_eq, Spec.eq]
  · simp [opNeU, bind_eq, pure_eq, eqU]
  · intro hh hq
    cases x with
    | inl a =>
      cases y with
      | inl b => exact ⟨hsh a, by simp_all [hash, deref, bind_eq, pure_eq], by rw [hh a b hq]; simp_all [hash, deref, bind_eq, pure_eq]⟩
      | inr b => cases hq
    | inr a =>
      cases y with
      | inl b => cases hq
      | inr b => exact ⟨0, by simp_all [hash, bind_eq, pure_eq], by simp_all [hash, bind_eq, pure_eq]⟩

/-- C104: `==` is an equivalence on contents if it is one on values and on errors. -/
theorem c104_equivalence (q : Eqs α β) (hT : Equivalence fun a b => q.eqT a b = true) (hE : Equivalence fun a b => q.eqE a b = true) :
    Equivalence fun x y : α ⊕ β => Spec.eq q x y = true := by
  refine ⟨?_, ?_, ?_⟩
  · intro x; cases x
    · exact hT.refl _
    · exact hE.refl _
  · intro x y h; cases x <;> cases y <;> first | exact hT.symm h | exact hE.symm h | cases h
  · intro x y z h h'
    cases x <;> cases y <;> cases z <;> first | exact hT.trans h h' | exact hE.trans h h' | cases h | cases h'

/-! ### Hypotheses are met -/

/-- Moves do not throw; the fourth copy or construction does. -/
def demoCls : Cls Nat Nat := ⟨true, true, fun _ => 0, fun _ => 1, 5, fun n => n == 3⟩

def demo : List (Cmd Nat Nat) := [.dflt 0, .ofError false 1 8, .copy 2 1, .copy 2 1, .assignCopy 0 1, .move 3 0, .swap 0 1, .emplace 1 9,
  .assignMove 0 1, .assignError true 3 4, .assignValue .rvalue 2 6, .swap 2 3, .destroy 0]

example : Calm demoCls := by simp [Calm, demoCls]

/-- The third command throws; the contents at the end. -/
example : LegalRun demoCls init demo ∧ ∃ w, run demoCls init demo =
      .inr (w, [false, false, true, false, false, false, false, false, false, false, false, false, false]) ∧
    cont w 1 = some (.inl 0) ∧ cont w 2 = some (.inr 4) ∧ cont w 3 = some (.inl 6) := by
  simp [LegalRun, run, cont, slot, demo, Legal, step, demoCls, ctorDefault, ctorValue, ctorError, ctorOf, ctorCopy, ctorMove, assignCopy, assignMove,
    assignValue, assignError, emplace, withVar, swap, swapSame, swapMixed, withTemp, error, dtor, M.noexcept, Opt.declare, Opt.ctorBody, construct,
    destruct, read, write, Opt.setVar, Opt.setHas, hasValue, call, Opt.var, bind_eq, pure_eq, W.set, init, Opt.init, Cls.moved, Cls.nothrow]

example : LegalAll demoCls.moved demoCls.dflt (fun _ => none) (demo.eraseIdx 2) ∧
    (demo.eraseIdx 2).foldl (Spec.step demoCls.moved demoCls.dflt) (fun _ => none) 3 = some (.inl 6) := by
  simp [LegalAll, demo, Legal, Spec.step, upd]

/-- A state with a value and an error, as C104 needs. -/
example : LegalRun demoCls init [.ofValue .const 0 7, .ofError false 1 8] ∧ ∃ w ts, run demoCls init [.ofValue .const 0 7, .ofError false 1 8] = .inr (w, ts) ∧
    cont w 0 = some (.inl 7) ∧ cont w 1 = some (.inr 8) := by
  simp [LegalRun, run, cont, slot, Legal, step, demoCls, ctorValue, ctorError, ctorOf, Opt.declare, Opt.ctorBody, construct, call, Opt.var, bind_eq,
    W.set, init, Opt.init]

end Nanostl.Exp

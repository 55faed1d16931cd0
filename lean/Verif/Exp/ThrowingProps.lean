import Verif.Exp.Throwing
import Verif.Opt.Lemmas

/-!
C102 and C103 for types whose moves may throw, such as `nanostl::string` and `nanostl::vector`, which have no move constructor and whose "moves"
allocate: histories that never replace a value by an error or an error by a value.
-/

namespace Nanostl.Exp

open Opt (W M R Ev Ov hasValue life_count)
open Opt.Spec (life Life)
open Spec

variable {α β : Type}

/-- C102 for all types, wherever any operation throws, in histories without a mixed command: lifetimes and flags are right.
Missing: mixed commands of types whose moves throw, see `c102_throwing_value_move_false`. -/
theorem c102_unmixed_partial (c : Cls α β) (ks : List (Cmd α β)) (h : LegalRun c init ks) (hm : NeverMixed c init ks) :
    run c init ks ≠ .inl false ∧
    ∀ w ts, run c init ks = .inr (w, ts) →
      (∀ i o, w.vars i = some o → ∃ id x, o.st = some (id, x) ∧ (o.has = true ↔ ∃ v, x = .inl v)) ∧
      (∀ i, w.vars i ≠ none → 2 ≤ i) ∧
      ∃ f, life w.evs (fun _ => none) = some f ∧
        ∀ id, (f id = some true → ∃! i, ∃ o x, w.vars i = some o ∧ o.st = some (id, x)) ∧
          ((∃ i o x, w.vars i = some o ∧ o.st = some (id, x)) → f id = some true) := by
  obtain ⟨h1, h2⟩ := fair_run c inv0_init ks h hm
  refine ⟨h1, fun w ts e => ?_⟩
  have hw := h2 w ts e
  have hI := hw.inv
  have key : ∀ i id x, stOf w i = some (id, x) ↔ ∃ o, w.vars i = some o ∧ o.st = some (id, x) := by
    intro i id x
    simp [stOf, Option.bind_eq_some_iff]
  refine ⟨?_, ?_, ?_⟩
  · intro i o ho
    obtain ⟨id, x, a, b⟩ := hI.flags i o ho
    refine ⟨id, x, a, ?_⟩
    rw [b]
    cases x <;> simp
  · intro i hi
    rcases i with _ | _ | i
    · exact (hi (hI.slot_none.1 hw.t0)).elim
    · exact (hi (hI.slot_none.1 hw.t1)).elim
    · omega
  · obtain ⟨f, t1, -, t3⟩ := hI.own.tr
    refine ⟨f, t1, fun id => ⟨fun hl => ?_, ?_⟩⟩
    · rcases (t3 id).1 hl with ht | ⟨i, x, a⟩
      · exact ht.elim
      · obtain ⟨o, b⟩ := (key i id x).1 a
        refine ⟨i, ⟨o, x, b⟩, ?_⟩
        rintro j ⟨o', x', b'⟩
        exact hI.own.inj j i id x' x ((key j id x').2 ⟨o', b'⟩) a
    · rintro ⟨i, o, x, b⟩
      exact (t3 id).2 (.inr ⟨i, x, (key i id x).2 ⟨o, b⟩⟩)

/-- C102 without mixed commands: at the end of all variables every object has been destroyed, once. -/
theorem c102_unmixed_no_leak_partial (c : Cls α β) (ks : List (Cmd α β)) (h : LegalRun c init ks) (hm : NeverMixed c init ks) (w : W (α ⊕ β))
    (ts : List Bool) (e : run c init ks = .inr (w, ts)) (hend : ∀ i, w.vars i = none) (id : Nat) :
    w.evs.count (.dest id) = w.evs.count (.cons id) ∧ w.evs.count (.cons id) ≤ 1 := by
  have hI := ((fair_run c inv0_init ks h hm).2 w ts e).inv
  obtain ⟨f, t1, -, t3⟩ := hI.own.tr
  have hf : f id ≠ some true := by
    intro hl
    rcases (t3 id).1 hl with ht | ⟨i, x, a⟩
    · exact ht
    · simp [stOf, hend i] at a
  obtain ⟨h1, -, -⟩ := life_count _ _ _ t1 id
  obtain ⟨a, b⟩ := h1 rfl
  rw [a, b]
  cases hg : f id with
  | none => simp
  | some x => cases x <;> simp_all

/-- C103 for all types: after any history without a mixed command, a command that is not mixed does what the model says, or throws and leaves every
variable with a value or an error as before, or ends the program. The last happens only when a value is copied from an lvalue that is not
`const`.
Missing: mixed commands; and that after a throw the contents are the same, see `c103_unmixed_strong_false`. -/
theorem c103_unmixed_partial (c : Cls α β) (ks : List (Cmd α β)) (h : LegalRun c init ks) (hm : NeverMixed c init ks) (w : W (α ⊕ β))
    (ts : List Bool) (e : run c init ks = .inr (w, ts)) (k : Cmd α β) (hk : Legal (fun i => w.vars (i + 2) ≠ none) k) (hk' : ¬ Mixed (cont w) k) :
    (∃ w', step c k w = .ok w' () ∧ cont w' = Spec.step c.moved c.dflt (cont w) k) ∨
    ((∃ n, c.throws n = true) ∧
      ((∃ w', step c k w = .exc w' ∧ SameKinds (cont w') (cont w)) ∨ (step c k w = .term ∧ IsLvalue k ∧ c.nothrowE = true))) := by
  have hw := (fair_run c inv0_init ks h hm).2 w ts e
  rcases fair_step c hw ((legal_congr hw.decl k).1 hk) hk' with ⟨w1, e, -, h2⟩ | ⟨hn, ⟨w1, e, -, h2⟩ | h2⟩
  · exact .inl ⟨w1, e, h2⟩
  · exact .inr ⟨hn, .inl ⟨w1, e, h2⟩⟩
  · exact .inr ⟨hn, .inr h2⟩

/-- Moves throw, the fourth operation does; a moved-from value is 0, a moved-from error 1. -/
def throwing : Cls Nat Nat := ⟨false, false, fun _ => 0, fun _ => 1, 5, fun n => n == 3⟩

/-- A `swap` of two values that throws in the middle loses the value of the first. -/
theorem c103_unmixed_strong_false :
    LegalRun throwing init [.ofValue .const 0 7, .ofValue .const 1 8, .swap 0 1] ∧ NeverMixed throwing init [.ofValue .const 0 7, .ofValue .const 1 8, .swap 0 1] ∧
    ∃ w, run throwing init [.ofValue .const 0 7, .ofValue .const 1 8, .swap 0 1] = .inr (w, [false, false, true]) ∧
      cont w 0 = some (.inl 0) ∧ cont w 1 = some (.inl 8) := by
  simp [LegalRun, NeverMixed, Mixed, cont, slot, Legal, run, step, throwing, ctorValue, ctorOf, swap, swapSame, withTemp, M.noexcept, Opt.declare,
    Opt.ctorBody, construct, destruct, read, write, Opt.setVar, hasValue, call, Opt.var, bind_eq, pure_eq, W.set, init, Opt.init, Cls.moved, Cls.nothrow]

/-- A history with a throw in the middle, carried on to the end of all variables. -/
example : LegalRun throwing init [.ofValue .const 0 7, .ofValue .const 1 8, .swap 0 1, .assignMove 0 1, .emplace 1 6, .destroy 0, .destroy 1] ∧
    NeverMixed throwing init [.ofValue .const 0 7, .ofValue .const 1 8, .swap 0 1, .assignMove 0 1, .emplace 1 6, .destroy 0, .destroy 1] ∧
    ∃ w, run throwing init [.ofValue .const 0 7, .ofValue .const 1 8, .swap 0 1, .assignMove 0 1, .emplace 1 6, .destroy 0, .destroy 1] =
      .inr (w, [false, false, true, false, false, false, false]) ∧ (∀ i, w.vars i = none) ∧ w.evs.length = 14 := by
  simp [LegalRun, NeverMixed, Mixed, cont, slot, Legal, run, step, throwing, ctorValue, ctorOf, ctorMove, assignMove, emplace, withVar, dtor, swap, swapSame,
    withTemp, M.noexcept, Opt.declare, error,
    Opt.ctorBody, construct, destruct, read, write, Opt.setVar, Opt.setHas, hasValue, call, Opt.var, bind_eq, pure_eq, W.set, init, Opt.init, Cls.moved,
    Cls.nothrow]
  intro i h3
  by_cases h2 : i = 2
  · simp [h2]
  · by_cases h0 : i = 0
    · simp [h0]
    · simp [h3, h2, h0]

end Nanostl.Exp

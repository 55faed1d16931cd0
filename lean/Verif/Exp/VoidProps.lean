import Verif.Exp.VoidLemmas
import Verif.Opt.Lemmas

/-!
Property theorem C105: `nonstd::expected<void, E>` (`include/nonstd/expected.hpp`:1926-2160). Error objects are followed by identity through
the record of their constructions and destructions; "lost" is an object that lives but which no variable holds.
-/

namespace Nanostl.Exp.Void

open Opt (W M R Ev Ov Cls)
open Opt.Spec (life)
open Spec

variable {β : Type}

/-- C105, safety: every legal history, whichever copies and moves of `E` throw, reaches its end: no dead error is read or destroyed and the
`noexcept` functions throw nothing. Then a variable without a value holds a living error, which no other variable holds; the record of
constructions and destructions is proper. -/
theorem c105_safe (c : Cls β) (ks : List (Cmd β)) (h : LegalRun c Opt.init ks) :
    ∃ w ts, run c Opt.init ks = .inr (w, ts) ∧ (∀ i, w.vars i ≠ none → 2 ≤ i) ∧
      ∃ f, life w.evs (fun _ => none) = some f ∧
        ∀ i o, w.vars i = some o → o.has = false → ∃ id e, o.st = some (id, e) ∧ f id = some true ∧
          ∀ j o', w.vars j = some o' → o'.has = false → (∃ e', o'.st = some (id, e')) → j = i := by
  obtain ⟨w, ts, ids, e, -, hg, -⟩ := run_spec c (ids := []) (good_init.congrT (by simp [noT])) List.nodup_nil ks h
  refine ⟨w, ts, e, ?_, ?_⟩
  · intro i hi
    match i with
    | 0 => exact (hi (slot_none.1 hg.t0)).elim
    | 1 => exact (hi (slot_none.1 hg.t1)).elim
    | i + 2 => omega
  · obtain ⟨f, t1, -, t3⟩ := hg.inv.own.tr
    refine ⟨f, t1, fun i o hi hb => ?_⟩
    cases hs : o.st with
    | none => exact (hg.inv.flags i o hi hb hs).elim
    | some p =>
      obtain ⟨id, x⟩ := p
      have he : errOf w i = some (id, x) := by simp [errOf, hi, hb, hs]
      refine ⟨id, x, rfl, (t3 id).2 (.inr ⟨i, x, he⟩), ?_⟩
      rintro j o' hj hb' ⟨x', hx'⟩
      exact hg.inv.own.inj j i id x' x (by simp [errOf, hj, hb', hx']) he

/-- C105, contents: if moves of `E` do not throw, the contents are those of the specification, a command that throws changing nothing. -/
theorem c105_contents_partial (c : Cls β) (hn : c.nothrowMove = true) (ks : List (Cmd β)) (h : LegalRun c Opt.init ks) (w : W β) (ts : List Bool)
    (e : run c Opt.init ks = .inr (w, ts)) : cont w = replay c.moved (fun _ => none) ks ts := by
  obtain ⟨w', ts', ids, e', -, hg, -, -, -, hq, -⟩ := run_spec c (ids := []) (good_init.congrT (by simp [noT])) List.nodup_nil ks h
  rw [e] at e'
  cases e'
  exact hq (.inl hn)

/-- C105, contents when moves of `E` may throw: whether each variable holds a value or an error is as in the specification; where nothing
throws the contents are too. -/
theorem c105_kinds (c : Cls β) (ks : List (Cmd β)) (h : LegalRun c Opt.init ks) (w : W β) (ts : List Bool)
    (e : run c Opt.init ks = .inr (w, ts)) :
    ts.length = ks.length ∧ SameKinds (cont w) (replay c.moved (fun _ => none) ks ts) ∧
    ((∀ n, c.throws n = false) → cont w = ks.foldl (Spec.step c.moved) fun _ => none) := by
  obtain ⟨w', ts', ids, e', hl, hg, -, -, hk, hq, ht⟩ := run_spec c (ids := []) (good_init.congrT (by simp [noT])) List.nodup_nil ks h
  rw [e] at e'
  cases e'
  refine ⟨hl, hk, fun q => ?_⟩
  rw [hq (.inr q), ht q, replay_calm]
  rfl

/-- C105, lost errors, exactly: of a history that ends in `w`, the lost error objects are as many as the commands that replaced a value by an
error or an error by a value. -/
theorem c105_lost (c : Cls β) (ks : List (Cmd β)) (h : LegalRun c Opt.init ks) (w : W β) (ts : List Bool)
    (e : run c Opt.init ks = .inr (w, ts)) :
    ∃ ids : List Nat, ids.Nodup ∧ (∀ id, Lost w id ↔ id ∈ ids) ∧ ids.length = leaks c.moved (fun _ => none) ks ts := by
  obtain ⟨w', ts', ids, e', -, hg, hd, hlen, -⟩ := run_spec c (ids := []) (good_init.congrT (by simp [noT])) List.nodup_nil ks h
  rw [e] at e'
  cases e'
  refine ⟨ids, hd, fun id => ?_, hlen.trans (Nat.zero_add _)⟩
  obtain ⟨f, t1, -, t3⟩ := hg.inv.own.tr
  constructor
  · rintro ⟨⟨f', hf', hl⟩, hs⟩
    rw [t1] at hf'
    cases hf'
    rcases (t3 id).1 hl with a | ⟨i, x, a⟩
    · exact a
    · exact (hs i x a).elim
  · intro hi
    exact ⟨⟨f, t1, (t3 id).2 (.inl hi)⟩, fun i x a => hg.inv.own.tmp i id x a hi⟩

/-- C105, no leak, where no command replaces a value by an error or an error by a value: at the end of all variables every error object has been
destroyed, once. Missing: those commands, each of which loses an error (`c105_lost`, `c105_leak_false`). -/
theorem c105_no_leak_partial (c : Cls β) (ks : List (Cmd β)) (h : LegalRun c Opt.init ks) (hm : NeverMixed c Opt.init ks) (w : W β)
    (ts : List Bool) (e : run c Opt.init ks = .inr (w, ts)) (hend : ∀ i, w.vars i = none) (id : Nat) :
    w.evs.count (.dest id) = w.evs.count (.cons id) ∧ w.evs.count (.cons id) ≤ 1 := by
  obtain ⟨w', ts', ids, e', -, hg, hd, hlen, -⟩ := run_spec c (ids := []) (good_init.congrT (by simp [noT])) List.nodup_nil ks h
  rw [e] at e'
  cases e'
  have h0 := never_leaks c good_init ks h hm e
  rw [h0] at hlen
  obtain rfl : ids = [] := List.length_eq_zero_iff.1 hlen
  obtain ⟨f, t1, -, t3⟩ := hg.inv.own.tr
  have hf : f id ≠ some true := by
    intro hl
    rcases (t3 id).1 hl with ht | ⟨i, x, a⟩
    · cases ht
    · simp [errOf, hend i] at a
  obtain ⟨h1, -, -⟩ := Opt.life_count _ _ _ t1 id
  obtain ⟨a, b⟩ := h1 rfl
  rw [a, b]
  cases hg : f id with
  | none => simp
  | some x =>
    cases x with
    | true => exact (hf hg).elim
    | false => simp

/-- Nothing throws; moving leaves 0. -/
def plain : Cls Nat := ⟨true, fun _ => 0, fun _ => false⟩

/-- The full no-leak property is false: `expected<void, E> a, b = make_unexpected(8); a = b;` destroys three errors of the four. -/
def leaking : List (Cmd Nat) := [.dflt 0, .ofError true 1 8, .assignCopy 0 1, .destroy 0, .destroy 1]

theorem c105_leak_false : LegalRun plain Opt.init leaking ∧ ∃ w ts, run plain Opt.init leaking = .inr (w, ts) ∧ (∀ i, w.vars i = none) ∧
    w.evs.count (.cons 1) = 1 ∧ w.evs.count (.dest 1) = 0 := by
  simp [LegalRun, run, leaking, Legal, step, plain, ctorDefault, ctorError, ctorCopy, assignCopy, withVar, swap, swapMixed, error, dtor,
    M.noexcept, Opt.declare, Opt.ctorBody, construct, Opt.destruct, Opt.read, Opt.write, Opt.setVar, Opt.setHas, Opt.hasValue, Opt.call, Opt.var,
    bind_eq, pure_eq, W.set, Opt.init]
  intro i h3
  by_cases h2 : i = 2 <;> by_cases h0 : i = 0 <;> simp [h3, h2, h0]

/-- C105, access: `value()` throws `bad_expected_access` with the error if and only if there is one; `error()` has it, and its assertion fails
on a value. -/
theorem c105_access (c : Cls β) (ks : List (Cmd β)) (h : LegalRun c Opt.init ks) (w : W β) (ts : List Bool)
    (e : run c Opt.init ks = .inr (w, ts)) (i : Nat) :
    (cont w i = some none → value (i + 2) w = .ok w none ∧ error (i + 2) w = .bad) ∧
    ∀ x, cont w i = some (some x) → value (i + 2) w = .ok w (some x) ∧ error (i + 2) w = .ok w x := by
  obtain ⟨w', ts', ids, e', -, hg, -⟩ := run_spec c (ids := []) (good_init.congrT (by simp [noT])) List.nodup_nil ks h
  rw [e] at e'
  cases e'
  constructor
  · intro hs
    obtain ⟨st, hv⟩ := hg.inv.value (i := i + 2) hs
    simp [value, error, Opt.hasValue, Opt.var, bind_eq, pure_eq, hv]
  · intro x hs
    obtain ⟨id, hv, -⟩ := err_of (i := i + 2) hs
    simp [value, error, Opt.hasValue, Opt.var, Opt.read, bind_eq, pure_eq, hv]

/-! ### Hypotheses are met -/

/-- Moves may throw; the second operation does. -/
def throwing : Cls Nat := ⟨false, fun _ => 0, fun n => n == 1⟩

/-- Copies may throw; the second does. -/
def copyThrowing : Cls Nat := ⟨true, fun _ => 0, fun n => n == 1⟩

def demo : List (Cmd Nat) := [.dflt 0, .ofError false 1 8, .assignCopy 0 1, .move 2 1, .swap 0 2, .assignError true 0 4, .emplace 2]

/-- The copy assignment throws; the swap, the assignment and the emplacement each lose an error. -/
example : LegalRun copyThrowing Opt.init demo ∧ ∃ w ts, run copyThrowing Opt.init demo = .inr (w, ts) ∧
    ts = [false, false, true, false, false, false, false] ∧ cont w 0 = some (some 4) ∧ cont w 1 = some (some 0) ∧ cont w 2 = some none := by
  simp [LegalRun, run, cont, slot, demo, Legal, step, copyThrowing, ctorDefault, ctorError, ctorCopy, ctorMove, assignCopy, assignMove, assignError,
    emplace, withVar, swap, swapSame, swapMixed, error, dtor, M.noexcept, Opt.declare, Opt.ctorBody, construct, Opt.destruct, Opt.read, Opt.write,
    Opt.setVar, Opt.setHas, Opt.hasValue, Opt.call, Opt.var, bind_eq, pure_eq, W.set, Opt.init]

/-- The same commands where moves throw too. -/
example : LegalRun throwing Opt.init demo ∧ ∃ w ts, run throwing Opt.init demo = .inr (w, ts) ∧
    ts = [false, false, true, false, false, false, false] := by
  simp [LegalRun, run, demo, Legal, step, throwing, ctorDefault, ctorError, ctorCopy, ctorMove, assignCopy, assignMove, assignError,
    emplace, withVar, swap, swapSame, swapMixed, error, dtor, M.noexcept, Opt.declare, Opt.ctorBody, construct, Opt.destruct, Opt.read, Opt.write,
    Opt.setVar, Opt.setHas, Opt.hasValue, Opt.call, Opt.var, bind_eq, pure_eq, W.set, Opt.init]

def clean : List (Cmd Nat) := [.ofError true 0 3, .ofError true 1 8, .assignCopy 0 1, .swap 0 1, .destroy 0, .destroy 1]

/-- A history that never mixes, and ends all its variables. -/
example : LegalRun plain Opt.init clean ∧ NeverMixed plain Opt.init clean ∧ ∃ w ts, run plain Opt.init clean = .inr (w, ts) ∧ (∀ i, w.vars i = none) := by
  simp [LegalRun, NeverMixed, Mixed, differ, cont, slot, run, clean, Legal, step, plain, ctorError, ctorCopy, assignCopy, withVar, swap, swapSame, error,
    dtor, M.noexcept, Opt.declare, Opt.ctorBody, construct, Opt.destruct, Opt.read, Opt.write, Opt.setVar, Opt.setHas, Opt.hasValue, Opt.call, Opt.var,
    bind_eq, pure_eq, W.set, Opt.init]
  intro i h3
  by_cases h2 : i = 2 <;> by_cases h0 : i = 0 <;> simp [h3, h2, h0]

end Nanostl.Exp.Void

import Verif.Opt.Model
import Verif.Exp.Own

/-!
Model of `nonstd::expected<void, E>` (`include/nonstd/expected.hpp`:1926-2160): the storage holds a living `E` or none, beside the flag
`m_has_value`. World, monad and outcomes are those of the model of `optional`, with `E` as the contained type. Constructing an `E` in storage
where another one still lives is no error here: that one is lost (its destructor never runs).
-/

namespace Nanostl.Exp.Void

open Opt (W M R Ev Ov Cls var setVar hasValue setHas declare ctorBody call destruct read write)

variable {β : Type}

/-- `construct_error`, `emplace_error` (expected.hpp:616-636). -/
def construct (c : Cls β) (isMove : Bool) (i : Nat) (e : β) : M β Unit := do
  call c isMove
  let o ← var i
  fun w => .ok ({ w with next := w.next + 1, evs := w.evs ++ [Ev.cons w.next] }.set i (some { o with st := some (w.next, e) })) ()

/-- Default constructor, and the one with `in_place` (expected.hpp:1941-1950). -/
def ctorDefault (i : Nat) : M β Unit := declare i true

/-- Constructors from an `unexpected_type` or with `unexpect` (expected.hpp:1968-1972, 1990-1994, 2001-2005). -/
def ctorError (c : Cls β) (isMove : Bool) (i : Nat) (e : β) : M β Unit := do
  declare i false
  ctorBody i (construct c isMove i e)

/-- Copy constructor (expected.hpp:1945; `storage_t`: 735-740). -/
def ctorCopy (c : Cls β) (i j : Nat) : M β Unit := do
  let b ← hasValue j
  declare i b
  ctorBody i (do
    let b ← hasValue i
    if b then pure () else
      let e ← read j
      construct c false i e)

/-- Move constructor (expected.hpp:1946; `storage_t`: 742-747). -/
def ctorMove (c : Cls β) (i j : Nat) : M β Unit := do
  let b ← hasValue j
  declare i b
  ctorBody i (do
    let b ← hasValue i
    if b then pure () else
      let e ← read j
      construct c true i e
      write j (c.moved e))

/-- Destructor (expected.hpp:2020-2026). -/
def dtor (i : Nat) : M β Unit := do
  let b ← hasValue i
  if !b then destruct i else pure ()
  fun w => .ok (w.set i none) ()

/-- `error()` with its assertion (expected.hpp:2094-2102). -/
def error (i : Nat) : M β β := do
  let b ← hasValue i
  if b then fun _ => .bad else read i

/-- `swap(contained.error(), other.contained.error())`: three moves. -/
def swapSame (c : Cls β) (i j : Nat) : M β Unit := do
  let x ← read i
  let _ ← read j
  call c true
  fun w =>
    let id := w.next
    match (do
        write i (c.moved x)
        let y ← read j
        call c true
        write i y
        write j (c.moved y)
        call c true
        write j x : M β Unit) { w with next := w.next + 1, evs := w.evs ++ [Ev.cons id] } with
    | .ok w b => .ok { w with evs := w.evs ++ [Ev.dest id] } b
    | .exc w => .exc { w with evs := w.evs ++ [Ev.dest id] }
    | .term => .term
    | .bad => .bad

/-- The second branch of `swap` (expected.hpp:2065-2070): variable `i` has a value, `j` an error. -/
def swapMixed (c : Cls β) (i j : Nat) : M β Unit := do
  let e ← error j
  construct c true i e
  write j (c.moved e)
  let a ← hasValue i
  let b ← hasValue j
  setHas j a
  setHas i b

/-- `swap` (expected.hpp:2052-2072). -/
def swap (c : Cls β) (i j : Nat) : M β Unit := M.noexcept c.nothrowMove (do
  let a ← hasValue i
  let b ← hasValue j
  if !a && !b then swapSame c i j
  else if a && !b then swapMixed c i j
  else if !a && b then swapMixed c j i
  else pure ())

/-- A full expression with a temporary `expected` in slot `t`, destroyed at its end, also if the rest throws. -/
def withVar (t : Nat) (ctor body : M β Unit) : M β Unit := do
  ctor
  fun w => match body w with
    | .ok w _ => dtor t w
    | .exc w => match dtor t w with
      | .ok w _ => .exc w
      | .exc w => .exc w
      | .term => .term
      | .bad => .bad
    | .term => .term
    | .bad => .bad

/-- Copy assignment (expected.hpp:2030-2034). -/
def assignCopy (c : Cls β) (i j : Nat) : M β Unit := withVar 0 (ctorCopy c 0 j) (swap c 0 i)

/-- Move assignment (expected.hpp:2036-2043). -/
def assignMove (c : Cls β) (i j : Nat) : M β Unit := M.noexcept c.nothrowMove (withVar 0 (ctorMove c 0 j) (swap c 0 i))

/-- Assignment of an `unexpected_type`: converted to a temporary `expected` (slot 1), which is move assigned. -/
def assignError (c : Cls β) (isMove : Bool) (i : Nat) (e : β) : M β Unit := withVar 1 (ctorError c isMove 1 e) (assignMove c i 1)

/-- `emplace` (expected.hpp:2045-2048). -/
def emplace (c : Cls β) (i : Nat) : M β Unit := withVar 0 (ctorDefault 0) (swap c 0 i)

/-- `value()` (expected.hpp:2086-2092): `some e` is the exception `bad_expected_access<E>(e)`. -/
def value (i : Nat) : M β (Option β) := do
  let b ← hasValue i
  if !b then
    let e ← read i
    pure (some e)
  else pure none

/-! ### Programs; their variables are in the slots from 2 on -/

inductive Cmd (β : Type) where
  | dflt (i : Nat)
  | ofError (isMove : Bool) (i : Nat) (e : β)
  | copy (i j : Nat)
  | move (i j : Nat)
  | assignCopy (i j : Nat)
  | assignMove (i j : Nat)
  | assignError (isMove : Bool) (i : Nat) (e : β)
  | emplace (i : Nat)
  | swap (i j : Nat)
  | destroy (i : Nat)

def step (c : Cls β) : Cmd β → M β Unit
  | .dflt i => ctorDefault (i + 2)
  | .ofError m i e => ctorError c m (i + 2) e
  | .copy i j => ctorCopy c (i + 2) (j + 2)
  | .move i j => ctorMove c (i + 2) (j + 2)
  | .assignCopy i j => assignCopy c (i + 2) (j + 2)
  | .assignMove i j => assignMove c (i + 2) (j + 2)
  | .assignError m i e => assignError c m (i + 2) e
  | .emplace i => emplace c (i + 2)
  | .swap i j => swap c (i + 2) (j + 2)
  | .destroy i => dtor (i + 2)

/-- As for the general template. -/
def run (c : Cls β) : W β → List (Cmd β) → Sum Bool (W β × List Bool)
  | w, [] => .inr (w, [])
  | w, k :: ks => match step c k w with
    | .bad => .inl false
    | .term => .inl true
    | .ok w' _ => match run c w' ks with
      | .inl b => .inl b
      | .inr (w'', ts) => .inr (w'', false :: ts)
    | .exc w' => match run c w' ks with
      | .inl b => .inl b
      | .inr (w'', ts) => .inr (w'', true :: ts)

/-! ### Specification -/

namespace Spec

/-- Contents: absent, the value, or an error. -/
abbrev Cont (β : Type) := Nat → Option (Option β)

def upd (f : Cont β) (i : Nat) (v : Option (Option β)) : Cont β := fun j => if j = i then v else f j

def step (moved : β → β) (f : Cont β) : Cmd β → Cont β
  | .dflt i => upd f i (some none)
  | .ofError _ i e => upd f i (some (some e))
  | .copy i j => upd f i (f j)
  | .move i j => upd (upd f j ((f j).map (·.map moved))) i (f j)
  | .assignCopy i j => upd f i (f j)
  | .assignMove i j => upd (upd f j ((f j).map (·.map moved))) i (f j)
  | .assignError _ i e => upd f i (some (some e))
  | .emplace i => upd f i (some none)
  | .swap i j => upd (upd f i (f j)) j (f i)
  | .destroy i => upd f i none

def Legal (D : Nat → Prop) : Cmd β → Prop
  | .dflt i | .ofError _ i _ => ¬ D i
  | .copy i j | .move i j => ¬ D i ∧ D j
  | .assignCopy i j | .assignMove i j | .swap i j => D i ∧ D j
  | .assignError _ i _ | .emplace i | .destroy i => D i

/-- Whether `x` and `y` are of different kinds. -/
def differ (x y : Option (Option β)) : Prop := x.map Option.isSome ≠ y.map Option.isSome

/-- The command exchanges or replaces a value by an error or an error by a value. -/
def Mixed (f : Cont β) : Cmd β → Prop
  | .assignCopy i j | .assignMove i j | .swap i j => differ (f i) (f j)
  | .assignError _ i _ => f i = some none
  | .emplace i => f i ≠ some none
  | _ => False

/-- The contents after a history whose commands threw as `ts` tells: a command that throws leaves them alone. -/
def replay (moved : β → β) (f : Cont β) : List (Cmd β) → List Bool → Cont β
  | k :: ks, t :: ts => replay moved (if t then f else step moved f k) ks ts
  | _, _ => f

open Classical in
/-- How many commands succeeded in replacing a value by an error or an error by a value. -/
noncomputable def leaks (moved : β → β) (f : Cont β) : List (Cmd β) → List Bool → Nat
  | k :: ks, t :: ts => (if t = false ∧ Mixed f k then 1 else 0) + leaks moved (if t then f else step moved f k) ks ts
  | _, _ => 0

/-- The same variables exist, and hold a value or an error alike. -/
def SameKinds (f g : Cont β) : Prop := ∀ k, (f k).map Option.isSome = (g k).map Option.isSome

end Spec

open Spec

/-- The variables are used legally all along the history, whatever throws. -/
def LegalRun (c : Cls β) : W β → List (Cmd β) → Prop
  | _, [] => True
  | w, k :: ks => Legal (fun i => w.vars (i + 2) ≠ none) k ∧ match step c k w with
    | .ok w' _ => LegalRun c w' ks
    | .exc w' => LegalRun c w' ks
    | _ => True

/-- What slot `i` holds, as the flag tells. -/
def slot (w : W β) (i : Nat) : Option (Option β) := (w.vars i).map fun o => if o.has then none else o.st.map Prod.snd

def cont (w : W β) : Cont β := fun i => slot w (i + 2)

/-- No command of the history replaces a value by an error or the reverse. -/
def NeverMixed (c : Cls β) : W β → List (Cmd β) → Prop
  | _, [] => True
  | w, k :: ks => ¬ Mixed (cont w) k ∧ match step c k w with
    | .ok w' _ => NeverMixed c w' ks
    | .exc w' => NeverMixed c w' ks
    | _ => True

/-- The error object that variable `i` holds. -/
def errOf (w : W β) (i : Nat) : Option (Nat × β) := (w.vars i).bind fun o => if o.has then none else o.st

/-- Object `id` lives although no variable holds it: it can no longer be destroyed. -/
def Lost (w : W β) (id : Nat) : Prop :=
  (∃ f, Opt.Spec.life w.evs (fun _ => none) = some f ∧ f id = some true) ∧ ∀ i e, errOf w i ≠ some (id, e)

end Nanostl.Exp.Void

/-!
Model of `nonstd::any` (`include/nonstd/any.hpp`), which `nanoany.h` exports. Types of contained values are numbered, values are of type `α`.
A program numbers its variables of type `any`; temporaries of type `any` (`tmp`) and of a value type (`obj`) are variables too. `content` points to
a cell on the heap, with the `holder`'s type and value; a temporary value is kept in a cell of its own. The cell's number is the identity of the
object in it; constructions and destructions are recorded. Each allocation and each construction of a value may throw, as the oracle says;
`new` gives the memory back then (language). Moves of a type with `nothrowMove` do not throw. `moved v` is what is left of `v` after a move.

`bad`: a dead object is used or destroyed, a variable declared twice, or a pointer cast to the wrong class. `term`: an exception meets `noexcept`.

`nanostl::swap(T&, T&)` is declared (nanotype_traits.h:1183-1187) but defined nowhere; it is modelled as an exchange of the pointers.
Not modelled: `any_cast` to a reference type, which does not compile (any.hpp:656, 679, 703 form a pointer to the reference).
-/

namespace Nanostl.Any

variable {α : Type}

/-- The value types. -/
structure Cls (α : Type) where
  nothrowMove : Nat → Bool
  moved : Nat → α → α
  throws : Nat → Bool

inductive Ev where
  | cons (id : Nat)
  | dest (id : Nat)
deriving DecidableEq

inductive Var where
  | user (n : Nat)
  | tmp (n : Nat)
  | obj
deriving DecidableEq

structure W (α : Type) where
  /-- member `content` (any.hpp:623) of every living `any` -/
  vars : Var → Option (Option Nat)
  heap : Nat → Option (Nat × α)
  /-- calls so far that could throw -/
  calls : Nat
  next : Nat
  evs : List Ev

inductive R (σ β : Type) where
  | ok (s : σ) (b : β)
  | exc (s : σ)
  | term
  | bad

abbrev M (α β : Type) := W α → R (W α) β

namespace M
@[inline] def pure {β : Type} (b : β) : M α β := fun s => .ok s b
@[inline] def bind {β γ : Type} (m : M α β) (f : β → M α γ) : M α γ := fun s => match m s with
  | .ok s b => f b s
  | .exc s => .exc s
  | .term => .term
  | .bad => .bad
instance : Monad (M α) where
  pure := M.pure
  bind := M.bind
/-- A function body under `noexcept`. -/
def noexcept {β : Type} (m : M α β) : M α β := fun s => match m s with
  | .exc _ => .term
  | r => r
/-- `m`, then `d` in any case: the end of a temporary's life. -/
def finally_ (m d : M α Unit) : M α Unit := fun s => match m s with
  | .ok s _ => d s
  | .exc s => match d s with
    | .ok s _ => .exc s
    | r => r
  | r => r
end M

def W.set (w : W α) (x : Var) (o : Option (Option Nat)) : W α := { w with vars := fun y => if y = x then o else w.vars y }

/-- The member `content` of a living `any`. -/
def content (x : Var) : M α (Option Nat) := fun w => match w.vars x with
  | none => .bad
  | some p => .ok w p

def setContent (x : Var) (p : Option Nat) : M α Unit := fun w => match w.vars x with
  | none => .bad
  | some _ => .ok (w.set x (some p)) ()

/-- A new variable. -/
def declare (x : Var) (p : Option Nat) : M α Unit := fun w => match w.vars x with
  | some _ => .bad
  | none => .ok (w.set x (some p)) ()

def undeclare (x : Var) : M α Unit := fun w => .ok (w.set x none) ()

def deref (b : Nat) : M α (Nat × α) := fun w => match w.heap b with
  | none => .bad
  | some c => .ok w c

def write (b : Nat) (c : Nat × α) : M α Unit := fun w => match w.heap b with
  | none => .bad
  | some _ => .ok { w with heap := fun y => if y = b then some c else w.heap y } ()

/-- A call that may throw. -/
def call (c : Cls α) : M α Unit := fun w =>
  if c.throws w.calls then .exc { w with calls := w.calls + 1 } else .ok { w with calls := w.calls + 1 } ()

/-- A new cell with a new object in it. -/
def place (v : Nat × α) : M α Nat := fun w =>
  .ok { w with heap := fun y => if y = w.next then some v else w.heap y, next := w.next + 1, evs := w.evs ++ [Ev.cons w.next] } w.next

/-- `new holder<T>(value)` (any.hpp:596-608): allocation, then copy or move construction of `held`. -/
def newHolder (c : Cls α) (isMove : Bool) (v : Nat × α) : M α Nat := do
  call c
  if isMove && c.nothrowMove v.1 then pure () else call c
  place v

/-- `delete content` (any.hpp:549) with the virtual destructor (any.hpp:587-589). -/
def del : Option Nat → M α Unit
  | none => pure ()
  | some b => fun w => match w.heap b with
    | none => .bad
    | some _ => .ok { w with heap := fun y => if y = b then none else w.heap y, evs := w.evs ++ [Ev.dest b] } ()

/-- `holder::clone` (any.hpp:615-618). -/
def clone (c : Cls α) (b : Nat) : M α Nat := do
  let v ← deref b
  newHolder c false v

/-- `any()` (any.hpp:443-445). -/
def ctorEmpty (x : Var) : M α Unit := M.noexcept (declare x none)

/-- `any(any const &)` (any.hpp:447-449). -/
def ctorCopy (c : Cls α) (x y : Var) : M α Unit := do
  let p ← content y
  match p with
  | none => declare x none
  | some b =>
    let q ← clone c b
    declare x (some q)

/-- `any(any &&)` (any.hpp:453-457). -/
def ctorMove (x y : Var) : M α Unit := M.noexcept (do
  let p ← content y
  declare x p
  setContent y none)

/-- `any(ValueType &&)` (any.hpp:459-465), from an lvalue (copied) or an rvalue (moved) that is not among the variables. -/
def ctorValue (c : Cls α) (x : Var) (isMove : Bool) (v : Nat × α) : M α Unit := M.noexcept (do
  let q ← newHolder c isMove v
  declare x (some q))

/-- The temporary `T(args...)`. -/
def mkObj (c : Cls α) (v : Nat × α) : M α Unit := do
  call c
  let q ← place v
  declare .obj (some q)

/-- `new holder<T>` from the temporary, moving it. -/
def holderFromObj (c : Cls α) : M α Nat := do
  let p ← content .obj
  match p with
  | none => fun _ => .bad
  | some b =>
    let v ← deref b
    let q ← newHolder c true v
    write b (v.1, c.moved v.1 v.2)
    pure q

/-- `reset` (any.hpp:547-550). -/
def reset (x : Var) : M α Unit := M.noexcept (do
  let p ← content x
  del p
  setContent x none)

/-- `~any` (any.hpp:492-495); the end of a temporary value does the same to its cell. -/
def dtor (x : Var) : M α Unit := do
  reset x
  undeclare x

/-- `any(in_place_type, args...)` (any.hpp:467-481). -/
def ctorInPlace (c : Cls α) (x : Var) (v : Nat × α) : M α Unit := do
  mkObj c v
  M.finally_ (do
    let q ← holderFromObj c
    declare x (some q)) (dtor .obj)

/-- `swap` (any.hpp:552-555, 626-629). -/
def swap (x y : Var) : M α Unit := M.noexcept (do
  let p ← content x
  let q ← content y
  setContent x q
  setContent y p)

/-- `operator=(any const &)` (any.hpp:497-501). -/
def assignCopy (c : Cls α) (x y : Var) : M α Unit := do
  ctorCopy c (.tmp 0) y
  M.finally_ (swap (.tmp 0) x) (dtor (.tmp 0))

/-- `operator=(any &&)` (any.hpp:505-509). -/
def assignMove (x y : Var) : M α Unit := M.noexcept (do
  ctorMove (.tmp 0) y
  M.finally_ (swap (.tmp 0) x) (dtor (.tmp 0)))

/-- Assignment of a value. The template (any.hpp:511-519) cannot be chosen, as its first parameter cannot be deduced: the value is converted to
`any` and that is moved. -/
def assignValue (c : Cls α) (x : Var) (isMove : Bool) (v : Nat × α) : M α Unit := do
  ctorValue c (.tmp 1) isMove v
  M.finally_ (assignMove x (.tmp 1)) (dtor (.tmp 1))

/-- `emplace` (any.hpp:521-534). -/
def emplace (c : Cls α) (x : Var) (v : Nat × α) : M α Unit := do
  mkObj c v
  M.finally_ (do
    M.noexcept (do
      let q ← holderFromObj c
      declare (.tmp 0) (some q))
    M.finally_ (swap (.tmp 0) x) (dtor (.tmp 0))) (dtor .obj)

/-- `has_value` (any.hpp:557-560). -/
def hasValue (x : Var) : M α Bool := do
  let p ← content x
  pure p.isSome

/-- `type` (any.hpp:562-565, 610-613); `none` is `typeid(void)`. -/
def type (x : Var) : M α (Option Nat) := do
  let b ← hasValue x
  if b then
    let p ← content x
    match p with
    | none => fun _ => .bad
    | some b =>
      let v ← deref b
      pure (some v.1)
  else pure none

/-- `to_ptr` (any.hpp:571-581). The cell is a `holder<T>` with an unqualified `T`; `holder<T const>` is another class, and the `static_cast` to it
is undefined ([expr.static.cast]/11) unless the compiler is lenient. -/
def toPtr (lenient : Bool) (x : Var) (t : Nat) (isConst : Bool) : M α Nat := do
  let p ← content x
  match p with
  | none => fun _ => .bad
  | some b =>
    let v ← deref b
    if v.1 = t ∧ (isConst = false ∨ lenient = true) then pure b else fun _ => .bad

/-- `any_cast<T>(any *)`, `any_cast<T>(any const *)` (any.hpp:719-729); no variable is the null pointer. `typeid` ignores the qualifier. -/
def castPtr (lenient : Bool) (x : Option Var) (t : Nat) (isConst : Bool) : M α (Option Nat) := match x with
  | none => pure none
  | some x => do
    let u ← type x
    if u = some t then
      let b ← toPtr lenient x t isConst
      pure (some b)
    else pure none

/-- `any_cast<T>(any const &)` (any.hpp:654-668) asks for `T const`, `any_cast<T>(any &)`, `any_cast<T>(any &&)` (any.hpp:677-715) for `T`.
`none` is the exception `bad_any_cast`; else the value is copied to the caller. -/
def castValue (c : Cls α) (lenient : Bool) (x : Var) (t : Nat) (isConst : Bool) : M α (Option α) := do
  let r ← castPtr lenient (some x) t isConst
  match r with
  | none => pure none
  | some b =>
    let v ← deref b
    call c
    pure (some v.2)

/-! ### Programs -/

inductive Cmd (α : Type) where
  | empty (i : Nat)
  | ofValue (i : Nat) (isMove : Bool) (v : Nat × α)
  | inPlace (i : Nat) (v : Nat × α)
  | copy (i j : Nat)
  | move (i j : Nat)
  | assignCopy (i j : Nat)
  | assignMove (i j : Nat)
  | assignValue (i : Nat) (isMove : Bool) (v : Nat × α)
  | emplace (i : Nat) (v : Nat × α)
  | reset (i : Nat)
  | swap (i j : Nat)
  | destroy (i : Nat)

def step (c : Cls α) : Cmd α → M α Unit
  | .empty i => ctorEmpty (.user i)
  | .ofValue i b v => ctorValue c (.user i) b v
  | .inPlace i v => ctorInPlace c (.user i) v
  | .copy i j => ctorCopy c (.user i) (.user j)
  | .move i j => ctorMove (.user i) (.user j)
  | .assignCopy i j => assignCopy c (.user i) (.user j)
  | .assignMove i j => assignMove (.user i) (.user j)
  | .assignValue i b v => assignValue c (.user i) b v
  | .emplace i v => emplace c (.user i) v
  | .reset i => reset (.user i)
  | .swap i j => swap (.user i) (.user j)
  | .destroy i => dtor (.user i)

/-- A program that catches every exception; each command's outcome (threw or not). `inl true`: terminated, `inl false`: bad. -/
def run (c : Cls α) : W α → List (Cmd α) → Sum Bool (W α × List Bool)
  | w, [] => .inr (w, [])
  | w, k :: ks => match step c k w with
    | .bad => .inl false
    | .term => .inl true
    | .ok w' _ => match run c w' ks with
      | .inl b => .inl b
      | .inr (w'', ts) => .inr (w'', false :: ts)
    | .exc w' => match run c w' ks with
      | .inl b => .inl b
      | .inr (w'', ts) => .inr (w'', true :: ts)

def init : W α := ⟨fun _ => none, fun _ => none, 0, 0, []⟩

end Nanostl.Any

/-!
Model of `nonstd::optional` (`include/nonstd/optional.hpp`), which `nanooptional.h` exports. A program numbers its optional variables. The
contained type `T` has values of type `α`; every object of type `T` gets an identity when it is constructed, and constructions and
destructions are recorded. Each construction or assignment of a `T` may throw, as the oracle says; moves of a `T` with
`is_nothrow_move_constructible` and `is_nothrow_move_assignable` (`nothrowMove`) do not. A throwing assignment leaves the object as it was.
`moved v` is what is left of `v` after a move.

`bad`: a `T` is constructed over a living one, or a dead one is used or destroyed. `term`: an exception meets `noexcept`.

`nanostl::swap(T&, T&)` is declared (nanotype_traits.h:1183-1187) but defined nowhere; it is modelled as the usual three moves.
-/

namespace Nanostl.Opt

variable {α : Type}

/-- The class of contained values. -/
structure Cls (α : Type) where
  nothrowMove : Bool
  moved : α → α
  throws : Nat → Bool

inductive Ev where
  | cons (id : Nat)
  | dest (id : Nat)
deriving DecidableEq

/-- Members `has_value_` and `contained` (optional.hpp:1532-1533); the storage holds a living object or none. -/
structure Ov (α : Type) where
  has : Bool
  st : Option (Nat × α)

structure W (α : Type) where
  vars : Nat → Option (Ov α)
  /-- operations of `T` that could throw so far -/
  calls : Nat
  next : Nat
  evs : List Ev

inductive R (σ β : Type) where
  | ok (s : σ) (b : β)
  | exc (s : σ)
  | term
  | bad

abbrev M (α β : Type) := W α → R (W α) β

namespace M
@[inline] def pure {β : Type} (b : β) : M α β := fun s => .ok s b
@[inline] def bind {β γ : Type} (m : M α β) (f : β → M α γ) : M α γ := fun s => match m s with
  | .ok s b => f b s
  | .exc s => .exc s
  | .term => .term
  | .bad => .bad
instance : Monad (M α) where
  pure := M.pure
  bind := M.bind
/-- A function body under `noexcept(b)`. -/
def noexcept {β : Type} (b : Bool) (m : M α β) : M α β := fun s => match m s with
  | .exc s => if b then .term else .exc s
  | r => r
end M

def W.set (w : W α) (i : Nat) (o : Option (Ov α)) : W α := { w with vars := fun j => if j = i then o else w.vars j }

/-- The variable `i`. -/
def var (i : Nat) : M α (Ov α) := fun w => match w.vars i with
  | none => .bad
  | some o => .ok w o

def setVar (i : Nat) (o : Ov α) : M α Unit := fun w => .ok (w.set i (some o)) ()

/-- A call of a constructor or assignment operator of `T` that may throw. -/
def call (c : Cls α) (isMove : Bool) : M α Unit := fun w =>
  if isMove && c.nothrowMove then .ok w ()
  else if c.throws w.calls then .exc { w with calls := w.calls + 1 } else .ok { w with calls := w.calls + 1 } ()

/-- `has_value()` (optional.hpp:1422-1425). -/
def hasValue (i : Nat) : M α Bool := do
  let o ← var i
  pure o.has

/-- `::new (value_ptr()) T(v)` (optional.hpp:778-813). -/
def construct (c : Cls α) (isMove : Bool) (i : Nat) (v : α) : M α Unit := do
  call c isMove
  let o ← var i
  match o.st with
  | some _ => fun _ => .bad
  | none => fun w => .ok ({ w with next := w.next + 1, evs := w.evs ++ [Ev.cons w.next] }.set i (some { o with st := some (w.next, v) })) ()

/-- `destruct_value` (optional.hpp:815-818). Destructors do not throw. -/
def destruct (i : Nat) : M α Unit := do
  let o ← var i
  match o.st with
  | none => fun _ => .bad
  | some (id, _) => fun w => .ok ({ w with evs := w.evs ++ [Ev.dest id] }.set i (some { o with st := none })) ()

/-- `contained.value()` read (optional.hpp:830-838). -/
def read (i : Nat) : M α α := do
  let o ← var i
  match o.st with
  | none => fun _ => .bad
  | some (_, v) => pure v

/-- Store into the living object. -/
def write (i : Nat) (v : α) : M α Unit := do
  let o ← var i
  match o.st with
  | none => fun _ => .bad
  | some (id, _) => setVar i { o with st := some (id, v) }

def setHas (i : Nat) (b : Bool) : M α Unit := do
  let o ← var i
  setVar i { o with has := b }

/-- `**this`, `*other` with its assertion (optional.hpp:1383-1393). -/
def deref (i : Nat) : M α α := do
  let b ← hasValue i
  if b then read i else fun _ => .bad

/-- A new variable with the given flag and no living object: start of every constructor. -/
def declare (i : Nat) (b : Bool) : M α Unit := fun w => match w.vars i with
  | some _ => .bad
  | none => .ok (w.set i (some ⟨b, none⟩)) ()

/-- A constructor whose body throws leaves no variable; the storage has no destructor. -/
def ctorBody (i : Nat) (m : M α Unit) : M α Unit := fun w => match m w with
  | .exc w => match w.vars i with
    | some ⟨_, some _⟩ => .bad
    | _ => .exc (w.set i none)
  | r => r

/-- Constructors 1a, 1b (optional.hpp:954-964). -/
def ctorEmpty (i : Nat) : M α Unit := declare i false

/-- Constructors 6, 7, 8 from a value or its arguments (optional.hpp:1108-1157). -/
def ctorValue (c : Cls α) (i : Nat) (v : α) : M α Unit := do
  declare i true
  ctorBody i (construct c false i v)

/-- Copy constructor (optional.hpp:975-982). -/
def ctorCopy (c : Cls α) (i j : Nat) : M α Unit := do
  let b ← hasValue j
  declare i b
  ctorBody i (do
    let b ← hasValue j
    if b then
      let v ← read j
      construct c false i v
    else pure ())

/-- Move constructor (optional.hpp:987-1002), `noexcept(is_nothrow_move_constructible)`. -/
def ctorMove (c : Cls α) (i j : Nat) : M α Unit := M.noexcept c.nothrowMove (do
  let b ← hasValue j
  declare i b
  ctorBody i (do
    let b ← hasValue j
    if b then
      let v ← read j
      construct c true i v
      write j (c.moved v)
    else pure ()))

/-- `reset` (optional.hpp:1499-1507); `= nullopt` (1182-1186). -/
def reset (i : Nat) : M α Unit := do
  let b ← hasValue i
  if b then destruct i else pure ()
  setHas i false

/-- Destructor (optional.hpp:1171-1177). The storage itself has no destructor: an object still alive there is lost. -/
def dtor (i : Nat) : M α Unit := do
  let b ← hasValue i
  if b then destruct i else pure ()
  fun w => .ok (w.set i none) ()

/-- `initialize` (optional.hpp:1512-1527); the caller's source is marked as moved from by the caller. -/
def initial (c : Cls α) (isMove : Bool) (i : Nat) (v : α) : M α Unit := do
  let b ← hasValue i
  if b then fun _ => .bad else
    construct c isMove i v
    setHas i true

/-- Copy assignment (optional.hpp:1189-1210), `noexcept` if the *moves* of `T` are. -/
def assignCopy (c : Cls α) (i j : Nat) : M α Unit := M.noexcept c.nothrowMove (do
  let a ← hasValue i
  let b ← hasValue j
  if a = true ∧ b = false then reset i
  else if a = false ∧ b = true then
    let v ← deref j
    initial c false i v
  else if a = true ∧ b = true then
    let v ← deref j
    call c false
    write i v
  else pure ())

/-- Move assignment (optional.hpp:1214-1228), `noexcept`. -/
def assignMove (c : Cls α) (i j : Nat) : M α Unit := M.noexcept true (do
  let a ← hasValue i
  let b ← hasValue j
  if a = true ∧ b = false then reset i
  else if a = false ∧ b = true then
    let v ← deref j
    initial c true i v
    write j (c.moved v)
  else if a = true ∧ b = true then
    let v ← deref j
    call c true
    write i v
    write j (c.moved v)
  else pure ())

/-- A temporary `T(v)` that lives while `m` runs, also if `m` throws. -/
def withTemp (c : Cls α) (m : M α Unit) : M α Unit := do
  call c false
  fun w =>
    let id := w.next
    match m { w with next := w.next + 1, evs := w.evs ++ [Ev.cons id] } with
    | .ok w b => .ok { w with evs := w.evs ++ [Ev.dest id] } b
    | .exc w => .exc { w with evs := w.evs ++ [Ev.dest id] }
    | .term => .term
    | .bad => .bad

/-- Assignment of a value (optional.hpp:1230-1252). -/
def assignValue (c : Cls α) (i : Nat) (v : α) : M α Unit := do
  let a ← hasValue i
  if a then
    call c false
    write i v
  else withTemp c (initial c true i v)

/-- `emplace` (optional.hpp:1323-1349). -/
def emplace (c : Cls α) (i : Nat) (v : α) : M α Unit := do
  reset i
  construct c false i v
  setHas i true

/-- `swap` (optional.hpp:1355-1367). -/
def swap (c : Cls α) (i j : Nat) : M α Unit := M.noexcept c.nothrowMove (do
  let a ← hasValue i
  let b ← hasValue j
  if a = true ∧ b = true then
    let v ← deref i
    let _ ← deref j
    call c true /- T tmp(move(x)) -/
    fun w =>
      let id := w.next
      match (do
          write i (c.moved v)
          let u ← read j
          call c true
          write i u
          write j (c.moved u)
          call c true
          write j v : M α Unit) { w with next := w.next + 1, evs := w.evs ++ [Ev.cons id] } with
      | .ok w b => .ok { w with evs := w.evs ++ [Ev.dest id] } b
      | .exc w => .exc { w with evs := w.evs ++ [Ev.dest id] }
      | .term => .term
      | .bad => .bad
  else if a = false ∧ b = true then
    let v ← deref j
    initial c true i v
    write j (c.moved v)
    reset j
  else if a = true ∧ b = false then
    let v ← deref i
    initial c true j v
    write i (c.moved v)
    reset i
  else pure ())

/-- `value()` (optional.hpp:1428-1452): `none` is the exception `bad_optional_access`. -/
def value (i : Nat) : M α (Option α) := do
  let b ← hasValue i
  if !b then pure none else
    let v ← read i
    pure (some v)

/-- `value_or` (optional.hpp:1472-1475). -/
def valueOr (i : Nat) (d : α) : M α α := do
  let b ← hasValue i
  if b then read i else pure d

/-- `operator==`, `operator<` (optional.hpp:1539-1555). -/
def opEq (eq : α → α → Bool) (i j : Nat) : M α Bool := do
  let a ← hasValue i
  let b ← hasValue j
  if a != b then pure false
  else if !a then pure true
  else
    let x ← deref i
    let y ← deref j
    pure (eq x y)

def opLt (lt : α → α → Bool) (i j : Nat) : M α Bool := do
  let b ← hasValue j
  if !b then pure false
  else
    let a ← hasValue i
    if !a then pure true
    else
      let x ← deref i
      let y ← deref j
      pure (lt x y)

/-! ### Programs -/

inductive Cmd (α : Type) where
  | empty (i : Nat)
  | ofValue (i : Nat) (v : α)
  | copy (i j : Nat)
  | move (i j : Nat)
  | assignNull (i : Nat)
  | assignCopy (i j : Nat)
  | assignMove (i j : Nat)
  | assignValue (i : Nat) (v : α)
  | emplace (i : Nat) (v : α)
  | swap (i j : Nat)
  | destroy (i : Nat)

def step (c : Cls α) : Cmd α → M α Unit
  | .empty i => ctorEmpty i
  | .ofValue i v => ctorValue c i v
  | .copy i j => ctorCopy c i j
  | .move i j => ctorMove c i j
  | .assignNull i => reset i
  | .assignCopy i j => assignCopy c i j
  | .assignMove i j => assignMove c i j
  | .assignValue i v => assignValue c i v
  | .emplace i v => emplace c i v
  | .swap i j => swap c i j
  | .destroy i => dtor i

/-- A program that catches every exception; each command's outcome (threw or not). `Sum.inl true` : terminated, `Sum.inl false` : bad. -/
def run (c : Cls α) : W α → List (Cmd α) → Sum Bool (W α × List Bool)
  | w, [] => .inr (w, [])
  | w, k :: ks => match step c k w with
    | .bad => .inl false
    | .term => .inl true
    | .ok w' _ => match run c w' ks with
      | .inl b => .inl b
      | .inr (w'', ts) => .inr (w'', false :: ts)
    | .exc w' => match run c w' ks with
      | .inl b => .inl b
      | .inr (w'', ts) => .inr (w'', true :: ts)

def init : W α := ⟨fun _ => none, 0, 0, []⟩

end Nanostl.Opt

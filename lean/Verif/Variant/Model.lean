/-!
Model of `nonstd::variant` (`include/nonstd/variant.hpp`), which `nanovariant.h` exports. The alternatives are the types `0 … n-1`, `n ≤ 16`, all
different (two equal ones do not compile: two constructors would be the same); other types have numbers from `n` on. Values are of type `α`. A
program numbers its variables of type `variant`; a temporary `variant` (`tmp`) and a temporary value (`val`) are variables too. Every object gets an
identity when it is constructed; constructions and destructions are recorded. Each construction or assignment of a value may throw, as the oracle
says, unless it is a move of a type whose moves are `noexcept`; it then leaves its operands as they were. `moved t v` is what is left of `v` after a
move.

`bad`: an object is constructed over a living one, a dead one or one of another type is used or destroyed, or storage ends while an object lives in
it. `term`: an exception meets `noexcept`, or `terminate` is called.

`nanostl::swap(T&, T&)` is declared (nanotype_traits.h:1183-1187) but defined nowhere; it is modelled as the usual three moves.
-/

namespace Nanostl.Variant

variable {α : Type}

/-- The alternatives. -/
structure Cls (α : Type) where
  n : Nat
  /-- `T0()` -/
  dflt : α
  nothrowCtor : Nat → Bool
  nothrowAssign : Nat → Bool
  moved : Nat → α → α
  throws : Nat → Bool

inductive Ev where
  | cons (id : Nat)
  | dest (id : Nat)
deriving DecidableEq

inductive Var where
  | user (n : Nat)
  | tmp
  | val
deriving DecidableEq

/-- Members `type_index` and `data` (variant.hpp:1743, 1722); the storage holds a living object (identity, type, value) or none. -/
structure Slot (α : Type) where
  idx : Int
  obj : Option (Nat × Nat × α)

structure W (α : Type) where
  vars : Var → Option (Slot α)
  /-- calls so far that could throw -/
  calls : Nat
  next : Nat
  evs : List Ev

inductive R (σ β : Type) where
  | ok (s : σ) (b : β)
  | exc (s : σ)
  | term
  | bad

abbrev M (α β : Type) := W α → R (W α) β

namespace M
@[inline] def pure {β : Type} (b : β) : M α β := fun s => .ok s b
@[inline] def bind {β γ : Type} (m : M α β) (f : β → M α γ) : M α γ := fun s => match m s with
  | .ok s b => f b s
  | .exc s => .exc s
  | .term => .term
  | .bad => .bad
instance : Monad (M α) where
  pure := M.pure
  bind := M.bind
/-- A function body under `noexcept(b)`. -/
def noexcept {β : Type} (b : Bool) (m : M α β) : M α β := fun s => match m s with
  | .exc s => if b then .term else .exc s
  | r => r
/-- `m`, then `d` in any case: the end of a temporary's life. -/
def finally_ (m d : M α Unit) : M α Unit := fun s => match m s with
  | .ok s _ => d s
  | .exc s => match d s with
    | .ok s _ => .exc s
    | r => r
  | r => r
/-- `m`; if it throws, `d` before the exception goes on. -/
def onExc (m d : M α Unit) : M α Unit := fun s => match m s with
  | .exc s => match d s with
    | .ok s _ => .exc s
    | r => r
  | r => r
end M

def bad {β : Type} : M α β := fun _ => .bad

def W.set (w : W α) (x : Var) (o : Option (Slot α)) : W α := { w with vars := fun y => if y = x then o else w.vars y }

/-! ### Objects -/

def slot (x : Var) : M α (Slot α) := fun w => match w.vars x with
  | none => .bad
  | some s => .ok w s

def setIdx (x : Var) (i : Int) : M α Unit := fun w => match w.vars x with
  | none => .bad
  | some s => .ok (w.set x (some { s with idx := i })) ()

/-- Storage for a new variable. -/
def declare (x : Var) (i : Int) : M α Unit := fun w => match w.vars x with
  | some _ => .bad
  | none => .ok (w.set x (some ⟨i, none⟩)) ()

/-- The end of a variable's storage. -/
def undeclare (x : Var) : M α Unit := fun w => match w.vars x with
  | some ⟨_, none⟩ => .ok (w.set x none) ()
  | _ => .bad

/-- A call that may throw. -/
def call (c : Cls α) (nothrow : Bool) : M α Unit := fun w =>
  if nothrow then .ok w ()
  else if c.throws w.calls then .exc { w with calls := w.calls + 1 } else .ok { w with calls := w.calls + 1 } ()

/-- An object begins to live in the storage. -/
def place (x : Var) (t : Nat) (v : α) : M α Unit := fun w => match w.vars x with
  | some ⟨i, none⟩ => .ok ({ w with next := w.next + 1, evs := w.evs ++ [Ev.cons w.next] }.set x (some ⟨i, some (w.next, t, v)⟩)) ()
  | _ => .bad

/-- `as<T>(data)->~T()`. -/
def destroyObj (x : Var) (t : Nat) : M α Unit := fun w => match w.vars x with
  | some ⟨i, some (id, u, _)⟩ => if u = t then .ok ({ w with evs := w.evs ++ [Ev.dest id] }.set x (some ⟨i, none⟩)) () else .bad
  | _ => .bad

/-- `*as<T>(data)`. -/
def readObj (x : Var) (t : Nat) : M α α := fun w => match w.vars x with
  | some ⟨_, some (_, u, v)⟩ => if u = t then .ok w v else .bad
  | _ => .bad

def writeObj (x : Var) (t : Nat) (v : α) : M α Unit := fun w => match w.vars x with
  | some ⟨i, some (id, u, _)⟩ => if u = t then .ok (w.set x (some ⟨i, some (id, u, v)⟩)) () else .bad
  | _ => .bad

/-- `new( data ) T( args )`. -/
def construct (c : Cls α) (nothrow : Bool) (x : Var) (t : Nat) (v : α) : M α Unit := do
  call c nothrow
  place x t v

/-! ### `helper` -/

/-- The alternative of a `switch` over the index, if there is a case for it. -/
def case (i : Int) : Option Nat := if 0 ≤ i ∧ i < 16 then some i.toNat else none

/-- `helper::destroy` (variant.hpp:955-977). -/
def destroy (i : Int) (x : Var) : M α Unit := match case i with
  | some t => destroyObj x t
  | none => pure ()

/-- `typelist_index_of` (variant.hpp:716-737) for different alternatives. -/
def indexOf (c : Cls α) (t : Nat) : Int := if t < c.n then t else -1

/-- A value given to an operation: an object outside of the variants, or the one in a variant. -/
inductive Src (α : Type) where
  | lit (v : α)
  | at (x : Nat)

def readSrc (s : Src α) (t : Nat) : M α α := match s with
  | .lit v => pure v
  | .at j => readObj (.user j) t

/-- What a move leaves. -/
def leave (c : Cls α) (isMove : Bool) (s : Src α) (t : Nat) (v : α) : M α Unit := match s with
  | .lit _ => pure ()
  | .at j => if isMove then writeObj (.user j) t (c.moved t v) else pure ()

/-- `new( data ) T( value )` from an lvalue or an rvalue. -/
def constructFrom (c : Cls α) (isMove : Bool) (x : Var) (t : Nat) (s : Src α) : M α Unit := do
  let v ← readSrc s t
  construct c (isMove && c.nothrowCtor t) x t v
  leave c isMove s t v

/-- `*as<T>() = value`. -/
def assignFrom (c : Cls α) (isMove : Bool) (x : Var) (t : Nat) (s : Src α) : M α Unit := do
  let v ← readSrc s t
  let _ ← readObj x t
  call c (isMove && c.nothrowAssign t)
  writeObj x t v
  leave c isMove s t v

/-- `helper::construct_t` (variant.hpp:980-986). -/
def constructT (c : Cls α) (isMove : Bool) (x : Var) (t : Nat) (s : Src α) : M α Int := do
  constructFrom c isMove x t s
  pure (indexOf c t)

/-- `helper::construct_i` (variant.hpp:988-996). -/
def constructI (c : Cls α) (isMove : Bool) (x : Var) (k : Nat) (s : Src α) : M α Int := do
  let _ ← constructT c isMove x k s
  pure k

/-- `helper::move_construct` (variant.hpp:998-1021). -/
def moveConstruct (c : Cls α) (i : Int) (y x : Var) : M α Int := do
  match case i with
  | some t =>
    let v ← readObj y t
    construct c (c.nothrowCtor t) x t v
    writeObj y t (c.moved t v)
  | none => pure ()
  pure i

/-- `helper::move_assign` (variant.hpp:1023-1046). -/
def moveAssign (c : Cls α) (i : Int) (y x : Var) : M α Int := do
  match case i with
  | some t =>
    let v ← readObj y t
    let _ ← readObj x t
    call c (c.nothrowAssign t)
    writeObj x t v
    writeObj y t (c.moved t v)
  | none => pure ()
  pure i

/-- `helper::copy_construct` (variant.hpp:1049-1072). -/
def copyConstruct (c : Cls α) (i : Int) (y x : Var) : M α Int := do
  match case i with
  | some t =>
    let v ← readObj y t
    construct c false x t v
  | none => pure ()
  pure i

/-- `helper::copy_assign` (variant.hpp:1074-1097). -/
def copyAssign (c : Cls α) (i : Int) (y x : Var) : M α Int := do
  match case i with
  | some t =>
    let v ← readObj y t
    let _ ← readObj x t
    call c false
    writeObj x t v
  | none => pure ()
  pure i

/-! ### `variant` -/

/-- `valueless_by_exception` (variant.hpp:1463-1466). -/
def valueless (x : Var) : M α Bool := do
  let s ← slot x
  pure (s.idx == -1)

/-- `index` (variant.hpp:1411-1414); `none` is `variant_npos`, also as a `size_t` made from -1. -/
def index (x : Var) : M α (Option Nat) := do
  let s ← slot x
  if s.idx == -1 then pure none else pure (some s.idx.toNat)

/-- `noexcept` of the move constructor (variant.hpp:1270-1286); the placeholders of unused alternatives are empty structures. -/
def allCtor (c : Cls α) : Bool := (List.range c.n).all c.nothrowCtor
/-- `noexcept` of the move assignment (variant.hpp:1352-1368). -/
def allAssign (c : Cls α) : Bool := (List.range c.n).all c.nothrowAssign

/-- A constructor that throws leaves no variable; the storage has no destructor. -/
def ctor (x : Var) (i : Int) (m : M α Unit) : M α Unit := do
  declare x i
  M.onExc m (undeclare x)

/-- `variant()` (variant.hpp:1222). -/
def ctorDefault (c : Cls α) (x : Var) : M α Unit := ctor x 0 (construct c false x 0 c.dflt)

/-- `variant( Tk const & )`, `variant( Tk && )` (variant.hpp:1224-1258). -/
def ctorValue (c : Cls α) (isMove : Bool) (x : Var) (k : Nat) (s : Src α) : M α Unit := ctor x k (constructFrom c isMove x k s)

/-- `variant( variant const & )` (variant.hpp:1262-1266). -/
def ctorCopy (c : Cls α) (x y : Var) : M α Unit := do
  let o ← slot y
  ctor x o.idx (do
    let _ ← copyConstruct c o.idx y x
    pure ())

/-- `variant( variant && )` (variant.hpp:1270-1290). -/
def ctorMove (c : Cls α) (x y : Var) : M α Unit := M.noexcept (allCtor c) (do
  let o ← slot y
  ctor x o.idx (do
    let _ ← moveConstruct c o.idx y x
    pure ()))

/-- `variant( in_place_type, args... )` (variant.hpp:1295-1311). -/
def ctorInPlaceT (c : Cls α) (isMove : Bool) (x : Var) (t : Nat) (s : Src α) : M α Unit := ctor x (-1) (do
  let i ← constructT c isMove x t s
  setIdx x i)

/-- `variant( in_place_index, args... )` (variant.hpp:1313-1329). -/
def ctorInPlaceI (c : Cls α) (isMove : Bool) (x : Var) (k : Nat) (s : Src α) : M α Unit := ctor x (-1) (do
  let i ← constructI c isMove x k s
  setIdx x i)

/-- `~variant` (variant.hpp:1335-1341). -/
def dtor (x : Var) : M α Unit := do
  let b ← valueless x
  if ! b then
    let o ← slot x
    destroy o.idx x
  undeclare x

/-- The first statements of every change of alternative: `helper_type::destroy( type_index, ptr() ); type_index = variant_npos_internal();`. -/
def clear (x : Var) : M α Unit := do
  let o ← slot x
  destroy o.idx x
  setIdx x (-1)

/-- `copy_assign` (variant.hpp:1603-1625), for `operator=( variant const & )` (variant.hpp:1345-1348). -/
def assignCopy (c : Cls α) (x y : Var) : M α Unit := do
  let a ← valueless x
  let b ← valueless y
  if a && b then pure ()
  else if ! a && b then clear x
  else
    let i ← index x
    let j ← index y
    if i = j then
      let o ← slot y
      let r ← copyAssign c o.idx y x
      setIdx x r
    else
      clear x
      let o ← slot y
      let r ← copyConstruct c o.idx y x
      setIdx x r

/-- `move_assign` (variant.hpp:1629-1651), for `operator=( variant && )` (variant.hpp:1352-1371). -/
def assignMove (c : Cls α) (x y : Var) : M α Unit := M.noexcept (allAssign c) (do
  let a ← valueless x
  let b ← valueless y
  if a && b then pure ()
  else if ! a && b then clear x
  else
    let i ← index x
    let j ← index y
    if i = j then
      let o ← slot y
      let r ← moveAssign c o.idx y x
      setIdx x r
    else
      clear x
      let o ← slot y
      let r ← moveConstruct c o.idx y x
      setIdx x r)

/-- `assign_value` (variant.hpp:1653-1687), for `operator=( Tk const & )`, `operator=( Tk && )` (variant.hpp:1373-1408). -/
def assignValue (c : Cls α) (isMove : Bool) (x : Var) (k : Nat) (s : Src α) : M α Unit := do
  let i ← index x
  if i = some k then assignFrom c isMove x k s
  else
    clear x
    constructFrom c isMove x k s
    setIdx x k

/-- `emplace<T>` (variant.hpp:1419-1441). -/
def emplaceT (c : Cls α) (isMove : Bool) (x : Var) (t : Nat) (s : Src α) : M α Unit := do
  clear x
  let i ← constructT c isMove x t s
  setIdx x i

/-- `emplace<K>` (variant.hpp:1443-1457). -/
def emplaceI (c : Cls α) (isMove : Bool) (x : Var) (k : Nat) (s : Src α) : M α Unit := emplaceT c isMove x k s

/-- `swap_value` (variant.hpp:1689-1714). -/
def swapValue (c : Cls α) (i : Int) (x y : Var) : M α Unit := match case i with
  | none => pure ()
  | some t => M.noexcept (c.nothrowCtor t && c.nothrowAssign t) (do
    let v ← readObj x t
    declare .val (-1)
    M.onExc (construct c (c.nothrowCtor t) .val t v) (undeclare .val)
    M.finally_ (do
      writeObj x t (c.moved t v)
      let u ← readObj y t
      call c (c.nothrowAssign t)
      writeObj x t u
      writeObj y t (c.moved t u)
      call c (c.nothrowAssign t)
      writeObj y t v
      writeObj .val t (c.moved t v)) (do
      destroyObj .val t
      undeclare .val))

/-- `noexcept` of `swap` (variant.hpp:1472-1490); `is_nothrow_swappable` is what `nanostl::swap` promises. -/
def allSwap (c : Cls α) : Bool := (List.range c.n).all fun t => c.nothrowCtor t && (c.nothrowCtor t && c.nothrowAssign t)

/-- `swap` (variant.hpp:1470-1512). -/
def swap (c : Cls α) (x y : Var) : M α Unit := M.noexcept (allSwap c) (do
  let a ← valueless x
  let b ← valueless y
  if a && b then pure ()
  else
    let o ← slot x
    let p ← slot y
    if o.idx = p.idx then swapValue c o.idx x y
    else
      ctorMove c .tmp x
      M.finally_ (do
        assignMove c x y
        assignMove c y .tmp) (dtor .tmp))

/-! ### Access -/

/-- `index_of` (variant.hpp:1519-1523): converted to `size_t`, -1 is `variant_npos`. -/
def indexOfSize (c : Cls α) (t : Nat) : Option Nat := if indexOf c t = -1 then none else some (indexOf c t).toNat

/-- `get<T>()`, `get<K>()` (variant.hpp:1524-1565) and the functions that call them (variant.hpp:1754-1839): `assert` (a failed one is `bad`, and so
is what happens without it), then the object of that type. Gives the value referred to. -/
def get (c : Cls α) (x : Var) (t : Nat) : M α α := do
  let i ← index x
  if indexOfSize c t = i then readObj x t else bad

/-- `holds_alternative` (variant.hpp:1748-1752). -/
def holds (c : Cls α) (x : Var) (t : Nat) : M α Bool := do
  let i ← index x
  pure (i == indexOfSize c t)

/-- `get_if<T>`, `get_if<K>` (variant.hpp:1842-1868) of a pointer; `none` is the null pointer. Gives the value pointed to. -/
def getIf (c : Cls α) (x : Option Var) (t : Nat) : M α (Option α) := match x with
  | none => bad
  | some x => do
    let i ← index x
    if i = indexOfSize c t then
      let v ← get c x t
      pure (some v)
    else pure none

/-! ### Programs -/

inductive Cmd (α : Type) where
  | default (i : Nat)
  | ofValue (i : Nat) (isMove : Bool) (k : Nat) (s : Src α)
  | inPlaceT (i : Nat) (isMove : Bool) (t : Nat) (s : Src α)
  | inPlaceI (i : Nat) (isMove : Bool) (k : Nat) (s : Src α)
  | copy (i j : Nat)
  | move (i j : Nat)
  | assignCopy (i j : Nat)
  | assignMove (i j : Nat)
  | assignValue (i : Nat) (isMove : Bool) (k : Nat) (s : Src α)
  | emplaceT (i : Nat) (isMove : Bool) (t : Nat) (s : Src α)
  | emplaceI (i : Nat) (isMove : Bool) (k : Nat) (s : Src α)
  | swap (i j : Nat)
  | destroy (i : Nat)

def step (c : Cls α) : Cmd α → M α Unit
  | .default i => ctorDefault c (.user i)
  | .ofValue i m k s => ctorValue c m (.user i) k s
  | .inPlaceT i m t s => ctorInPlaceT c m (.user i) t s
  | .inPlaceI i m k s => ctorInPlaceI c m (.user i) k s
  | .copy i j => ctorCopy c (.user i) (.user j)
  | .move i j => ctorMove c (.user i) (.user j)
  | .assignCopy i j => assignCopy c (.user i) (.user j)
  | .assignMove i j => assignMove c (.user i) (.user j)
  | .assignValue i m k s => assignValue c m (.user i) k s
  | .emplaceT i m t s => emplaceT c m (.user i) t s
  | .emplaceI i m k s => emplaceI c m (.user i) k s
  | .swap i j => swap c (.user i) (.user j)
  | .destroy i => dtor (.user i)

/-- A program that catches every exception; each command's outcome (threw or not). `inl true`: terminated, `inl false`: bad. -/
def run (c : Cls α) : W α → List (Cmd α) → Sum Bool (W α × List Bool)
  | w, [] => .inr (w, [])
  | w, k :: ks => match step c k w with
    | .bad => .inl false
    | .term => .inl true
    | .ok w' _ => match run c w' ks with
      | .inl b => .inl b
      | .inr (w'', ts) => .inr (w'', false :: ts)
    | .exc w' => match run c w' ks with
      | .inl b => .inl b
      | .inr (w'', ts) => .inr (w'', true :: ts)

def init : W α := ⟨fun _ => none, 0, 0, []⟩

end Nanostl.Variant

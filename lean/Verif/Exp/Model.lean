import Verif.Opt.Model

/-!
Model of `nonstd::expected<T, E>` (`include/nonstd/expected.hpp`), which `nanoexpected.h` exports. A program numbers its variables. The
storage of a variable holds a living object of type `T` (`inl`), one of type `E` (`inr`) or none; beside it is the flag `m_has_value`. Objects get
an identity when constructed; constructions and destructions are recorded. The world, its monad and its outcomes are those of the model of
`optional`: `bad` is a construction over a living object or the use, or destruction, of an object that does not live (also: of the other
alternative of the union); `term` is an exception that meets `noexcept`.

Every constructor or assignment of a `T` or an `E` may throw, as the oracle says, except moves of a type whose moves are `noexcept`
(`nothrowT`, `nothrowE`: move construction and move assignment) and the construction that `emplace` requires to be so.

`nanostl::swap(T&, T&)` is declared (nanotype_traits.h:1183-1187) but defined nowhere; it is modelled as the usual three moves.
Converting constructors from `expected<U, G>` are not modelled.
-/

namespace Nanostl.Exp

open Opt (W M R Ev Ov var setVar hasValue setHas declare ctorBody)

variable {α β : Type}

/-- The classes `T` and `E`. -/
structure Cls (α β : Type) where
  nothrowT : Bool
  nothrowE : Bool
  movedT : α → α
  movedE : β → β
  /-- `T()` -/
  dflt : α
  throws : Nat → Bool

def Cls.nothrow (c : Cls α β) : α ⊕ β → Bool
  | .inl _ => c.nothrowT
  | .inr _ => c.nothrowE

/-- What a move leaves. -/
def Cls.moved (c : Cls α β) : α ⊕ β → α ⊕ β
  | .inl v => .inl (c.movedT v)
  | .inr e => .inr (c.movedE e)

/-- A call of a constructor or assignment operator of `T` or `E`. -/
def call (c : Cls α β) (nothrow : Bool) : M (α ⊕ β) Unit := fun w =>
  if !nothrow && c.throws w.calls then .exc { w with calls := w.calls + 1 } else .ok { w with calls := w.calls + 1 } ()

/-- `construct_value`, `emplace_value`, `construct_error`, `emplace_error` (expected.hpp:473-493, 500-520): placement new. -/
def construct (c : Cls α β) (nothrow : Bool) (i : Nat) (x : α ⊕ β) : M (α ⊕ β) Unit := do
  call c nothrow
  let o ← var i
  match o.st with
  | some _ => fun _ => .bad
  | none => fun w => .ok ({ w with next := w.next + 1, evs := w.evs ++ [Ev.cons w.next] }.set i (some { o with st := some (w.next, x) })) ()

/-- `destruct_value` (`isVal`, expected.hpp:495-498), `destruct_error` (522-525). Destructors do not throw. -/
def destruct (isVal : Bool) (i : Nat) : M (α ⊕ β) Unit := do
  let o ← var i
  match o.st with
  | none => fun _ => .bad
  | some (id, x) =>
    if x.isLeft = isVal then fun w => .ok ({ w with evs := w.evs ++ [Ev.dest id] }.set i (some { o with st := none })) () else fun _ => .bad

/-- `contained.value()` (`isVal`, expected.hpp:527-545), `contained.error()` (557-575). -/
def read (isVal : Bool) (i : Nat) : M (α ⊕ β) (α ⊕ β) := do
  let o ← var i
  match o.st with
  | none => fun _ => .bad
  | some (_, x) => if x.isLeft = isVal then pure x else fun _ => .bad

/-- Store into the living object. -/
def write (isVal : Bool) (i : Nat) (y : α ⊕ β) : M (α ⊕ β) Unit := do
  let o ← var i
  match o.st with
  | none => fun _ => .bad
  | some (id, x) => if x.isLeft = isVal then setVar i { o with st := some (id, y) } else fun _ => .bad

/-- An object outside the storages that lives while `m` runs, also if `m` throws. -/
def withTemp (c : Cls α β) (nothrow : Bool) (m : M (α ⊕ β) Unit) : M (α ⊕ β) Unit := do
  call c nothrow
  fun w =>
    let id := w.next
    match m { w with next := w.next + 1, evs := w.evs ++ [Ev.cons id] } with
    | .ok w b => .ok { w with evs := w.evs ++ [Ev.dest id] } b
    | .exc w => .exc { w with evs := w.evs ++ [Ev.dest id] }
    | .term => .term
    | .bad => .bad

/-! ### Constructors and destructor -/

/-- Default constructor (expected.hpp:1378-1382): a temporary `T()` is moved into place. -/
def ctorDefault (c : Cls α β) (i : Nat) : M (α ⊕ β) Unit := do
  declare i true
  ctorBody i (withTemp c false (construct c c.nothrowT i (.inl c.dflt)))

/-- Body of the constructors from a value, an error or their arguments. -/
def ctorOf (c : Cls α β) (nothrow : Bool) (i : Nat) (x : α ⊕ β) : M (α ⊕ β) Unit := do
  declare i x.isLeft
  ctorBody i (construct c nothrow i x)

/-- How the argument is passed. -/
inductive Mode where
  /-- `T const&`, or arguments after `in_place` -/
  | const
  /-- a `T` lvalue that is not `const`: `expected(U&&)` with `U = T&` -/
  | lvalue
  /-- a `T` rvalue: `expected(U&&)` with `U = T` -/
  | rvalue
deriving DecidableEq

/-- Constructors from a value: `expected(value_type const&)` (expected.hpp:1480-1484), in place (1581-1585), and `expected(U&&)` (1514-1522),
`noexcept(is_nothrow_move_constructible<U> && is_nothrow_move_constructible<E>)`; `is_nothrow_move_constructible<T&>` holds for every `T`
(nanotype_traits.h:879-883, 1015-1018). -/
def ctorValue (c : Cls α β) (m : Mode) (i : Nat) (v : α) : M (α ⊕ β) Unit := match m with
  | .const => ctorOf c false i (.inl v)
  | .lvalue => M.noexcept (true && c.nothrowE) (ctorOf c false i (.inl v))
  | .rvalue => M.noexcept (c.nothrowT && c.nothrowE) (ctorOf c c.nothrowT i (.inl v))

/-- Constructors from an error: `unexpected_type const&` or `unexpect` with arguments (`isMove = false`; expected.hpp:1544-1548, 1605-1609),
`unexpected_type&&` or `unexpect` with an rvalue (1568-1572). -/
def ctorError (c : Cls α β) (isMove : Bool) (i : Nat) (e : β) : M (α ⊕ β) Unit := ctorOf c (isMove && c.nothrowE) i (.inr e)

/-- Copy constructor (expected.hpp:1384; `storage_t`: 709-714). -/
def ctorCopy (c : Cls α β) (i j : Nat) : M (α ⊕ β) Unit := do
  let b ← hasValue j
  declare i b
  ctorBody i (do
    let b ← hasValue i
    let x ← read b j
    construct c false i x)

/-- Move constructor (expected.hpp:1385; `storage_t`: 716-721). Not `noexcept`: `storage_t`'s is not. -/
def ctorMove (c : Cls α β) (i j : Nat) : M (α ⊕ β) Unit := do
  let b ← hasValue j
  declare i b
  ctorBody i (do
    let b ← hasValue i
    let x ← read b j
    construct c (c.nothrow x) i x
    write b j (c.moved x))

/-- Destructor (expected.hpp:1628-1632). The storage itself has no destructor. -/
def dtor (i : Nat) : M (α ⊕ β) Unit := do
  let b ← hasValue i
  if b then destruct true i else destruct false i
  fun w => .ok (w.set i none) ()

/-! ### swap -/

/-- `swap(contained.value(), other.contained.value())` and the same of errors. -/
def swapSame (c : Cls α β) (isVal : Bool) (i j : Nat) : M (α ⊕ β) Unit := do
  let x ← read isVal i
  let _ ← read isVal j
  withTemp c (c.nothrow x) (do
    write isVal i (c.moved x)
    let y ← read isVal j
    call c (c.nothrow y)
    write isVal i y
    write isVal j (c.moved y)
    call c (c.nothrow x)
    write isVal j x)

/-- `error()` with its assertion (expected.hpp:1822-1830). -/
def error (i : Nat) : M (α ⊕ β) (α ⊕ β) := do
  let b ← hasValue i
  if b then fun _ => .bad else read false i

/-- The third branch of `swap` (expected.hpp:1731-1740): `*this`, variable `i`, has a value, `other`, variable `j`, an error. -/
def swapMixed (c : Cls α β) (i j : Nat) : M (α ⊕ β) Unit := do
  let e ← error j
  withTemp c c.nothrowE (do
    write false j (c.moved e)
    destruct false j
    let v ← read true i
    construct c c.nothrowT j v
    write true i (c.moved v)
    destruct true i
    construct c c.nothrowE i e
    let a ← hasValue i
    let b ← hasValue j
    setHas j a
    setHas i b)

/-- `swap` (expected.hpp:1715-1742). -/
def swap (c : Cls α β) (i j : Nat) : M (α ⊕ β) Unit := M.noexcept (c.nothrowT && c.nothrowE) (do
  let a ← hasValue i
  let b ← hasValue j
  if a && b then swapSame c true i j
  else if !a && !b then swapSame c false i j
  else if a && !b then swapMixed c i j
  else if !a && b then swapMixed c j i
  else pure ())

/-! ### Assignment -/

/-- A full expression with a temporary `expected` in slot `t`, destroyed at its end, also if the rest throws. -/
def withVar (t : Nat) (ctor body : M (α ⊕ β) Unit) : M (α ⊕ β) Unit := do
  ctor
  fun w => match body w with
    | .ok w _ => dtor t w
    | .exc w => match dtor t w with
      | .ok w _ => .exc w
      | .exc w => .exc w
      | .term => .term
      | .bad => .bad
    | .term => .term
    | .bad => .bad

/-- Copy assignment `expected(other).swap(*this)` (expected.hpp:1636-1640). -/
def assignCopy (c : Cls α β) (i j : Nat) : M (α ⊕ β) Unit := withVar 0 (ctorCopy c 0 j) (swap c 0 i)

/-- Move assignment (expected.hpp:1642-1651). -/
def assignMove (c : Cls α β) (i j : Nat) : M (α ⊕ β) Unit :=
  M.noexcept (c.nothrowT && c.nothrowE) (withVar 0 (ctorMove c 0 j) (swap c 0 i))

/-- Assignment of a value. `operator=(U&&)` (expected.hpp:1653-1665) requires `is_same<T, decay<U>>`, without `::type`, which never holds; the
value is converted to a temporary `expected` (slot 1) that is move assigned. -/
def assignValue (c : Cls α β) (m : Mode) (i : Nat) (v : α) : M (α ⊕ β) Unit := withVar 1 (ctorValue c m 1 v) (assignMove c i 1)

/-- Assignment of an `unexpected_type` (expected.hpp:1667-1689). -/
def assignError (c : Cls α β) (isMove : Bool) (i : Nat) (e : β) : M (α ⊕ β) Unit := withVar 0 (ctorError c isMove 0 e) (swap c 0 i)

/-- `emplace` (expected.hpp:1691-1711), for arguments from which `T` is constructed without throwing. -/
def emplace (c : Cls α β) (i : Nat) (v : α) : M (α ⊕ β) Unit := withVar 0 (ctorOf c true 0 (.inl v)) (swap c 0 i)

/-! ### Programs; their variables are in the slots from 2 on -/

inductive Cmd (α β : Type) where
  | dflt (i : Nat)
  | ofValue (m : Mode) (i : Nat) (v : α)
  | ofError (isMove : Bool) (i : Nat) (e : β)
  | copy (i j : Nat)
  | move (i j : Nat)
  | assignCopy (i j : Nat)
  | assignMove (i j : Nat)
  | assignValue (m : Mode) (i : Nat) (v : α)
  | assignError (isMove : Bool) (i : Nat) (e : β)
  | emplace (i : Nat) (v : α)
  | swap (i j : Nat)
  | destroy (i : Nat)

def step (c : Cls α β) : Cmd α β → M (α ⊕ β) Unit
  | .dflt i => ctorDefault c (i + 2)
  | .ofValue m i v => ctorValue c m (i + 2) v
  | .ofError m i e => ctorError c m (i + 2) e
  | .copy i j => ctorCopy c (i + 2) (j + 2)
  | .move i j => ctorMove c (i + 2) (j + 2)
  | .assignCopy i j => assignCopy c (i + 2) (j + 2)
  | .assignMove i j => assignMove c (i + 2) (j + 2)
  | .assignValue m i v => assignValue c m (i + 2) v
  | .assignError m i e => assignError c m (i + 2) e
  | .emplace i v => emplace c (i + 2) v
  | .swap i j => swap c (i + 2) (j + 2)
  | .destroy i => dtor (i + 2)

/-- A program that catches every exception; which commands threw. `Sum.inl true` : terminated, `Sum.inl false` : bad. -/
def run (c : Cls α β) : W (α ⊕ β) → List (Cmd α β) → Sum Bool (W (α ⊕ β) × List Bool)
  | w, [] => .inr (w, [])
  | w, k :: ks => match step c k w with
    | .bad => .inl false
    | .term => .inl true
    | .ok w' _ => match run c w' ks with
      | .inl b => .inl b
      | .inr (w'', ts) => .inr (w'', false :: ts)
    | .exc w' => match run c w' ks with
      | .inl b => .inl b
      | .inr (w'', ts) => .inr (w'', true :: ts)

def init : W (α ⊕ β) := Opt.init

/-! ### Observers -/

/-- `operator*` with its assertion (expected.hpp:1756-1776). -/
def deref (i : Nat) : M (α ⊕ β) (α ⊕ β) := do
  let b ← hasValue i
  if b then read true i else fun _ => .bad

/-- `value()` (expected.hpp:1790-1818): `inr e` is the exception `bad_expected_access<E>(e)` (1210-1251, 1312-1319). -/
def value (i : Nat) : M (α ⊕ β) (α ⊕ β) := do
  let b ← hasValue i
  if b then read true i else read false i

/-- `get_unexpected()` (expected.hpp:1846-1849): no assertion. -/
def getUnexpected (i : Nat) : M (α ⊕ β) (α ⊕ β) := read false i

/-- `has_exception<Ex>()` (expected.hpp:1851-1856); `base` is `is_base_of<Ex, E>`. -/
def hasException (base : Bool) (i : Nat) : M (α ⊕ β) Bool := do
  let b ← hasValue i
  pure (!b && base)

/-- `value_or(v) const&` (expected.hpp:1864-1869). -/
def valueOr (i : Nat) (d : α) : M (α ⊕ β) (α ⊕ β) := do
  let b ← hasValue i
  if b then read true i else pure (.inl d)

/-- `value_or(v) &&` (expected.hpp:1877-1882): the value is moved out. -/
def valueOrMove (c : Cls α β) (i : Nat) (d : α) : M (α ⊕ β) (α ⊕ β) := do
  let b ← hasValue i
  if b then
    let x ← read true i
    call c (c.nothrow x)
    write true i (c.moved x)
    pure x
  else pure (.inl d)

/-- `==` of values or errors, as the operators of `T` and `E` say. -/
structure Eqs (α β : Type) where
  eqT : α → α → Bool
  neT : α → α → Bool
  eqE : β → β → Bool

/-- `operator==` of two `expected` (expected.hpp:2164-2168). -/
def opEq (q : Eqs α β) (i j : Nat) : M (α ⊕ β) Bool := do
  let a ← hasValue i
  let b ← hasValue j
  if a != b then pure false
  else if a == false then
    let x ← error i
    let y ← error j
    match x, y with
    | .inr x, .inr y => pure (q.eqE x y)
    | _, _ => fun _ => .bad
  else
    let x ← deref i
    let y ← deref j
    match x, y with
    | .inl x, .inl y => pure (q.eqT x y)
    | _, _ => fun _ => .bad

/-- `operator!=` (expected.hpp:2170-2174). -/
def opNe (q : Eqs α β) (i j : Nat) : M (α ⊕ β) Bool := do
  let b ← opEq q i j
  pure (!b)

/-- `operator==(expected, T2)` (expected.hpp:2212-2216). -/
def opEqV (q : Eqs α β) (i : Nat) (v : α) : M (α ⊕ β) Bool := do
  let a ← hasValue i
  if a then
    let x ← deref i
    match x with
    | .inl x => pure (q.eqT x v)
    | _ => fun _ => .bad
  else pure false

/-- `operator==(T2, expected)` (expected.hpp:2218-2222). -/
def opEqV' (q : Eqs α β) (v : α) (i : Nat) : M (α ⊕ β) Bool := do
  let a ← hasValue i
  if a then
    let x ← deref i
    match x with
    | .inl x => pure (q.eqT v x)
    | _ => fun _ => .bad
  else pure false

/-- `operator!=(expected, T2)` (expected.hpp:2224-2228). -/
def opNeV (q : Eqs α β) (i : Nat) (v : α) : M (α ⊕ β) Bool := do
  let a ← hasValue i
  if a then
    let x ← deref i
    match x with
    | .inl x => pure (q.neT x v)
    | _ => fun _ => .bad
  else pure true

/-- `operator!=(T2, expected)` (expected.hpp:2230-2234). -/
def opNeV' (q : Eqs α β) (v : α) (i : Nat) : M (α ⊕ β) Bool := do
  let a ← hasValue i
  if a then
    let x ← deref i
    match x with
    | .inl x => pure (q.neT v x)
    | _ => fun _ => .bad
  else pure true

/-- `operator==(expected, unexpected_type)` (expected.hpp:2290-2294; of two `unexpected_type`: 1079-1083); with the arguments exchanged it is
the same (2296-2300). -/
def opEqU (q : Eqs α β) (i : Nat) (u : β) : M (α ⊕ β) Bool := do
  let a ← hasValue i
  if !a then
    let x ← getUnexpected i
    match x with
    | .inr x => pure (q.eqE x u)
    | _ => fun _ => .bad
  else pure false

/-- `operator!=` with an `unexpected_type`, on either side (expected.hpp:2302-2312). -/
def opNeU (q : Eqs α β) (i : Nat) (u : β) : M (α ⊕ β) Bool := do
  let b ← opEqU q i u
  pure (!b)

/-- `hash<expected<T, E>>` (expected.hpp:2461-2471). -/
def hash (h : α → Nat) (i : Nat) : M (α ⊕ β) Nat := do
  let a ← hasValue i
  if a then
    let x ← deref i
    match x with
    | .inl x => pure (h x)
    | _ => fun _ => .bad
  else pure 0

end Nanostl.Exp

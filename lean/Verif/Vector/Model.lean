import Verif.Basic

/-!
Model of `include/nanovector.h` and `include/nanoallocator.h`, over an explicit heap.

* A heap maps addresses of live blocks to their cells. A cell is `none` while it holds an indeterminate value.
* Addresses are never reused, so that every access through a stale pointer is seen as undefined behaviour.
* Whether an allocation succeeds is decided by an arbitrary oracle; requests of 2^63 elements or more always fail
  (no C++ object may be larger than PTRDIFF_MAX bytes).
* Copying an element is modelled as copying the cell. Copying an indeterminate cell gives an indeterminate cell
  (for scalar types strict C++ already calls this undefined; reading such an element through the API is `ub` here).
-/

namespace Nanostl.Vector

/-- `size_type` is `unsigned long long` (nanoallocator.h:38): arithmetic wraps at 2^64. -/
def word : Nat := 2 ^ 64

/-- The memory seen by vectors of one element type. -/
structure Heap (α : Type) where
  /-- live blocks -/
  mem : Nat → Option (List (Option α))
  /-- next fresh address; every live block is below it -/
  next : Nat
  /-- number of allocation requests so far -/
  calls : Nat
  /-- oracle: does the k-th request, for n elements, fail? -/
  fails : Nat → Nat → Bool
  /-- what `new T[n]` leaves in a fresh cell: `none` for scalar T, the default object for class types -/
  fresh : Option α

/-- The three data members (nanovector.h:196-198). `elements = none` is the null pointer. -/
structure Vec where
  elements : Option Nat
  capacity : Nat
  size : Nat
deriving DecidableEq

/-- State a method works on: the heap and `*this`. -/
abbrev St (α : Type) := Heap α × Vec

variable {α : Type}

def setMem (m : Nat → Option (List (Option α))) (p : Nat) (b : Option (List (Option α))) :
    Nat → Option (List (Option α)) := fun q => if q = p then b else m q

/-- Source of an element passed by const reference: a value outside the heap, or a cell of a heap block. -/
inductive Ref (α : Type) where
  | ext (a : α)
  | cell (p i : Nat)

/-- `allocator::allocate` (nanoallocator.h:61-76): n < 1 gives null, otherwise `new T[n]`. -/
def allocate (n : Nat) : Act (St α) (Option Nat) := fun (h, v) =>
  if n < 1 then .ok (h, v) none
  else if 2 ^ 63 ≤ n || h.fails h.calls n then .exc ({ h with calls := h.calls + 1 }, v)
  else .ok ({ h with mem := setMem h.mem h.next (some (List.replicate n h.fresh)),
                     next := h.next + 1, calls := h.calls + 1 }, v) (some h.next)

/-- `allocator::deallocate` (nanoallocator.h:78-81): `delete[] p`; deleting null is a no-op,
deleting anything but a live block is undefined. -/
def deallocate (p : Option Nat) : Act (St α) Unit := fun (h, v) =>
  match p with
  | none => .ok (h, v) ()
  | some q => match h.mem q with
    | none => .ub
    | some _ => .ok ({ h with mem := setMem h.mem q none }, v) ()

/-- `p[i]` as an rvalue. Null, freed or out-of-range access is undefined. -/
def load (p : Option Nat) (i : Nat) : Act (St α) (Option α) := fun (h, v) =>
  match p with
  | none => .ub
  | some q => match h.mem q with
    | none => .ub
    | some b => if i < b.length then .ok (h, v) (b.getD i none) else .ub

/-- `p[i] = c`. -/
def store (p : Option Nat) (i : Nat) (c : Option α) : Act (St α) Unit := fun (h, v) =>
  match p with
  | none => .ub
  | some q => match h.mem q with
    | none => .ub
    | some b => if i < b.length then .ok ({ h with mem := setMem h.mem q (some (b.set i c)) }, v) () else .ub

/-- Reading through a const reference. -/
def deref (r : Ref α) : Act (St α) (Option α) :=
  match r with
  | .ext a => pure (some a)
  | .cell p i => load (some p) i

def getThis : Act (St α) Vec := fun (h, v) => .ok (h, v) v
def setThis (v' : Vec) : Act (St α) Unit := fun (h, _) => .ok (h, v') ()

/-- `recommended_size` (nanovector.h:190-194): twice the capacity, modulo 2^64. -/
def recommendedSize (v : Vec) : Nat := (2 * v.capacity) % word

/-- The copy loop of `resize` (nanovector.h:103-105): `n` elements remain, starting at `i`. -/
def copyLoop (dst src : Option Nat) : Nat → Nat → Act (St α) Unit
  | 0, _ => pure ()
  | n + 1, i => do
    let c ← load src i
    store dst i c
    copyLoop dst src n (i + 1)

/-- `resize` (nanovector.h:84-115). -/
def resize (count : Nat) : Act (St α) Unit := do
  if count < 1 then pure ()
  else
    let v ← getThis
    if count > v.capacity then
      let n := if count > recommendedSize v then count else recommendedSize v
      let newElements ← allocate n
      copyLoop newElements v.elements v.size 0
      deallocate v.elements
      setThis { elements := newElements, capacity := n, size := v.size }
    let v ← getThis
    setThis { v with size := count }

/-- `push_back` (nanovector.h:117-120). The reference is read after `resize`. -/
def pushBack (r : Ref α) : Act (St α) Unit := do
  let v ← getThis
  resize ((v.size + 1) % word)
  let v ← getThis
  let c ← deref r
  store v.elements ((v.size + word - 1) % word) c

/-- `pop_back` (nanovector.h:145-150): the size wraps when the vector is empty. -/
def popBack : Act (St α) Unit := do
  let v ← getThis
  setThis { v with size := (v.size + word - 1) % word }

/-- `clear` (nanovector.h:128). -/
def clear : Act (St α) Unit := do
  let v ← getThis
  setThis { v with size := 0 }

/-- `operator[]`, `at` (nanovector.h:74-82, 132-134) read as a value. Reading an indeterminate element is undefined. -/
def read (i : Nat) : Act (St α) α := do
  let v ← getThis
  let c ← load v.elements i
  match c with
  | some a => pure a
  | none => Act.ub

/-- `v[i] = a` (nanovector.h:132). -/
def write (i : Nat) (a : α) : Act (St α) Unit := do
  let v ← getThis
  store v.elements i (some a)

/-- The loop of `erase` (nanovector.h:153-156); positions are offsets from `begin()`.
Every iteration that does not fault has `pos + 1` inside the block, so `capacity + 1` units of fuel never run out. -/
def eraseLoop : Nat → Nat → Act (St α) Nat
  | 0, _ => Act.ub
  | fuel + 1, pos => do
    let v ← getThis
    if pos + 1 ≠ v.size then
      let c ← load v.elements (pos + 1)
      store v.elements pos c
      eraseLoop fuel (pos + 1)
    else pure pos

/-- `erase` (nanovector.h:152-160); returns the offset of the returned iterator. -/
def erase (pos : Nat) : Act (St α) Nat := do
  let v ← getThis
  let pos ← eraseLoop (v.capacity + 1) pos
  let v ← getThis
  setThis { v with size := (v.size + word - 1) % word }
  pure pos

/-- The loop of `assign` (nanovector.h:165-167) for an input sequence outside the heap. -/
def assignLoop : List (Ref α) → Act (St α) Unit
  | [] => pure ()
  | r :: rs => do
    pushBack r
    assignLoop rs

/-- `assign(first,last)` (nanovector.h:162-168): `clear`, then `push_back(*first)` one by one. The range is given as
the list of references that dereferencing the iterators yields; nothing is read before its turn. -/
def assign (rs : List (Ref α)) : Act (St α) Unit := do
  clear
  assignLoop rs

/-- The iterator range `[p+lo, p+hi)` of a block. -/
def range (p lo hi : Nat) : List (Ref α) := (List.range' lo (hi - lo)).map (Ref.cell p)

/-- `[begin()+lo, begin()+hi)` of a vector (nanovector.h:141-143). For the null pointer only the empty range exists. -/
def subRange (v : Vec) (lo hi : Nat) : List (Ref α) :=
  match v.elements with
  | none => []
  | some p => range p lo hi

/-- `begin()..end()` of a vector (nanovector.h:141-143). -/
def wholeRange (v : Vec) : List (Ref α) := subRange v 0 v.size

/-- Default constructor (nanovector.h:60) and `__initialize` (177-181). -/
def init : Vec := { elements := none, capacity := 0, size := 0 }

/-- Copy constructor body (nanovector.h:62-65), `*this` being the raw storage of the new object. -/
def copyCtor (rhs : Vec) : Act (St α) Unit := do
  setThis init
  assign (wholeRange rhs)

/-- Destructor (nanovector.h:67-72). -/
def dtor : Act (St α) Unit := do
  let v ← getThis
  match v.elements with
  | none => pure ()
  | some _ => deallocate v.elements

/-! ### Several vectors -/

/-- Operations of a client program on vectors named by numbers. -/
inductive Cmd (α : Type) where
  | new (i : Nat)
  | copy (i j : Nat)
  | del (i : Nat)
  | push (i : Nat) (a : α)
  | pushElem (i j k : Nat)
  | pop (i : Nat)
  | write (i k : Nat) (a : α)
  | erase (i k : Nat)
  | resize (i n : Nat)
  | clear (i : Nat)
  | assignVals (i : Nat) (l : List α)
  | assignFrom (i j lo hi : Nat)
  | opAssign (i j : Nat)
  | swap (i j : Nat)

/-- Heap, live vectors, and (ghost) the blocks whose owner vanished because a copy constructor threw:
C++ does not run the destructor of an object whose constructor body throws. -/
structure World (α : Type) where
  heap : Heap α
  vec : Nat → Option Vec
  leaked : List Nat

def setVec (f : Nat → Option Vec) (i : Nat) (v : Option Vec) : Nat → Option Vec :=
  fun j => if j = i then v else f j

/-- Run a method on vector `i`. `none` is undefined behaviour (also using a name that is not alive); the flag tells
whether the call threw. -/
def onVec {β : Type} (w : World α) (i : Nat) (m : Vec → Act (St α) β) : Option (World α × Bool) :=
  match w.vec i with
  | none => none
  | some v => match m v (w.heap, v) with
    | .ok (h, v') _ => some ({ w with heap := h, vec := setVec w.vec i (some v') }, false)
    | .exc (h, v') => some ({ w with heap := h, vec := setVec w.vec i (some v') }, true)
    | .ub => none

/-- One client operation. -/
def step (w : World α) : Cmd α → Option (World α × Bool)
  | .new i => match w.vec i with
    | some _ => none
    | none => some ({ w with vec := setVec w.vec i (some init) }, false)
  | .copy i j => match w.vec i, w.vec j with
    | none, some r => match copyCtor r (w.heap, init) with
      | .ok (h, v') _ => some ({ w with heap := h, vec := setVec w.vec i (some v') }, false)
      | .exc (h, v') => some ({ w with heap := h, leaked := v'.elements.toList ++ w.leaked }, true)
      | .ub => none
    | _, _ => none
  | .del i => match w.vec i with
    | none => none
    | some v => match dtor (w.heap, v) with
      | .ok (h, _) _ => some ({ w with heap := h, vec := setVec w.vec i none }, false)
      | .exc _ => none
      | .ub => none
  | .push i a => onVec w i (fun _ => pushBack (.ext a))
  | .pushElem i j k => match w.vec j with
    | none => none
    | some r => match r.elements with
      | none => none
      | some p => onVec w i (fun _ => pushBack (.cell p k))
  | .pop i => onVec w i (fun _ => popBack)
  | .write i k a => onVec w i (fun _ => write k a)
  | .erase i k => onVec w i (fun _ => erase k)
  | .resize i n => onVec w i (fun _ => resize n)
  | .clear i => onVec w i (fun _ => clear)
  | .assignVals i l => onVec w i (fun _ => assign (l.map Ref.ext))
  | .assignFrom i j lo hi => match w.vec j with
    | none => none
    | some r => onVec w i (fun _ => assign (subRange r lo hi))
  | .opAssign i j => match w.vec j with
    | none => none
    | some r => onVec w i (fun _ => if i = j then pure () else assign (wholeRange r))
  | .swap i j => match w.vec i, w.vec j with
    | some a, some b => some ({ w with vec := setVec (setVec w.vec i (some b)) j (some a) }, false)
    | _, _ => none

/-- A whole client program. -/
def run : World α → List (Cmd α) → Option (World α × List Bool)
  | w, [] => some (w, [])
  | w, c :: cs => match step w c with
    | none => none
    | some (w', t) => match run w' cs with
      | none => none
      | some (w'', ts) => some (w'', t :: ts)

/-- The empty world with a given allocation oracle. -/
def World.start (fails : Nat → Nat → Bool) (fresh : Option α) : World α :=
  { heap := { mem := fun _ => none, next := 0, calls := 0, fails := fails, fresh := fresh },
    vec := fun _ => none, leaked := [] }

end Nanostl.Vector

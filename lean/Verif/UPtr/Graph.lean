/-!
Model of `unique_ptr`s inside the objects that `unique_ptr`s own, as in lists and trees (include/nanomemory.h:513-602): what one call of `reset` sets going. An object
is a list of members of type `unique_ptr<Object>`; what else it has plays no role here. The deleter is `default_delete` or one that, as it does, calls `delete`.
Any use of a `unique_ptr` in an object that is gone, and any second `delete`, is undefined behaviour: `none`.
-/

namespace Nanostl.UPtr.Graph

/-- Where a `unique_ptr` is: a variable, or the `i`-th member of an object. -/
inductive Loc where
  | var (v : Nat)
  | mem (o i : Nat)
  deriving DecidableEq, Repr

/-- An object: memory that is none (before `new`, or after `delete`), alive, or with its destructor running. -/
inductive Status where
  | gone | live | dying
  deriving DecidableEq, Repr

/-- `ptr`: `__ptr_.first()` of each `unique_ptr` (nanomemory.h:404). `arity`: the number of members of an object. Addresses from `next` on are not yet used. -/
structure State where
  ptr : Loc → Option Nat
  status : Nat → Status
  arity : Nat → Nat
  next : Nat

/-- There is a `unique_ptr` at the place. -/
def State.there (s : State) : Loc → Bool
  | .var _ => true
  | .mem o i => s.status o != .gone && decide (i < s.arity o)

def State.setPtr (s : State) (l : Loc) (p : Option Nat) : State := { s with ptr := fun k => if k = l then p else s.ptr k }

def State.setStatus (s : State) (o : Nat) (x : Status) : State := { s with status := fun k => if k = o then x else s.status k }

/-- `reset(p)` (nanomemory.h:591-597) with the deleter call `del`. Nothing is read or written after it. -/
def resetWith (del : State → Nat → Option State) (s : State) (l : Loc) (p : Option Nat) : Option State :=
  if s.there l then
    match s.ptr l with
    | none => some (s.setPtr l p)
    | some t => del (s.setPtr l p) t
  else none

/-- The destructors of the members `is` of `o`, each `~unique_ptr() { reset(); }` (nanomemory.h:549-550). -/
def destroyMembers (del : State → Nat → Option State) (o : Nat) : List Nat → State → Option State
  | [], s => some s
  | i :: is, s => (resetWith del s (.mem o i) none).bind (destroyMembers del o is)

/-- `delete p` (nanomemory.h:156-162): the destructor of the object, which destroys the members, the last first, then the memory is given back. At most `fuel` calls
of it within each other. -/
def delete : (fuel : Nat) → State → Nat → Option State
  | 0, _, _ => none
  | n + 1, s, o =>
    if s.status o = .live then
      (destroyMembers (delete n) o (List.range (s.arity o)).reverse (s.setStatus o .dying)).map (·.setStatus o .gone)
    else none

/-- `reset(p)` (nanomemory.h:591-597); `~unique_ptr()` and `= nullptr` are `reset()` (549-556). There are not more calls of `delete` within each other than objects. -/
def reset (s : State) (l : Loc) (p : Option Nat) : Option State := resetWith (delete (s.next + 1)) s l p

/-- `release()` (nanomemory.h:584-589). -/
def release (s : State) (l : Loc) : Option (Option Nat × State) :=
  if s.there l then some (s.ptr l, s.setPtr l none) else none

/-- `l = move(l')` (nanomemory.h:513-518). After `reset` the deleter of `l'` is assigned to that of `l`; for an empty class like `default_delete` nothing is read or
written by that. `data`: the deleter has data, so that both have still to be there. -/
def moveAssign (data : Bool) (s : State) (l l' : Loc) : Option State := do
  let (p, s) ← release s l'
  let s ← reset s l p
  if data && !(s.there l && s.there l') then none else some s

/-- `l.swap(l')` (nanomemory.h:599-602, 365-373): the pointers, then the deleters. -/
def swap (s : State) (l l' : Loc) : Option State :=
  if s.there l && s.there l' then some ((s.setPtr l (s.ptr l')).setPtr l' (s.ptr l)) else none

/-- `new Object` with `k` members, all null (nanomemory.h:449-452). -/
def alloc (s : State) (k : Nat) : State :=
  { ptr := fun l => match l with
      | .mem o _ => if o = s.next then none else s.ptr l
      | .var _ => s.ptr l
    status := fun o => if o = s.next then .live else s.status o
    arity := fun o => if o = s.next then k else s.arity o
    next := s.next + 1 }

/-- What a program can do. `make l k`: `l.reset(new Object)`. `drop l`: `l.reset()`, `l = nullptr`, or the end of a variable. -/
inductive Cmd where
  | make (l : Loc) (k : Nat)
  | drop (l : Loc)
  | move (l l' : Loc)
  | swap (l l' : Loc)
  deriving DecidableEq, Repr

def step (data : Bool) (s : State) : Cmd → Option State
  | .make l k => if s.there l then reset (alloc s k) l (some s.next) else none
  | .drop l => reset s l none
  | .move l l' => moveAssign data s l l'
  | .swap l l' => swap s l l'

/-- At the start all variables are null and there are no objects. -/
def init : State := ⟨fun _ => none, fun _ => .gone, fun _ => 0, 0⟩

end Nanostl.UPtr.Graph

/-!
Model of `unique_ptr` of `include/nanomemory.h` (the single object class, 393-603; the array class 605-837 has the same bodies). A program
numbers its `unique_ptr` variables; objects are numbered by address, 0 being the null pointer. Deleters are values of any type `D`; moving a
deleter copies it (true of `default_delete`, function pointers and plain structs). Calling a deleter on an object that is not alive is
undefined behaviour (`none`), as is any use of a variable that does not exist.
-/

namespace Nanostl.UPtr

variable {D : Type}

/-- `__compressed_pair<pointer, deleter_type> __ptr_` (nanomemory.h:294-382, 404). -/
structure UP (D : Type) where
  first : Nat
  second : D

structure St (D : Type) where
  vars : Nat → Option (UP D)
  /-- objects that exist -/
  alive : Nat → Bool
  /-- calls of deleters, latest last -/
  log : List (Nat × D)

def St.setVar (s : St D) (i : Nat) (u : Option (UP D)) : St D := { s with vars := fun j => if j = i then u else s.vars j }

/-- A deleter call `d(p)`: `delete p` (nanomemory.h:156-162, 183-189) or what a user's deleter does instead. -/
def callDel (s : St D) (d : D) (p : Nat) : Option (St D) :=
  if s.alive p then some { s with alive := fun q => if q = p then false else s.alive q, log := s.log ++ [(p, d)] } else none

/-- Constructors from a pointer and a deleter, from a pointer, from nothing (nanomemory.h:449-482; array 677-724). -/
def ctor (s : St D) (i p : Nat) (d : D) : Option (St D) := some (s.setVar i (some ⟨p, d⟩))

/-- `release` (nanomemory.h:584-589; 805-810). -/
def release (s : St D) (i : Nat) : Option (St D × Nat) :=
  match s.vars i with
  | none => none
  | some u =>
    let t := u.first
    some (s.setVar i (some { u with first := 0 }), t)

/-- `reset(p)` (nanomemory.h:591-597; 812-830). -/
def reset (s : St D) (i p : Nat) : Option (St D) :=
  match s.vars i with
  | none => none
  | some u =>
    let tmp := u.first
    let s := s.setVar i (some { u with first := p })
    if tmp ≠ 0 then callDel s u.second tmp else some s

/-- `get_deleter() = d`, the second member assigned. -/
def setDel (s : St D) (i : Nat) (d : D) : Option (St D) :=
  match s.vars i with
  | none => none
  | some u => some (s.setVar i (some { u with second := d }))

def getDel (s : St D) (i : Nat) : Option D := (s.vars i).map UP.second

/-- Move construction (nanomemory.h:489-500; 734-752). The members are initialised in order. -/
def moveCtor (s : St D) (i j : Nat) : Option (St D) :=
  match release s j with
  | none => none
  | some (s, p) => match getDel s j with
    | none => none
    | some d => some (s.setVar i (some ⟨p, d⟩))

/-- Move assignment (nanomemory.h:513-528; 738-743, 754-764): reset first, deleter afterwards. -/
def moveAssign (s : St D) (i j : Nat) : Option (St D) :=
  match release s j with
  | none => none
  | some (s, p) => match reset s i p with
    | none => none
    | some s => match getDel s j with
      | none => none
      | some d => setDel s i d

/-- `swap` (nanomemory.h:599-602, 365-373): the pointers, then the deleters, are swapped. -/
def swap (s : St D) (i j : Nat) : Option (St D) :=
  match s.vars i, s.vars j with
  | some u, some v =>
    /- swap(first(), x.first()) -/
    let s := (s.setVar i (some { u with first := v.first }))
    match s.vars j with
    | none => none
    | some v' =>
      let s := s.setVar j (some { v' with first := u.first })
      /- swap(second(), x.second()) -/
      match setDel s i v.second with
      | none => none
      | some s => setDel s j u.second
  | _, _ => none

/-- Destructor (nanomemory.h:549-550; 771-772). -/
def dtor (s : St D) (i : Nat) : Option (St D) :=
  match reset s i 0 with
  | none => none
  | some s => some (s.setVar i none)

/-! ### Programs -/

inductive Cmd (D : Type) where
  /-- `p = new T`, at address `o` -/
  | alloc (o : Nat)
  /-- `unique_ptr<T> i(o, d)`; `o = 0` for the null pointer -/
  | make (i o : Nat) (d : D)
  /-- `unique_ptr<T> i(move(j))` -/
  | moveCtor (i j : Nat)
  /-- `i = move(j)` -/
  | moveAssign (i j : Nat)
  /-- `i.reset(o)` -/
  | reset (i o : Nat)
  /-- `i = nullptr` (nanomemory.h:552-556) -/
  | assignNull (i : Nat)
  /-- `p = i.release()` -/
  | release (i : Nat)
  | swap (i j : Nat)
  /-- end of the lifetime of variable `i` -/
  | destroy (i : Nat)

/-- One command. -/
def step (s : St D) : Cmd D → Option (St D)
  | .alloc o => some { s with alive := fun q => if q = o then true else s.alive q }
  | .make i o d => ctor s i o d
  | .moveCtor i j => moveCtor s i j
  | .moveAssign i j => moveAssign s i j
  | .reset i o => reset s i o
  | .assignNull i => reset s i 0
  | .release i => (release s i).map Prod.fst
  | .swap i j => swap s i j
  | .destroy i => dtor s i

def run : St D → List (Cmd D) → Option (St D)
  | s, [] => some s
  | s, c :: cs => match step s c with
    | none => none
    | some s' => run s' cs

def init : St D := ⟨fun _ => none, fun _ => false, []⟩

end Nanostl.UPtr

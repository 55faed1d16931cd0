import Verif.Basic

/-!
Model of `include/nanovector.h` for elements that are objects of a class: which of them are built and destroyed when, and what is left when the class throws. The storage
comes from `new T[n]` and goes by `delete[]` (nanoallocator.h:61-81), so every place of it holds an object all the time; elements are put there by `operator=`.
One vector; what is put in lies outside of it (for elements of the vector itself see C06 and C10). Sizes do not wrap here (for that see C01).
-/

namespace Nanostl.Vector.Elem

variable {α : Type}

/-- What is not known of the class and of the memory. `dflt`: the value of `T()`. `badNew k`: the `k`-th allocation or call of `T()` throws. `badSet k`: the `k`-th call of
`operator=` throws; the element then has the value `wreck k old new`. -/
structure Env (α : Type) where
  dflt : α
  badNew : Nat → Bool
  badSet : Nat → Bool
  wreck : Nat → α → α → α

/-- Live blocks, the next fresh address, how often there was an allocation or `T()` and an `operator=`, how many objects were built and destroyed, and the members of the vector
(nanovector.h:196-198). -/
structure St (α : Type) where
  mem : Nat → Option (List α)
  next : Nat
  news : Nat
  sets : Nat
  made : Nat
  gone : Nat
  elements : Option Nat
  capacity : Nat
  size : Nat

def St.setMem (s : St α) (p : Nat) (b : Option (List α)) : St α := { s with mem := fun q => if q = p then b else s.mem q }

/-- The constructors of `new T[n]`, of which `done` have been run. If one throws, those built are destroyed again. -/
def build (E : Env α) : (n done : Nat) → Act (St α) Unit
  | 0, _ => pure ()
  | n + 1, done => fun s =>
    if E.badNew s.news then .exc { s with news := s.news + 1, gone := s.gone + done }
    else build E n (done + 1) { s with news := s.news + 1, made := s.made + 1 }

/-- The allocation of memory by `new T[n]`. -/
def reserve (E : Env α) : Act (St α) Unit := fun s =>
  if E.badNew s.news then .exc { s with news := s.news + 1 } else .ok { s with news := s.news + 1 } ()

/-- The block of the objects built. -/
def place (b : List α) : Act (St α) (Option Nat) := fun s => .ok { s.setMem s.next (some b) with next := s.next + 1 } (some s.next)

/-- `allocate` (nanoallocator.h:61-76). -/
def allocate (E : Env α) (n : Nat) : Act (St α) (Option Nat) :=
  if n < 1 then pure none
  else do
    reserve E
    build E n 0
    place (List.replicate n E.dflt)

/-- `deallocate` (nanoallocator.h:78-81). -/
def deallocate (p : Option Nat) : Act (St α) Unit := fun s =>
  match p with
  | none => .ok s ()
  | some q => match s.mem q with
    | none => .ub
    | some b => .ok { s.setMem q none with gone := s.gone + b.length } ()

/-- `p[i]`, read. -/
def get (p : Option Nat) (i : Nat) : Act (St α) α := fun s =>
  match p.bind s.mem with
  | none => .ub
  | some b => match b[i]? with
    | none => .ub
    | some a => .ok s a

/-- `p[i] = a`. -/
def set (E : Env α) (p : Option Nat) (i : Nat) (a : α) : Act (St α) Unit := fun s =>
  match p with
  | none => .ub
  | some q => match s.mem q with
    | none => .ub
    | some b => match b[i]? with
      | none => .ub
      | some old =>
        if E.badSet s.sets then .exc { s.setMem q (some (b.set i (E.wreck s.sets old a))) with sets := s.sets + 1 }
        else .ok { s.setMem q (some (b.set i a)) with sets := s.sets + 1 } ()

/-- The loop of `resize` (nanovector.h:103-105). -/
def copyLoop (E : Env α) (dst src : Option Nat) : (n i : Nat) → Act (St α) Unit
  | 0, _ => pure ()
  | n + 1, i => do
    let a ← get src i
    set E dst i a
    copyLoop E dst src n (i + 1)

/-- The three members. -/
def setThis (p : Option Nat) (capacity size : Nat) : Act (St α) Unit := fun s => .ok { s with elements := p, capacity := capacity, size := size } ()

/-- `resize` with a new block of `n` places (nanovector.h:97-114). -/
def grow (E : Env α) (n count : Nat) (s : St α) : Act (St α) Unit := do
  let new ← allocate E n
  copyLoop E new s.elements s.size 0
  deallocate s.elements
  setThis new n count

/-- `resize` (nanovector.h:84-115, 190-194). -/
def resize (E : Env α) (count : Nat) : Act (St α) Unit := fun s =>
  if count < 1 then .ok s ()
  else if count > s.capacity then grow E (if count > 2 * s.capacity then count else 2 * s.capacity) count s s
  else .ok { s with size := count } ()

/-- `resize(size() + 1)`. -/
def oneMore (E : Env α) : Act (St α) Unit := fun s => resize E (s.size + 1) s

/-- `elements_[size_ - 1] = val`. -/
def setLast (E : Env α) (a : α) : Act (St α) Unit := fun s => set E s.elements (s.size - 1) a s

/-- `push_back` (nanovector.h:117-120). -/
def pushBack (E : Env α) (a : α) : Act (St α) Unit := do
  oneMore E
  setLast E a

/-- `pop_back` (nanovector.h:145-150), not on an empty vector. -/
def popBack : Act (St α) Unit := fun s => if s.size = 0 then .ub else .ok { s with size := s.size - 1 } ()

/-- `clear` (nanovector.h:128). -/
def clear : Act (St α) Unit := fun s => .ok { s with size := 0 } ()

/-- `v[i] = a` (nanovector.h:132). -/
def write (E : Env α) (i : Nat) (a : α) : Act (St α) Unit := fun s => set E s.elements i a s

/-- One round of the loop of `erase` (nanovector.h:154). -/
def shift (E : Env α) (p : Option Nat) (pos : Nat) : Act (St α) Unit := do
  let a ← get p (pos + 1)
  set E p pos a

/-- The loop of `erase` (nanovector.h:153-156). It runs less often than there are places. -/
def eraseLoop (E : Env α) : (fuel pos : Nat) → Act (St α) Unit
  | 0, _ => Act.ub
  | fuel + 1, pos => fun s =>
    if pos + 1 = s.size then .ok s ()
    else match shift E s.elements pos s with
      | .ok s _ => eraseLoop E fuel (pos + 1) s
      | .exc s => .exc s
      | .ub => .ub

/-- `erase` (nanovector.h:152-160). -/
def erase (E : Env α) (pos : Nat) : Act (St α) Unit := fun s =>
  match eraseLoop E (s.capacity + 1) pos s with
  | .ok s _ => .ok { s with size := s.size - 1 } ()
  | .exc s => .exc s
  | .ub => .ub

/-- The loop of `assign` (nanovector.h:165-167) over values that lie elsewhere. -/
def assignLoop (E : Env α) : List α → Act (St α) Unit
  | [] => pure ()
  | a :: l => do
    pushBack E a
    assignLoop E l

/-- `assign` (nanovector.h:162-168), also `operator=` from another vector (201-208). -/
def assign (E : Env α) (l : List α) : Act (St α) Unit := do
  clear
  assignLoop E l

/-- Copy constructor (nanovector.h:62-65, 171-175): the vector made, of values that lie elsewhere. When it throws, no destructor of the vector is run: what is left is only
the memory. -/
def copyCtor (E : Env α) (l : List α) : Act (St α) Unit := do
  setThis none 0 0
  assign E l

/-- Destructor (nanovector.h:67-72). -/
def dtor : Act (St α) Unit := fun s =>
  match s.elements with
  | none => .ok s ()
  | some _ => deallocate s.elements s

inductive Cmd (α : Type) where
  | push (a : α)
  | pop
  | erase (i : Nat)
  | resize (n : Nat)
  | clear
  | write (i : Nat) (a : α)
  | assign (l : List α)

def exec (E : Env α) : Cmd α → Act (St α) Unit
  | .push a => pushBack E a
  | .pop => popBack
  | .erase i => erase E i
  | .resize n => resize E n
  | .clear => clear
  | .write i a => write E i a
  | .assign l => assign E l

/-- An empty vector (nanovector.h:60) and no memory. -/
def init : St α := ⟨fun _ => none, 0, 0, 0, 0, 0, none, 0, 0⟩

end Nanostl.Vector.Elem

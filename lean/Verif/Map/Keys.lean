import Verif.Map.Model

/-!
Model of `include/nanomap.h` for keys and values that are objects of a class: their comparisons need not be an order, and every copy, comparison and assignment of them may throw.
One map. Nodes, pointers, `finish` and `deleteP` are those of `Map/Model`; an event that may throw is a `tick` of the counter `calls`, as is `new`.
-/

namespace Nanostl.Map.Keys

variable {K V : Type}

/-- What the classes do: `a == b`, `a > b`, `a < b` of keys, `T()`, and the value an assignment of `b` to `a` leaves when it throws. -/
structure Cls (K V : Type) where
  eq : K → K → Bool
  gt : K → K → Bool
  lt : K → K → Bool
  dflt : V
  wreck : V → V → V

/-- Something that may throw. -/
def tick : Act (Mem K V) Unit := fun s =>
  if s.fails s.calls then .exc { s with calls := s.calls + 1 } else .ok { s with calls := s.calls + 1 } ()

/-- What `__insert` does after the recursive call (nanomap.h:203-206). -/
def link (a : Nat) (b : Bool) (p : Option Nat × Nat × Bool) : Act (Mem K V) (Option Nat × Nat × Bool) := do
  modify (some a) (·.setCh b p.1)
  let n ← deref (some a)
  let m ← deref (n.ch b)
  if n.pri > m.pri then
    let t ← rotate (some a) (!b)
    pure (t, p.2)
  else pure (some a, p.2)

/-- `__insert` (nanomap.h:193-207). The copies that `new Node(x)` makes of `x` come before `priority_rand()` (nanomap.h:73); `key`, `t->key()` and the comparisons follow one another. -/
def insertK (C : Cls K V) : Nat → Option Nat → K → V → Act (Mem K V) (Option Nat × Nat × Bool)
  | 0, _, _, _ => Act.ub
  | _ + 1, none, k, v => do
    tick
    let a ← newNode k v
    pure (some a, a, true)
  | f + 1, some a, k, v => do
    tick
    let n ← deref (some a)
    tick
    if C.eq k n.key then pure (some a, a, false)
    else
      tick
      let p ← insertK C f (n.ch (C.gt k n.key)) k v
      link a (C.gt k n.key) p

/-- `__find` (nanomap.h:210-212). -/
def findK (C : Cls K V) : Nat → Option Nat → K → Act (Mem K V) (Option Nat)
  | 0, _, _ => Act.ub
  | _ + 1, none, _ => pure none
  | f + 1, some a, k => do
    let n ← deref (some a)
    tick
    if C.eq k n.key then pure (some a)
    else
      tick
      findK C f (n.ch (C.gt k n.key)) k

/-- `__upper_bound` (nanomap.h:215-222). -/
def upperK (C : Cls K V) : Nat → Option Nat → K → Act (Mem K V) (Option Nat)
  | 0, _, _ => Act.ub
  | _ + 1, none, _ => pure none
  | f + 1, some a, k => do
    let n ← deref (some a)
    tick
    if C.lt k n.key then
      let s ← upperK C f n.ch0 k
      pure (match s with
        | some s => some s
        | none => some a)
    else upperK C f n.ch1 k

/-- The map: the memory and the member `root` (nanomap.h:179). -/
structure St (K V : Type) where
  m : Mem K V
  root : Option Nat

/-- A member function that leaves `root` alone. -/
def keep {β : Type} (f : Option Nat → Act (Mem K V) β) : Act (St K V) β := fun s =>
  match f s.root s.m with
  | .ok m b => .ok { s with m } b
  | .exc m => .exc { s with m }
  | .ub => .ub

/-- `insert` (nanomap.h:150-154). -/
def insert (C : Cls K V) (k : K) (v : V) : Act (St K V) (Nat × Bool) := fun s =>
  match insertK C (fuel s.m) s.root k v s.m with
  | .ok m p => .ok ⟨m, p.1⟩ p.2
  | .exc m => .exc { s with m }
  | .ub => .ub

/-- `find` (nanomap.h:159-162). -/
def find (C : Cls K V) (k : K) : Act (St K V) (Option Nat) := keep fun r m => findK C (fuel m) r k m

/-- `upper_bound` (nanomap.h:165-168). -/
def upper (C : Cls K V) (k : K) : Act (St K V) (Option Nat) := keep fun r m => upperK C (fuel m) r k m

/-- `operator[]` (nanomap.h:141-143): `T()` and the pair are made first. -/
def index (C : Cls K V) (k : K) : Act (St K V) Nat := do
  keep fun _ => tick
  let p ← insert C k C.dflt
  pure p.1

/-- `x = v` for the value in a node. -/
def assignTo (C : Cls K V) (a : Nat) (v : V) : Act (St K V) Unit := keep fun _ m =>
  match m.mem a with
  | none => .ub
  | some n =>
    if m.fails m.calls then .exc { m with calls := m.calls + 1, mem := setMem m.mem a (some { n with val := C.wreck n.val v }) }
    else .ok { m with calls := m.calls + 1, mem := setMem m.mem a (some { n with val := v }) } ()

/-- What a node's value is. -/
def valueOf (a : Nat) : Act (St K V) V := keep fun _ m =>
  match m.mem a with
  | none => .ub
  | some n => .ok m n.val

inductive Cmd (K V : Type) where
  /-- `m.insert(make_pair(k, v))` -/
  | insert (k : K) (v : V)
  /-- `m[k] = v` -/
  | set (k : K) (v : V)
  /-- reading `m[k]` -/
  | get (k : K)
  /-- `m.find(k)`, and reading what it designates -/
  | find (k : K)

/-- What the client sees. -/
inductive Res (V : Type) where
  | done
  | inserted (b : Bool)
  | value (v : V)
  | absent
  deriving DecidableEq

def exec (C : Cls K V) : Cmd K V → Act (St K V) (Res V)
  | .insert k v => do
    let p ← insert C k v
    pure (.inserted p.2)
  | .set k v => do
    let a ← index C k
    assignTo C a v
    pure .done
  | .get k => do
    let a ← index C k
    let v ← valueOf a
    pure (.value v)
  | .find k => do
    match ← find C k with
    | none => pure .absent
    | some a =>
      let v ← valueOf a
      pure (.value v)

/-- `~map` (nanomap.h:124). -/
def dtor : Act (St K V) Unit := keep fun r m => deleteP (fuel m) r m

/-- An empty map (nanomap.h:121) and no nodes. -/
def init (fails : Nat → Bool) (rand : Nat → Nat) : St K V := ⟨{ mem := fun _ => none, next := 0, calls := 0, drawn := 0, fails, rand }, none⟩

end Nanostl.Map.Keys

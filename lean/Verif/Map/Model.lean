import Mathlib.Order.Defs.LinearOrder
import Verif.Basic

/-!
Model of `include/nanomap.h`: a treap of heap-allocated nodes. Pointers are addresses (`none` is null), dereferencing a null or dead
pointer is undefined. Recursion is modelled with fuel, running out of it is undefined (endless recursion); `fuel` below is
shown to be always enough. Keys are totally ordered and `==`, `<`, `>` on them agree; key and value copies do not throw.
-/

namespace Nanostl.Map



/-- `map::Node` (nanomap.h:69-76). -/
structure Node (K : Type) (V : Type) where
  key : K
  val : V
  pri : Nat
  ch0 : Option Nat
  ch1 : Option Nat

variable {K V : Type}

/-- `t->ch[b]`. -/
def Node.ch (n : Node K V) (b : Bool) : Option Nat := if b then n.ch1 else n.ch0

/-- `t->ch[b] = c`. -/
def Node.setCh (n : Node K V) (b : Bool) (c : Option Nat) : Node K V := if b then { n with ch1 := c } else { n with ch0 := c }

/-- Memory for nodes, the allocator (call `i` of `new` throws if `fails i`; addresses are not reused) and the stream of values
returned by `priority_rand`, of which `drawn` have been used. -/
structure Mem (K : Type) (V : Type) where
  mem : Nat → Option (Node K V)
  next : Nat
  calls : Nat
  drawn : Nat
  fails : Nat → Bool
  rand : Nat → Nat

def setMem (m : Nat → Option (Node K V)) (a : Nat) (x : Option (Node K V)) : Nat → Option (Node K V) :=
  fun q => if q = a then x else m q

/-- `*p`. -/
def deref (p : Option Nat) : Act (Mem K V) (Node K V) := fun s =>
  match p with
  | none => .ub
  | some a => match s.mem a with
    | none => .ub
    | some n => .ok s n

/-- Writing to a field of `*p`. -/
def modify (p : Option Nat) (f : Node K V → Node K V) : Act (Mem K V) Unit := fun s =>
  match p with
  | none => .ub
  | some a => match s.mem a with
    | none => .ub
    | some n => .ok { s with mem := setMem s.mem a (some (f n)) } ()

/-- `new Node(x)` (nanomap.h:73, 195): the allocation may throw, then `priority_rand()` is called. -/
def newNode (k : K) (v : V) : Act (Mem K V) Nat := fun s =>
  if s.fails s.calls then .exc { s with calls := s.calls + 1 }
  else .ok { s with mem := setMem s.mem s.next (some ⟨k, v, s.rand s.drawn, none, none⟩), next := s.next + 1,
                    calls := s.calls + 1, drawn := s.drawn + 1 } s.next

/-- `delete t`. -/
def freeNode (p : Option Nat) : Act (Mem K V) Unit := fun s =>
  match p with
  | none => .ok s ()
  | some a => match s.mem a with
    | none => .ub
    | some _ => .ok { s with mem := setMem s.mem a none } ()

/-- `__rotate` (nanomap.h:183-188). -/
def rotate (t : Option Nat) (b : Bool) : Act (Mem K V) (Option Nat) := do
  let n ← deref t
  let s := n.ch (!b)
  let m ← deref s
  modify t (·.setCh (!b) (m.ch b))
  modify s (·.setCh b t)
  pure s

variable [LinearOrder K]

/-- `__insert` (nanomap.h:193-207): the new subtree root, the iterator's node, whether inserted. -/
def insertP : Nat → Option Nat → K → V → Act (Mem K V) (Option Nat × Nat × Bool)
  | 0, _, _, _ => Act.ub
  | _ + 1, none, k, v => do
    let a ← newNode k v
    pure (some a, a, true)
  | f + 1, some a, k, v => do
    let n ← deref (some a)
    if k = n.key then pure (some a, a, false)
    else
      let b := decide (k > n.key)
      let p ← insertP f (n.ch b) k v
      modify (some a) (·.setCh b p.1)
      let n ← deref (some a)
      let m ← deref (n.ch b)
      if n.pri > m.pri then
        let t ← rotate (some a) (!b)
        pure (t, p.2)
      else pure (some a, p.2)

/-- `__find` (nanomap.h:210-212). -/
def findP : Nat → Option Nat → K → Act (Mem K V) (Option Nat)
  | 0, _, _ => Act.ub
  | _ + 1, none, _ => pure none
  | f + 1, some a, k => do
    let n ← deref (some a)
    if k = n.key then pure (some a) else findP f (n.ch (decide (k > n.key))) k

/-- `__upper_bound` (nanomap.h:215-222). -/
def upperP : Nat → Option Nat → K → Act (Mem K V) (Option Nat)
  | 0, _, _ => Act.ub
  | _ + 1, none, _ => pure none
  | f + 1, some a, k => do
    let n ← deref (some a)
    if k < n.key then
      let s ← upperP f n.ch0 k
      pure (match s with
        | some s => some s
        | none => some a)
    else upperP f n.ch1 k

/-- `__delete` (nanomap.h:225-230); the members of `*t` are read before it is deleted. -/
def deleteP : Nat → Option Nat → Act (Mem K V) Unit
  | 0, _ => Act.ub
  | _ + 1, none => pure ()
  | f + 1, some a => do
    let n ← deref (some a)
    deleteP f n.ch0
    let n ← deref (some a)
    deleteP f n.ch1
    freeNode (some a)

/-- Enough fuel for every terminating recursion: more than the number of nodes ever allocated. -/
def fuel (s : Mem K V) : Nat := s.next + 1

/-- `iterator::operator++` (nanomap.h:87-91) for the map with this root. -/
def incr (root : Option Nat) (p : Option Nat) : Act (Mem K V) (Option Nat) := do
  let n ← deref p
  fun s => upperP (fuel s) root n.key s

/-- `iterator::operator==` (nanomap.h:100-103), with `pair ==` (nanoutility.h:42-44). -/
def iterEq [DecidableEq V] (p rhs : Option Nat) : Act (Mem K V) Bool := do
  if rhs = none ∧ p = none then pure true
  else
    let r ← deref rhs
    let n ← deref p
    pure (decide (r.key = n.key ∧ r.val = n.val))

/-- `begin` (nanomap.h:129). -/
def begin (root : Option Nat) : Option Nat := root

/-! ### Client programs over several maps -/

/-- Maps by number: the member `root` (nanomap.h:179). -/
structure World (K : Type) (V : Type) where
  m : Mem K V
  root : Nat → Option (Option Nat)

def setRoot (r : Nat → Option (Option Nat)) (i : Nat) (x : Option (Option Nat)) : Nat → Option (Option Nat) :=
  fun j => if j = i then x else r j

def World.start (fails : Nat → Bool) (rand : Nat → Nat) : World K V :=
  ⟨{ mem := fun _ => none, next := 0, calls := 0, drawn := 0, fails, rand }, fun _ => none⟩

inductive Cmd (K : Type) (V : Type) where
  /-- `map m;` -/
  | new (i : Nat)
  /-- `m.insert(make_pair(k, v))` -/
  | insert (i : Nat) (k : K) (v : V)
  /-- `m[k] = v` -/
  | set (i : Nat) (k : K) (v : V)
  /-- reading `m[k]` -/
  | get (i : Nat) (k : K)
  /-- `map m(m2)`, the implicit copy constructor -/
  | copy (i j : Nat)
  /-- end of life of a map -/
  | del (i : Nat)

/-- What the client sees of an operation. -/
inductive Res (V : Type) where
  | done
  | threw
  | inserted (b : Bool)
  | value (v : V)
  deriving DecidableEq

/-- `insert` (nanomap.h:150-154): iterator and flag. -/
def insert (w : World K V) (i : Nat) (r : Option Nat) (k : K) (v : V) : Out (World K V) (Nat × Bool) :=
  match insertP (fuel w.m) r k v w.m with
  | .ub => .ub
  | .exc m => .exc { w with m }
  | .ok m p => .ok { m, root := setRoot w.root i (some p.1) } p.2

/-- One operation; `none` is undefined behaviour. `operator[]` is nanomap.h:141-143; `dflt` is the value of `T()`. -/
def step (dflt : V) (w : World K V) : Cmd K V → Option (World K V × Res V)
  | .new i => match w.root i with
    | some _ => none
    | none => some ({ w with root := setRoot w.root i (some none) }, .done)
  | .insert i k v => match w.root i with
    | none => none
    | some r => match insert w i r k v with
      | .ub => none
      | .exc w => some (w, .threw)
      | .ok w p => some (w, .inserted p.2)
  | .set i k v => match w.root i with
    | none => none
    | some r => match insert w i r k dflt with
      | .ub => none
      | .exc w => some (w, .threw)
      | .ok w p => match modify (some p.1) (fun n => { n with val := v }) w.m with
        | .ok m _ => some ({ w with m }, .done)
        | _ => none
  | .get i k => match w.root i with
    | none => none
    | some r => match insert w i r k dflt with
      | .ub => none
      | .exc w => some (w, .threw)
      | .ok w p => match deref (some p.1) w.m with
        | .ok _ n => some (w, .value n.val)
        | _ => none
  | .copy i j => match w.root i, w.root j with
    | none, some r => some ({ w with root := setRoot w.root i (some r) }, .done)
    | _, _ => none
  | .del i => match w.root i with
    | none => none
    | some r => match deleteP (fuel w.m) r w.m with
      | .ok m _ => some ({ m, root := setRoot w.root i none }, .done)
      | _ => none

def run (dflt : V) (w : World K V) : List (Cmd K V) → Option (World K V × List (Res V))
  | [] => some (w, [])
  | c :: cs => match step dflt w c with
    | none => none
    | some (w, r) => match run dflt w cs with
      | none => none
      | some (w, rs) => some (w, r :: rs)

end Nanostl.Map

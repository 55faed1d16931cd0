import Verif.Basic

/-!
Model of `include/nanovector.h` for vectors of vectors, to any depth: `vector<T>`, `vector<vector<T>>` and so on, over scalars `T` that are always initialized (the storage of `new T[n]`
has the value `dflt`); or `basic_string<T>` (`include/nanostring.h`), `vector<basic_string<T>>` and so on, if `str` is set: then `dflt` is the terminating zero. Every vector lies in a place of some block: a variable in the block of the variables, an element in the storage of the vector it is an element of. References are
places; a reference to an element whose storage has been freed is a place that does not exist. Allocations may fail. Sizes do not wrap here (for that see C01).
-/

namespace Nanostl.Vector.Nest

variable {T : Type}

/-- What lies in a place: a scalar, or the three members of a vector (nanovector.h:196-198). -/
inductive Cell (T : Type) where
  | val (a : T)
  | vec (elements : Option Nat) (capacity size : Nat)

/-- Live blocks, the next fresh address, how many allocations there were and which fail. -/
structure Mem (T : Type) where
  blocks : Nat → Option (List (Cell T))
  next : Nat
  news : Nat
  fails : Nat → Bool

/-- A block and an index in it. -/
abbrev Loc := Nat × Nat

def Mem.setBlock (s : Mem T) (p : Nat) (b : Option (List (Cell T))) : Mem T := { s with blocks := fun q => if q = p then b else s.blocks q }

/-- What is in a place, if there is such a place. -/
def cellAt (m : Nat → Option (List (Cell T))) (l : Loc) : Option (Cell T) := (m l.1).bind (·[l.2]?)

def read (l : Loc) : Act (Mem T) (Cell T) := fun s =>
  match cellAt s.blocks l with
  | none => .ub
  | some c => .ok s c

def write (l : Loc) (c : Cell T) : Act (Mem T) Unit := fun s =>
  match s.blocks l.1 with
  | none => .ub
  | some b => if l.2 < b.length then .ok (s.setBlock l.1 (some (b.set l.2 c))) () else .ub

/-- What a vector uses of its element type: `T()`, which is the members' first values and a body, `operator=` and the destructor. -/
structure Ops (T : Type) where
  zero : Cell T
  init : Loc → Act (Mem T) Unit
  assign : Loc → Loc → Act (Mem T) Unit
  del : Loc → Act (Mem T) Unit

/-- Scalars. -/
def scalar (dflt : T) : Ops T where
  zero := .val dflt
  init := fun _ => pure ()
  assign := fun dst src => do
    let c ← read src
    write dst c
  del := fun _ => pure ()

/-- The members of the vector in a place. -/
def members (l : Loc) : Act (Mem T) (Option Nat × Nat × Nat) := do
  match ← read l with
  | .vec p cap size => pure (p, cap, size)
  | .val _ => Act.ub

/-- `p[i]`, a reference. -/
def elem (p : Option Nat) (i : Nat) : Act (Mem T) Loc :=
  match p with
  | none => Act.ub
  | some q => pure (q, i)

/-- The destructors `delete[]` runs, from the last place to the first. -/
def delAll (E : Ops T) (p : Nat) : Nat → Act (Mem T) Unit
  | 0 => pure ()
  | n + 1 => do
    E.del (p, n)
    delAll E p n

/-- The number of objects of a block made by `new T[n]`. -/
def count (p : Nat) : Act (Mem T) Nat := fun s =>
  match s.blocks p with
  | none => .ub
  | some b => .ok s b.length

def free (p : Nat) : Act (Mem T) Unit := fun s =>
  match s.blocks p with
  | none => .ub
  | some _ => .ok (s.setBlock p none) ()

/-- If `A` throws, `U` is done and it goes on throwing. -/
def onExc (A U : Act (Mem T) Unit) : Act (Mem T) Unit := fun s =>
  match A s with
  | .exc s' => match U s' with
    | .ok s'' _ => .exc s''
    | x => x
  | x => x

/-- The constructors `new T[n]` runs, from place `i` on. If one throws, its members and the objects before it are destroyed, and the block is freed. -/
def initAll (E : Ops T) (p : Nat) : (n i : Nat) → Act (Mem T) Unit
  | 0, _ => pure ()
  | n + 1, i => do
    onExc (E.init (p, i)) (do delAll E p (i + 1); free p)
    initAll E p n (i + 1)

/-- `allocate` (nanoallocator.h:61-76): `new T[n]`. -/
def allocate (E : Ops T) (n : Nat) : Act (Mem T) (Option Nat) := fun s =>
  if n < 1 then .ok s none
  else if s.fails s.news then .exc { s with news := s.news + 1 }
  else (do initAll E s.next n 0; pure (some s.next)) { s.setBlock s.next (some (List.replicate n E.zero)) with next := s.next + 1, news := s.news + 1 }

/-- `deallocate` (nanoallocator.h:78-81): `delete[]`. -/
def deallocate (E : Ops T) (p : Option Nat) : Act (Mem T) Unit :=
  match p with
  | none => pure ()
  | some q => do
    let n ← count q
    delAll E q n
    free q

/-- The loop of `resize` (nanovector.h:103-105). -/
def copyLoop (E : Ops T) (dst src : Option Nat) : (n i : Nat) → Act (Mem T) Unit
  | 0, _ => pure ()
  | n + 1, i => do
    let d ← elem dst i
    let r ← elem src i
    E.assign d r
    copyLoop E dst src n (i + 1)

/-- `resize` with a new block of `n` places (nanovector.h:97-114). -/
def grow (E : Ops T) (l : Loc) (n size : Nat) (v : Option Nat × Nat × Nat) : Act (Mem T) Unit := do
  let new ← allocate E n
  copyLoop E new v.1 v.2.2 0
  deallocate E v.1
  write l (.vec new n size)

/-- `resize` (nanovector.h:84-115, 190-194). -/
def resize (E : Ops T) (l : Loc) (n : Nat) : Act (Mem T) Unit := do
  let v ← members l
  if n < 1 then pure ()
  else if n > v.2.1 then grow E l (if n > 2 * v.2.1 then n else 2 * v.2.1) n v
  else write l (.vec v.1 v.2.1 n)

/-- `push_back` (nanovector.h:117-120) of a reference. -/
def pushBack (E : Ops T) (l src : Loc) : Act (Mem T) Unit := do
  let v ← members l
  resize E l (v.2.2 + 1)
  let v ← members l
  let d ← elem v.1 (v.2.2 - 1)
  E.assign d src

/-- `pop_back` (nanovector.h:145-150), not on an empty vector. -/
def popBack (l : Loc) : Act (Mem T) Unit := do
  let v ← members l
  if v.2.2 = 0 then Act.ub else write l (.vec v.1 v.2.1 (v.2.2 - 1))

/-- `clear` (nanovector.h:128). -/
def clear (l : Loc) : Act (Mem T) Unit := do
  let v ← members l
  write l (.vec v.1 v.2.1 0)

/-- The loop of `erase` (nanovector.h:153-156), which runs `n` times. -/
def shiftLoop (E : Ops T) (p : Option Nat) : (n i : Nat) → Act (Mem T) Unit
  | 0, _ => pure ()
  | n + 1, i => do
    let d ← elem p i
    let r ← elem p (i + 1)
    E.assign d r
    shiftLoop E p n (i + 1)

/-- `erase` (nanovector.h:152-160); behind the end the loop would not stop. -/
def erase (E : Ops T) (l : Loc) (i : Nat) : Act (Mem T) Unit := do
  let v ← members l
  if i < v.2.2 then
    shiftLoop E v.1 (v.2.2 - 1 - i) i
    write l (.vec v.1 v.2.1 (v.2.2 - 1))
  else Act.ub

/-- The loop of `assign` (nanovector.h:165-167) over the elements of another vector. -/
def assignLoop (E : Ops T) (l : Loc) (src : Option Nat) : (n i : Nat) → Act (Mem T) Unit
  | 0, _ => pure ()
  | n + 1, i => do
    let r ← elem src i
    pushBack E l r
    assignLoop E l src n (i + 1)

/-- `operator=` (nanovector.h:201-208) with `assign` (162-168). -/
def assign (E : Ops T) (dst src : Loc) : Act (Mem T) Unit :=
  if dst = src then pure ()
  else do
    let v ← members src
    clear dst
    assignLoop E dst v.1 v.2.2 0

/-- `swap` (nanovector.h:170-174), member by member (183-188). -/
def swap (l x : Loc) : Act (Mem T) Unit := do
  let a ← members l
  let b ← members x
  write l (.vec b.1 a.2.1 a.2.2)
  let b ← members x
  write x (.vec a.1 b.2.1 b.2.2)
  let a ← members l
  let b ← members x
  write l (.vec a.1 b.2.1 a.2.2)
  let b ← members x
  write x (.vec b.1 a.2.1 b.2.2)
  let a ← members l
  let b ← members x
  write l (.vec a.1 a.2.1 b.2.2)
  let b ← members x
  write x (.vec b.1 b.2.1 a.2.2)

/-- Destructor (nanovector.h:67-72). -/
def dtor (E : Ops T) (l : Loc) : Act (Mem T) Unit := do
  let v ← members l
  match v.1 with
  | none => pure ()
  | some p => deallocate E (some p)

/-- A vector as an element type. -/
def vector (E : Ops T) : Ops T := ⟨.vec none 0 0, fun _ => pure (), assign E, dtor E⟩

/-- `data_.resize(1); data_[0] = '\0';`, the body of `basic_string()` (nanostring.h:62-65). -/
def strInit (nul : T) (l : Loc) : Act (Mem T) Unit := do
  resize (scalar nul) l 1
  let v ← members l
  let d ← elem v.1 0
  write d (.val nul)

/-- `basic_string`, whose only member is the vector `data_` (nanostring.h:180): `operator=` is that of `data_` (nanostring.h:150-153). -/
def string (nul : T) : Ops T := { vector (scalar nul) with init := strInit nul }

/-- `clear` of a string (nanostring.h:112-115). -/
def strClear (nul : T) (l : Loc) : Act (Mem T) Unit := do
  clear l
  strInit nul l

/-- `operator+=` of a string (nanostring.h:201-226) with another one. -/
def append (nul : T) (l src : Loc) : Act (Mem T) Unit := do
  let v ← members l
  if v.2.2 < 1 then pure () else popBack l
  let w ← members src
  assignLoop (scalar nul) l w.1 w.2.2 0

/-- `A`, and then `U`, whether `A` throws or not. -/
def finally' (A U : Act (Mem T) Unit) : Act (Mem T) Unit := do
  onExc A U
  U

/-- Assignment of a literal to a string: a temporary is made by `basic_string(const charT *)` (nanostring.h:71-78), assigned from and destroyed. The temporary and the characters, with the zero
behind them, are put in blocks of their own for the time; the characters are taken to be as many as there are before the zero, which is pushed like the others. -/
def fromC (nul : T) (l : Loc) (cs : List T) : Act (Mem T) Unit := fun s =>
  finally' (do
    assignLoop (scalar nul) (s.next, 0) (some (s.next + 1)) (cs.length + 1) 0
    assign (scalar nul) l (s.next, 0)) (do
    dtor (scalar nul) (s.next, 0)
    free s.next
    free (s.next + 1))
    { (s.setBlock s.next (some [.vec none 0 0])).setBlock (s.next + 1) (some ((cs ++ [nul]).map .val)) with next := s.next + 2 }

/-- The copy constructor (nanovector.h:62-65, nanostring.h:67-68) of a temporary, which is put in a block of its own. What it does after setting the members to zero is what `operator=` does. If it throws, the member of a string is
destroyed (`str`), but nothing destroys what the members of a vector point to. -/
def construct (E : Ops T) (str : Bool) (src : Loc) : Act (Mem T) Nat := fun s =>
  (do
    onExc (E.assign (s.next, 0) src) (if str then do E.del (s.next, 0); free s.next else free s.next)
    pure s.next) { s.setBlock s.next (some [E.zero]) with next := s.next + 1 }

/-- `L.push_back(X(R))`, where `X` is the class of the elements: the temporary is pushed (nanovector.h:117-120) and destroyed. -/
def pushCopy (E : Ops T) (str : Bool) (l src : Loc) : Act (Mem T) Unit := do
  let t ← construct E str src
  finally' (pushBack E l (t, 0)) (do E.del (t, 0); free t)

/-- `T`, `vector<T>`, `vector<vector<T>>`, ... or `T`, `basic_string<T>`, `vector<basic_string<T>>`, ... -/
def ops (dflt : T) (str : Bool) : Nat → Ops T
  | 0 => scalar dflt
  | d + 1 => if str && d == 0 then string dflt else vector (ops dflt str d)

/-- An lvalue of a client: a variable and the indices behind it, `x[i][j]`. -/
structure LV where
  var : Nat
  path : List Nat
  deriving DecidableEq

/-- `operator[]` again and again (nanovector.h:132). -/
def locOf : Loc → List Nat → Act (Mem T) Loc
  | l, [] => pure l
  | l, i :: is => do
    let v ← members l
    let d ← elem v.1 i
    locOf d is

/-- The variables lie in block 0. -/
def LV.loc (L : LV) : Act (Mem T) Loc := locOf (0, L.var) L.path

inductive Cmd (T : Type) where
  /-- `L = a`, a scalar -/
  | lit (L : LV) (a : T)
  /-- `L = R` -/
  | assign (L R : LV)
  /-- `L.push_back(R)` -/
  | push (L R : LV)
  | pop (L : LV)
  | erase (L : LV) (i : Nat)
  | resize (L : LV) (n : Nat)
  | clear (L : LV)
  /-- `L = "..."`, a string -/
  | text (L : LV) (cs : List T)
  /-- `L += R`, strings -/
  | append (L R : LV)
  /-- `L.clear()`, a string -/
  | empty (L : LV)
  /-- `L.push_back(X(R))`, where `R` is a vector or a string of class `X` -/
  | pushCopy (L R : LV)
  /-- `L.swap(R)`, vectors -/
  | swap (L R : LV)

/-- The depth of an lvalue, given those of the variables. -/
def LV.depth (dep : Nat → Nat) (L : LV) : Nat := dep L.var - L.path.length

def exec (dflt : T) (str : Bool) (dep : Nat → Nat) : Cmd T → Act (Mem T) Unit
  | .lit L a => do
    let l ← L.loc
    write l (.val a)
  | .assign L R => do
    let l ← L.loc
    let r ← R.loc
    (ops dflt str (L.depth dep)).assign l r
  | .push L R => do
    let l ← L.loc
    let r ← R.loc
    pushBack (ops dflt str (L.depth dep - 1)) l r
  | .pop L => do
    let l ← L.loc
    popBack l
  | .erase L i => do
    let l ← L.loc
    erase (ops dflt str (L.depth dep - 1)) l i
  | .resize L n => do
    let l ← L.loc
    resize (ops dflt str (L.depth dep - 1)) l n
  | .clear L => do
    let l ← L.loc
    clear l

  | .text L cs => do
    let l ← L.loc
    fromC dflt l cs
  | .append L R => do
    let l ← L.loc
    let r ← R.loc
    Nest.append dflt l r
  | .empty L => do
    let l ← L.loc
    strClear dflt l
  | .pushCopy L R => do
    let l ← L.loc
    let r ← R.loc
    Nest.pushCopy (ops dflt str (L.depth dep - 1)) (str && L.depth dep == 2) l r
  | .swap L R => do
    let l ← L.loc
    let r ← R.loc
    Nest.swap l r

/-- The constructors of the variables, from the `i`th on. -/
def start (dflt : T) (str : Bool) (dep : Nat → Nat) : (n i : Nat) → Act (Mem T) Unit
  | 0, _ => pure ()
  | n + 1, i => do
    (ops dflt str (dep i)).init (0, i)
    start dflt str dep n (i + 1)

/-- `n` variables (nanovector.h:60, nanostring.h:62-65). -/
def init (dflt : T) (str : Bool) (dep : Nat → Nat) (n : Nat) (fails : Nat → Bool) : Out (Mem T) Unit :=
  start dflt str dep n 0 ⟨fun q => if q = 0 then some ((List.range n).map fun i => (ops dflt str (dep i)).zero) else none, 1, 0, fails⟩

/-- What a client reads through `size()` and `operator[]` (nanovector.h:126, 132). -/
inductive Tree (T : Type) where
  | leaf (a : T)
  | node (l : List (Tree T))

/-- Reading elements one after the other. -/
def viewRow (f : Loc → Act (Mem T) (Tree T)) (p : Option Nat) : (n i : Nat) → Act (Mem T) (List (Tree T))
  | 0, _ => pure []
  | n + 1, i => do
    let d ← elem p i
    let t ← f d
    let ts ← viewRow f p n (i + 1)
    pure (t :: ts)

/-- Reading all of a variable. -/
def view : Nat → Loc → Act (Mem T) (Tree T)
  | 0, l => do
    match ← read l with
    | .val a => pure (.leaf a)
    | .vec _ _ _ => Act.ub
  | d + 1, l => do
    let v ← members l
    let ts ← viewRow (view d) v.1 v.2.2 0
    pure (.node ts)

/-- The end of the variables. -/
def done (dflt : T) (str : Bool) (dep : Nat → Nat) : Nat → Act (Mem T) Unit
  | 0 => pure ()
  | n + 1 => do
    (ops dflt str (dep n)).del (0, n)
    done dflt str dep n

end Nanostl.Vector.Nest

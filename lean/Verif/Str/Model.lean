import Verif.Vector.Model

/-!
Model of `include/nanostring.h` (`basic_string<char>`), on top of the model of `vector<char>`.
A string object is its only member `data_`. Characters are bytes; the only place where signedness could matter,
`compare_`, reads them as `unsigned char`.
-/

namespace Nanostl.Str

open Nanostl.Vector

/-- A `char`, as its bit pattern. -/
abbrev Byte := UInt8

/-- `basic_string()` body (nanostring.h:62-65); `data_` is already default constructed. -/
def ctorDefault : Act (St Byte) Unit := do
  resize 1
  write 0 0

/-- The loop of `basic_string(const charT*)` (nanostring.h:73-76) over the bytes at and after `s`.
Running off the end of the given memory is undefined. -/
def cstrLoop : List Byte → Act (St Byte) Unit
  | [] => Act.ub
  | c :: cs => if c ≠ 0 then do
      pushBack (.ext c)
      cstrLoop cs
    else pure ()

/-- `basic_string(const charT *s)` (nanostring.h:71-78); `none` is the null pointer. -/
def ctorCStr (s : Option (List Byte)) : Act (St Byte) Unit := do
  clear
  match s with
  | none => pure ()
  | some b => cstrLoop b
  pushBack (.ext 0)

/-- The loop of `basic_string(first, last)` (nanostring.h:83-86): `n` pointers `s <= last` remain, `s` being at offset `i`
of the memory `buf`. -/
def rangeLoop (buf : List Byte) : Nat → Nat → Act (St Byte) Unit
  | 0, _ => pure ()
  | n + 1, i => match buf[i]? with
    | none => Act.ub
    | some c => do
      pushBack (.ext c)
      rangeLoop buf n (i + 1)

/-- `basic_string(const charT *first, const charT *last)` (nanostring.h:81-87), pointers given as offsets into `buf`,
not null. The loop condition is `s <= last`. -/
def ctorRange (buf : List Byte) (first last : Nat) : Act (St Byte) Unit := rangeLoop buf (last + 1 - first) first

/-- `basic_string(const charT *s, size_type count)` (nanostring.h:90-94). -/
def ctorCount (buf : List Byte) (count : Nat) : Act (St Byte) Unit := rangeLoop buf count 0

/-- Copy constructor body `data_ = s.data_` (nanostring.h:68) with vector `operator=` (nanovector.h:201-208);
`data_` is default constructed and is not `s.data_`. -/
def ctorCopy (s : Vec) : Act (St Byte) Unit := assign (wholeRange s)

/-- `operator+=` (nanostring.h:201-226). `none` stands for `s` being the object itself: then `begin()`, `end()` are taken
from the object after `pop_back`. -/
def append (s : Option Vec) : Act (St Byte) Unit := do
  let v ← getThis
  if v.size < 1 then pure () else popBack
  let v ← getThis
  match s with
  | some r => assignLoop (wholeRange r)
  | none => assignLoop (wholeRange v)

/-- `operator+` (nanostring.h:193-199): the local `result` is the new object. -/
def ctorPlus (a b : Vec) : Act (St Byte) Unit := do
  ctorCopy a
  append (some b)

/-- `clear` (nanostring.h:112-115). -/
def strClear : Act (St Byte) Unit := do
  clear
  resize 1
  write 0 0

/-- `size`, `length` (nanostring.h:100-109): `data_.size() - 1`, wrapping. -/
def strSize (v : Vec) : Nat := (v.size + word - 1) % word

/-- `empty` (nanostring.h:97). -/
def strEmpty (v : Vec) : Bool := v.size == 0

/-- Bytes readable through `&data_[0]`; `none` is undefined (outside the block, or never written). -/
def reader (h : Heap Byte) (v : Vec) (i : Nat) : Option Byte :=
  match v.elements with
  | none => none
  | some p => match h.mem p with
    | none => none
    | some b => (b[i]?).join

/-- `compare_` (nanostring.h:182-190), `i` characters having been passed. The fuel bounds the number of iterations;
each one reads `p[i]`, so with more fuel than readable bytes it never runs out before a read is undefined. -/
def compareLoop (p q : Nat → Option Byte) : Nat → Nat → Option Int
  | 0, _ => none
  | fuel + 1, i => do
    let a ← p i
    let b ← q i
    if a ≠ 0 ∧ a = b then compareLoop p q fuel (i + 1) else pure ((a.toNat : Int) - (b.toNat : Int))

/-- `compare(const basic_string&)` (nanostring.h:133-135). -/
def compareStr (h : Heap Byte) (a b : Vec) : Option Int := compareLoop (reader h a) (reader h b) (a.capacity + 1) 0

/-- `compare(const charT*)` (nanostring.h:138) against memory `buf`. -/
def compareC (h : Heap Byte) (a : Vec) (buf : List Byte) : Option Int :=
  compareLoop (reader h a) (fun i => buf[i]?) (a.capacity + 1) 0

/-- `operator==(const basic_string&)` (nanostring.h:156). -/
def opEq (h : Heap Byte) (a b : Vec) : Option Bool := (compareStr h a b).map fun r => decide (r = 0)

/-- `operator==(const charT*)` (nanostring.h:159). -/
def opEqC (h : Heap Byte) (a : Vec) (buf : List Byte) : Option Bool := (compareC h a buf).map fun r => decide (r = 0)

/-- `operator!=(const basic_string&)` (nanostring.h:162). -/
def opNe (h : Heap Byte) (a b : Vec) : Option Bool := (compareStr h a b).map fun r => decide (r ≠ 0)

/-- `operator!=(const charT*)` (nanostring.h:165). -/
def opNeC (h : Heap Byte) (a : Vec) (buf : List Byte) : Option Bool := (compareC h a buf).map fun r => decide (r ≠ 0)

/-- `operator<(const basic_string&)` (nanostring.h:168). -/
def opLt (h : Heap Byte) (a b : Vec) : Option Bool := (compareStr h a b).map fun r => decide (r < 0)

/-- `operator<(const charT*)` (nanostring.h:171). -/
def opLtC (h : Heap Byte) (a : Vec) (buf : List Byte) : Option Bool := (compareC h a buf).map fun r => decide (r < 0)

/-- `operator>(const basic_string&)` (nanostring.h:174). -/
def opGt (h : Heap Byte) (a b : Vec) : Option Bool := (compareStr h a b).map fun r => decide (0 < r)

/-- `operator>(const charT*)` (nanostring.h:177). -/
def opGtC (h : Heap Byte) (a : Vec) (buf : List Byte) : Option Bool := (compareC h a buf).map fun r => decide (0 < r)

/-- C `strlen` on readable bytes. -/
def strlenLoop (p : Nat → Option Byte) : Nat → Nat → Option Nat
  | 0, _ => none
  | fuel + 1, i => do
    let a ← p i
    if a = 0 then pure i else strlenLoop p fuel (i + 1)

/-- `strlen(s.c_str())` with `c_str` (nanostring.h:118). -/
def strlenCStr (h : Heap Byte) (v : Vec) : Option Nat := strlenLoop (reader h v) (v.capacity + 1) 0

/-! ### Client programs over several strings -/

/-- Construction of object `i`: the member `data_` is constructed first, then the constructor body `m` runs; when the body
throws the member is destroyed. -/
def construct (w : World Byte) (i : Nat) (m : Act (St Byte) Unit) : Option (World Byte × Bool) :=
  match step w (.new i) with
  | none => none
  | some (w1, _) => match onVec w1 i (fun _ => m) with
    | none => none
    | some (w2, false) => some (w2, false)
    | some (w2, true) => match step w2 (.del i) with
      | none => none
      | some (w3, _) => some (w3, true)

inductive SCmd where
  | new (i : Nat)
  | fromC (i : Nat) (s : Option (List Byte))
  | copy (i j : Nat)
  | plus (k i j : Nat)
  | append (i j : Nat)
  | assign (i j : Nat)
  | clear (i : Nat)
  | write (i k : Nat) (c : Byte)
  | erase (i k : Nat)
  | del (i : Nat)

/-- One operation on strings; result as for `Vector.step`. -/
def sstep (w : World Byte) : SCmd → Option (World Byte × Bool)
  | .new i => construct w i ctorDefault
  | .fromC i s => construct w i (ctorCStr s)
  | .copy i j => match w.vec j with
    | none => none
    | some r => construct w i (ctorCopy r)
  | .plus k i j => match w.vec i, w.vec j with
    | some a, some b => construct w k (ctorPlus a b)
    | _, _ => none
  | .append i j => match w.vec j with
    | none => none
    | some r => onVec w i (fun _ => append (if i = j then none else some r))
  | .assign i j => step w (.opAssign i j)
  | .clear i => onVec w i (fun _ => strClear)
  | .write i k c => onVec w i (fun _ => Vector.write k c)
  | .erase i k => onVec w i (fun _ => Vector.erase k)
  | .del i => step w (.del i)

def srun : World Byte → List SCmd → Option (World Byte × List Bool)
  | w, [] => some (w, [])
  | w, c :: cs => match sstep w c with
    | none => none
    | some (w', t) => match srun w' cs with
      | none => none
      | some (w'', ts) => some (w'', t :: ts)

end Nanostl.Str

import Verif.Str.ToString
import Verif.Ryu.Chars

/-!
Model of `include/nanosstream.h` (`stringstream`), of the members of `basic_ostream` in `include/nanoiostream.h`, and of
`operator<<(ostream&, const string&)` in `include/nanostring.h`, on top of the model of `string`. A stream is its only member, the
string `str_`. Programs number their string and stream objects; `tmp` is a number kept free for temporaries.
-/

namespace Nanostl.Stream

open Nanostl.Vector (World)
open Nanostl.Str

/-- `str = string();` : construct the temporary, assign it, destroy it (also when the assignment throws). -/
def assignEmpty (tmp : Nat) (w : World Byte) (i : Nat) : Option (World Byte × Bool) :=
  match sstep w (.new tmp) with
  | none => none
  | some (w1, true) => some (w1, true)
  | some (w1, false) => match sstep w1 (.assign i tmp) with
    | none => none
    | some (w2, t) => match sstep w2 (.del tmp) with
      | none => none
      | some (w3, _) => some (w3, t)

inductive Cmd where
  /-- an operation on a string object or on `ss.str()`; `ss << s` is `append` (nanosstream.h:69-73) -/
  | str (c : SCmd)
  /-- `ss.clear()` -/
  | clear (i : Nat)
  /-- `ss = move(ss2)` -/
  | move (i j : Nat)

def step (tmp : Nat) (w : World Byte) : Cmd → Option (World Byte × Bool)
  | .str c => sstep w c
  /- nanosstream.h:76-78 -/
  | .clear i => assignEmpty tmp w i
  /- nanosstream.h:48-53 -/
  | .move i j => match sstep w (.assign i j) with
    | none => none
    | some (w1, true) => some (w1, true)
    | some (w1, false) => assignEmpty tmp w1 j

def run (tmp : Nat) : World Byte → List Cmd → Option (World Byte × List Bool)
  | w, [] => some (w, [])
  | w, c :: cs => match step tmp w c with
    | none => none
    | some (w', t) => match run tmp w' cs with
      | none => none
      | some (w'', ts) => some (w'', t :: ts)

/-! ### `ostream` -/

/-- `printf("%s", p)`: the bytes before the NUL. -/
def printLoop (p : Nat → Option Byte) : Nat → Nat → Option (List Byte)
  | 0, _ => none
  | fuel + 1, i => do
    let a ← p i
    if a = 0 then pure [] else
      let l ← printLoop p fuel (i + 1)
      pure (a :: l)

/-- What is done with an ostream: the stream is object 0, temporaries are 1 and 2. -/
inductive OCmd where
  /-- `os << n` for `bool`, `short`, `unsigned short`, `int`: all use `to_string(int)` (nanoiostream.h:89-127) -/
  | int (v : Int)
  /-- `os << n` for `long long` (nanoiostream.h:139-147) -/
  | int64 (v : Int)
  /-- `os << f` for `float` (nanoiostream.h:159-167), given by its bits; `arr` is what the local array of `to_string` holds at first -/
  | float (p32 : Bool) (bits : Nat) (arr : List Byte)
  /-- `os << d` for `double` (nanoiostream.h:169-177) -/
  | double (p32 : Bool) (bits : Nat) (arr : List Byte)
  /-- `os << p` for a C string (nanoiostream.h:179-192) -/
  | text (b : List Byte)
  /-- `os.flush()` (nanoiostream.h:232-239) -/
  | flush

/-- `_ss << string(buf)`. -/
def insertBuf (w : World Byte) (buf : List Byte) : Option (World Byte × Bool) :=
  match sstep w (.fromC 1 (some buf)) with
  | none => none
  | some (w1, true) => some (w1, true)
  | some (w1, false) => match sstep w1 (.append 0 1) with
    | none => none
    | some (w2, t) => match sstep w2 (.del 1) with
      | none => none
      | some (w3, _) => some (w3, t)

/-- One operation: the world, what was printed, whether it threw. -/
def ostep (w : World Byte) : OCmd → Option (World Byte × List Byte × Bool)
  | .int v => match toStringInt v with
    | none => none
    | some buf => (insertBuf w buf).map fun x => (x.1, [], x.2)
  | .int64 v => match toStringInt64 v with
    | none => none
    | some buf => (insertBuf w buf).map fun x => (x.1, [], x.2)
  | .float p32 bits arr => match Ryu.toStringFloat p32 bits arr with
    | none => none
    | some s => (insertBuf w (s ++ [0])).map fun x => (x.1, [], x.2)
  | .double p32 bits arr => match Ryu.toStringDouble p32 bits arr with
    | none => none
    | some s => (insertBuf w (s ++ [0])).map fun x => (x.1, [], x.2)
  | .text b => (insertBuf w b).map fun x => (x.1, [], x.2)
  | .flush => match w.vec 0 with
    | none => none
    | some v => match printLoop (reader w.heap v) (v.capacity + 1) 0 with
      | none => none
      | some l => (assignEmpty 2 w 0).map fun x => (x.1, l, x.2)

/-- A program up to its end or the first throw; printed so far and whether it threw. -/
def orun : World Byte → List OCmd → Option (World Byte × List Byte × Bool)
  | w, [] => some (w, [], false)
  | w, c :: cs => match ostep w c with
    | none => none
    | some (w', out, true) => some (w', out, true)
    | some (w', out, false) => match orun w' cs with
      | none => none
      | some (w'', out', t) => some (w'', out ++ out', t)

/-- `operator<<(ostream&, const string&)` (nanostring.h:231-237). The only viable overload for `os << s` in the body is the function
itself: no member of `basic_ostream` takes a `string`. `none` after `n` calls: not returned yet. -/
def insertString (os s : Nat) : Nat → Option Nat
  | 0 => none
  | n + 1 => match insertString os s n with
    | none => none
    | some _ => some os

end Nanostl.Stream

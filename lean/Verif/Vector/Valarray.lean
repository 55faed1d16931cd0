import Verif.Vector.Model

/-!
What `include/nanovalarray.h` has beyond `vector`: the constructor from a size and `sin`. The other members have the bodies of `vector`
(see Vector/Props.lean). `operator+=` (line 142) is declared and defined nowhere.
-/

namespace Nanostl.Vector

variable {α : Type}

/-- `valarray(n)` (nanovalarray.h:69-73), `*this` being raw storage. -/
def sizeCtor (n : Nat) : Act (St α) Unit := do
  setThis init
  resize n

/-- The loop of `sin` (nanovalarray.h:228-230): `n` elements remain, starting at `i`; `*this` is `result`. Reading an indeterminate element is
undefined. `f` is `nanostl::sin` of one value. -/
def mapLoop (f : α → α) (va : Vec) : Nat → Nat → Act (St α) Unit
  | 0, _ => pure ()
  | n + 1, i => do
    let c ← load va.elements i
    match c with
    | none => Act.ub
    | some a => do
      let v ← getThis
      store v.elements i (some (f a))
      mapLoop f va n (i + 1)

/-- `sin(va)` (nanovalarray.h:224-233); the state afterwards is that of `result`, which becomes the returned object (copy elision). -/
def mapVal (f : α → α) (va : Vec) : Act (St α) Unit := do
  setThis init
  resize va.size
  mapLoop f va va.size 0

end Nanostl.Vector

import Mathlib.Tactic.Common

/-! Model of `distance` (include/nanoiterator.h:83-88) on pointers and of `initializer_list` (include/nanoinitializer_list.h:45-99). Pointers are null or a position in an array, one past the
end included; `none` is undefined behaviour. -/

namespace Nanostl.Range

variable {α : Type}

/-- A pointer. -/
inductive Ptr
  | null
  | at (block idx : Nat)
  deriving DecidableEq

/-- The arrays of the program. -/
abbrev Mem (α : Type) := Nat → List α

/-- `p + n` ([expr.add]/4): within the array; null only with 0. -/
def add (m : Mem α) (p : Ptr) (n : Int) : Option Ptr :=
  match p with
  | .null => if n = 0 then some .null else none
  | .at b i => if 0 ≤ i + n ∧ i + n ≤ (m b).length then some (.at b (i + n).toNat) else none

/-- `q - p` ([expr.add]/5) with a `ptrdiff_t` of `w` bits: positions of the same array, or both null; the difference has to fit. -/
def sub (m : Mem α) (w : Nat) (q p : Ptr) : Option Int :=
  match q, p with
  | .null, .null => some 0
  | .at b j, .at c i =>
    if b = c ∧ i ≤ (m b).length ∧ j ≤ (m b).length ∧ (j : Int) - i < 2 ^ (w - 1) ∧ -2 ^ (w - 1) ≤ (j : Int) - i then some (j - i) else none
  | _, _ => none

/-- `*p`. -/
def load (m : Mem α) : Ptr → Option α
  | .null => none
  | .at b i => (m b)[i]?

/-- Conversion to `long long`, the `ptrdiff_t` of the library (nanoiterator.h:41). -/
def toLongLong (x : Int) : Int := (x + 2 ^ 63) % 2 ^ 64 - 2 ^ 63

/-- `distance` (nanoiterator.h:83-88). -/
def distance (m : Mem α) (w : Nat) (first last : Ptr) : Option Int := (sub m w last first).map toLongLong

/-- `initializer_list` (nanoinitializer_list.h:46-49). -/
structure IList where
  begin_ : Ptr
  size_ : Nat
  deriving DecidableEq

/-- The constructor without arguments (nanoinitializer_list.h:68). -/
def IList.empty : IList := ⟨.null, 0⟩

/-- `size`, `begin` (nanoinitializer_list.h:72, 76), and the function `begin` (83-90). -/
def IList.size (l : IList) : Nat := l.size_
def IList.begin (l : IList) : Ptr := l.begin_

/-- `end` (nanoinitializer_list.h:80), and the function `end` (92-99). -/
def IList.end (m : Mem α) (l : IList) : Option Ptr := add m l.begin_ l.size_

/-- `for (p = first; p != last; ++p) *p`, at most `fuel` times. -/
def walk (m : Mem α) (last : Ptr) : Nat → Ptr → Option (List α)
  | fuel, p => if p = last then some [] else match fuel with
    | 0 => none
    | fuel + 1 => do
      let x ← load m p
      let q ← add m p 1
      let r ← walk m last fuel q
      pure (x :: r)

/-- A loop over the list. -/
def IList.forEach (m : Mem α) (l : IList) (fuel : Nat) : Option (List α) := do
  let e ← l.end m
  walk m e fuel l.begin

/-- An argument of a constructor: a pointer, a null pointer constant, a number, a list, anything else. -/
inductive Arg
  | ptr (p : Ptr)
  | zero
  | int (n : Nat)
  | list (l : IList)
  | other

/-- Whether the argument converts to `const E*`, and to what. -/
def Arg.asPtr : Arg → Option Ptr
  | .ptr p => some p
  | .zero => some .null
  | _ => none

/-- Whether the argument converts to `size_t`, and to what. -/
def Arg.asSize : Arg → Option Nat
  | .zero => some 0
  | .int n => some n
  | _ => none

/-- The constructor chosen for `initializer_list<E> l{args...}`: the two public ones (nanoinitializer_list.h:68, and the implicit copy), or the private one (53-56), with
which the program is not accepted, unless it is a member. The compiler fills lists of its own making only for `std::initializer_list`. -/
def construct (member : Bool) : List Arg → Option IList
  | [] => some .empty
  | [.list l] => some l
  | [a, b] => match a.asPtr, b.asSize with
    | some p, some n => if member then some ⟨p, n⟩ else none
    | _, _ => none
  | _ => none

/-- The lists a program can come by: it constructs them, from arguments among which lists are ones it has. The class has no member or friend that calls the private constructor. -/
inductive Made : IList → Prop
  | construct (args : List Arg) (l : IList) : (∀ k, .list k ∈ args → Made k) → construct false args = some l → Made l

end Nanostl.Range

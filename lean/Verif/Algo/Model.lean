import Mathlib.Order.Defs.LinearOrder

/-!
Model of `include/nanoalgorithm.h`, `clamp` of `include/nanomath.h`, `pair` of `include/nanoutility.h` and `memcpy` of `include/nanocstring.h`. Comparison operators of the element type are parameters, so that
types such as `float`, whose `<` is not a total order, are covered. `none` is undefined behaviour.
-/

namespace Nanostl.Algo

variable {α β : Type}

/-- `min` (nanoalgorithm.h:30-33). -/
def min (lt : α → α → Bool) (a b : α) : α := if !(lt b a) then a else b

/-- `max` (nanoalgorithm.h:35-38), with the type's `>`. -/
def max (gt : α → α → Bool) (a b : α) : α := if !(gt b a) then a else b

/-- `clamp` (nanomath.h:265-268). -/
def clamp (lt gt : α → α → Bool) (a low high : α) : α := max gt low (min lt high a)

/-- The loop of `max_element` (nanoalgorithm.h:46-50). Iterators are offsets into the underlying sequence `l`; dereferencing outside
it is undefined; fuel bounds the number of iterations. -/
def maxElementLoop (lt : α → α → Bool) (l : List α) (last : Nat) : Nat → Nat → Nat → Option Nat
  | 0, _, _ => none
  | f + 1, largest, first =>
    if first = last then some largest
    else match l[largest]?, l[first]? with
      | some x, some y => maxElementLoop lt l last f (if lt x y then first else largest) (first + 1)
      | _, _ => none

/-- `max_element` (nanoalgorithm.h:40-52). -/
def maxElement (lt : α → α → Bool) (l : List α) (first last : Nat) : Option Nat :=
  if first = last then some last else maxElementLoop lt l last (l.length + 1) first (first + 1)

/-- `fill` (nanoalgorithm.h:54-57); the second component counts the assignments. -/
def fillLoop (last : Nat) (v : α) : Nat → Nat → List α → Option (List α × Nat)
  | 0, _, _ => none
  | f + 1, first, l =>
    if first = last then some (l, 0)
    else if first < l.length then (fillLoop last v f (first + 1) (l.set first v)).map fun x => (x.1, x.2 + 1) else none

def fill (l : List α) (first last : Nat) (v : α) : Option (List α × Nat) := fillLoop last v (l.length + 1) first l

/-- `pair ==` (nanoutility.h:41-44). -/
def pairEq (eq1 : α → α → Bool) (eq2 : β → β → Bool) (x y : α × β) : Bool := eq1 x.1 y.1 && eq2 x.2 y.2

/-- `pair <` (nanoutility.h:46-49). -/
def pairLt (lt1 : α → α → Bool) (lt2 : β → β → Bool) (x y : α × β) : Bool :=
  lt1 x.1 y.1 || (!(lt1 y.1 x.1) && lt2 x.2 y.2)

/-- `make_pair` (nanoutility.h:51-54). -/
def makePair (x : α) (y : β) : α × β := (x, y)

/-- Byte memory; `none` is an address that may not be accessed. -/
abbrev Bytes := Nat → Option UInt8

/-- The loop of `memcpy` (nanocstring.h:39-41) with `n` iterations left. -/
def memcpyLoop (d s : Nat) : Nat → Nat → Bytes → Option Bytes
  | 0, _, m => some m
  | n + 1, i, m => match m (s + i), m (d + i) with
    | some b, some _ => memcpyLoop d s n (i + 1) (fun q => if q = d + i then some b else m q)
    | _, _ => none

/-- `memcpy` (nanocstring.h:33-44): memory afterwards and the returned pointer. -/
def memcpy (d s num : Nat) (m : Bytes) : Option (Bytes × Nat) := (memcpyLoop d s num 0 m).map (·, d)

end Nanostl.Algo

import Verif.Variant.Model

/-!
Model of the relational operators of `variant` and `monostate` (`include/nonstd/variant.hpp`). The operators of the alternatives are given, `bool`
functions without side effects.
-/

namespace Nanostl.Variant

variable {α : Type}

/-- `==` and `<` of each alternative. -/
structure Ops (α : Type) where
  eq : Nat → α → α → Bool
  lt : Nat → α → α → Bool

/-- A `switch( v.index() )` of sixteen cases (`none`: the default). -/
def caseIdx (i : Option Nat) : Option Nat := i.bind fun k => if k < 16 then some k else none

/-- `Comparator::equal` (variant.hpp:2236-2259). -/
def cmpEqual (c : Cls α) (o : Ops α) (v w : Var) : M α Bool := do
  let i ← index v
  match caseIdx i with
  | some k =>
    let a ← get c v k
    let b ← get c w k
    pure (o.eq k a b)
  | none => pure false

/-- `Comparator::less_than` (variant.hpp:2261-2284). -/
def cmpLess (c : Cls α) (o : Ops α) (v w : Var) : M α Bool := do
  let i ← index v
  match caseIdx i with
  | some k =>
    let a ← get c v k
    let b ← get c w k
    pure (o.lt k a b)
  | none => pure false

/-- `operator==` (variant.hpp:2289-2297). -/
def opEq (c : Cls α) (o : Ops α) (v w : Var) : M α Bool := do
  let i ← index v
  let j ← index w
  if i ≠ j then pure false
  else
    let b ← valueless v
    if b then pure true else cmpEqual c o v w

/-- `operator!=` (variant.hpp:2299-2305). -/
def opNe (c : Cls α) (o : Ops α) (v w : Var) : M α Bool := do
  let b ← opEq c o v w
  pure (! b)

/-- Indices as `size_t`; `variant_npos` is the greatest. -/
def idxLt : Option Nat → Option Nat → Bool
  | some i, some j => i < j
  | some _, none => true
  | none, _ => false

/-- `operator<` (variant.hpp:2307-2317). -/
def opLt (c : Cls α) (o : Ops α) (v w : Var) : M α Bool := do
  let a ← valueless w
  if a then pure false
  else
    let b ← valueless v
    if b then pure true
    else
      let i ← index v
      let j ← index w
      if idxLt i j then pure true
      else
        if idxLt j i then pure false
        else cmpLess c o v w

/-- `operator>` (variant.hpp:2319-2325). -/
def opGt (c : Cls α) (o : Ops α) (v w : Var) : M α Bool := opLt c o w v

/-- `operator<=` (variant.hpp:2327-2333). -/
def opLe (c : Cls α) (o : Ops α) (v w : Var) : M α Bool := do
  let b ← opGt c o v w
  pure (! b)

/-- `operator>=` (variant.hpp:2335-2341). -/
def opGe (c : Cls α) (o : Ops α) (v w : Var) : M α Bool := do
  let b ← opLt c o v w
  pure (! b)

/-- The operators of `monostate` (variant.hpp:1115-1120): `<`, `>`, `<=`, `>=`, `==`, `!=`. -/
def monoLt (_ _ : Unit) : Bool := false
def monoGt (_ _ : Unit) : Bool := false
def monoLe (_ _ : Unit) : Bool := true
def monoGe (_ _ : Unit) : Bool := true
def monoEq (_ _ : Unit) : Bool := true
def monoNe (_ _ : Unit) : Bool := false

end Nanostl.Variant

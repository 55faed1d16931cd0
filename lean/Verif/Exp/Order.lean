/-!
Model of the ordering operators that `expected` and `unexpected_type` have when `nsel_P0323R` is set to 2 or less before the header is included
(include/nonstd/expected.hpp:65-67, 1091-1155, 2182-2364). An `expected` is a value or an error; the comparisons of `T` and `E` are functions that do not change anything.
`==` is that of 2164-2168 and 2212-2222, 2290-2294, restated here for one pair of types.
-/

namespace Nanostl.Exp.Order

/-- `operator==` and `operator<` of a type. -/
structure Ops (α : Type) where
  eq : α → α → Bool
  lt : α → α → Bool

variable {α β : Type}

/-- `operator==` of two `expected` (expected.hpp:2164-2168). -/
def eq (a : Ops α) (b : Ops β) : α ⊕ β → α ⊕ β → Bool
  | .inl x, .inl y => a.eq x y
  | .inr x, .inr y => b.eq x y
  | _, _ => false

/-- `operator<` of two `expected` (expected.hpp:2184-2188). -/
def lt (a : Ops α) (x y : α ⊕ β) : Bool :=
  match y with
  | .inr _ => false
  | .inl y => match x with
    | .inr _ => true
    | .inl x => a.lt x y

/-- `operator>` (expected.hpp:2190-2194). -/
def gt (a : Ops α) (x y : α ⊕ β) : Bool := lt a y x

/-- `operator<=` (expected.hpp:2196-2200). -/
def le (a : Ops α) (x y : α ⊕ β) : Bool := !lt a y x

/-- `operator>=` (expected.hpp:2202-2206). -/
def ge (a : Ops α) (x y : α ⊕ β) : Bool := !lt a x y

/-! With a value on one side. -/

/-- `x < v` (expected.hpp:2238-2242). -/
def ltV (a : Ops α) (x : α ⊕ β) (v : α) : Bool :=
  match x with
  | .inl x => a.lt x v
  | .inr _ => true

/-- `v < x` (expected.hpp:2244-2248). -/
def vLt (a : Ops α) (v : α) (x : α ⊕ β) : Bool :=
  match x with
  | .inl x => a.lt v x
  | .inr _ => false

/-- `v > x` (expected.hpp:2250-2254). -/
def vGt (a : Ops α) (v : α) (x : α ⊕ β) : Bool :=
  match x with
  | .inl x => a.lt x v
  | .inr _ => false

/-- `x > v` (expected.hpp:2256-2260). -/
def gtV (a : Ops α) (x : α ⊕ β) (v : α) : Bool :=
  match x with
  | .inl x => a.lt v x
  | .inr _ => false

/-- `v <= x` (expected.hpp:2262-2266). -/
def vLe (a : Ops α) (v : α) (x : α ⊕ β) : Bool :=
  match x with
  | .inl x => !a.lt x v
  | .inr _ => false

/-- `x <= v` (expected.hpp:2268-2272). -/
def leV (a : Ops α) (x : α ⊕ β) (v : α) : Bool :=
  match x with
  | .inl x => !a.lt v x
  | .inr _ => true

/-- `x >= v` (expected.hpp:2274-2278). -/
def geV (a : Ops α) (x : α ⊕ β) (v : α) : Bool :=
  match x with
  | .inl x => !a.lt x v
  | .inr _ => false

/-- `v >= x` (expected.hpp:2280-2284). -/
def vGe (a : Ops α) (v : α) (x : α ⊕ β) : Bool :=
  match x with
  | .inl x => !a.lt v x
  | .inr _ => true

/-! Two `unexpected_type`s. -/

/-- The four operators of two `unexpected_type`s. -/
structure UOps (β : Type) where
  lt : β → β → Bool
  gt : β → β → Bool
  le : β → β → Bool
  ge : β → β → Bool

/-- Those of any `E` (expected.hpp:1093-1115). -/
def uOps (b : Ops β) : UOps β := ⟨b.lt, fun x y => b.lt y x, fun x y => !b.lt y x, fun x y => !b.lt x y⟩

/-- Those of `exception_ptr` (expected.hpp:1135-1153). -/
def excOps (eq : β → β → Bool) : UOps β := ⟨fun _ _ => false, fun _ _ => false, eq, eq⟩

/-! With an `unexpected_type` on one side. -/

/-- `x < u` (expected.hpp:2316-2320). -/
def ltU (b : UOps β) (x : α ⊕ β) (u : β) : Bool :=
  match x with
  | .inr e => b.lt e u
  | .inl _ => false

/-- `u < x` (expected.hpp:2322-2326). -/
def uLt (b : UOps β) (u : β) (x : α ⊕ β) : Bool :=
  match x with
  | .inr e => b.lt u e
  | .inl _ => true

/-- `x > u` (expected.hpp:2328-2332). -/
def gtU (b : UOps β) (x : α ⊕ β) (u : β) : Bool := uLt b u x

/-- `u > x` (expected.hpp:2334-2338). -/
def uGt (b : UOps β) (u : β) (x : α ⊕ β) : Bool := ltU b x u

/-- `x <= u` (expected.hpp:2340-2344). -/
def leU (b : UOps β) (x : α ⊕ β) (u : β) : Bool := !uLt b u x

/-- `u <= x` (expected.hpp:2346-2350). -/
def uLe (b : UOps β) (u : β) (x : α ⊕ β) : Bool := !ltU b x u

/-- `x >= u` (expected.hpp:2352-2356). -/
def geU (b : UOps β) (x : α ⊕ β) (u : β) : Bool := !uGt b u x

/-- `u >= x` (expected.hpp:2358-2362). -/
def uGe (b : UOps β) (u : β) (x : α ⊕ β) : Bool := !gtU b x u

end Nanostl.Exp.Order

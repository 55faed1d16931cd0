import Verif.Traits.InitSpec

/-! Swappability (nanotype_traits.h:1175-1250). -/

namespace Nanostl.Traits

/-- `is_nothrow_move_assignable` (nanotype_traits.h:1032-1035). -/
def is_nothrow_move_assignable (L : Lang) (t : Ty) : Bool := is_nothrow_assignable L (add_lvalue_reference t) (add_rvalue_reference t)

/-- `is_nothrow_copy_assignable` (nanotype_traits.h:1021-1023). -/
def is_nothrow_copy_assignable (L : Lang) (t : Ty) : Bool :=
  is_nothrow_assignable L (add_lvalue_reference t) (add_lvalue_reference (addConst t))

/-- The template `swap(T&, T&)` (nanotype_traits.h:1180-1187) for lvalues of type `t`; `some n`: it is viable, `noexcept(n)`. -/
def swap_generic (L : Lang) (t : Ty) : Option Bool :=
  if is_move_constructible L t = some true && is_move_assignable L t
  then some (decide (is_nothrow_move_constructible L t = some true) && is_nothrow_move_assignable L t) else none

/-- The call `swap(x, y)` of two lvalues of type `t` as the header sees it (nanotype_traits.h:1180-1194). `adl t`: what argument-dependent lookup
finds, with its `noexcept`; it is taken to be more special than the templates. Neither template has a definition; that is no matter here. -/
def swap_call (L : Lang) (adl : Ty → Option Bool) (t : Ty) : Option Bool :=
  match adl t with
  | some n => some n
  | none => match t with
    | .arr u (some n) => match swap_call L adl u with
      | some k => some k
      | none => swap_generic L (.arr u (some n))
    | t => swap_generic L t

/-- `__is_swappable` (nanotype_traits.h:1201-1220, 1238-1242): `none` where `T&` cannot be written. -/
def is_swappable (L : Lang) (adl : Ty → Option Bool) (t : Ty) : Option Bool :=
  if canRef t then some (swap_call L adl (remove_reference (mkLref t))).isSome else none

/-- `__is_nothrow_swappable` (nanotype_traits.h:1222-1235, 1244-1248). -/
def is_nothrow_swappable (L : Lang) (adl : Ty → Option Bool) (t : Ty) : Option Bool :=
  if canRef t then some ((swap_call L adl (remove_reference (mkLref t))).getD false) else none

namespace Spec

instance (t : Ty) : Decidable (object t) := by unfold object; infer_instance

/-- What `swap(x, y)` needs of objects of type `t` and whether it can throw, if no other `swap` is found: to be moved from one to another; arrays are
swapped element by element. -/
def swaps (L : Lang) (adl : Ty → Option Bool) : Ty → Option Bool
  | .arr u (some n) => match adl (.arr u (some n)) with
    | some k => some k
    | none => swaps L adl u
  | t => match adl t with
    | some k => some k
    | none =>
      if object t ∧ constructible L t [.rref t] = true ∧ assignable L (.lref t) (.rref t) = true
      then some (nothrowConstructible L t [.rref t] && L.assignNo ⟨.lv, t⟩ ⟨.xv, t⟩) else none

end Spec

end Nanostl.Traits

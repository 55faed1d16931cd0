import Verif.Traits.Init

/-! Which calls of `unique_ptr`'s constructors and assignments can be written (nanomemory.h:126-212, 393-530, 605-761): the constraints, on the types
of `Traits` and what the compiler knows about the program (`Lang`). What the calls do is in `UPtr/Model`. -/

namespace Nanostl.UPtr.Types
open Nanostl.Traits

/-- `unique_ptr<elem, del>` (nanomemory.h:393-398) or, if `isArr`, `unique_ptr<elem[], del>` (605-610). `ptrMem`: the member type `pointer` of the
deleter, looked for behind a reference (126-136). -/
structure UPT where
  elem : Ty
  isArr : Bool
  del : Ty
  ptrMem : Option Ty
  deriving DecidableEq, Repr

/-- `pointer` (nanomemory.h:127-136, 398, 610). -/
def UPT.pointer (u : UPT) : Ty := u.ptrMem.getD (.ptr {} u.elem)

/-- The first template argument. -/
def UPT.arg (u : UPT) : Ty := if u.isArr then .arr u.elem none else u.elem

/-- `_EnableIfDeleterDefaultConstructible` (nanomemory.h:422-426, 641-645). -/
def deleterDefault (L : Lang) (d : Ty) : Bool := is_default_constructible L d = some true && !is_pointer d

/-- `_EnableIfDeleterConstructible` (nanomemory.h:428-430, 647-649). -/
def deleterFrom (L : Lang) (d a : Ty) : Bool := is_constructible L d [a] = some true

/-- `__lval_ref_type` (nanomemory.h:192-212). -/
def lvalRef : Ty → Ty
  | .lref x => .lref x
  | d => .lref (addConst d)

/-- `__good_rval_ref_type`, or for a reference `__bad_rval_ref_type` (nanomemory.h:192-212). -/
def rvalRef : Ty → Ty
  | .lref x => .rref x
  | d => .rref d

/-- What overload resolution makes of the deleter argument: the constructor that copies it (or refers to it), that moves it, a deleted one, none. -/
inductive Sel where
  | copy | move | deleted | none
  deriving DecidableEq, Repr

/-- The constructors from a pointer and a deleter argument `e` (nanomemory.h:466-487, 694-731). Of two that are viable the one with the rvalue
reference is better, but for functions ([over.ics.rank]/3.2). -/
def selectDel (L : Lang) (d : Ty) (e : Expr) : Sel :=
  let lv := deleterFrom L d (lvalRef d) && L.conv e (lvalRef d)
  let rv := deleterFrom L d (rvalRef d) && L.conv e (rvalRef d)
  if rv && !(lv && isFnTy (remove_reference d)) then (if is_reference d then .deleted else .move)
  else if lv then .copy else .none

/-- `unique_ptr()` and `unique_ptr(nullptr)` (nanomemory.h:449-457, 677-685). -/
def canDefault (L : Lang) (u : UPT) : Bool := deleterDefault L u.del

/-- `_CheckArrayPointerConversion` (nanomemory.h:615-625). -/
def checkArr (L : Lang) (u : UPT) : Ty → Bool
  | .ptr ⟨false, false⟩ f => is_same (.ptr {} f) u.pointer ||
    (is_same u.pointer (.ptr {} u.elem) && is_convertible L (.ptr {} (.arr f none)) (.ptr {} (.arr u.elem none)))
  | f => is_same f u.pointer

/-- `unique_ptr(p)` where `p` is a prvalue of type `p` (nanomemory.h:466-467, the constraint commented out at 460-464; 687-692). -/
def canFromPtr (L : Lang) (u : UPT) (p : Ty) : Bool :=
  if u.isArr then deleterDefault L u.del && checkArr L u p else L.conv ⟨.pr, p⟩ u.pointer

/-- The deleter of a `unique_ptr(p)` has a value: `__compressed_pair_elem(__default_init_tag)` (nanomemory.h:227, 266-267) leaves scalars as they
are. -/
def deleterHasValue (u : UPT) : Bool :=
  match u.del with
  | .base _ (.cls _) => true
  | .base _ (.union _) => true
  | _ => false

/-- `reset(p)` (nanomemory.h:591-597, 812-822). -/
def canReset (L : Lang) (u : UPT) (p : Ty) : Bool := if u.isArr then checkArr L u p else L.conv ⟨.pr, p⟩ u.pointer

/-- `_EnableIfMoveConvertible` (nanomemory.h:432-436, 656-663). -/
def moveConvertible (L : Lang) (u v : UPT) : Bool :=
  if u.isArr then is_array v.arg && is_same u.pointer (.ptr {} u.elem) && is_same v.pointer (.ptr {} v.elem) &&
    is_convertible L (.ptr {} (.arr v.elem none)) (.ptr {} (.arr u.elem none))
  else is_convertible L v.pointer u.pointer && !is_array v.arg

/-- `_EnableIfDeleterConvertible` (nanomemory.h:438-442, 665-669). -/
def deleterConvertible (L : Lang) (d e : Ty) : Bool :=
  (is_reference d && is_same d e) || (!is_reference d && is_convertible L e d)

/-- The converting move constructor (nanomemory.h:494-500, 745-752). -/
def canMove (L : Lang) (u v : UPT) : Bool := moveConvertible L u v && deleterConvertible L u.del v.del

/-- The converting move assignment (nanomemory.h:520-529, 754-763), `_EnableIfDeleterAssignable` (444-447, 671-674). -/
def canAssign (L : Lang) (u v : UPT) : Bool := moveConvertible L u v && is_assignable L (mkLref u.del) (mkRref v.del)

/-- The converting constructors of `default_delete` (nanomemory.h:150-154, 168-178). -/
def defaultDeleteFrom (L : Lang) (u : Ty) (uArr : Bool) (v : Ty) (vArr : Bool) : Bool :=
  match uArr, vArr with
  | false, false => is_convertible L (.ptr {} v) (.ptr {} u)
  | true, true => is_convertible L (.ptr {} (.arr v none)) (.ptr {} (.arr u none))
  | _, _ => false

end Nanostl.UPtr.Types

/-! Type traits (nanotype_traits.h). C++ types are trees; a trait is a function on them, written as the header writes it: one equation per
partial specialisation, the most special one first. What the language itself does (adding qualifiers, collapsing references, whether a type
can be referred to) is in the first section; it is not code of the header and is part of the trusted base.

Traits that ask the compiler about expressions (`is_constructible`, `is_assignable`, `is_convertible`, `common_type`) are in `Init`,
swappability in `Swap`. Not modelled: traits that are a compiler's intrinsic (`is_abstract`, `is_final`, trivial constructors). Objective C qualifiers and blocks are left out. -/

namespace Nanostl.Traits

/-! ### Types of the language -/

/-- Fundamental types; `nullptr` is the type of the language's null pointer constant. `i128`, `u128` stand for the extended integer types a compiler may have. -/
inductive Fund where
  | void | nullptr | bool | char | schar | uchar | wchar | char8 | char16 | char32
  | short | ushort | int | uint | long | ulong | llong | ullong | i128 | u128 | float | double | ldouble
  deriving DecidableEq, Repr

/-- Types without a structure: fundamental ones, and classes, unions, enumerations by their names. -/
inductive Base where
  | fund (f : Fund) | cls (n : Nat) | union (n : Nat) | enum (n : Nat)
  deriving DecidableEq, Repr

/-- `const` and `volatile`. -/
structure CV where
  c : Bool := false
  v : Bool := false
  deriving DecidableEq, Repr

mutual
/-- Types. Qualifiers sit at the nodes that can carry them: an array is qualified by its elements ([basic.type.qualifier]), references and
functions not at all. A function type with its own qualifiers (`int () const`) has `q = true`. -/
inductive Ty where
  | base (q : CV) (b : Base)
  | ptr (q : CV) (t : Ty)
  | mem (q : CV) (t : Ty) (cls : Nat)
  | arr (t : Ty) (n : Option Nat)
  | fn (q : Bool) (ret : Ty) (params : Tys)
  | lref (t : Ty)
  | rref (t : Ty)
  deriving DecidableEq, Repr
/-- Parameter lists. -/
inductive Tys where
  | nil
  | cons (t : Ty) (r : Tys)
  deriving DecidableEq, Repr
end

/-- `T const`, where `T` may be any type. -/
def addConst : Ty → Ty
  | .base q b => .base { q with c := true } b
  | .ptr q t => .ptr { q with c := true } t
  | .mem q t n => .mem { q with c := true } t n
  | .arr t n => .arr (addConst t) n
  | t => t

/-- `T volatile`. -/
def addVolatile : Ty → Ty
  | .base q b => .base { q with v := true } b
  | .ptr q t => .ptr { q with v := true } t
  | .mem q t n => .mem { q with v := true } t n
  | .arr t n => .arr (addVolatile t) n
  | t => t

/-- The `U` with `U const` equal to the type, if the type matches `U const`. -/
def matchConst : Ty → Option Ty
  | .base q b => if q.c then some (.base { q with c := false } b) else none
  | .ptr q t => if q.c then some (.ptr { q with c := false } t) else none
  | .mem q t n => if q.c then some (.mem { q with c := false } t n) else none
  | .arr t n => (matchConst t).map (.arr · n)
  | _ => none

/-- The same for `U volatile`. -/
def matchVolatile : Ty → Option Ty
  | .base q b => if q.v then some (.base { q with v := false } b) else none
  | .ptr q t => if q.v then some (.ptr { q with v := false } t) else none
  | .mem q t n => if q.v then some (.mem { q with v := false } t n) else none
  | .arr t n => (matchVolatile t).map (.arr · n)
  | _ => none

/-- `T &`: reference collapsing ([dcl.ref]/6). -/
def mkLref : Ty → Ty
  | .lref t => .lref t
  | .rref t => .lref t
  | t => .lref t

/-- `T &&`. -/
def mkRref : Ty → Ty
  | .lref t => .lref t
  | .rref t => .rref t
  | t => .rref t

def isVoidTy : Ty → Bool
  | .base _ (.fund .void) => true
  | _ => false

/-- Whether `T &` can be written ([defns.referenceable]): not for void and not for functions with qualifiers of their own. -/
def canRef : Ty → Bool
  | .base _ (.fund .void) => false
  | .fn q _ _ => !q
  | _ => true

/-- What the platform and the program decide: signedness of `char` and `wchar_t`, the widths, and for a class whether it is final, has no
members, has a usable destructor, and the same for a union's destructor. -/
structure Env where
  charSigned : Bool
  wcharSigned : Bool
  width : Fund → Nat
  width_pos : ∀ f, 1 < width f
  clsFinal : Nat → Bool
  clsEmpty : Nat → Bool
  clsDtor : Nat → Bool
  unionDtor : Nat → Bool

/-- Integer types whose values are signed. -/
def Fund.signed (e : Env) : Fund → Bool
  | .char => e.charSigned
  | .wchar => e.wcharSigned
  | .schar | .short | .int | .long | .llong | .i128 => true
  | _ => false

/-- The value of `T(v)` for an integer type ([conv.integral], [conv.bool]). -/
def Fund.cast (e : Env) (f : Fund) (v : Int) : Int :=
  if f = .bool then (if v = 0 then 0 else 1)
  else if f.signed e then Int.bmod v (2 ^ e.width f)
  else v % (2 ^ e.width f : Nat)

/-! ### The header -/

/-- `remove_const` (nanotype_traits.h:91-92). -/
def remove_const (t : Ty) : Ty := (matchConst t).getD t

/-- `remove_volatile` (nanotype_traits.h:94-95). -/
def remove_volatile (t : Ty) : Ty := (matchVolatile t).getD t

/-- `remove_cv` (nanotype_traits.h:98-99). -/
def remove_cv (t : Ty) : Ty := remove_volatile (remove_const t)

/-- `is_same` (nanotype_traits.h:123-124). -/
def is_same (t u : Ty) : Bool := decide (t = u)

def tyVoid : Ty := .base {} (.fund .void)

/-- `is_void` (nanotype_traits.h:126-127). -/
def is_void (t : Ty) : Bool := is_same (remove_cv t) tyVoid

/-- `is_array` (nanotype_traits.h:137-142). -/
def is_array : Ty → Bool
  | .arr _ none => true
  | .arr _ (some _) => true
  | _ => false

/-- `remove_extent` (nanotype_traits.h:147-152). -/
def remove_extent : Ty → Ty
  | .arr t none => t
  | .arr t (some _) => t
  | t => t

/-- `__libcpp_is_integral` (nanocstddef.h:32-52): the specialisations that are not commented out. -/
def libcpp_is_integral : Ty → Bool
  | .base ⟨false, false⟩ (.fund f) =>
    match f with
    | .bool | .char | .schar | .uchar | .wchar | .short | .ushort | .int | .uint | .long | .ulong | .llong | .ullong => true
    | _ => false
  | _ => false

/-- `is_integral` (nanotype_traits.h:161-162). -/
def is_integral (t : Ty) : Bool := libcpp_is_integral (remove_cv t)

/-- `__libcpp_is_floating_point` (nanotype_traits.h:166-169). -/
def libcpp_is_floating_point : Ty → Bool
  | .base ⟨false, false⟩ (.fund f) =>
    match f with
    | .float | .double | .ldouble => true
    | _ => false
  | _ => false

/-- `is_floating_point` (nanotype_traits.h:171-172). -/
def is_floating_point (t : Ty) : Bool := libcpp_is_floating_point (remove_cv t)

/-- `is_arithmetic` (nanotype_traits.h:174-176). -/
def is_arithmetic (t : Ty) : Bool := is_integral t || is_floating_point t

/-- The expressions `_Tp(-1) < _Tp(0)` and `_Tp(0) < _Tp(-1)`; the operands are promoted, which keeps their values. Only integral types are
asked. -/
def castLt (e : Env) (t : Ty) (a b : Int) : Bool :=
  match t with
  | .base _ (.fund f) => decide (f.cast e a < f.cast e b)
  | _ => false

/-- `is_signed` (nanotype_traits.h:187-198). -/
def is_signed (e : Env) (t : Ty) : Bool :=
  if is_arithmetic t then (if is_integral t then castLt e t (-1) 0 else true) else false

/-- `is_unsigned` (nanotype_traits.h:201-212). -/
def is_unsigned (e : Env) (t : Ty) : Bool :=
  if is_arithmetic t then (if is_integral t then castLt e t 0 (-1) else false) else false

/-- `remove_reference` (nanotype_traits.h:332-334). -/
def remove_reference : Ty → Ty
  | .lref t => t
  | .rref t => t
  | t => t

/-- `is_lvalue_reference` (nanotype_traits.h:350-351). -/
def is_lvalue_reference : Ty → Bool
  | .lref _ => true
  | _ => false

/-- `is_rvalue_reference` (nanotype_traits.h:353-354). -/
def is_rvalue_reference : Ty → Bool
  | .rref _ => true
  | _ => false

/-- `is_reference` (nanotype_traits.h:356-358). -/
def is_reference : Ty → Bool
  | .lref _ => true
  | .rref _ => true
  | _ => false

/-- `__uncvref` (nanotype_traits.h:362-365). -/
def uncvref (t : Ty) : Ty := remove_cv (remove_reference t)

/-- `is_const` (nanotype_traits.h:381-382). -/
def is_const (t : Ty) : Bool := (matchConst t).isSome

/-- `__is_referenceable` (nanotype_traits.h:399-406): overload resolution picks the first `__test` exactly if `_Tp&` can be written; its
result is then no `__two`, being a reference. -/
def is_referenceable (t : Ty) : Bool := canRef t

/-- `add_pointer` (nanotype_traits.h:410-419). -/
def add_pointer (t : Ty) : Ty :=
  if is_referenceable t || is_same (remove_cv t) tyVoid then .ptr {} (remove_reference t) else t

/-- `is_function` (nanotype_traits.h:428-431). -/
def is_function (t : Ty) : Bool := !(is_reference t || is_const (addConst t))

/-- `decay` (nanotype_traits.h:436-463). -/
def decay (t : Ty) : Ty :=
  let u := remove_reference t
  if is_referenceable u then
    if is_array u then .ptr {} (remove_extent u)
    else if is_function u then add_pointer u else remove_cv u
  else remove_cv u

/-- `remove_all_extents` (nanotype_traits.h:634-639). -/
def remove_all_extents : Ty → Ty
  | .arr t none => remove_all_extents t
  | .arr t (some _) => remove_all_extents t
  | t => t

/-- `__is_destructor_wellformed` (nanotype_traits.h:658-669): whether `declval<T&>().~T()` can be written. Asked for types that are no
references, functions or arrays: a pseudo destructor for scalar types ([expr.prim.id.dtor]), a usable one for classes and unions. -/
def is_destructor_wellformed (e : Env) : Ty → Bool
  | .base _ (.fund .void) => false
  | .base _ (.fund _) => true
  | .base _ (.cls n) => e.clsDtor n
  | .base _ (.union n) => e.unionDtor n
  | .base _ (.enum _) => true
  | .ptr .. => true
  | .mem .. => true
  | _ => false

/-- `is_destructible` (nanotype_traits.h:671-702): the specialisations for `T[]` and `void`, then the general one. -/
def is_destructible (e : Env) : Ty → Bool
  | .arr _ none => false
  | .base ⟨false, false⟩ (.fund .void) => false
  | t => if is_function t then false else if is_reference t then true else is_destructor_wellformed e (remove_all_extents t)

/-- `is_union` (nanotype_traits.h:795-797): there is no specialisation of `__libcpp_union`. -/
def is_union (_t : Ty) : Bool := false

/-- `__is_class_imp::__test(int _Tp::*)` (nanotype_traits.h:801-805): viable for classes and unions. -/
def class_test : Ty → Bool
  | .base _ (.cls _) => true
  | .base _ (.union _) => true
  | _ => false

/-- `is_class` (nanotype_traits.h:807-808). -/
def is_class (t : Ty) : Bool := class_test t && !is_union t

/-- `is_empty` (nanotype_traits.h:814-831). `__is_empty1<_Tp>` derives from `_Tp`; for a final class or a union that is ill-formed and no
substitution failure: `none`. Otherwise the sizes are equal exactly if the base is empty. -/
def is_empty (e : Env) (t : Ty) : Option Bool :=
  if is_class t then
    match t with
    | .base _ (.cls n) => if e.clsFinal n then none else some (e.clsEmpty n)
    | _ => none
  else some false

/-- `add_lvalue_reference` (nanotype_traits.h:935-939). -/
def add_lvalue_reference (t : Ty) : Ty := if is_referenceable t then mkLref t else t

/-- `add_rvalue_reference` (nanotype_traits.h:947-951). -/
def add_rvalue_reference (t : Ty) : Ty := if is_referenceable t then mkRref t else t

/-- `nanostl::nullptr_t` (__nullptr:17-38) is a class of its own, not the type of the language's null pointer constant; it has name 0. -/
def tyNullptr : Ty := .base {} (.cls 0)

/-- `__is_nullptr_t` (nanotype_traits.h:1278-1282). -/
def is_nullptr_t (t : Ty) : Bool :=
  is_same (remove_cv t) tyNullptr

/-- `is_member_function_pointer` (nanotype_traits.h:1298-1314). -/
def is_member_function_pointer (t : Ty) : Bool :=
  match remove_cv t with
  | .mem ⟨false, false⟩ u _ => is_function u
  | _ => false

/-- `is_member_pointer` (nanotype_traits.h:1319-1320). -/
def is_member_pointer (t : Ty) : Bool :=
  match remove_cv t with
  | .mem ⟨false, false⟩ _ _ => true
  | _ => false

/-- `is_pointer` (nanotype_traits.h:1324-1336). -/
def is_pointer (t : Ty) : Bool :=
  match remove_cv t with
  | .ptr ⟨false, false⟩ _ => true
  | _ => false

/-- `is_enum` (nanotype_traits.h:1342-1352). -/
def is_enum (t : Ty) : Bool :=
  !is_void t && !is_integral t && !is_floating_point t && !is_array t && !is_pointer t && !is_reference t && !is_member_pointer t &&
    !is_union t && !is_class t && !is_function t

/-- `is_scalar` (nanotype_traits.h:1357-1371). -/
def is_scalar (t : Ty) : Bool :=
  if t = tyNullptr then true
  else is_arithmetic t || is_member_pointer t || is_pointer t || is_nullptr_t t || is_enum t

/-- `is_object` (nanotype_traits.h:1376-1380). -/
def is_object (t : Ty) : Bool := is_scalar t || is_array t || is_union t || is_class t

end Nanostl.Traits

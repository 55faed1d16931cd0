import Verif.Traits.Model

/-! Traits that ask the compiler whether an expression can be written (nanotype_traits.h:469-630, 705-1030) and the functions of nanoutility.h that
only change the value category of an expression. What the compiler answers about constructors, conversions, assignments and `noexcept` of the
program's types is the parameter `Lang`; the header's part, how it asks and what it makes of the answers, is modelled. Types are complete.
Parenthesised initialisation of aggregates (C++20) is left out. -/

namespace Nanostl.Traits

/-! ### Expressions of the language -/

inductive VC where
  | lv | xv | pr
  deriving DecidableEq, Repr

/-- An expression: value category and type; the type is no reference ([expr.type]). -/
structure Expr where
  vc : VC
  ty : Ty
  deriving DecidableEq, Repr

def isFnTy : Ty → Bool
  | .fn .. => true
  | _ => false

/-- A call of a function that returns `t` ([expr.call]). -/
def callOf : Ty → Expr
  | .lref t => ⟨.lv, t⟩
  | .rref t => ⟨if isFnTy t then .lv else .xv, t⟩
  | t => ⟨.pr, t⟩

/-- What the program's types decide. `init t es`: an object of type `t`, neither array nor reference, can be direct-initialised from `es`, its
destructor aside. `conv e t`: a parameter of type `t`, an object or reference, can be copy-initialised from `e`. `bind t e`: a reference
`t` can be direct-initialised, so that explicit conversion functions count. `assign`: `a = b` can be written. `cond`: the type of
`true ? a : b` as `decltype` gives it. The others are `noexcept` of the same. `elides`: since C++17 a prvalue in `decltype` is not destroyed. -/
structure Lang where
  env : Env
  elides : Bool
  init : Ty → List Expr → Bool
  conv : Expr → Ty → Bool
  bind : Ty → Expr → Bool
  assign : Expr → Expr → Bool
  cond : Expr → Expr → Option Ty
  initNo : Ty → List Expr → Bool
  dtorNo : Ty → Bool
  convNo : Expr → Ty → Bool
  assignNo : Expr → Expr → Bool

/-- `T(es...)` as an operand of `decltype`, not with one argument, which would be a cast. -/
def canCast (L : Lang) (t : Ty) (es : List Expr) : Bool :=
  match t with
  | .base _ (.fund .void) => es.isEmpty
  | .arr .. | .fn .. | .lref _ | .rref _ => false
  | t => L.init t es && (L.elides || is_destructor_wellformed L.env t)

/-- `::new T(e)`. -/
def canNew (L : Lang) (t : Ty) (e : Expr) : Bool :=
  match t with
  | .base _ (.fund .void) => false
  | .arr .. | .fn .. | .lref _ | .rref _ => false
  | t => L.init t [e]

/-- `f(e)` where `f` has a parameter of type `t`, which is no array, function or void: the parameter is destroyed by the caller. -/
def canPass (L : Lang) (e : Expr) (t : Ty) : Bool :=
  match t with
  | .lref _ | .rref _ => L.conv e t
  | t => L.conv e t && is_destructor_wellformed L.env t

/-! ### The header -/

/-- `declval` (nanotype_traits.h:469-475): the first `__declval` if `T&&` can be written, else the second, which no function type allows. -/
def declval (t : Ty) : Option Expr :=
  if canRef t then some (callOf (mkRref t)) else if isVoidTy t then some (callOf t) else none

/-- `__is_array_function_or_void` (nanotype_traits.h:579-585). -/
def array_function_or_void (t : Ty) : Nat :=
  match is_array t, is_function t, is_void t with
  | true, false, false => 1
  | false, true, false => 2
  | false, false, true => 3
  | _, _, _ => 0

/-- `__is_convertible_test` (nanotype_traits.h:571-577). -/
def convertible_test (L : Lang) (f t : Ty) : Bool :=
  match declval f with
  | none => false
  | some e => canPass L e t

/-- `is_convertible` (nanotype_traits.h:601-630). The completeness checks are left out. -/
def is_convertible (L : Lang) (f t : Ty) : Bool :=
  match array_function_or_void f, array_function_or_void t with
  | _, 1 => false
  | _, 2 => false
  | 3, 3 => true
  | _, 3 => false
  | _, _ => convertible_test L f t

/-- `is_constructible` (nanotype_traits.h:755-785). `ref_test` (768-771, 779-780) is outside of any substitution: an argument that cannot be passed
to `...`, void, makes the program ill-formed: `none`. -/
def is_constructible (L : Lang) (t : Ty) (as : List Ty) : Option Bool :=
  match as with
  | [] => if isVoidTy t then some false else some (canCast L t [])
  | [a] =>
    if is_reference t then
      match declval a with
      | none => none
      | some e => if isVoidTy e.ty then none else some (L.conv e t)
    else some (is_destructible L.env t && match declval a with
      | none => false
      | some e => canNew L t e)
  | as => match as.mapM declval with
    | none => some false
    | some es => some (canCast L t es)

/-- `is_default_constructible` (nanotype_traits.h:710-713). -/
def is_default_constructible (L : Lang) (t : Ty) : Option Bool := is_constructible L t []

/-- `is_copy_constructible` (nanotype_traits.h:965-968). -/
def is_copy_constructible (L : Lang) (t : Ty) : Option Bool := is_constructible L t [add_lvalue_reference (addConst t)]

/-- `is_move_constructible` (nanotype_traits.h:977-980). -/
def is_move_constructible (L : Lang) (t : Ty) : Option Bool := is_constructible L t [add_rvalue_reference t]

/-- `is_assignable` (nanotype_traits.h:836-859). -/
def is_assignable (L : Lang) (t a : Ty) : Bool :=
  if is_void t || is_void a then false
  else match declval t, declval a with
    | some x, some y => L.assign x y
    | _, _ => false

/-- `is_copy_assignable` (nanotype_traits.h:985-987). -/
def is_copy_assignable (L : Lang) (t : Ty) : Bool := is_assignable L (add_lvalue_reference t) (add_lvalue_reference (addConst t))

/-- `is_move_assignable` (nanotype_traits.h:997-999). -/
def is_move_assignable (L : Lang) (t : Ty) : Bool := is_assignable L (add_lvalue_reference t) (add_rvalue_reference t)

/-- `__libcpp_is_nothrow_constructible` (nanotype_traits.h:869-890). With a reference and not one argument there is no definition. -/
def nothrow_constructible_imp (L : Lang) (t : Ty) (as : List Ty) : Option Bool :=
  match is_constructible L t as with
  | none => none
  | some false => some false
  | some true =>
    if is_reference t then
      match as with
      | [a] => (declval a).map fun e => L.convNo e t
      | _ => none
    else (as.mapM declval).map fun es => L.initNo t es && L.dtorNo t

/-- `is_nothrow_constructible` (nanotype_traits.h:892-902). -/
def is_nothrow_constructible (L : Lang) (t : Ty) (as : List Ty) : Option Bool :=
  match t, as with
  | .arr u (some _), [] => nothrow_constructible_imp L u []
  | t, as => nothrow_constructible_imp L t as

/-- `is_nothrow_move_constructible` (nanotype_traits.h:1015-1018). -/
def is_nothrow_move_constructible (L : Lang) (t : Ty) : Option Bool := is_nothrow_constructible L t [add_rvalue_reference t]

/-- `is_nothrow_copy_constructible` (nanotype_traits.h:1004-1007). -/
def is_nothrow_copy_constructible (L : Lang) (t : Ty) : Option Bool := is_nothrow_constructible L t [add_lvalue_reference (addConst t)]

/-- `is_nothrow_assignable` (nanotype_traits.h:911-930). -/
def is_nothrow_assignable (L : Lang) (t a : Ty) : Bool :=
  if is_assignable L t a then
    match declval t, declval a with
    | some x, some y => L.assignNo x y
    | _, _ => false
  else false

/-- `__common_type2_imp` (nanotype_traits.h:487-500). -/
def common_type2_imp (L : Lang) (t u : Ty) : Option Ty :=
  match declval t, declval u with
  | some x, some y => (L.cond x y).map decay
  | _, _ => none

/-- `common_type<T, U>` (nanotype_traits.h:541-548). It names itself with the decayed types; `fuel` is the depth of instantiation the compiler
allows. -/
def common_type2 (L : Lang) : Nat → Ty → Ty → Option Ty
  | 0, _, _ => none
  | fuel + 1, t, u =>
    if is_same t (decay t) && is_same u (decay u) then common_type2_imp L t u else common_type2 L fuel (decay t) (decay u)

/-- `__common_type_impl` (nanotype_traits.h:514-527). -/
def common_type_impl (L : Lang) (fuel : Nat) : List Ty → Option Ty
  | [t, u] => common_type2 L fuel t u
  | t :: u :: v :: r => match common_type2 L fuel t u with
    | none => none
    | some c => common_type_impl L fuel (c :: v :: r)
  | _ => none
  termination_by l => l.length

/-- `common_type` (nanotype_traits.h:530-558). -/
def common_type (L : Lang) (fuel : Nat) : List Ty → Option Ty
  | [] => none
  | [t] => common_type2 L fuel t t
  | [t, u] => common_type2 L fuel t u
  | l => common_type_impl L fuel l

/-! ### nanoutility.h -/

/-- The argument of a parameter `T&&` deduced from `e` ([temp.deduct.call]). -/
def deduce (e : Expr) : Ty := if e.vc = .lv then .lref e.ty else e.ty

/-- The name of a parameter of type `T&&` ([expr.prim.id]). -/
def named (t : Ty) : Expr := ⟨.lv, remove_reference t⟩

/-- `move` (nanotype_traits.h:338-345). -/
def move (e : Expr) : Expr := callOf (mkRref (remove_reference (deduce e)))

/-- `forward<T>(e)` where `e` has the type `T` refers to (nanoutility.h:112-123): the first overload takes lvalues, the second rvalues. `none`: the
assertion fails. -/
def forward (t : Ty) (e : Expr) : Option Expr :=
  if e.vc = .lv then some (callOf (mkRref t))
  else if is_lvalue_reference t then none else some (callOf (mkRref t))

/-- `move_if_noexcept` of an lvalue of type `t` (nanoutility.h:93-107). -/
def move_if_noexcept (L : Lang) (t : Ty) : Option Expr :=
  match is_nothrow_move_constructible L t, is_copy_constructible L t with
  | some n, some c => some (callOf (if !n && c then mkLref (addConst t) else mkRref t))
  | _, _ => none

/-- `__decay_copy` (nanoutility.h:125-132): the call, if its return statement can be written. -/
def decay_copy (L : Lang) (e : Expr) : Option Expr :=
  match forward (deduce e) (named (mkRref (deduce e))) with
  | none => none
  | some x => if canPass L x (decay (deduce e)) then some (callOf (decay (deduce e))) else none

end Nanostl.Traits

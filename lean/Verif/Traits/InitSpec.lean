import Verif.Traits.Spec
import Verif.Traits.Init

/-! What the traits of `Init` are to say, in the standard's words: whether a variable definition, a return statement or an assignment can be
written, given what the compiler knows about the program's types (`Lang`). -/

namespace Nanostl.Traits.Spec
open Nanostl.Traits

/-- `std::declval<T>()` ([declval]). -/
def valueOf : Ty → Option Expr
  | .lref t => some ⟨.lv, t⟩
  | .rref t => some ⟨if cat t = .function then .lv else .xv, t⟩
  | .fn true _ _ => none
  | .fn false r a => some ⟨.lv, .fn false r a⟩
  | .base q (.fund .void) => some ⟨.pr, .base q (.fund .void)⟩
  | t => some ⟨.xv, t⟩

/-- The variable definition `T t(es...);` ([meta.unary.prop]/9). Arrays are initialised and destroyed element by element. -/
def defines (L : Lang) : Ty → List Expr → Bool
  | .lref t, [e] => cat e.ty ≠ .void && L.bind (.lref t) e
  | .rref t, [e] => cat e.ty ≠ .void && L.bind (.rref t) e
  | .lref _, _ => false
  | .rref _, _ => false
  | .fn .., _ => false
  | .arr _ none, _ => false
  | .arr t (some _), es => es.isEmpty && defines L t []
  | .base _ (.fund .void), _ => false
  | t, es => L.init t es && destructible L.env t

/-- The same definition, and nothing in it can throw. -/
def definesNo (L : Lang) : Ty → List Expr → Bool
  | .lref t, [e] => cat e.ty ≠ .void && L.bind (.lref t) e && L.convNo e (.lref t)
  | .rref t, [e] => cat e.ty ≠ .void && L.bind (.rref t) e && L.convNo e (.rref t)
  | .lref _, _ => false
  | .rref _, _ => false
  | .fn .., _ => false
  | .arr _ none, _ => false
  | .arr t (some _), es => es.isEmpty && definesNo L t []
  | .base _ (.fund .void), _ => false
  | t, es => L.init t es && destructible L.env t && L.initNo t es && L.dtorNo t

/-- `std::is_constructible<T, As...>`. -/
def constructible (L : Lang) (t : Ty) (as : List Ty) : Bool :=
  match as.mapM valueOf with
  | none => false
  | some es => defines L t es

/-- `std::is_nothrow_constructible<T, As...>`. -/
def nothrowConstructible (L : Lang) (t : Ty) (as : List Ty) : Bool :=
  match as.mapM valueOf with
  | none => false
  | some es => definesNo L t es

/-- The function `To test() { return declval<From>(); }` ([meta.rel]/5). -/
def convertible (L : Lang) (f t : Ty) : Bool :=
  if cat t = .array ∨ cat t = .function then false
  else if cat t = .void then decide (cat f = .void)
  else match valueOf f with
    | none => false
    | some e => L.conv e t && destructible L.env t

/-- `declval<T>() = declval<A>()` ([meta.unary.prop]). -/
def assignable (L : Lang) (t a : Ty) : Bool :=
  match valueOf t, valueOf a with
  | some x, some y => cat x.ty ≠ .void && cat y.ty ≠ .void && L.assign x y
  | _, _ => false

/-- A type other than void and functions with qualifiers of their own ([defns.referenceable]). -/
def referenceable (t : Ty) : Bool := cat t ≠ .void && (match t with | .fn true _ _ => false | _ => true)

/-- `std::common_type` of two types ([meta.trans.other]/3.3): the conditional operator on decayed operands. -/
def common2 (L : Lang) (t u : Ty) : Option Ty :=
  match valueOf (Spec.decay t), valueOf (Spec.decay u) with
  | some x, some y => (L.cond x y).map Spec.decay
  | _, _ => none

/-- `std::common_type`: of one type with itself, of more from left to right. -/
def common (L : Lang) : List Ty → Option Ty
  | [] => none
  | [t] => common2 L t t
  | t :: u :: r => (common2 L t u).bind fun c => r.foldlM (common2 L) c

/-- The argument as an rvalue: what `std::move` makes of it; a function has no rvalues. -/
def asRvalue (e : Expr) : Expr := ⟨if cat e.ty = .function then .lv else .xv, e.ty⟩

/-- The argument with its category, as `std::forward` hands it on: rvalues are seen through a reference. -/
def forwarded (e : Expr) : Expr := if e.vc = .lv then e else asRvalue e

end Nanostl.Traits.Spec

import Verif.Traits.Wrap

/-! How the constructors of `optional`, `expected` and `unexpected_type` make the object they hold out of their argument: the explicit ones with braces, the others
not (optional.hpp:778-806, 1004-1159; expected.hpp:473-508, 616-624, 840-1020, 1173-1178, 1387-1572, 1950-1994). Which constructor is called is in `Wrap`. -/

namespace Nanostl.Traits.Wrap

/-- What braces add to the language ([over.match.list], [dcl.init.list]/3): `list t e`: a constructor of `t` from an `initializer_list` is viable for `{ e }`,
and so is taken before all others. `narrows t e`: none is, and the constructor or conversion taken by `t{ e }` narrows `e`, which is an error. -/
structure Braces where
  list : Ty → Expr → Bool
  narrows : Ty → Expr → Bool

/-- How the object is made: as by `T( a )`, as a list of one element, or not at all, since the body does not compile. -/
inductive Made where
  | paren | list | bad
  deriving DecidableEq, Repr

/-- `T( a )`. -/
def direct (L : Lang) (t a : Ty) : Made := if ctor L t a then .paren else .bad

/-- `T{ a }`. -/
def braced (L : Lang) (B : Braces) (t a : Ty) : Made :=
  match declval a with
  | none => .bad
  | some e => if B.list t e then .list else if ctor L t a && !B.narrows t e then .paren else .bad

/-- `construct_value( T{ a } )`: from the temporary the object is moved (optional.hpp:790-793; expected.hpp:478-481, 505-508, 621-624). -/
def bracedMoved (L : Lang) (B : Braces) (t a : Ty) : Made := if ctor L t (.rref t) then braced L B t a else .bad

/-- `construct_value( a )`, overloaded for `value_type const &` and `value_type &&` (optional.hpp:778-793; expected.hpp:473-481, and for errors 500-508, 616-624): an argument of type `T` is copied or
moved; any other is converted to a `T` first, which is then moved. -/
def place (L : Lang) (t a : Ty) : Made :=
  if uncvref a = t then direct L t (if a = .rref t then .rref t else .lref (addConst t))
  else if is_convertible L a t && ctor L t (.rref t) then .paren else .bad

/-! ### optional -/

/-- `optional<T>` made from an `optional<U>` that has a value (4a to 5b, 8a and 8b; optional.hpp:1004-1106, 1130-1159). `none`: no constructor can be called. -/
def optMade (L : Lang) (B : Braces) (t u self : Ty) (d : Bool) (s : Src) : Option Made :=
  match optFrom L t u self d s with
  | .copy => some (if optCopy L t u s.base false then place L t (.lref (addConst u)) else bracedMoved L B t (.lref (addConst u)))
  | .move => some (if optMove L t u s.base false then place L t (.rref u) else bracedMoved L B t (.rref u))
  | .value => some (direct L t s.fwd)
  | .valueConst | .none => none

/-! ### expected -/

/-- `expected<T, E>` made from a value that is no `expected` and no `unexpected_type` (expected.hpp:1486-1522). -/
def expMadeValue (L : Lang) (B : Braces) (t self unx : Ty) (d : Bool) (s : Src) : Option Made :=
  if expValue L t self unx s false then some (place L t s.fwd)
  else if d && expValue L t self unx s true then some (bracedMoved L B t s.fwd)
  else none

/-- `expected<T, E>` made from an `expected<U, G>` (expected.hpp:1387-1473), where `T` and `U` have nothing to do with each other's wrappers: the value if there is one, and the
error if not. -/
def expMade (L : Lang) (B : Braces) (t e u g self unx : Ty) (d : Bool) (s : Src) : Option (Made × Made) :=
  match expFrom L t e u g self unx d s with
  | .copy => some (if expCopy L t e u g s.base false then (place L t (.lref (addConst u)), place L e (.lref (addConst g)))
      else (bracedMoved L B t (.lref (addConst u)), bracedMoved L B e (.lref (addConst g))))
  | .move => some (if expMove L t e u g s.base false then (place L t (.rref u), place L e (.rref g))
      else (bracedMoved L B t (.rref u), bracedMoved L B e (.rref g)))
  | .value | .valueConst | .none => none

/-- The error of an `expected<T, E>` made from an `unexpected_type<G>` (expected.hpp:1526-1572). -/
def expMadeError (L : Lang) (B : Braces) (t e g self unx : Ty) (d : Bool) (s : Src) : Option Made :=
  match expFromUnexpected L t e g self unx d s with
  | .copy => some (if expErrCopy L e g false then place L e (.lref (addConst g)) else bracedMoved L B e (.lref (addConst g)))
  | .move => some (if expErrMove L e g false then place L e (.rref g) else bracedMoved L B e (.rref g))
  | .value | .valueConst | .none => none

/-- The same for `expected<void, E>` (expected.hpp:1950-1994): the constructors ask only whether the conversion is implicit. There is none from a value. -/
def voidMadeError (L : Lang) (B : Braces) (e g : Ty) (d : Bool) (s : Src) : Option Made :=
  let cp := is_convertible L (.lref (addConst g)) e
  let mv := is_convertible L (.rref g) e
  match resolve s (cp || d) (mv || d) false with
  | .copy => some (if cp then place L e (.lref (addConst g)) else bracedMoved L B e (.lref (addConst g)))
  | .move => some (if mv then place L e (.rref g) else bracedMoved L B e (.rref g))
  | .value | .valueConst | .none => none

/-! ### unexpected_type -/

/-- `E2` of the parameter `E2 &&`. -/
def Src.deduced (s : Src) : Ty := if s.lv then .lref s.ty else s.ty

/-- The constructor from `E2 &&`, explicit (expected.hpp:874-884); `self`: the class `unexpected_type<E>`. -/
def unxValue (L : Lang) (e self : Ty) (s : Src) : Bool := ctor L e s.deduced && !is_same (uncvref s.deduced) self

/-- The eight conditions that `E` has nothing to do with `unexpected_type<E2>` (expected.hpp:888-895 and three times more). -/
def unxUnrelated (L : Lang) (e x : Ty) : Bool :=
  let c := addConst x
  !ctor L e (.lref x) && !ctor L e x && !ctor L e (.lref c) && !ctor L e c &&
  !is_convertible L (.lref x) e && !is_convertible L x e && !is_convertible L (.lref c) e && !is_convertible L c e

/-- The constructors from `unexpected_type<E2> const &` (expected.hpp:885-901, 903-919). -/
def unxCopy (L : Lang) (e g x : Ty) (expl : Bool) : Bool := ctor L e g && unxUnrelated L e x && (is_convertible L (.lref (addConst g)) e != expl)

/-- The constructors from `unexpected_type<E2> &&` (expected.hpp:921-937, 939-955): the same conditions. -/
def unxMove (L : Lang) (e g x : Ty) (expl : Bool) : Bool := ctor L e g && unxUnrelated L e x && (is_convertible L (.lref (addConst g)) e != expl)

/-- The constructor of `unexpected_type<E>` called for an `unexpected_type<E2>`, another class. -/
def unxFrom (L : Lang) (e g self : Ty) (d : Bool) (s : Src) : Pick :=
  resolve s (unxCopy L e g s.base false || (d && unxCopy L e g s.base true)) (unxMove L e g s.base false || (d && unxMove L e g s.base true)) (d && unxValue L e self s)

/-- The error made: out of the other's error, or, second, out of the argument as a whole (expected.hpp:882, 900, 918, 936, 954). -/
def unxMade (L : Lang) (B : Braces) (e g self : Ty) (d : Bool) (s : Src) : Option (Made × Bool) :=
  match unxFrom L e g self d s with
  | .copy => some (if unxCopy L e g s.base false then direct L e (.lref (addConst g)) else braced L B e (.lref (addConst g)), false)
  | .move => some (if unxMove L e g s.base false then direct L e (.rref g) else braced L B e (.rref g), false)
  | .value => some (direct L e s.fwd, true)
  | .valueConst | .none => none

/-- The error of an `unexpected_type<E>` made from a value that is no `unexpected_type`. -/
def unxMadeValue (L : Lang) (e self : Ty) (d : Bool) (s : Src) : Option Made := if d && unxValue L e self s then some (direct L e s.fwd) else none

/-- The error of an `unexpected_type<E>` made from another of the same class, by the defaulted constructors (expected.hpp:853-854). A defaulted move that would be
deleted is not declared ([class.copy.ctor]/10); a deleted copy is chosen, before the templates, and refused. The templates have the constraints above with `E2 = E`; they are never better. -/
def unxMadeSelf (L : Lang) (e : Ty) (s : Src) : Option Made :=
  match resolve s (ctor L e (.lref (addConst e))) (ctor L e (.rref e)) false with
  | .copy => some (direct L e (.lref (addConst e)))
  | .move => some (direct L e (.rref e))
  | _ => none

/-- `u = v` for an `unexpected_type<E2>` that is another class and whose error is no `unexpected_type` (expected.hpp:962-974): the templates have no conditions; `unexpected_type{ v.value() }` calls the constructor from a value.
The result is whether the body compiles. A non-const lvalue and a const rvalue go to the overload for `const &`. -/
def unxAssign (L : Lang) (e g self : Ty) (s : Src) : Option Made :=
  match resolve s true true false with
  | .copy => some ((unxMadeValue L e self true ⟨g, true, true⟩).getD .bad)
  | .move => some ((unxMadeValue L e self true ⟨g, false, false⟩).getD .bad)
  | _ => none

/-- `make_unexpected( a )` (expected.hpp:1173-1178): the type of the error, and how it is made. `unx`: the class `unexpected_type<X>` for each `X`. -/
def make_unexpected (L : Lang) (unx : Ty → Ty) (s : Src) : Ty × Made :=
  let e := decay s.deduced
  (e, (unxMadeValue L e (unx e) true s).getD .bad)

end Nanostl.Traits.Wrap

import Verif.Traits.Init

/-! Which constructor or assignment of `optional` and of `expected` is called with an argument that is itself an `optional`, `expected` or `unexpected`
(optional.hpp:1004-1106, 1130-1159, 1214-1321; expected.hpp:1387-1572, 1653-1689): the constraints, and overload resolution between the candidates. What the
calls do is in `Opt/Model` and `Exp/Model`; here only whether the result has a value. -/

namespace Nanostl.Traits.Wrap

/-- An argument: its type without qualifiers, whether it is an lvalue, whether it is const. -/
structure Src where
  base : Ty
  lv : Bool
  const : Bool
  deriving DecidableEq, Repr

def Src.ty (s : Src) : Ty := if s.const then addConst s.base else s.base

def Src.expr (s : Src) : Expr := ⟨if s.lv then .lv else .xv, s.ty⟩

/-- `U&&` for a forwarding reference `U&&` bound to the argument ([temp.deduct.call]/3). -/
def Src.fwd (s : Src) : Ty := if s.lv then .lref s.ty else .rref s.ty

/-- `is_constructible<T, A>::value` in a constraint. -/
def ctor (L : Lang) (t a : Ty) : Bool := is_constructible L t [a] = some true

/-- The eight conditions that `T` has nothing to do with the class `X` (optional.hpp:1008-1015 and five times more, expected.hpp:1391-1398 and three
times more). -/
def unrelated (L : Lang) (t x : Ty) : Bool :=
  let c := addConst x
  !ctor L t (.lref x) && !ctor L t (.rref x) && !ctor L t (.lref c) && !ctor L t (.rref c) &&
  !is_convertible L (.lref x) t && !is_convertible L (.rref x) t && !is_convertible L (.lref c) t && !is_convertible L (.rref c) t

/-- The four conditions more of an assignment (optional.hpp:1283-1286, 1313-1316). -/
def notAssignable (L : Lang) (t x : Ty) : Bool :=
  let c := addConst x
  !is_assignable L (.lref t) (.lref x) && !is_assignable L (.lref t) (.rref x) && !is_assignable L (.lref t) (.lref c) && !is_assignable L (.lref t) (.rref c)

/-- What is called: the constructor (assignment) from `X const &`, from `X &&`, from a value `U &&`, or that from `value_type const &`. -/
inductive Pick where
  | copy | move | value | valueConst | none
  deriving DecidableEq, Repr

/-- Overload resolution between viable templates with parameters `X const &`, `X &&` and `U &&` ([over.ics.rank]/3.2, [temp.func.order]): for an rvalue an
rvalue reference is better than a reference to const; for an lvalue that is not const a reference that adds no const is better; of two
that are as good, the more specialised one. `X &&` binds to rvalues that are not const. -/
def resolve (s : Src) (cp mv fw : Bool) : Pick :=
  if s.lv then
    if s.const then (if cp then .copy else if fw then .value else .none)
    else (if fw then .value else if cp then .copy else .none)
  else
    if s.const then (if fw then .value else if cp then .copy else .none)
    else (if mv then .move else if fw then .value else if cp then .copy else .none)

/-! ### optional -/

/-- 4a and 4b of `optional<T>` from `optional<U> const &` (optional.hpp:1004-1026, 1029-1054); `explicit`. -/
def optCopy (L : Lang) (t u x : Ty) (expl : Bool) : Bool :=
  ctor L t (.lref (addConst u)) && unrelated L t x && (is_convertible L (.lref (addConst u)) t != expl)

/-- 5a and 5b from `optional<U> &&` (optional.hpp:1058-1081, 1083-1106). -/
def optMove (L : Lang) (t u x : Ty) (expl : Bool) : Bool :=
  ctor L t (.rref u) && unrelated L t x && (is_convertible L (.rref u) t != expl)

/-- 8a and 8b from a value (optional.hpp:1131-1138, 1145-1152); `self`: the class `optional<T>`. That `U` is not the type of `in_place`, a reference to a function, holds of every type without a reference. -/
def optValue (L : Lang) (t self : Ty) (s : Src) (expl : Bool) : Bool :=
  ctor L t s.fwd && !is_same (uncvref s.fwd) self && (is_convertible L s.fwd t != expl)

/-- The constructor of `optional<T>` called for an argument of the class `optional<U>`. `direct`: explicit ones count. -/
def optFrom (L : Lang) (t u self : Ty) (direct : Bool) (s : Src) : Pick :=
  resolve s (optCopy L t u s.base false || (direct && optCopy L t u s.base true)) (optMove L t u s.base false || (direct && optMove L t u s.base true))
    (optValue L t self s false || (direct && optValue L t self s true))

/-- 5 of the assignments (optional.hpp:1268-1287). -/
def optAssignCopy (L : Lang) (t u x : Ty) : Bool :=
  ctor L t (.lref (addConst u)) && is_assignable L (.lref t) (.lref (addConst u)) && unrelated L t x && notAssignable L t x

/-- 6 of the assignments (optional.hpp:1299-1317). -/
def optAssignMove (L : Lang) (t u x : Ty) : Bool :=
  ctor L t u && is_assignable L (.lref t) u && unrelated L t x && notAssignable L t x

/-- 4 of the assignments (optional.hpp:1230-1241): `U` is `X&` for an lvalue, `X` for an rvalue, so that `is_constructible<T, U>` asks about the same. -/
def optAssignValue (L : Lang) (t self : Ty) (s : Src) : Bool :=
  let u := if s.lv then .lref s.ty else s.ty
  ctor L t u && is_assignable L (.lref t) u && !is_same (uncvref u) self && !(is_scalar t && is_same t (decay u))

/-- The assignment to an `optional<T>` from an `optional<U>`. `convert`: none of the templates; the argument is converted to an `optional<T>`, which is
then moved from (optional.hpp:1214-1228). -/
inductive Assign where
  | from (p : Pick)
  | convert (p : Pick)
  deriving DecidableEq, Repr

def optAssign (L : Lang) (t u self : Ty) (s : Src) : Assign :=
  match resolve s (optAssignCopy L t u s.base) (optAssignMove L t u s.base) (optAssignValue L t self s) with
  | .none => .convert (optFrom L t u self false s)
  | p => .from p

/-- The constructor that the body of 5 and 6 calls: `optional( other )`, `optional( move( other ) )` (optional.hpp:1293, 1320). -/
def optAssignBody (L : Lang) (t u self : Ty) (s : Src) : Pick → Pick
  | .copy => optFrom L t u self true ⟨s.base, true, true⟩
  | .move => optFrom L t u self true ⟨s.base, false, false⟩
  | p => p

/-! ### expected -/

/-- `expected<T, E>` from `expected<U, G> const &` (expected.hpp:1387-1401, 1409-1423). -/
def expCopy (L : Lang) (t e u g x : Ty) (expl : Bool) : Bool :=
  ctor L t (.lref (addConst u)) && ctor L e (.lref (addConst g)) && unrelated L t x &&
  ((!is_convertible L (.lref (addConst u)) t || !is_convertible L (.lref (addConst g)) e) == expl)

/-- From `expected<U, G> &&` (expected.hpp:1431-1445, 1453-1467). -/
def expMove (L : Lang) (t e u g x : Ty) (expl : Bool) : Bool :=
  ctor L t u && ctor L e g && unrelated L t x && ((!is_convertible L u t || !is_convertible L g e) == expl)

/-- From a value (expected.hpp:1486-1494, 1505-1513); `self`, `unx`: the classes `expected<T, E>` and `unexpected_type<E>`. -/
def expValue (L : Lang) (t self unx : Ty) (s : Src) (expl : Bool) : Bool :=
  ctor L t s.fwd && !is_same self (uncvref s.fwd) && !is_same unx (uncvref s.fwd) &&
  (is_convertible L s.fwd t != expl)

/-- From `value_type const &` (expected.hpp:1475-1480), to which the argument has to be converted first. -/
def expValueConst (L : Lang) (t : Ty) (s : Src) : Bool :=
  (is_copy_constructible L t = some true) && L.conv s.expr (.lref (addConst t))

/-- From `unexpected_type<G> const &` (expected.hpp:1526-1532, 1538-1544). -/
def expErrCopy (L : Lang) (e g : Ty) (expl : Bool) : Bool :=
  ctor L e (.lref (addConst g)) && (is_convertible L (.lref (addConst g)) e != expl)

/-- From `unexpected_type<G> &&` (expected.hpp:1550-1556, 1562-1568). -/
def expErrMove (L : Lang) (e g : Ty) (expl : Bool) : Bool := ctor L e (.rref g) && (is_convertible L (.rref g) e != expl)

/-- A constructor whose parameter needs a conversion by the program's functions is worse than all that do not. -/
def orConst (p : Pick) (c : Bool) : Pick := if p = .none && c then .valueConst else p

/-- The constructor of `expected<T, E>` called for an argument of the class `expected<U, G>`. When a conversion is implicit, a second one is not
considered ([over.best.ics]/4). -/
def expFrom (L : Lang) (t e u g self unx : Ty) (direct : Bool) (s : Src) : Pick :=
  orConst (resolve s (expCopy L t e u g s.base false || (direct && expCopy L t e u g s.base true))
    (expMove L t e u g s.base false || (direct && expMove L t e u g s.base true))
    (expValue L t self unx s false || (direct && expValue L t self unx s true))) (direct && expValueConst L t s)

/-- The constructor called for an argument of the class `unexpected_type<G>`. -/
def expFromUnexpected (L : Lang) (t e g self unx : Ty) (direct : Bool) (s : Src) : Pick :=
  orConst (resolve s (expErrCopy L e g false || (direct && expErrCopy L e g true)) (expErrMove L e g false || (direct && expErrMove L e g true))
    (expValue L t self unx s false || (direct && expValue L t self unx s true))) (direct && expValueConst L t s)

/-- `operator=( U && )` (expected.hpp:1653-1661) for an argument of type `a` (`U`). `dec`: the class `nanostl::decay<U>`, with which `T` is compared;
it should be `decay<U>::type`. -/
def expAssignValue (L : Lang) (t e self dec a : Ty) : Bool :=
  !is_same self (uncvref a) && (is_scalar t && is_same t dec) && ctor L t a && is_assignable L (mkLref t) a &&
  is_nothrow_move_constructible L e = some true

/-- `e = a`: `operator=( U && )`, or `operator=( expected && )` after an implicit conversion by the constructor from a value. -/
def expAssigns (L : Lang) (t e self unx dec : Ty) (s : Src) : Bool :=
  expAssignValue L t e self dec (if s.lv then .lref s.ty else s.ty) || expValue L t self unx s false

/-- The assignments of an `unexpected_type<G>` (expected.hpp:1667-1673, 1679-1685): from `const &` and from `&&`. What `E` can be made from is not asked.
`operator=( U && )` is left out, it is never viable (C113). -/
def expAssignErr (L : Lang) (e : Ty) (s : Src) : Pick :=
  resolve s (is_copy_constructible L e = some true && is_copy_assignable L e) (is_move_constructible L e = some true && is_move_assignable L e) false

/-- Whether the body compiles (expected.hpp:1675, 1687): `expected( unexpect, error.value() )`. -/
def expAssignErrBody (L : Lang) (e g : Ty) : Pick → Bool
  | .copy => ctor L e (.lref (addConst g))
  | .move => ctor L e (.rref g)
  | _ => false

/-! ### Effects -/

/-- Whether the result has a value, if the source has one. -/
def Pick.has (p : Pick) (src : Bool) : Bool :=
  match p with
  | .copy | .move => src
  | _ => true

end Nanostl.Traits.Wrap

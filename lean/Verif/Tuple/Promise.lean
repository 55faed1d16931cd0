import Verif.Tuple.Make
import Verif.Traits.Swap

/-! The `noexcept` of tuple's operations (include/tao/tuple/tuple.hpp:104, 127-378, 405-529, 750-881) and what they run on the elements. Defaulted operations have the `noexcept` the language
gives them and are left out. -/

namespace Nanostl.Tuple.Promise
open Nanostl.Traits Nanostl.Traits.Wrap Nanostl.Tuple.Make

/-- `tuple()` (tuple.hpp:411). -/
def defaultNo (L : Lang) (ts : List Ty) : Bool := ts.all fun t => is_nothrow_constructible L t [] = some true

/-- `tuple( const Ts&... )` (tuple.hpp:418). -/
def constsNo (L : Lang) (ts : List Ty) : Bool := ts.all fun t => is_nothrow_copy_constructible L t = some true

/-- `tuple( Us&&... )` (tuple.hpp:426). -/
def valuesNo (L : Lang) (ts : List Ty) (as : List Src) : Bool := all2 (fun t (s : Src) => is_nothrow_constructible L t [s.fwd] = some true) ts as

/-- The constructors that are no defaulted ones. `copy`, `move`: from `const tuple< Us... >&`, `tuple< Us... >&&`. -/
inductive Ctor where
  | default
  | consts
  | values
  | copy (us : List Ty)
  | move (us : List Ty)
  deriving DecidableEq, Repr

/-- Which constructor `tuple< Ts... > v( args... )` calls, overload resolution as in `Make.make`; `none` if a defaulted one, if it is refused or if the body does not compile. -/
def chosen (L : Lang) (self : Ty) (tup : Ty → Option (List Ty)) (ts : List Ty) (as : List Src) : Option Ctor :=
  match as with
  | [] => if defaultOk L ts then some .default else none
  | [s] =>
    if s.base = self then if (s.lv != s.const) && valuesOk L ts [s] then some .values else none
    else match tup s.base with
      | some us => match resolve s (convCopyOk L ts us) (convMoveOk L ts us) (valuesOk L ts [s]) with
        | .copy => if wholeOut L (.lref (addConst s.base)) ts = .error then none else some (.copy us)
        | .move => if wholeOut L s.base ts = .error then none else some (.move us)
        | .value => some .values
        | _ => if constsOk L ts [s] then some .consts else none
      | none => if valuesOk L ts [s] then some .values else if constsOk L ts [s] then some .consts else none
  | as => if valuesOk L ts as then some .values else if constsOk L ts as then some .consts else none

/-- Its `noexcept` (tuple.hpp:411, 418, 426, 439, 447). -/
def Ctor.promise (L : Lang) (ts : List Ty) (as : List Src) : Ctor → Bool
  | .default => defaultNo L ts
  | .consts => constsNo L ts
  | .values => valuesNo L ts as
  | .copy us => all2 (fun t u => is_nothrow_constructible L t [mkLref (addConst u)] = some true) ts us
  | .move us => all2 (fun t u => is_nothrow_constructible L t [mkRref u] = some true) ts us

/-- An element made from arguments: its type, and the arguments' as references. -/
abbrev Step := Ty × List Ty

/-- What its body runs: `base()`, `base( ts... )`, `base( forward< Us >( us )... )`, `base( v )`, `base( move( v ) )` (tuple.hpp:412, 419, 427, 440, 448), and `tuple_value`'s constructors, which pass on what they are given
(127-131, 164-166, 235-237, 264-266, 330-335). -/
def Ctor.run (ts : List Ty) (as : List Src) : Ctor → List Step
  | .default => ts.map fun t => (t, [])
  | .consts => ts.map fun t => (t, [.lref (addConst t)])
  | .values => ts.zip (as.map fun s => [s.fwd])
  | .copy _ => ts.zip (as.map fun s => [.lref (addConst s.base)])
  | .move _ => ts.zip (as.map fun s => [.rref s.base])

/-- The template for assignments from tuples (tuple.hpp:515-521), whose `noexcept` is that of `tuple_base`'s (347-367): the `noexcept`, and the assignments run by `tuple_value` (200-205, 294-299): to what, from what.
`none` if a defaulted assignment is called, if it is refused or does not compile. -/
def assignment (L : Lang) (self : Ty) (tup : Ty → Option (List Ty)) (ts : List Ty) (s : Src) : Option (Bool × List (Ty × Ty)) :=
  if s.base = self && s.lv == s.const then none
  else match tup s.base with
    | none => none
    | some us =>
      let from_ := fun u => if !s.lv && !s.const then Ty.rref u else .lref (addConst u)
      if all2 (assigns L (!s.lv && !s.const)) ts us then some (all2 (fun t u => is_nothrow_assignable L (.lref t) (from_ u)) ts us, (ts.map fun t => .lref (slot L.env t)).zip (us.map from_))
      else none

/-- How an element is exchanged: by `swap` of its type; or, `tuple_value` of an empty class being derived from it, by `nanostl::swap` of `tuple_value`s, which is a better match than a `swap` of the base and moves
the base (tuple.hpp:207-212, 301-306). -/
inductive Exchange where
  | call (t : Ty)
  | moves (t : Ty)
  deriving DecidableEq, Repr

/-- `tuple::swap` and `swap` (tuple.hpp:369-377, 523-529, 876-881): `noexcept` asks for `swap` of the elements' types (104), and what is run; `none` if that does not compile. Classes that can be copied but
whose move operations are deleted are left out. -/
def swap (L : Lang) (adl : Ty → Option Bool) : List Ty → Option (Bool × List Exchange)
  | [] => some (true, [])
  | t :: ts => match swap_call L adl t, is_empty L.env t, swap L adl ts with
    | some n, some false, some (p, l) => some (n && p, .call t :: l)
    | some n, some true, some (p, l) =>
      if is_move_constructible L (slot L.env t) = some true && is_move_assignable L (slot L.env t) then some (n && p, .moves (slot L.env t) :: l) else none
    | _, _, _ => none

/-! ### Comparisons -/

/-- What a comparison of two elements does: whether the expression is declared not to throw, and how it ends, `none` by throwing. -/
structure Cmp where
  no : Bool
  res : Option Bool
  deriving DecidableEq, Repr

/-- `tuple_equal` with folding (tuple.hpp:757-768) or recursion (772-794), and `operator==` (826-842): `noexcept`, and how it ends. -/
def equal : List Cmp → Bool × Option Bool
  | [] => (true, some true)
  | c :: l => (c.no && (equal l).1, match c.res with
    | none => none
    | some false => some false
    | some true => (equal l).2)

/-- `tuple_less` (tuple.hpp:798-820) and `operator<` (850-854), with `l < r` and `r < l` of the elements. -/
def less : List (Cmp × Cmp) → Bool × Option Bool
  | [] => (true, some false)
  | (c, d) :: l => (c.no && d.no && (less l).1, match c.res with
    | none => none
    | some true => some true
    | some false => match d.res with
      | none => none
      | some true => some false
      | some false => (less l).2)

/-- `operator!=` (tuple.hpp:844-848). -/
def unequal (l : List Cmp) : Bool × Option Bool := ((equal l).1, (equal l).2.map not)

/-- `operator>=` (tuple.hpp:856-860). -/
def notLess (l : List (Cmp × Cmp)) : Bool × Option Bool := ((less l).1, (less l).2.map not)

/-- `operator>` (tuple.hpp:862-866). -/
def greater (l : List (Cmp × Cmp)) : Bool × Option Bool := less (l.map fun p => (p.2, p.1))

/-- `operator<=` (tuple.hpp:868-872). -/
def notGreater (l : List (Cmp × Cmp)) : Bool × Option Bool := ((greater l).1, (greater l).2.map not)

end Nanostl.Tuple.Promise

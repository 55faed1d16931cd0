import Verif.Traits.Wrap

/-! Which constructor of `tao::tuple` is called (include/tao/tuple/tuple.hpp:408-555), what it makes the elements from, and whether its body compiles: the constraints, and overload
resolution between the candidates. What the program's types can do is the parameter `Lang`, as in `Traits/Init`. Arguments are objects, no braces and no `allocator_arg_t` (except
in `makeAlloc`); no element can be made from the private class `tuple_base`. -/

namespace Nanostl.Tuple.Make
open Nanostl.Traits Nanostl.Traits.Wrap

/-- What an element is made from: nothing, the argument at a place, the element at a place of the argument, which is copied or moved, or all of a tuple that is the argument. -/
inductive Init where
  | value
  | arg (i : Nat)
  | copyOf (i : Nat)
  | moveOf (i : Nat)
  | whole
  deriving DecidableEq, Repr

/-- What comes of `tuple<Ts...> v(args...)`. `refused`: no constructor, or a deleted one, so that `is_constructible` says no. `error`: a constructor whose body does not compile. -/
inductive Out where
  | made (l : List Init)
  | refused
  | error
  deriving DecidableEq, Repr

/-- `seq::is_all< P< Ts, Us >... >` with packs of the same length. -/
def all2 {α β : Type} (p : α → β → Bool) : List α → List β → Bool
  | [], [] => true
  | a :: as, b :: bs => p a b && all2 p as bs
  | _, _ => false

/-- The default constructor (tuple.hpp:408-413). -/
def defaultOk (L : Lang) (ts : List Ty) : Bool := ts.all fun t => is_default_constructible L t = some true

/-- From `const Ts&...` (tuple.hpp:415-420): the constraint, and that the arguments convert. -/
def constsOk (L : Lang) (ts : List Ty) (as : List Src) : Bool :=
  (ts.all fun t => is_copy_constructible L t = some true) && all2 (fun t (s : Src) => L.conv s.expr (mkLref (addConst t))) ts as

/-- From `Us&&...` (tuple.hpp:422-428). -/
def valuesOk (L : Lang) (ts : List Ty) (as : List Src) : Bool := decide (as.length = ts.length) && all2 (fun t (s : Src) => ctor L t s.fwd) ts as

/-- From `const tuple< Us... >&` (tuple.hpp:435-441). -/
def convCopyOk (L : Lang) (ts us : List Ty) : Bool := decide (us.length = ts.length) && all2 (fun t u => ctor L t (mkLref (addConst u))) ts us

/-- From `tuple< Us... >&&` (tuple.hpp:443-449). -/
def convMoveOk (L : Lang) (ts us : List Ty) : Bool := decide (us.length = ts.length) && all2 (fun t u => ctor L t (mkRref u)) ts us

/-- What `tuple_value< I, T >` holds: a member of type `T` (tuple.hpp:120-123) or, if `T` is an empty class, a base (229-231), of which `const` and `volatile` are ignored ([class.derived]). A final class, for
which `is_empty` does not compile (C74), is taken for a member. -/
def slot (e : Env) (t : Ty) : Ty := if is_empty e t = some true then remove_cv t else t

/-- The defaulted copy constructor (tuple.hpp:430): `tuple_value`'s is deleted if the element cannot be copied (195), hence `tuple_base`'s (342), hence this. -/
def copyOk (L : Lang) (ts : List Ty) : Bool := ts.all fun t => ctor L (slot L.env t) (.lref (addConst (slot L.env t)))

/-- How the defaulted move constructor of `tuple_value` (tuple.hpp:196), or, if that is deleted and ignored, its copy constructor (195), makes an element of a `tuple_base` that is moved. -/
def moveElem (L : Lang) (t : Ty) (i : Nat) : Option Init :=
  let h := slot L.env t
  if ctor L h (.rref h) then some (.moveOf i) else if ctor L h (.lref (addConst h)) then some (.copyOf i) else none

/-- Applied to elements and their places. -/
def moveElems (L : Lang) : Nat → List Ty → Option (List Init)
  | _, [] => some []
  | i, t :: ts => match moveElem L t i, moveElems L (i + 1) ts with
    | some a, some l => some (a :: l)
    | _, _ => none

/-- The defaulted move constructor (tuple.hpp:431). If `tuple_base` cannot be moved, its defaulted move constructor is ignored, and `tuple_base( Us&&... )` (332-335), which has no
constraint, is the best match for the member `base`: the constructor of `tuple` is not deleted, but its definition does not compile. -/
def moveOut (L : Lang) (ts : List Ty) : Out :=
  match moveElems L 0 ts with
  | some l => .made l
  | none => .error

/-- `base( v )` with a tuple `v` as the only argument (tuple.hpp:332-335, 440, 448): one argument for as many elements; `tuple_value`'s constructor (160-166) has its own constraint, about `a`, the type of `v`. -/
def wholeOut (L : Lang) (a : Ty) : List Ty → Out
  | [t] => if ctor L t a then .made [.whole] else .error
  | _ => .error

def places (n : Nat) (f : Nat → Init) : List Init := (List.range n).map f

/-- With arguments for the elements: `Us&&...` is as good as or better than `const Ts&...`; where both are as good they do the same. -/
def fromValues (L : Lang) (ts : List Ty) (as : List Src) : Out :=
  if valuesOk L ts as then .made (places ts.length .arg) else if constsOk L ts as then .made (places ts.length .arg) else .refused

/-- With one argument of the class itself: the copy and move constructors, which are not templates, are preferred to templates that are as good. For an lvalue that is not
const, and for a const rvalue, `Us&&...` is better. -/
def fromSame (L : Lang) (ts : List Ty) (s : Src) : Out :=
  let copy : Out := if copyOk L ts then .made (places ts.length .copyOf) else .refused
  match s.lv, s.const with
  | true, true => copy
  | false, false => moveOut L ts
  | _, _ => if valuesOk L ts [s] then .made [.whole] else copy

/-- With one argument of a class `tuple< Us... >`. -/
def fromTuple (L : Lang) (ts us : List Ty) (s : Src) : Out :=
  match resolve s (convCopyOk L ts us) (convMoveOk L ts us) (valuesOk L ts [s]) with
  | .copy => wholeOut L (.lref (addConst s.base)) ts
  | .move => wholeOut L s.base ts
  | .value => .made [.whole]
  | _ => if constsOk L ts [s] then .made [.whole] else .refused

/-- The definition `tuple< Ts... > v( args... )`, or if not `direct`, passing `args`, braced if it is not one, for a parameter of this type: all constructors but copying and moving are explicit.
`self`: the class; `tup`: which classes are tuples, and of what. `tuple<>` is a class of its own (tuple.hpp:532-555). -/
def make (L : Lang) (self : Ty) (tup : Ty → Option (List Ty)) (direct : Bool) (ts : List Ty) (as : List Src) : Out :=
  match ts, as with
  | [], [] => .made []
  | [], [s] => if s.base = self then .made [] else .refused
  | [], _ => .refused
  | ts, [] => if defaultOk L ts then .made (places ts.length fun _ => .value) else .refused
  | ts, [s] =>
    if s.base = self then
      if direct then fromSame L ts s
      else match s.lv, s.const with
        | false, false => moveOut L ts
        | _, _ => if copyOk L ts then .made (places ts.length .copyOf) else .refused
    else if direct then
      match tup s.base with
      | some us => fromTuple L ts us s
      | none => fromValues L ts [s]
    else .refused
  | ts, as => if direct then fromValues L ts as else .refused

/-! ### Assignment -/

/-- `t = x` for an element (tuple.hpp:200-205, 294-299), `x` of type `u` as an lvalue of a const object or, if `mv`, as an rvalue. -/
def assigns (L : Lang) (mv : Bool) (t u : Ty) : Bool := L.assign ⟨.lv, slot L.env t⟩ (if mv then ⟨.xv, u⟩ else ⟨.lv, addConst u⟩)

/-- `v = w` for `tuple< Ts... > v` (tuple.hpp:432-433, 515-521, 533-556): the defaulted assignments, or the template, which is called for lvalues that are not const and for const rvalues. It asks whether `tuple_base` can
be assigned; the assignments of `tuple_base` from tuples (347-369), of any number and types of elements, have no constraint, so that the template is viable for tuples and nothing
else, and its body may not compile; with other numbers of elements, their `noexcept` does not. If `tuple_value` has a defaulted move assignment that is deleted, its template (200-205), which has no
constraint either, takes its place. -/
def assign (L : Lang) (self : Ty) (tup : Ty → Option (List Ty)) (ts : List Ty) (s : Src) : Out :=
  match ts with
  | [] => if s.base = self then .made [] else .refused
  | ts =>
    if s.base = self then
      match s.lv, s.const with
      | true, true => if all2 (assigns L false) ts (ts.map (slot L.env)) then .made (places ts.length .copyOf) else .refused
      | false, false => if all2 (assigns L true) ts (ts.map (slot L.env)) then .made (places ts.length .moveOf) else .error
      | _, _ => if all2 (assigns L false) ts ts then .made (places ts.length .copyOf) else .error
    else match tup s.base with
      | none => .refused
      | some us =>
        let mv := !s.lv && !s.const
        if all2 (assigns L mv) ts us then .made (places ts.length (if mv then .moveOf else .copyOf)) else .error

/-! ### With an allocator -/

/-- The allocator: its type, the class `allocator_arg_t`, and the nested `allocator_type` of classes that have one. -/
structure Alloc where
  ty : Ty
  tag : Ty
  nested : Ty → Option Ty

/-- `uses_allocator` (nanomemory.h:40-66; for tuples, tuple.hpp:63-66, `isTup`). -/
def usesAllocator (L : Lang) (A : Alloc) (isTup : Ty → Bool) (t : Ty) : Bool :=
  isTup t || match A.nested t with
    | some n => is_convertible L A.ty n
    | none => false

/-- The arguments of an element's constructor. -/
inductive AInit where
  | plain (i : Nat)
  | first (i : Nat)
  | last (i : Nat)
  deriving DecidableEq, Repr

/-- `uses_alloc_ctor_t< T, A, U >` and the constructor of `tuple_value` chosen by it (tuple.hpp:117-118, 168-193); `none`: its initialiser cannot be written. The question about `allocator_arg_t` is asked
about an allocator of type `A`, which is passed as `const A&`. -/
def allocElem (L : Lang) (A : Alloc) (isTup : Ty → Bool) (t u : Ty) (i : Nat) : Option AInit :=
  if usesAllocator L A isTup t then
    if is_constructible L t [A.tag, A.ty, u] = some true then
      if is_constructible L t [A.tag, .lref (addConst A.ty), u] = some true then some (.first i) else none
    else if is_constructible L t [u, .lref (addConst A.ty)] = some true then some (.last i) else none
  else if ctor L t u then some (.plain i) else none

def allocElems (L : Lang) (A : Alloc) (isTup : Ty → Bool) : Nat → List Ty → List Ty → Option (List AInit)
  | _, [], [] => some []
  | i, t :: ts, u :: us => match allocElem L A isTup t u i, allocElems L A isTup (i + 1) ts us with
    | some a, some l => some (a :: l)
    | _, _ => none
  | _, _, _ => none

inductive AOut where
  | made (l : List AInit)
  | refused
  | error
  deriving DecidableEq, Repr

def AOut.of : Option (List AInit) → AOut
  | some l => .made l
  | none => .error

/-- `tuple< Ts... > v( allocator_arg, a, args... )` with one or more arguments that are no tuples (tuple.hpp:460-477, 337-340). -/
def makeAlloc (L : Lang) (A : Alloc) (isTup : Ty → Bool) (ts : List Ty) (as : List Src) : AOut :=
  if valuesOk L ts as then AOut.of (allocElems L A isTup 0 ts (as.map Src.fwd))
  else if constsOk L ts as then AOut.of (allocElems L A isTup 0 ts (ts.map fun t => .lref (addConst t)))
  else .refused

end Nanostl.Tuple.Make

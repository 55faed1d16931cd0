import Verif.Seq.Model
import Verif.Traits.Model

/-! `tao::tuple` (include/tao/tuple/tuple.hpp), exported as `nanostl::tuple` (nanotuple.h:27-34).

A tuple type is the list of its element types. A tuple object is the list of the places its elements denote: the place of the member `value`
for an element that is an object, the place referred to for an element that is a reference. What does not compile is `none`.

Not modelled: `noexcept` specifications, `constexpr`, the overload conditions that ask the compiler whether an element can be constructed
(`is_constructible`, `is_assignable`), sharing of storage between empty elements (an empty element has no value to lose). -/

namespace Nanostl.Tuple

abbrev CTy := Traits.Ty

/-- `size_t` of `w` bits, the type of all index sequences. -/
def sz (w : Nat) : Seq.Ty := ⟨false, w⟩

/-! ### Tuple types -/

/-- `tuple_size<cv tuple<Ts...>>` (tuple.hpp:622-643): qualifiers are stripped, then `sizeof...(Ts)`. -/
def tupleSize (_cv : Traits.CV) (ts : List CTy) : Nat := ts.length

/-- `tuple_element<I, cv tuple<Ts...>>` (tuple.hpp:646-667): qualifiers are stripped, then `at_index`. -/
def tupleElement (i : Nat) (_cv : Traits.CV) (ts : List CTy) : Option CTy := Seq.atIndex i ts

/-- Value category of an expression that names a tuple. -/
inductive Cat where
  | lv | rv
  deriving DecidableEq, Repr

/-- Return types of the four `get<I>` (tuple.hpp:677-702): `T&`, `T&&`, `const T&`, `const T&&`, references collapsing. -/
def getTy (isConst : Bool) (c : Cat) (i : Nat) (ts : List CTy) : Option CTy := do
  let t ← Seq.atIndex i ts
  pure (match isConst, c with
    | false, .lv => Traits.mkLref t
    | false, .rv => Traits.mkRref t
    | true, .lv => Traits.mkLref (Traits.addConst t)
    | true, .rv => Traits.mkRref (Traits.addConst t))

/-- The place `get<I>` returns (tuple.hpp:677-702): the cast selects the base `tuple_value<I, T>` of `tuple_base` (326-328), whose
`get()` (214-226, 308-320) returns `value`. -/
def getLoc (i : Nat) (t : List Nat) : Option Nat := Seq.atIndex i t

section
variable (sm : Seq.Ty → List Int → Option Int) (w : Nat)

/-- `count_of` (tuple.hpp:706-707). -/
def countOf (t : CTy) (ts : List CTy) : Option Int := sm (sz w) (ts.map fun u => if Traits.is_same t u then 1 else 0)

/-- `index_of` (tuple.hpp:709-722). -/
def indexOf (t : CTy) (ts : List CTy) : Option Nat := do
  let is ← Seq.makeSeq ts.length
  let r ← sm (sz w) (List.zipWith (fun (i : Nat) u => if Traits.is_same t u then (i : Int) else 0) is ts)
  let n ← countOf sm w t ts
  if n > 0 ∧ n < 2 then pure r.toNat else none

/-- `get<T>` (tuple.hpp:726-748): its place and return type (`T&`, `T&&`, `const T&`, `const T&&`) — `none` also if `get<I>` returns something
the return type cannot bind to, which is checked by comparing the types. -/
def getByType (isConst : Bool) (c : Cat) (t : CTy) (ts : List CTy) (locs : List Nat) : Option (Nat × CTy) := do
  let i ← indexOf sm w t ts
  let l ← getLoc i locs
  let g ← getTy isConst c i ts
  let r := match isConst, c with
    | false, .lv => Traits.mkLref t
    | false, .rv => Traits.mkRref t
    | true, .lv => Traits.mkLref (Traits.addConst t)
    | true, .rv => Traits.mkRref (Traits.addConst t)
  if g = r then pure (l, r) else none

/-! ### tuple_cat -/

/-- `count_less_or_equal<M, Ns...>` (tuple.hpp:888-891). -/
def countLessOrEqual (m : Int) (ns : List Int) : Option Int := sm (sz w) (ns.map fun n => if n ≤ m then 1 else 0)

/-- `expand` (tuple.hpp:893-906). -/
def expand (is : List Nat) (ns : List Int) : Option (List Int) := is.mapM fun (i : Nat) => countLessOrEqual sm w (i : Int) ns

/-- `tuple_cat_helper::result_index_sequence` (tuple.hpp:923-924) from the sizes of the tuples. -/
def resultIndex (ns : List Int) : Option (List Nat) := do
  let s ← sm (sz w) ns
  Seq.makeSeq s.toNat

/-- `tuple_cat_helper::outer_index_sequence` (tuple.hpp:926). -/
def outerIndex (ns : List Int) : Option (List Int) := do
  let is ← resultIndex sm w ns
  let incl ← Seq.inclusiveScan sm (sz w) ns
  expand sm w is incl

/-- `tuple_cat_helper::inner_index_sequence` (tuple.hpp:927). -/
def innerIndex (ns : List Int) : Option (List Int) := do
  let is ← resultIndex sm w ns
  let os ← outerIndex sm w ns
  let ex ← Seq.exclusiveScan sm (sz w) ns
  let starts ← Seq.map (os.map Int.toNat) ex
  Seq.minus (sz w) (is.map Int.ofNat) starts

/-- An argument of `tuple_cat`: value category and constness of the expression, element types and the tuple object. -/
structure Arg where
  cat : Cat
  isConst : Bool
  tys : List CTy
  locs : List Nat

/-- Two packs expanded in one pattern must have the same length. -/
def zipPacks {β : Type} (f : Nat → Nat → Option β) : List Int → List Int → Option (List β)
  | [], [] => some []
  | o :: os, i :: is => do
    let x ← f o.toNat i.toNat
    let xs ← zipPacks f os is
    pure (x :: xs)
  | _, _ => none

/-- `tuple_size_sequence` (tuple.hpp:923). -/
def sizes (args : List Arg) : List Int := args.map fun a => (tupleSize { c := a.isConst } a.tys : Int)

/-- `tuple_cat_result_t` (tuple.hpp:908-918), the element types of the result; `Ts` are the argument types without references (941). -/
def catTypes (args : List Arg) : Option (List CTy) := do
  let os ← outerIndex sm w (sizes args)
  let is ← innerIndex sm w (sizes args)
  zipPacks (fun o i => do
    let a ← Seq.atIndex o args
    tupleElement i { c := a.isConst } a.tys) os is

/-- Type of the element `Os` of `forward_as_tuple(forward<Ts>(ts)...)` (tuple.hpp:604-608, 944): a reference to the argument; the tuple type
itself is represented by the class `o`. -/
def forwardedTy (o : Nat) (a : Arg) : CTy :=
  let t : CTy := .base { c := a.isConst } (.cls o)
  match a.cat with
  | .lv => Traits.mkRref (Traits.mkLref t)
  | .rv => Traits.mkRref t

/-- The category of a call whose return type is the reference type `t`. -/
def catOf : CTy → Cat
  | .rref _ => .rv
  | _ => .lv

/-- The initialisers `get<Is>(get<Os>(v))...` of the result (tuple.hpp:932-936): for each the place and the reference type of the expression.
The parameter `v` is named, so `get<Os>(v)` is the overload for an lvalue. -/
def catInits (args : List Arg) : Option (List (Nat × CTy)) := do
  let os ← outerIndex sm w (sizes args)
  let is ← innerIndex sm w (sizes args)
  zipPacks (fun o i => do
    let a ← Seq.atIndex o args
    let outer := Traits.mkLref (forwardedTy o a)
    let l ← getLoc i a.locs
    let t ← getTy a.isConst (catOf outer) i a.tys
    pure (l, t)) os is
end

/-! ### Relational operators; `elt i` compares elements `i` and may throw (`none`) -/

section
variable {A B : Type}

/-- `a && b` and `a || b` with the second operand evaluated only if needed. -/
def andThen (a b : Option Bool) : Option Bool := a.bind fun x => if x then b else some false
def orElse (a b : Option Bool) : Option Bool := a.bind fun x => if x then some true else b

/-- `tuple_equal<index_sequence<Is...>>::apply` (tuple.hpp:757-769): a right fold over `&&`. -/
def equalFold (eq : Nat → A → B → Option Bool) (l : List A) (r : List B) : List Nat → Option Bool
  | [] => some true
  | i :: is => andThen (match Seq.atIndex i l, Seq.atIndex i r with
      | some a, some b => eq i a b
      | _, _ => none) (equalFold eq l r is)

/-- `tuple_equal<I, S>::apply` (tuple.hpp:773-794); `n` is the number of elements left, `S - I`. -/
def equalRec (eq : Nat → A → B → Option Bool) (l : List A) (r : List B) (s : Nat) : Nat → Option Bool
  | 0 => some true
  | n + 1 => andThen (match Seq.atIndex (s - (n + 1)) l, Seq.atIndex (s - (n + 1)) r with
      | some a, some b => eq (s - (n + 1)) a b
      | _, _ => none) (equalRec eq l r s n)

/-- `tuple_less<I, S>::apply` (tuple.hpp:799-820). `lt` compares an element of the left with one of the right tuple, `gt` the other way
round (`get<I>(rhs) < get<I>(lhs)`). -/
def lessRec (lt : Nat → A → B → Option Bool) (gt : Nat → B → A → Option Bool) (l : List A) (r : List B) (s : Nat) : Nat → Option Bool
  | 0 => some false
  | n + 1 => match Seq.atIndex (s - (n + 1)) l, Seq.atIndex (s - (n + 1)) r with
      | some a, some b =>
        orElse (lt (s - (n + 1)) a b) (andThen ((gt (s - (n + 1)) b a).map not) (lessRec lt gt l r s n))
      | _, _ => none

/-- `operator==` with fold expressions (tuple.hpp:828-832); not declared for tuples of different sizes. -/
def opEqFold (eq : Nat → A → B → Option Bool) (l : List A) (r : List B) : Option Bool :=
  if l.length = r.length then do
    let is ← Seq.makeSeq l.length
    equalFold eq l r is
  else none

/-- `operator==` without (tuple.hpp:836-840). -/
def opEqRec (eq : Nat → A → B → Option Bool) (l : List A) (r : List B) : Option Bool :=
  if l.length = r.length then equalRec eq l r l.length l.length else none

/-- `operator!=` (tuple.hpp:844-848). -/
def opNe (eq : Nat → A → B → Option Bool) (l : List A) (r : List B) : Option Bool := (opEqFold eq l r).map not

/-- `operator<` (tuple.hpp:850-854). -/
def opLt (lt : Nat → A → B → Option Bool) (gt : Nat → B → A → Option Bool) (l : List A) (r : List B) : Option Bool :=
  if l.length = r.length then lessRec lt gt l r l.length l.length else none

/-- `operator>=`, `operator>`, `operator<=` (tuple.hpp:856-872). -/
def opGe (lt : Nat → A → B → Option Bool) (gt : Nat → B → A → Option Bool) (l : List A) (r : List B) : Option Bool := (opLt lt gt l r).map not
def opGt (lt : Nat → A → B → Option Bool) (gt : Nat → B → A → Option Bool) (l : List A) (r : List B) : Option Bool := opLt gt lt r l
def opLe (lt : Nat → A → B → Option Bool) (gt : Nat → B → A → Option Bool) (l : List A) (r : List B) : Option Bool := (opLt gt lt r l).map not
end

/-! ### Assignment and swap -/

/-- What an operation on two elements leaves behind: whether it threw, and the values at its two places. -/
structure Eff (V : Type) where
  thrown : Bool
  dst : V
  src : V

/-- The elements' own operations, by position: assignment from another place (copying or moving) and to itself, and the `swap` that is found
for the element type; `nanostl::swap` (nanotype_traits.h:1183-1187) is declared but nowhere defined, so for the program to link it has to be
the element's own. -/
structure Ops (V : Type) where
  assign : Nat → Bool → V → V → Eff V
  assignSelf : Nat → Bool → V → Bool × V
  swap : Nat → V → V → Eff V
  swapSelf : Nat → V → Bool × V

section
variable {V : Type}

abbrev Mem (V : Type) := Nat → V

def put (m : Mem V) (a : Nat) (v : V) : Mem V := fun x => if x = a then v else m x

/-- An operation on two places, which may be the same one. -/
def apply2 (f : V → V → Eff V) (self : V → Bool × V) (d s : Nat) (m : Mem V) : Bool × Mem V :=
  if d = s then ((self (m d)).1, put m d (self (m d)).2)
  else ((f (m d) (m s)).thrown, put (put m d (f (m d) (m s)).dst) s (f (m d) (m s)).src)

/-- The steps of a comma fold, or of the braced list that replaces it, from left to right until one throws. `none`: an element does not
exist. -/
def steps (f : Nat → Mem V → Option (Bool × Mem V)) : List Nat → Mem V → Option (Bool × Mem V)
  | [], m => some (false, m)
  | i :: is, m => do
    let r ← f i m
    if r.1 then pure r else steps f is r.2

/-- `tuple_base::operator=(const tuple<Us...>&)` and `(tuple<Us...>&&)` (tuple.hpp:347-367) with `tuple_value::operator=(U&&)`
(200-205, 294-299); `tuple::operator=(T&&)` (515-521) forwards to it. `mv`: the argument is an rvalue. The defaulted assignments (344-345,
432-433) do the same, base class by base class. -/
def assignAll (ops : Ops V) (mv : Bool) (d s : List Nat) (m : Mem V) : Option (Bool × Mem V) := do
  let is ← Seq.makeSeq d.length
  steps (fun i m => do
    let a ← getLoc i d
    let b ← getLoc i s
    pure (apply2 (ops.assign i mv) (ops.assignSelf i mv) a b m)) is m

/-- `tuple_base::swap` (tuple.hpp:369-377) with `tuple_value::swap` (207-212, 301-306); `tuple::swap` (525-529) and the free `swap`
(877-881) call it. -/
def swapAll (ops : Ops V) (d s : List Nat) (m : Mem V) : Option (Bool × Mem V) := do
  let is ← Seq.makeSeq d.length
  steps (fun i m => do
    let a ← getLoc i d
    let b ← getLoc i s
    pure (apply2 (ops.swap i) (ops.swapSelf i) a b m)) is m
end

/-! ### Construction -/

/-- Arguments an element's constructor is called with. -/
inductive CArg where
  | allocTag            -- `allocator_arg_t()`
  | alloc               -- the allocator
  | user (k : Nat)      -- the `k`-th argument of the user
  | whole               -- the tuple that is to be converted
  deriving DecidableEq, Repr

/-- Two packs in one pattern, one of element types and one of constructor arguments. -/
def zipCtor (f : Nat → CArg → List CArg) : List Nat → List CArg → Option (List (List CArg))
  | [], [] => some []
  | i :: is, a :: as => do
    let r ← zipCtor f is as
    pure (f i a :: r)
  | _, _ => none

/-- `tuple_base()` (tuple.hpp:330), defaulted: `tuple_value()` for each element, which calls `value()` (125-131). -/
def baseDefault (n : Nat) : Option (List (List CArg)) := do
  let is ← Seq.makeSeq n
  pure (is.map fun _ => [])

/-- `tuple_base(Us&&...)` (tuple.hpp:332-335): each element from one argument (160-166). -/
def baseCtor (n : Nat) (args : List CArg) : Option (List (List CArg)) := do
  let is ← Seq.makeSeq n
  zipCtor (fun _ a => [a]) is args

/-- `tuple_value`'s three allocator constructors (tuple.hpp:168-193): `uses i` says whether element `i` uses the allocator, `first i`
whether it takes it in front, after a tag. -/
def allocArgs (uses first : Nat → Bool) (i : Nat) (a : CArg) : List CArg :=
  match uses i, first i with
  | false, _ => [a]
  | true, true => [.allocTag, .alloc, a]
  | true, false => [a, .alloc]

/-- `tuple_base(allocator_arg_t, const A&, Us&&...)` (tuple.hpp:337-340). -/
def baseAlloc (uses first : Nat → Bool) (n : Nat) (args : List CArg) : Option (List (List CArg)) := do
  let is ← Seq.makeSeq n
  zipCtor (allocArgs uses first) is args

/-- The constructors of `tuple` (tuple.hpp:408-511): the argument lists with which the elements' constructors are called, in the order of the
elements. The primary template; `tuple<>` (532-555) has its own. -/
def ctorDefault (n : Nat) := baseDefault n                                                                      -- 408-413
def ctorValues (n : Nat) (k : Nat) := if k = n then baseCtor n ((List.range k).map .user) else none               -- 415-428
def ctorConvert (n : Nat) (k : Nat) := if k = n then baseCtor n [.whole] else none                                -- 435-449
def ctorAllocDefault (uses first : Nat → Bool) (n : Nat) := baseAlloc uses first n []                            -- 451-458
def ctorAllocValues (uses first : Nat → Bool) (n k : Nat) :=
  if k = n then baseAlloc uses first n ((List.range k).map .user) else none                                      -- 460-477
def ctorAllocCopy (uses first : Nat → Bool) (n k : Nat) := if k = n then baseAlloc uses first n [.whole] else none  -- 479-511

/-! ### make_tuple, forward_as_tuple, tie -/

/-- The type deduced for a forwarding parameter `T&&` from an argument of type `t` and category `c` ([temp.deduct.call]). -/
def deduce (c : Cat) (t : CTy) : CTy :=
  match c with
  | .lv => Traits.mkLref t
  | .rv => t

/-- `make_tuple_return` (tuple.hpp:579-592); `wrapped` recognises `reference_wrapper<U>`. -/
def makeTupleReturn (wrapped : CTy → Option CTy) (t : CTy) : CTy :=
  match wrapped t with
  | some u => Traits.mkLref u
  | none => t

/-- `make_tuple` (tuple.hpp:597-601): the element types of the result. -/
def makeTuple (wrapped : CTy → Option CTy) (args : List (Cat × CTy)) : List CTy :=
  args.map fun a => makeTupleReturn wrapped (Traits.decay (deduce a.1 a.2))

/-- `forward_as_tuple` (tuple.hpp:604-608). -/
def forwardAsTuple (args : List (Cat × CTy)) : List CTy := args.map fun a => Traits.mkRref (deduce a.1 a.2)

/-- `tie` (tuple.hpp:611-615): takes lvalues only. -/
def tie (args : List (Cat × CTy)) : Option (List CTy) :=
  if args.all (fun a => a.1 = .lv) then some (args.map fun a => Traits.mkLref a.2) else none

end Nanostl.Tuple

import Verif.Traits.Wrap

/-!
Which alternative a `variant` holds that is made from, or assigned, a value (variant.hpp:1224-1258, 1373-1408), and which lists of alternatives make a class at
all. Overload resolution ([over.ics.rank]) is the language's. Not modelled: arguments with a conversion function to the `variant` itself, in-place tags, volatile
arguments and alternatives, initialiser lists. The classes that fill up the list of alternatives (variant.hpp:1196-1213) are not in it; nothing converts to them. What the chosen constructor or assignment does with the object is in `Variant/Model`.
-/

namespace Nanostl.Variant.Convert

open Nanostl.Traits Nanostl.Traits.Wrap

/-- The parameter of a constructor or assignment: `Ti const &` or `Ti &&`. -/
inductive Kind where
  | copy | move
  deriving DecidableEq, Repr

/-- A candidate: the alternative's number and the parameter. -/
structure Cand where
  idx : Nat
  kind : Kind
  deriving DecidableEq, Repr

/-- The declared type of the parameter. -/
def Cand.param (k : Kind) (t : Ty) : Ty :=
  match k with
  | .copy => mkLref (addConst t)
  | .move => mkRref t

/-- The constructors from values: `variant( T0 const & )` to `variant( T15 const & )` (variant.hpp:1224-1239) and `variant( T0 && )` to `variant( T15 && )`
(variant.hpp:1243-1258); the assignments `operator=( Ti && )` (variant.hpp:1373-1388) and `operator=( Ti const & )` (1393-1408) have the same parameters. -/
def cands (ts : List Ty) : List Cand :=
  (List.range ts.length).map (⟨·, .copy⟩) ++ (List.range ts.length).map (⟨·, .move⟩)

/-- Their parameters. -/
def params (ts : List Ty) : List Ty := ts.map (Cand.param .copy) ++ ts.map (Cand.param .move)

/-- The class can be written: the references can, and no two constructors have the same parameter ([over.load]). -/
def formed (ts : List Ty) : Bool := ts.all canRef && decide (params ts).Nodup

/-- What the language says of conversions between different types: `rank s t`, how good the implicit conversion of the argument to `t` is, small being good, `none` if
there is none; `related s t`: `t` is a base class of the argument's. -/
structure Conv where
  rank : Src → Ty → Option Nat
  related : Ty → Ty → Bool
  /-- The standard conversions of an object of a class are those to its bases, and they are better than all others ([over.best.ics]). -/
  fair : ∀ s t u, (rank s t).isSome → rank s t = rank s u → related s.base t = related s.base u

/-- The conversion of the argument to the parameter of a candidate ([dcl.init.ref]/5, [over.ics.ref]): an rvalue reference does not bind to an lvalue or a const object
of its own or a derived type; it binds to a temporary that the argument is converted to. 0: no conversion. -/
def seq (C : Conv) (s : Src) (k : Kind) (t : Ty) : Option Nat :=
  if s.base = t then
    match k with
    | .copy => some 0
    | .move => if s.lv || s.const then none else some 0
  else if C.related s.base t && (s.lv || s.const) && k == .move then none
  else (C.rank s t).map (· + 1)

/-- Of two candidates the better: the better conversion, then an rvalue reference before an lvalue reference ([over.ics.rank]/3.2.3). -/
def better (k : Kind) (m : Nat) (k' : Kind) (m' : Nat) : Bool := decide (m < m') || (m == m' && k == .move && k' == .copy)

/-- A candidate's conversion. -/
def Cand.seq (C : Conv) (s : Src) (ts : List Ty) (c : Cand) : Option Nat := ts[c.idx]?.bind (Convert.seq C s c.kind)

/-- The candidate is viable and better than every other viable one ([over.match.best]). -/
def wins (C : Conv) (s : Src) (ts : List Ty) (c : Cand) : Bool :=
  match c.seq C s ts with
  | none => false
  | some m => (cands ts).all fun d => d == c || (d.seq C s ts).all fun n => better c.kind m d.kind n

/-- The constructor or assignment that is called; `none`: there is none or it is ambiguous. The one of number `i` makes a `Ti` and sets `type_index` to `i`. -/
def resolve (C : Conv) (s : Src) (ts : List Ty) : Option Cand := (cands ts).find? (wins C s ts)

end Nanostl.Variant.Convert

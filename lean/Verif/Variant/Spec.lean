import Verif.Variant.Model

/-! Specification of `variant`: each variable is absent, valueless or has an alternative and a value; lifetimes of objects. -/

namespace Nanostl.Variant

variable {α : Type}

namespace Spec

/-- State of an object: never constructed (`none`), living, dead. -/
abbrev Life := Nat → Option Bool

/-- A record of constructions and destructions is proper if each object is constructed once and destroyed at most once, afterwards. -/
def life : List Ev → Life → Option Life
  | [], f => some f
  | .cons i :: es, f => if f i = none then life es (fun j => if j = i then some true else f j) else none
  | .dest i :: es, f => if f i = some true then life es (fun j => if j = i then some false else f j) else none

/-- Alternative and value. -/
abbrev Val (α : Type) := Nat × α
abbrev Cont (α : Type) := Nat → Option (Option (Val α))

def upd (f : Cont α) (i : Nat) (v : Option (Option (Val α))) : Cont α := fun j => if j = i then v else f j

/-- What a move leaves of a variable: the same alternative with a moved-from value. -/
def left (moved : Nat → α → α) (o : Option (Option (Val α))) : Option (Option (Val α)) := o.map (·.map fun v => (v.1, moved v.1 v.2))

/-- The value of alternative `k` set into `i` from `s`. -/
def store (moved : Nat → α → α) (f : Cont α) (i k : Nat) (isMove : Bool) (s : Src α) : Cont α := match s with
  | .lit v => upd f i (some (some (k, v)))
  | .at j => match f j with
    | some (some v) => if isMove then upd (upd f i (some (some (k, v.2)))) j (some (some (k, moved k v.2))) else upd f i (some (some (k, v.2)))
    | _ => f

/-- Effect of a command that does not throw. -/
def step (moved : Nat → α → α) (dflt : α) (f : Cont α) : Cmd α → Cont α
  | .default i => upd f i (some (some (0, dflt)))
  | .ofValue i m k s => store moved f i k m s
  | .inPlaceT i m k s => store moved f i k m s
  | .inPlaceI i m k s => store moved f i k m s
  | .copy i j => upd f i (f j)
  | .move i j => upd (upd f i (f j)) j (left moved (f j))
  | .assignCopy i j => upd f i (f j)
  | .assignMove i j => upd (upd f i (f j)) j (left moved (f j))
  | .assignValue i m k s => store moved f i k m s
  | .emplaceT i m k s => store moved f i k m s
  | .emplaceI i m k s => store moved f i k m s
  | .swap i j => upd (upd f i (f j)) j (f i)
  | .destroy i => upd f i none

/-- The value is of alternative `k`. -/
def Has (f : Cont α) (k : Nat) : Src α → Prop
  | .lit _ => True
  | .at j => ∃ v, f j = some (some (k, v))

/-- Variables are declared once and before use, alternatives exist, and a value taken from a variable is there. `emplace` may not use what it
destroys. -/
def Legal (n : Nat) (f : Cont α) : Cmd α → Prop
  | .default i => f i = none
  | .ofValue i _ k s => f i = none ∧ k < n ∧ Has f k s
  | .inPlaceT i _ k s => f i = none ∧ k < n ∧ Has f k s
  | .inPlaceI i _ k s => f i = none ∧ k < n ∧ Has f k s
  | .copy i j => f i = none ∧ f j ≠ none
  | .move i j => f i = none ∧ f j ≠ none
  | .assignCopy i j => f i ≠ none ∧ f j ≠ none
  | .assignMove i j => f i ≠ none ∧ f j ≠ none
  | .assignValue i _ k s => f i ≠ none ∧ k < n ∧ Has f k s
  | .emplaceT i _ k s => f i ≠ none ∧ k < n ∧ Has f k s ∧ ∀ j, s = .at j → j ≠ i
  | .emplaceI i _ k s => f i ≠ none ∧ k < n ∧ Has f k s ∧ ∀ j, s = .at j → j ≠ i
  | .swap i j => f i ≠ none ∧ f j ≠ none
  | .destroy i => f i ≠ none

/-- Legal all along the history when nothing throws. -/
def LegalAll (n : Nat) (moved : Nat → α → α) (dflt : α) : Cont α → List (Cmd α) → Prop
  | _, [] => True
  | f, k :: ks => Legal n f k ∧ LegalAll n moved dflt (step moved dflt f k) ks

/-- The alternative a variable holds. -/
def alt (f : Cont α) (i : Nat) : Option Nat := ((f i).bind id).map Prod.fst

/-- What a command that throws leaves: everything as it was, or the target without a value. A `swap` broken off
leaves both variables without one, or with a moved-from value, if it did not leave them alone. -/
def Exc (moved : Nat → α → α) (f : Cont α) (f' : Cont α) : Cmd α → Prop
  | .default _ => f' = f
  | .ofValue .. => f' = f
  | .inPlaceT .. => f' = f
  | .inPlaceI .. => f' = f
  | .copy .. => f' = f
  | .move .. => f' = f
  | .assignCopy i j => f' = if alt f i = alt f j then f else upd f i (some none)
  | .assignMove i j => f' = if alt f i = alt f j then f else upd f i (some none)
  | .assignValue i _ k _ => f' = if alt f i = some k then f else upd f i (some none)
  | .emplaceT i .. => f' = upd f i (some none)
  | .emplaceI i .. => f' = upd f i (some none)
  | .swap i j => f' = f ∨
      if i = j then f' = upd f i (left moved (f i)) ∨ f' = upd f i (left moved (left moved (f i)))
      else if alt f i = alt f j then f' = upd f i (left moved (f i)) ∨ f' = upd (upd f i (f j)) j (left moved (f j))
      else f' = upd f i (some none) ∨ f' = upd (upd f i (f j)) j (some none)
  | .destroy _ => False

end Spec

open Spec

/-- What a program can see of its variables. -/
def cont (w : W α) : Cont α := fun i => (w.vars (.user i)).map (·.obj.map (·.2))

/-- The commands are legal all along the history, whatever throws. -/
def LegalRun (c : Cls α) : W α → List (Cmd α) → Prop
  | _, [] => True
  | w, k :: ks => Legal c.n (cont w) k ∧ match step c k w with
    | .ok w' _ => LegalRun c w' ks
    | .exc w' => LegalRun c w' ks
    | _ => True

end Nanostl.Variant

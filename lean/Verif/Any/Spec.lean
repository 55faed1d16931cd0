import Verif.Any.Model

/-! Specification of `any`: each variable is absent, empty or has a type and a value; lifetimes of objects. -/

namespace Nanostl.Any

variable {α : Type}

namespace Spec

/-- State of an object: never constructed (`none`), living, dead. -/
abbrev Life := Nat → Option Bool

/-- A record of constructions and destructions is proper if each object is constructed once and destroyed at most once, afterwards. -/
def life : List Ev → Life → Option Life
  | [], f => some f
  | .cons i :: es, f => if f i = none then life es (fun j => if j = i then some true else f j) else none
  | .dest i :: es, f => if f i = some true then life es (fun j => if j = i then some false else f j) else none

abbrev Cont (α : Type) := Nat → Option (Option (Nat × α))

def upd (f : Cont α) (i : Nat) (v : Option (Option (Nat × α))) : Cont α := fun j => if j = i then v else f j

/-- Effect of a command that does not throw. A moved-from `any` is empty. -/
def step (f : Cont α) : Cmd α → Cont α
  | .empty i => upd f i (some none)
  | .ofValue i _ v => upd f i (some (some v))
  | .inPlace i v => upd f i (some (some v))
  | .copy i j => upd f i (f j)
  | .move i j => upd (upd f i (f j)) j (some none)
  | .assignCopy i j => upd f i (f j)
  | .assignMove i j => upd (upd f j (some none)) i (f j)
  | .assignValue i _ v => upd f i (some (some v))
  | .emplace i v => upd f i (some (some v))
  | .reset i => upd f i (some none)
  | .swap i j => upd (upd f i (f j)) j (f i)
  | .destroy i => upd f i none

/-- Variables are declared once and before use. -/
def Legal (f : Cont α) : Cmd α → Prop
  | .empty i => f i = none
  | .ofValue i _ _ => f i = none
  | .inPlace i _ => f i = none
  | .copy i j => f i = none ∧ f j ≠ none
  | .move i j => f i = none ∧ f j ≠ none
  | .assignCopy i j => f i ≠ none ∧ f j ≠ none
  | .assignMove i j => f i ≠ none ∧ f j ≠ none
  | .assignValue i _ _ => f i ≠ none
  | .emplace i _ => f i ≠ none
  | .reset i => f i ≠ none
  | .swap i j => f i ≠ none ∧ f j ≠ none
  | .destroy i => f i ≠ none

/-- The commands that let an exception reach the caller; the others cannot throw or end the program. -/
def lets : Cmd α → Prop
  | .inPlace .. => True
  | .copy .. => True
  | .assignCopy .. => True
  | .emplace .. => True
  | _ => False

/-- The commands that build a value inside `noexcept`. -/
def inside : Cmd α → Prop
  | .ofValue .. => True
  | .assignValue .. => True
  | .emplace .. => True
  | _ => False

end Spec

open Spec

/-- What a program can see of its variables. -/
def cont (w : W α) : Cont α := fun i => (w.vars (.user i)).map (·.bind w.heap)

/-- The variables are used legally all along the history, whatever throws. -/
def LegalRun (c : Cls α) : W α → List (Cmd α) → Prop
  | _, [] => True
  | w, k :: ks => Legal (cont w) k ∧ match step c k w with
    | .ok w' _ => LegalRun c w' ks
    | .exc w' => LegalRun c w' ks
    | _ => True

end Nanostl.Any

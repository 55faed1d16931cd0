import Verif.Opt.Model

/-!
Specification of `optional`: lifetimes and the option model.
-/

namespace Nanostl.Opt

variable {α : Type}

/-! ### Specification -/

namespace Spec

/-- State of an object: never constructed (`none`), living, dead. -/
abbrev Life := Nat → Option Bool

/-- A record of constructions and destructions is proper if each object is constructed once and destroyed at most once, afterwards. -/
def life : List Ev → Life → Option Life
  | [], f => some f
  | .cons i :: es, f => if f i = none then life es (fun j => if j = i then some true else f j) else none
  | .dest i :: es, f => if f i = some true then life es (fun j => if j = i then some false else f j) else none

/-- Contents of the variables: absent, empty or a value. -/
abbrev Cont (α : Type) := Nat → Option (Option α)

def upd (f : Cont α) (i : Nat) (v : Option (Option α)) : Cont α := fun j => if j = i then v else f j

/-- Effect of a command that does not throw. `moved` is what a move leaves of the source. -/
def step (moved : α → α) (f : Cont α) : Cmd α → Cont α
  | .empty i => upd f i (some none)
  | .ofValue i v => upd f i (some (some v))
  | .copy i j => upd f i (f j)
  | .move i j => upd (upd f i (f j)) j ((f j).map (·.map moved))
  | .assignNull i => upd f i (some none)
  | .assignCopy i j => upd f i (f j)
  | .assignMove i j => upd (upd f i (f j)) j ((f j).map (·.map moved))
  | .assignValue i v => upd f i (some (some v))
  | .emplace i v => upd f i (some (some v))
  | .swap i j => upd (upd f i (f j)) j (f i)
  | .destroy i => upd f i none

/-- Variables are declared once and before use. -/
def Legal (f : Cont α) : Cmd α → Prop
  | .empty i => f i = none
  | .ofValue i _ => f i = none
  | .copy i j => f i = none ∧ f j ≠ none
  | .move i j => f i = none ∧ f j ≠ none
  | .assignNull i => f i ≠ none
  | .assignCopy i j => f i ≠ none ∧ f j ≠ none
  | .assignMove i j => f i ≠ none ∧ f j ≠ none
  | .assignValue i _ => f i ≠ none
  | .emplace i _ => f i ≠ none
  | .swap i j => f i ≠ none ∧ f j ≠ none
  | .destroy i => f i ≠ none

/-- Contents after a command that threw: as before, but emptied by `emplace`; a `swap` of two values may lose one. -/
def AfterThrow (f f' : Cont α) : Cmd α → Prop
  | .emplace i _ => f' = upd f i (some none)
  | .swap i j => (∀ k, k ≠ i → k ≠ j → f' k = f k) ∧ ∀ k, (f' k).map Option.isSome = (f k).map Option.isSome
  | _ => f' = f

end Spec

open Spec

/-- What a program can see: which variables exist, and what they hold. The flag, not the storage, is what `has_value()` tells. -/
def cont (w : W α) : Cont α := fun i => (w.vars i).map fun o => if o.has then o.st.map Prod.snd else none

/-! ### Histories -/

/-- The variables are used legally all along the history, whatever throws. -/
def LegalRun (c : Cls α) : W α → List (Cmd α) → Prop
  | _, [] => True
  | w, k :: ks => Legal (cont w) k ∧ match step c k w with
    | .ok w' _ => LegalRun c w' ks
    | .exc w' => LegalRun c w' ks
    | _ => True

end Nanostl.Opt

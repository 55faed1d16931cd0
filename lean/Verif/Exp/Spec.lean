import Verif.Exp.Model
import Verif.Exp.Own

/-!
Specification of `expected`: a variable holds a value or an error.
-/

namespace Nanostl.Exp

open Opt (W M R Ev Ov)
open Opt.Spec (life Life)

variable {α β : Type}

namespace Spec

/-- Contents of the variables: absent, a value or an error. -/
abbrev Cont (α β : Type) := Nat → Option (α ⊕ β)

def upd (f : Cont α β) (i : Nat) (v : Option (α ⊕ β)) : Cont α β := fun j => if j = i then v else f j

/-- Effect of a command that does not throw. `moved` is what a move leaves of the source, `d` the default value. -/
def step (moved : α ⊕ β → α ⊕ β) (d : α) (f : Cont α β) : Cmd α β → Cont α β
  | .dflt i => upd f i (some (.inl d))
  | .ofValue _ i v => upd f i (some (.inl v))
  | .ofError _ i e => upd f i (some (.inr e))
  | .copy i j => upd f i (f j)
  | .move i j => upd (upd f j ((f j).map moved)) i (f j)
  | .assignCopy i j => upd f i (f j)
  | .assignMove i j => upd (upd f j ((f j).map moved)) i (f j)
  | .assignValue _ i v => upd f i (some (.inl v))
  | .assignError _ i e => upd f i (some (.inr e))
  | .emplace i v => upd f i (some (.inl v))
  | .swap i j => upd (upd f i (f j)) j (f i)
  | .destroy i => upd f i none

/-- Variables are declared once and before use; `D`: the declared ones. -/
def Legal (D : Nat → Prop) : Cmd α β → Prop
  | .dflt i | .ofValue _ i _ | .ofError _ i _ => ¬ D i
  | .copy i j | .move i j => ¬ D i ∧ D j
  | .assignCopy i j | .assignMove i j | .swap i j => D i ∧ D j
  | .assignValue _ i _ | .assignError _ i _ | .emplace i _ | .destroy i => D i

def LegalAll (moved : α ⊕ β → α ⊕ β) (d : α) : Cont α β → List (Cmd α β) → Prop
  | _, [] => True
  | f, k :: ks => Legal (fun i => f i ≠ none) k ∧ LegalAll moved d (step moved d f k) ks

end Spec

open Spec

/-- What the flag says is in slot `i`. -/
def slot (w : W (α ⊕ β)) (i : Nat) : Option (α ⊕ β) := (w.vars i).bind fun o => match o.st with
  | some (_, x) => if x.isLeft = o.has then some x else none
  | none => none

/-- The contents of the program's variables. -/
def cont (w : W (α ⊕ β)) : Cont α β := fun i => slot w (i + 2)

/-- The variables are used legally all along the history, whatever throws. -/
def LegalRun (c : Cls α β) : W (α ⊕ β) → List (Cmd α β) → Prop
  | _, [] => True
  | w, k :: ks => Legal (fun i => w.vars (i + 2) ≠ none) k ∧ match step c k w with
    | .ok w' _ => LegalRun c w' ks
    | .exc w' => LegalRun c w' ks
    | _ => True

/-- Moves of `T` and `E` do not throw. -/
def Calm (c : Cls α β) : Prop := (c.nothrowT = false → ∀ n, c.throws n = false) ∧ (c.nothrowE = false → ∀ n, c.throws n = false)

/-- Commands that copy a value from a non-`const` lvalue. -/
def IsLvalue : Cmd α β → Prop
  | .ofValue .lvalue _ _ | .assignValue .lvalue _ _ => True
  | _ => False

end Nanostl.Exp

import Verif.Map.Model

/-! Specification of maps as partial functions, by number. -/

namespace Nanostl.Map.Spec

variable {K V : Type} [DecidableEq K]

abbrev Abs (K V : Type) := Nat → Option (K → Option V)

def upd (A : Abs K V) (i : Nat) (x : Option (K → Option V)) : Abs K V := fun j => if j = i then x else A j

def put (f : K → Option V) (k : K) (v : V) : K → Option V := fun k' => if k' = k then some v else f k'

/-- Which maps must and must not be alive before the operation. Copying a map is excluded (C24). -/
def Pre (A : Abs K V) : Cmd K V → Prop
  | .new i => A i = none
  | .insert i _ _ | .set i _ _ | .get i _ | .del i => A i ≠ none
  | .copy _ _ => False

/-- Allowed results and effects. Allocation is needed, hence may fail, only for a new key. -/
def Post (dflt : V) (A : Abs K V) : Cmd K V → Res V → Abs K V → Prop
  | .new i, r, A' => r = .done ∧ A' = upd A i (some fun _ => none)
  | .insert i k v, r, A' => ∃ f, A i = some f ∧ match f k with
    | some _ => r = .inserted false ∧ A' = A
    | none => (r = .threw ∧ A' = A) ∨ (r = .inserted true ∧ A' = upd A i (some (put f k v)))
  | .set i k v, r, A' => ∃ f, A i = some f ∧
      ((r = .threw ∧ f k = none ∧ A' = A) ∨ (r = .done ∧ A' = upd A i (some (put f k v))))
  | .get i k, r, A' => ∃ f, A i = some f ∧ match f k with
    | some v => r = .value v ∧ A' = A
    | none => (r = .threw ∧ A' = A) ∨ (r = .value dflt ∧ A' = upd A i (some (put f k dflt)))
  | .copy _ _, _, _ => False
  | .del i, r, A' => r = .done ∧ A' = upd A i none

inductive Run (dflt : V) : Abs K V → List (Cmd K V) → List (Res V) → Abs K V → Prop
  | nil (A) : Run dflt A [] [] A
  | cons {A A' A'' c r cs rs} : Post dflt A c r A' → Run dflt A' cs rs A'' → Run dflt A (c :: cs) (r :: rs) A''

/-- Programs that use a map only between its construction and its destruction, and copy none. -/
def Legal : (Nat → Bool) → List (Cmd K V) → Prop
  | _, [] => True
  | live, .new i :: cs => live i = false ∧ Legal (fun j => if j = i then true else live j) cs
  | live, .insert i _ _ :: cs => live i = true ∧ Legal live cs
  | live, .set i _ _ :: cs => live i = true ∧ Legal live cs
  | live, .get i _ :: cs => live i = true ∧ Legal live cs
  | _, .copy _ _ :: _ => False
  | live, .del i :: cs => live i = true ∧ Legal (fun j => if j = i then false else live j) cs

end Nanostl.Map.Spec

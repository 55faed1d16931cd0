import Verif.Variant.Model

/-!
Model of `visit` (`include/nonstd/variant.hpp`). A visitor is a function of the list of its arguments (alternative and value each). The variants are all
of one type here; parameters passed by value are variables, numbered from a number on that the program does not use.
-/

namespace Nanostl.Variant

variable {α γ : Type}

/-- A visitor, or one of the function objects made of it. -/
abbrev Fn (α γ : Type) := List (Nat × α) → M α γ

/-- `nanostl::terminate()`. -/
def terminate {β : Type} : M α β := fun _ => .term

/-- `m`, then the end of a variable's life in any case. -/
def M.scope {β : Type} (m : M α β) (d : M α Unit) : M α β := fun s => match m s with
  | .ok s b => match d s with
    | .ok s _ => .ok s b
    | .exc s => .exc s
    | .term => .term
    | .bad => .bad
  | .exc s => match d s with
    | .ok s _ => .exc s
    | .exc s => .exc s
    | .term => .term
    | .bad => .bad
  | .term => .term
  | .bad => .bad

/-- `VisitorApplicator::apply( v, arg )`, `apply_visitor` and `VisitorApplicatorImpl` (variant.hpp:1911-1930, 2093-2130). -/
def apply1 (c : Cls α) (v : Fn α γ) (x : Var) : M α γ := do
  let i ← index x
  match i with
  | none => terminate
  | some k =>
    if k < 16 then
      if k < c.n then
        let u ← get c x k
        v [(k, u)]
      else terminate
    else terminate

/-- `TypedVisitorUnwrapper<2 … 5>::operator()` (variant.hpp:1945-2035); there is none for 6. -/
def typed (v : Fn α γ) (vals : List (Nat × α)) : Fn α γ := fun args => match args with
  | [u] => if vals.length ≤ 4 then v (u :: vals) else bad
  | _ => bad

/-- `VisitorUnwrapper::operator()` (variant.hpp:2039-2087). -/
def unwrapper (c : Cls α) (v : Fn α γ) (r : Var) : Fn α γ := fun vals => apply1 c (typed v vals) r

/-- Parameters `const V ... args` (variant.hpp:2134): copies of the arguments, in variables from `b` on, which live while `m` runs. -/
def copyIn {β : Type} (c : Cls α) : List Var → Nat → M α β → M α β
  | [], _, m => m
  | y :: ys, b, m => do
    ctorCopy c (.user b) y
    M.scope (copyIn c ys (b + 1) m) (dtor (.user b))

def temps (b n : Nat) : List Var := (List.range' b n).map .user

/-- `VisitorApplicator::apply( v, arg1, arg2, args... )` (variant.hpp:2133-2139): the third argument and those after it are copied. -/
def apply (c : Cls α) (v : Fn α γ) (x : Var) : List Var → Nat → M α γ
  | [], _ => apply1 c v x
  | y :: ys, b => copyIn c ys b (apply c (unwrapper c v x) y (temps b ys.length) (b + ys.length))
termination_by ys => ys.length
decreasing_by simp [temps]

/-- `visit` (variant.hpp:2188-2194). -/
def visit (c : Cls α) (v : Fn α γ) (xs : List Var) (b : Nat) : M α γ := match xs with
  | [] => bad
  | x :: ys => apply c v x ys b

end Nanostl.Variant

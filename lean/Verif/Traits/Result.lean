import Verif.Traits.Model

/-! The nested types of `reference_wrapper<T>` (nanofunctional.h:198-476): what a program that composes function objects asks for the result and the arguments of a callable. As in `Model`, one equation per
partial specialisation. The class has no constructor from a reference and no `operator()`, so its nested types are all that can be used of it.

Not modelled: `__invoke_return` (451-455), which calls a function `__invoke` that the library does not have. The header uses `is_same` without including nanotype_traits.h, so it compiles only after it. -/

namespace Nanostl.Traits.Result

open Nanostl.Traits

/-! ### The language -/

/-- A function type: result, parameters, `...` after them, qualifiers, `&` (`some false`) or `&&` (`some true`), `noexcept`. -/
structure Fn where
  ret : Ty
  params : List Ty
  variadic : Bool := false
  cv : CV := {}
  ref : Option Bool := none
  noexc : Bool := false
  deriving DecidableEq, Repr

/-- A base class (or the class itself) that is a `unary_function` or `binary_function`: its arguments and its result, and whether it is accessible and occurs once. -/
structure FBase (α : Type) where
  args : α
  res : Ty
  ok : Bool := true
  deriving DecidableEq, Repr

/-- A class as far as it matters here. `own`: what it declares by the name `result_type` (`none`: nothing; `some none`: something that is private or no type). `others`: what its other bases declare by this name, and whether
they are accessible. -/
structure Cls where
  own : Option (Option Ty) := none
  unary : List (FBase Ty) := []
  binary : List (FBase (Ty × Ty)) := []
  others : List (Ty × Bool) := []
  deriving DecidableEq, Repr

/-- What the lookup of `result_type` in a class finds. -/
inductive Found where
  | absent | type (t : Ty) | hidden
  deriving DecidableEq, Repr

/-- The declarations of `result_type` in the bases. -/
def Cls.inherited (c : Cls) : List (Ty × Bool) := c.unary.map (fun b => (b.res, b.ok)) ++ c.binary.map (fun b => (b.res, b.ok)) ++ c.others

/-- Member lookup ([class.member.lookup]): the class hides its bases; two declarations in different bases are ambiguous. -/
def Cls.lookup (c : Cls) : Found :=
  match c.own with
  | some (some t) => .type t
  | some none => .hidden
  | none => match c.inherited with
    | [] => .absent
    | [(t, true)] => .type t
    | _ => .hidden

/-- The argument of `reference_wrapper`. `cls` is a class, union or something without a nested type or base; `other` a reference to an object, or void. -/
inductive Tgt where
  | fn (f : Fn)
  | fnRef (f : Fn)
  | fnPtr (q : CV) (f : Fn)
  | memFn (q : CV) (cls : Nat) (f : Fn)
  | cls (c : Cls)
  | other
  deriving DecidableEq, Repr

/-- Whether `T*` can be written. -/
def canPtr : Ty → Bool
  | .lref _ => false
  | .rref _ => false
  | .fn q _ _ => !q
  | _ => true

/-- Whether a function type has qualifiers, so that there is no pointer to it ([dcl.fct]). -/
def Fn.qualified (f : Fn) : Bool := f.cv.c || f.cv.v || f.ref.isSome

/-- Deduction of the arguments of `unary_function<_Ap, _Rp>` from a pointer to a class ([temp.deduct.call]/4): `none` for none or more than one such base, so that `__test(...)` is called. A base that is not accessible
or occurs twice is deduced, and the call is an error. -/
inductive Deduced (α : Type) where
  | no | yes (b : FBase α) | error
  deriving DecidableEq, Repr

def deduce {α : Type} : List (FBase α) → Deduced α
  | [b] => if b.ok then .yes b else .error
  | _ => .no

/-! ### The header -/

/-- The nested types: `result_type`, `argument_type`, `first_argument_type`, `second_argument_type`. -/
structure Members where
  result : Option Ty := none
  arg : Option Ty := none
  first : Option Ty := none
  second : Option Ty := none
  deriving DecidableEq, Repr

/-- `unary_function` (nanofunctional.h:198-203). -/
def unary_function (a r : Ty) : Members := { result := some r, arg := some a }

/-- `binary_function` (nanofunctional.h:205-211). -/
def binary_function (a b r : Ty) : Members := { result := some r, first := some a, second := some b }

/-- `__has_result_type` (nanofunctional.h:215-224): `typename _Up::result_type*` must be a type. -/
def has_result_type (c : Cls) : Option Ty :=
  match c.lookup with
  | .type t => if canPtr t then some t else none
  | _ => none

/-- `__derives_from_unary_function`, `__maybe_derive_from_unary_function` (nanofunctional.h:228-240, 256-265); outer `none`: an error. -/
def maybe_unary (c : Cls) : Option (Option Members) :=
  match deduce c.unary with
  | .no => some none
  | .yes b => some (some (unary_function b.args b.res))
  | .error => none

/-- `__derives_from_binary_function`, `__maybe_derive_from_binary_function` (nanofunctional.h:242-254, 267-276). -/
def maybe_binary (c : Cls) : Option (Option Members) :=
  match deduce c.binary with
  | .no => some none
  | .yes b => some (some (binary_function b.args.1 b.args.2 b.res))
  | .error => none

/-- Deriving from both: `result_type` of both is ambiguous, so it names nothing. -/
def join : Option Members → Option Members → Members
  | none, none => {}
  | some u, none => u
  | none, some b => b
  | some u, some b => { result := none, arg := u.arg, first := b.first, second := b.second }

/-- `__weak_result_type_imp` (nanofunctional.h:278-291); its own `result_type` hides those of its bases. -/
def weak_result_type_imp (c : Cls) : Option Members :=
  match maybe_unary c, maybe_binary c with
  | some u, some b => match has_result_type c with
    | some t => some { join u b with result := some t }
    | none => some (join u b)
  | _, _ => none

/-- The specialisations for `_Rp (_A1, ...)`, `_Rp (&)(...)` and `_Rp (*)(...)` (nanofunctional.h:301-337, 365-381, 409-425). -/
def weakFn (r : Ty) : List Ty → Members
  | [] => { result := some r }
  | [a] => unary_function a r
  | [a, b] => binary_function a b r
  | _ :: _ :: _ :: _ => { result := some r }

/-- The specialisations for `_Rp (_Cp::*)(...)` with the four combinations of `const` and `volatile` (nanofunctional.h:339-361, 383-405, 427-449). -/
def weakMem (r : Ty) (n : Nat) (q : CV) : List Ty → Members
  | [] => unary_function (.ptr {} (.base q (.cls n))) r
  | [a] => binary_function (.ptr {} (.base q (.cls n))) a r
  | _ :: _ :: _ => { result := some r }

/-- Whether a function type is of the form `_Rp (_A...)`: no `...`, no qualifiers, and not `noexcept` where that is part of the type (`std17`). -/
def Fn.plain (std17 : Bool) (f : Fn) : Bool := !f.variadic && !f.qualified && !(f.noexc && std17)

/-- The same but for `const` and `volatile`. -/
def Fn.plainMem (std17 : Bool) (f : Fn) : Bool := !f.variadic && f.ref.isNone && !(f.noexc && std17)

/-- `__weak_result_type<T>` (nanofunctional.h:293-449). A pointer that is itself const or volatile matches no specialisation; for it and for other function types there is the primary template, which finds nothing
(pointers to members have no nested types). `_Tp*`, used by the primary template (238, 252), must be a type. -/
def weak_result_type (std17 : Bool) : Tgt → Option Members
  | .fn f => if f.plain std17 then some (weakFn f.ret f.params) else if f.qualified then none else some {}
  | .fnRef f => if f.plain std17 then some (weakFn f.ret f.params) else none
  | .fnPtr q f => if !q.c && !q.v && f.plain std17 then some (weakFn f.ret f.params) else some {}
  | .memFn q n f => if !q.c && !q.v && f.plainMem std17 then some (weakMem f.ret n f.cv f.params) else some {}
  | .cls c => weak_result_type_imp c
  | .other => none

/-- `reference_wrapper<T>` (nanofunctional.h:461-476): a pointer to `T` and functions with parameters `T &` and `T &&` must be possible. Its own nested type is `type`. -/
def reference_wrapper (std17 : Bool) (t : Tgt) : Option Members :=
  match t with
  | .fnRef _ => none
  | .other => none
  | t => weak_result_type std17 t

end Nanostl.Traits.Result

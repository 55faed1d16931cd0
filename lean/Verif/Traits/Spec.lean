import Verif.Traits.Model

/-! What the traits are to say, read off the grammar of types and the standard's wording, without the header's own devices. -/

namespace Nanostl.Traits.Spec
open Nanostl.Traits

/-- The primary type categories ([meta.unary.cat]): every type is in exactly one, whatever its qualifiers. -/
inductive Cat where
  | void | nullptr | integral | floating | array | pointer | lref | rref | memObj | memFn | enum | union | cls | function
  deriving DecidableEq, Repr

def cat : Ty → Cat
  | .base _ (.fund .void) => .void
  | .base _ (.fund .nullptr) => .nullptr
  | .base _ (.fund .float) | .base _ (.fund .double) | .base _ (.fund .ldouble) => .floating
  | .base _ (.fund _) => .integral
  | .base _ (.cls _) => .cls
  | .base _ (.union _) => .union
  | .base _ (.enum _) => .enum
  | .ptr .. => .pointer
  | .mem _ (.fn ..) _ => .memFn
  | .mem .. => .memObj
  | .arr .. => .array
  | .fn .. => .function
  | .lref _ => .lref
  | .rref _ => .rref

/-- Types the header forgets: the character types of UTF-8, UTF-16, UTF-32 and the extended integers. -/
def forgotten : Ty → Bool
  | .base _ (.fund f) => f = .char8 || f = .char16 || f = .char32 || f = .i128 || f = .u128
  | _ => false

/-- Top level qualifiers; those of an array are its elements'. -/
def quals : Ty → CV
  | .base q _ => q
  | .ptr q _ => q
  | .mem q _ _ => q
  | .arr t _ => quals t
  | _ => {}

/-- Object types: neither functions nor references nor void ([basic.types.general]). -/
def object (t : Ty) : Prop := cat t ≠ .function ∧ cat t ≠ .lref ∧ cat t ≠ .rref ∧ cat t ≠ .void

def scalar (t : Ty) : Prop :=
  cat t = .integral ∨ cat t = .floating ∨ cat t = .enum ∨ cat t = .pointer ∨ cat t = .memObj ∨ cat t = .memFn ∨ cat t = .nullptr

/-- Types that can be written: no references to references or to void, no arrays of references, functions, void or arrays of unknown bound, no
pointers to references. -/
def wf : Ty → Prop
  | .base _ _ => True
  | .ptr _ t => wf t ∧ cat t ≠ .lref ∧ cat t ≠ .rref ∧ (∀ r a, t ≠ .fn true r a)
  | .mem _ t _ => wf t ∧ cat t ≠ .lref ∧ cat t ≠ .rref ∧ cat t ≠ .void
  | .arr t _ => wf t ∧ object t ∧ (∀ u, t ≠ .arr u none)
  | .fn _ t _ => wf t ∧ cat t ≠ .array ∧ cat t ≠ .function
  | .lref t => wf t ∧ cat t ≠ .lref ∧ cat t ≠ .rref ∧ cat t ≠ .void ∧ (∀ r a, t ≠ .fn true r a)
  | .rref t => wf t ∧ cat t ≠ .lref ∧ cat t ≠ .rref ∧ cat t ≠ .void ∧ (∀ r a, t ≠ .fn true r a)

/-- The decay of an argument type ([meta.trans.other]): as in passing by value. -/
def decayObj : Ty → Ty
  | .base _ b => .base {} b
  | .ptr _ t => .ptr {} t
  | .mem _ t n => .mem {} t n
  | .arr t _ => .ptr {} t
  | .fn false r a => .ptr {} (.fn false r a)
  | t => t

def decay : Ty → Ty
  | .lref t => decayObj t
  | .rref t => decayObj t
  | t => decayObj t

/-- Whether objects of the type can be destroyed (the header's comment, nanotype_traits.h:648-653). -/
def destructible (e : Env) : Ty → Bool
  | .lref _ | .rref _ => true
  | .fn .. => false
  | .base _ (.fund .void) => false
  | .arr _ none => false
  | .arr t (some _) => destructible e t
  | .base _ (.cls n) => e.clsDtor n
  | .base _ (.union n) => e.unionDtor n
  | _ => true

/-- The type below all arrays. -/
def innermost : Ty → Ty
  | .arr t _ => innermost t
  | t => t

end Nanostl.Traits.Spec

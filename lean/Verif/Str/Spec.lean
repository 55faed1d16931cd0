import Verif.Str.Model

/-!
Specification of strings as named byte sequences. `some none` is a string left in an unspecified state by an operation
that threw: it may only be cleared, assigned to or destroyed.
-/

namespace Nanostl.Str.Spec

open Nanostl.Str (SCmd Byte)

abbrev Abs := Nat → Option (Option (List Byte))

def upd (A : Abs) (i : Nat) (x : Option (Option (List Byte))) : Abs := fun j => if j = i then x else A j

/-- The characters of a C string: those before the first NUL; the null pointer counts as empty. -/
def cchars : Option (List Byte) → List Byte
  | none => []
  | some b => b.takeWhile (· != 0)

def Good (A : Abs) (i : Nat) : Prop := ∃ l, A i = some (some l)

def Pre (A : Abs) : SCmd → Prop
  | .new i => A i = none
  | .fromC i s => A i = none ∧ ∀ b, s = some b → 0 ∈ b
  | .copy i j => A i = none ∧ Good A j
  | .plus k i j => A k = none ∧ Good A i ∧ Good A j
  | .append i j => i ≠ j ∧ Good A i ∧ Good A j
  | .assign i j => (∃ x, A i = some x) ∧ Good A j
  | .clear i => ∃ x, A i = some x
  | .write i k _ => ∃ l, A i = some (some l) ∧ k < l.length
  | .erase i k => ∃ l, A i = some (some l) ∧ k < l.length
  | .del i => ∃ x, A i = some x

/-- Effect of a normal return. -/
def Post (A : Abs) : SCmd → Abs → Prop
  | .new i, A' => A' = upd A i (some (some []))
  | .fromC i s, A' => A' = upd A i (some (some (cchars s)))
  | .copy i j, A' => A' = upd A i (A j)
  | .plus k i j, A' => ∃ l m, A i = some (some l) ∧ A j = some (some m) ∧ A' = upd A k (some (some (l ++ m)))
  | .append i j, A' => ∃ l m, A i = some (some l) ∧ A j = some (some m) ∧ A' = upd A i (some (some (l ++ m)))
  | .assign i j, A' => A' = upd A i (A j)
  | .clear i, A' => A' = upd A i (some (some []))
  | .write i k c, A' => ∃ l, A i = some (some l) ∧ A' = upd A i (some (some (l.set k c)))
  | .erase i k, A' => ∃ l, A i = some (some l) ∧ A' = upd A i (some (some (l.eraseIdx k)))
  | .del i, A' => A' = upd A i none

/-- Effect of a throw: constructions create nothing, `+=` and `=` leave their target unspecified, and `clear` can throw
only on a string already unspecified. Nothing else is touched. -/
def Exc (A : Abs) : SCmd → Abs → Prop
  | .new _, A' => A' = A
  | .fromC _ _, A' => A' = A
  | .copy _ _, A' => A' = A
  | .plus _ _ _, A' => A' = A
  | .append i _, A' => A' = upd A i (some none)
  | .assign i j, A' => i ≠ j ∧ A' = upd A i (some none)
  | .clear i, A' => A i = some none ∧ A' = A
  | _, _ => False

inductive Run : Abs → List SCmd → List Bool → Abs → Prop
  | nil (A) : Run A [] [] A
  | ok {A A' A'' c cs ts} : Post A c A' → Run A' cs ts A'' → Run A (c :: cs) (false :: ts) A''
  | exc {A A' A'' c cs ts} : Exc A c A' → Run A' cs ts A'' → Run A (c :: cs) (true :: ts) A''

end Nanostl.Str.Spec

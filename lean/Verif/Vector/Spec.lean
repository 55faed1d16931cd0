import Verif.Vector.Model

/-!
Specification of vectors, independent of heap and capacity: a client sees named sequences.
An element is `none` when its value is unspecified (positions added by `resize`).
-/

namespace Nanostl.Vector.Spec

open Nanostl.Vector (Cmd)

variable {α : Type}

/-- Named sequences. -/
abbrev Abs (α : Type) := Nat → Option (List (Option α))

def upd (A : Abs α) (i : Nat) (l : Option (List (Option α))) : Abs α := fun j => if j = i then l else A j

/-- Preconditions a C++ programmer must respect. `pushElem i i k` (an element of the vector itself) is excluded here,
and so is `resize` to 0; both are treated separately. -/
def Pre (A : Abs α) : Cmd α → Prop
  | .new i => A i = none
  | .copy i j => A i = none ∧ ∃ l, A j = some l
  | .del i => ∃ l, A i = some l
  | .push i _ => ∃ l, A i = some l
  | .pushElem i j k => i ≠ j ∧ (∃ l, A i = some l) ∧ ∃ l, A j = some l ∧ k < l.length
  | .pop i => ∃ l, A i = some l ∧ l ≠ []
  | .write i k _ => ∃ l, A i = some l ∧ k < l.length
  | .erase i k => ∃ l, A i = some l ∧ k < l.length
  | .resize i n => (∃ l, A i = some l) ∧ 1 ≤ n ∧ n < 2 ^ 64
  | .clear i => ∃ l, A i = some l
  | .assignVals i _ => ∃ l, A i = some l
  | .assignFrom i j lo hi => (∃ l, A i = some l) ∧ ∃ l, A j = some l ∧ lo ≤ hi ∧ hi ≤ l.length
  | .opAssign i j => (∃ l, A i = some l) ∧ ∃ l, A j = some l
  | .swap i j => (∃ l, A i = some l) ∧ ∃ l, A j = some l

/-- Effect of an operation that returns normally. -/
def Post (A : Abs α) : Cmd α → Abs α → Prop
  | .new i, A' => A' = upd A i (some [])
  | .copy i j, A' => A' = upd A i (A j)
  | .del i, A' => A' = upd A i none
  | .push i a, A' => ∃ l, A i = some l ∧ A' = upd A i (some (l ++ [some a]))
  | .pushElem i j k, A' => ∃ l m c, A i = some l ∧ A j = some m ∧ m[k]? = some c ∧ A' = upd A i (some (l ++ [c]))
  | .pop i, A' => ∃ l, A i = some l ∧ A' = upd A i (some l.dropLast)
  | .write i k a, A' => ∃ l, A i = some l ∧ A' = upd A i (some (l.set k (some a)))
  | .erase i k, A' => ∃ l, A i = some l ∧ A' = upd A i (some (l.eraseIdx k))
  | .resize i n, A' => ∃ l f, A i = some l ∧ (l.take n ++ f).length = n ∧ A' = upd A i (some (l.take n ++ f))
  | .clear i, A' => A' = upd A i (some [])
  | .assignVals i xs, A' => A' = upd A i (some (xs.map some))
  | .assignFrom i j lo hi, A' => ∃ m, A j = some m ∧ A' = upd A i (some ((m.take hi).drop lo))
  | .opAssign i j, A' => A' = upd A i (A j)
  | .swap i j, A' => A' = upd (upd A i (A j)) j (A i)

/-- Effect of an operation that throws because an allocation failed. Only the listed operations can throw.
`push_back` and `resize` change nothing; assignments leave a prefix of the source; a failed copy construction creates no vector. -/
def Exc (A : Abs α) : Cmd α → Abs α → Prop
  | .copy _ _, A' => A' = A
  | .push _ _, A' => A' = A
  | .pushElem _ _ _, A' => A' = A
  | .resize _ _, A' => A' = A
  | .assignVals i xs, A' => ∃ n, n < xs.length ∧ A' = upd A i (some ((xs.map some).take n))
  | .assignFrom i j lo hi, A' => i ≠ j ∧ ∃ m n, A j = some m ∧ n < hi - lo ∧ A' = upd A i (some (((m.take hi).drop lo).take n))
  | .opAssign i j, A' => i ≠ j ∧ ∃ m n, A j = some m ∧ n < m.length ∧ A' = upd A i (some (m.take n))
  | _, _ => False

/-- A history with, per operation, whether it threw. -/
inductive Run : Abs α → List (Cmd α) → List Bool → Abs α → Prop
  | nil (A) : Run A [] [] A
  | ok {A A' A'' c cs ts} : Post A c A' → Run A' cs ts A'' → Run A (c :: cs) (false :: ts) A''
  | exc {A A' A'' c cs ts} : Exc A c A' → Run A' cs ts A'' → Run A (c :: cs) (true :: ts) A''

end Nanostl.Vector.Spec

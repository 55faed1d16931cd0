import Verif.Exp.Order

/-!
Property C128: the order of `expected`. It can sort: an error is before every value, values are as their type has it. A comparison with a value or with an
`unexpected_type` says what the comparison with the `expected` made of it says, and the six operators of any two operands agree with each other.
-/

namespace Nanostl.Exp.Order

variable {α β : Type}

/-- What sorting needs of `<`: a strict weak order. -/
structure Sorts {γ : Type} (r : γ → γ → Bool) : Prop where
  irrefl : ∀ x, r x x = false
  trans : ∀ x y z, r x y = true → r y z = true → r x z = true
  incomp : ∀ x y z, r x y = false → r y x = false → r y z = false → r z y = false → r x z = false ∧ r z x = false

/-- The operators of a type with one order. -/
structure Linear {γ : Type} (o : Ops γ) : Prop extends Sorts o.lt where
  eq : ∀ x y, o.eq x y = true ↔ o.lt x y = false ∧ o.lt y x = false

/-- The order meant: errors before values, each among themselves by their own type. -/
def Less (a : Ops α) (b : Ops β) : α ⊕ β → α ⊕ β → Prop
  | .inl x, .inl y => a.lt x y = true
  | .inr x, .inr y => b.lt x y = true
  | .inr _, .inl _ => True
  | .inl _, .inr _ => False

/-- Six results of comparing `x` with `y` that agree: `<`, `>`, `<=`, `>=` and the same the other way round. -/
def Agree (lt gt le ge lt' gt' le' ge' : Bool) : Prop := gt' = lt ∧ lt' = gt ∧ le = !gt ∧ ge = !lt ∧ le' = !lt ∧ ge' = !gt

/-- `expected`s can be sorted if their values can. -/
theorem c128_sorts (a : Ops α) (h : Sorts a.lt) : Sorts (lt (β := β) a) where
  irrefl x := by rcases x with x | x <;> simp [lt, h.irrefl]
  trans x y z h1 h2 := by
    rcases x with x | x <;> rcases y with y | y <;> rcases z with z | z <;> simp only [lt] at h1 h2 ⊢ <;> first | exact h.trans x y z h1 h2 | simp_all
  incomp x y z h1 h2 h3 h4 := by
    rcases x with x | x <;> rcases y with y | y <;> rcases z with z | z <;> simp only [lt] at h1 h2 h3 h4 ⊢ <;> first | exact h.incomp x y z h1 h2 h3 h4 | simp_all

/-- It is the order meant exactly between operands that are not errors one before the other. -/
theorem c128_order_partial (a : Ops α) (b : Ops β) (x y : α ⊕ β) :
    (lt a x y = true ↔ Less a b x y) ↔ ∀ e f, x = .inr e → y = .inr f → b.lt e f = false := by
  rcases x with x | x <;> rcases y with y | y <;> simp [lt, Less]

/-- Neither of two operands is before the other exactly if they are equal, but for errors that differ. -/
theorem c128_eq_partial (a : Ops α) (b : Ops β) (h : Linear a) (x y : α ⊕ β) :
    (eq a b x y = true ↔ lt a x y = false ∧ lt a y x = false) ↔ ∀ e f, x = .inr e → y = .inr f → b.eq e f = true := by
  rcases x with x | x <;> rcases y with y | y <;> simp [lt, eq, h.eq]

/-- Different errors are each `<=` the other and not `==`. -/
theorem c128_eq_false (a : Ops α) (b : Ops β) (e f : β) (h : b.eq e f = false) :
    le (α := α) a (.inr e) (.inr f) = true ∧ le (α := α) a (.inr f) (.inr e) = true ∧ eq a b (.inr e) (.inr f) = false := ⟨rfl, rfl, h⟩

/-- The operators of two `expected`s agree with each other. -/
theorem c128_agree (a : Ops α) (x y : α ⊕ β) :
    Agree (lt a x y) (gt a x y) (le a x y) (ge a x y) (lt a y x) (gt a y x) (le a y x) (ge a y x) := ⟨rfl, rfl, rfl, rfl, rfl, rfl⟩

/-- Comparing with a value says what comparing with an `expected` of it says, but for `v > x`. -/
theorem c128_with_value (a : Ops α) (x : α ⊕ β) (v : α) :
    ltV a x v = lt a x (.inl v) ∧ gtV a x v = gt a x (.inl v) ∧ leV a x v = le a x (.inl v) ∧ geV a x v = ge a x (.inl v) ∧
    vLt a v x = lt a (.inl v) x ∧ vLe a v x = le a (.inl v) x ∧ vGe a v x = ge a (.inl v) x := by
  rcases x with x | x <;> simp [ltV, gtV, leV, geV, vLt, vLe, vGe, lt, gt, le, ge]

/-- `v > x` says so exactly if `x` has a value. -/
theorem c128_value_greater_partial (a : Ops α) (x : α ⊕ β) (v : α) :
    vGt a v x = gt a (.inl v) x ↔ x.isLeft = true := by
  rcases x with x | x <;> simp [vGt, gt, lt]

/-- For an error `x < v` and `v >= x`, but not `v > x`, whatever the value is; and `v == x` is false. -/
theorem c128_value_greater_false (a : Ops α) (b : Ops β) (e : β) (v : α) :
    ltV a (.inr e) v = true ∧ vGe a v (.inr e) = true ∧ vGt a v (.inr e) = false ∧ eq a b (.inl v) (.inr e) = false := ⟨rfl, rfl, rfl, rfl⟩

/-- The operators with an `unexpected_type` agree with each other, and with the order meant, not with that of two `expected`s. -/
theorem c128_with_error (a : Ops α) (b : Ops β) (x : α ⊕ β) (u : β) :
    Agree (ltU (uOps b) x u) (gtU (uOps b) x u) (leU (uOps b) x u) (geU (uOps b) x u) (uLt (uOps b) u x) (uGt (uOps b) u x) (uLe (uOps b) u x) (uGe (uOps b) u x) ∧
    (ltU (uOps b) x u = true ↔ Less a b x (.inr u)) ∧ (uLt (uOps b) u x = true ↔ Less a b (.inr u) x) := by
  refine ⟨⟨rfl, rfl, rfl, rfl, rfl, rfl⟩, ?_, ?_⟩ <;> rcases x with x | x <;> simp [ltU, uLt, Less, uOps]

/-- The operators of two `unexpected_type`s agree with each other and with those of an `expected`, for any errors but `exception_ptr`. -/
theorem c128_errors (b : Ops β) (e u : β) :
    Agree ((uOps b).lt e u) ((uOps b).gt e u) ((uOps b).le e u) ((uOps b).ge e u) ((uOps b).lt u e) ((uOps b).gt u e) ((uOps b).le u e) ((uOps b).ge u e) ∧
    ltU (α := α) (uOps b) (.inr e) u = (uOps b).lt e u ∧ gtU (α := α) (uOps b) (.inr e) u = (uOps b).gt e u ∧
    leU (α := α) (uOps b) (.inr e) u = (uOps b).le e u ∧ geU (α := α) (uOps b) (.inr e) u = (uOps b).ge e u := ⟨⟨rfl, rfl, rfl, rfl, rfl, rfl⟩, rfl, rfl, rfl, rfl⟩

/-- `x < u` says what `x < expected(u)` says exactly if `x` is not an error before `u`. -/
theorem c128_error_order_partial (a : Ops α) (b : Ops β) (x : α ⊕ β) (u : β) :
    ltU (uOps b) x u = lt a x (.inr u) ↔ ∀ e, x = .inr e → b.lt e u = false := by
  rcases x with x | x <;> simp [ltU, lt, uOps]

/-- An error is before an `unexpected` error, and the same error in an `expected` not before the same. -/
theorem c128_error_order_false : ∃ (b : Ops Nat) (e u : Nat), ltU (α := Nat) (uOps b) (.inr e) u = true ∧ lt (α := Nat) ⟨(· == ·), fun x y => decide (x < y)⟩ (.inr e) (.inr u) = false :=
  ⟨⟨(· == ·), fun x y => decide (x < y)⟩, 1, 2, rfl, rfl⟩

/-- For `exception_ptr`, `<=` of an `expected` error and an `unexpected` one is true, of two `unexpected` ones only if they are equal. -/
theorem c128_exception_partial (eq : β → β → Bool) (e u : β) :
    leU (α := α) (excOps eq) (.inr e) u = (excOps eq).le e u ↔ eq e u = true := by
  simp only [leU, uLt, excOps, Bool.not_false]
  exact eq_comm

/-! ### The hypotheses are met -/

/-- `int`s. -/
def ints : Ops Int := ⟨(· == ·), fun x y => decide (x < y)⟩

theorem ints_linear : Linear ints where
  irrefl x := by simp [ints]
  trans x y z h1 h2 := by simp only [ints, decide_eq_true_eq] at *; omega
  incomp x y z h1 h2 h3 h4 := by simp only [ints, decide_eq_false_iff_not] at *; omega
  eq x y := by simp only [ints, beq_iff_eq, decide_eq_false_iff_not]; omega

example : Sorts (lt (β := Int) ints) := c128_sorts ints ints_linear.toSorts
example : lt (β := Int) ints (.inl 3) (.inl 5) = true ∧ lt ints (.inr 9) (.inl (3 : Int)) = true ∧ eq ints ints (.inr 1) (.inr 2) = false := by decide
example : ints.eq 1 2 = false := rfl
example : ¬ (vGt ints 3 (.inr (1 : Int)) = gt ints (.inl 3) (.inr (1 : Int))) := by decide

end Nanostl.Exp.Order

import Verif.Traits.Caps

/-!
C124: the traits of `optional`, `expected`, `unexpected_type` and `variant` tell the truth.

Specification: a type is honest if each trait says exactly whether the operation compiles; `can` is what the standard lets a wrapper of given parts do.
-/

namespace Nanostl.Caps

/-- Each trait says whether the operation compiles. -/
def Honest (c : Cap) : Prop := ∀ op, c.says op = c.does op

/-- All operations compile. -/
def Regular (c : Cap) : Prop := ∀ op, c.does op = true

/-- All the parts can do all of the operations. -/
def Parts (ps : List Cap) (ops : List Op) : Prop := ∀ p ∈ ps, ∀ op ∈ ops, p.does op = true

/-- What a wrapper should be able to do if its parts are `ps`: it is copied if all can be copied; an rvalue is moved, or copied if that is possible; for an
assignment a part may have to be destroyed, made or assigned; `swap` swaps and moves the parts, or else moves the whole. -/
def can (ps : List Cap) : Op → Prop
  | .destroy => Parts ps [.destroy]
  | .copy => Parts ps [.copy]
  | .move => Parts ps [.move] ∨ Parts ps [.copy]
  | .copyAssign => Parts ps [.destroy, .copy, .copyAssign]
  | .moveAssign => Parts ps [.destroy, .move, .moveAssign] ∨ Parts ps [.destroy, .copy, .copyAssign]
  | .swap => Parts ps [.destroy, .move, .swap] ∨
      ((Parts ps [.move] ∨ Parts ps [.copy]) ∧ (Parts ps [.destroy, .move, .moveAssign] ∨ Parts ps [.destroy, .copy, .copyAssign]))

theorem forall_op {P : Op → Prop} : (∀ op, P op) ↔ P .destroy ∧ P .copy ∧ P .move ∧ P .copyAssign ∧ P .moveAssign ∧ P .swap :=
  ⟨fun h => ⟨h _, h _, h _, h _, h _, h _⟩, fun ⟨a, b, c, d, e, f⟩ op => by cases op <;> assumption⟩

/-- A type that can do these operations, and says so. -/
def only (ops : List Op) : Cap := ⟨fun op => decide (op ∈ ops), fun op => decide (op ∈ ops)⟩

/-- Like `unique_ptr`, like a type with a deleted move constructor and assignment, and like a mutex. -/
def moveOnly : Cap := only [.destroy, .move, .moveAssign, .swap]
@[inherit_doc moveOnly] def copyOnly : Cap := only [.destroy, .copy, .copyAssign]
@[inherit_doc moveOnly] def fixed : Cap := only [.destroy]

/-- Like `int`. -/
def plain : Cap := only [.destroy, .copy, .move, .copyAssign, .moveAssign, .swap]

theorem honest_only (ops : List Op) : Honest (only ops) := fun _ => rfl

theorem regular_plain : Regular plain := by intro op; cases op <;> rfl

/-! ### optional -/

/-- `optional<T>` is honest exactly if `T` can do everything but be swapped. -/
theorem c124_optional_partial {t : Cap} (h : Honest t) : Honest (optional t) ↔ ∀ op, op ≠ .swap → t.does op = true := by
  simp only [Honest, forall_op] at h ⊢
  simp only [optional, optionalSays, optionalDoes, swapSays, swapDoes, h]
  grind

/-- What `optional<T>` can do is what it should be able to do, but for the assignment from an rvalue and `swap`, which may be missing. -/
theorem c124_optional_can_partial {t : Cap} (h : Honest t) (op : Op) : (op ≠ .moveAssign → op ≠ .swap → can [t] op → (optional t).does op = true) ∧
    (t.does .move = true → t.does .moveAssign = true → can [t] op → (optional t).does op = true) := by
  simp only [Honest, forall_op] at h
  cases op <;> simp [can, Parts, optional, optionalDoes, swapDoes, h] <;> grind

/-- What compiles should, also if the traits of `T` lie: no operation of `optional<T>` does without what it needs. -/
theorem c124_optional_needs {t : Cap} {op : Op} (h : (optional t).does op = true) : can [t] op := by
  revert h
  cases op <;> simp [can, Parts, optional, optionalDoes, swapDoes] <;> grind

/-- The traits of `optional<T>` say yes to every operation for every `T`, also where `T` does not allow it. -/
theorem c124_optional_says_false (op : Op) : (∀ t, (optional t).says op = true) ∧
    ∃ t, Honest t ∧ (optional t).does op = false ∧ ¬can [t] op := by
  refine ⟨fun t => ?_, only [], honest_only _, ?_, ?_⟩
  · cases op <;> simp [optional, optionalSays, swapSays]
  · cases op <;> rfl
  · cases op <;> simp [can, Parts, only]

/-- `optional<unique_ptr<int>>` is said to be copyable, and is not; the rvalue of an `optional` of a copyable type cannot be assigned though it could be. -/
theorem c124_optional_false : Honest moveOnly ∧ (optional moveOnly).says .copy = true ∧ (optional moveOnly).does .copy = false ∧
    (optional moveOnly).says .copyAssign = true ∧ (optional moveOnly).does .copyAssign = false ∧
    can [copyOnly] .moveAssign ∧ (optional copyOnly).says .moveAssign = true ∧ (optional copyOnly).does .moveAssign = false := by
  refine ⟨honest_only _, rfl, rfl, rfl, rfl, Or.inr ?_, rfl, rfl⟩
  simp [Parts]
  decide

/-! ### expected -/

/-- `expected<T, E>` is honest exactly if `T` and `E` can be destroyed, copied, moved and swapped. -/
theorem c124_expected_partial {t e : Cap} (ht : Honest t) (he : Honest e) :
    Honest (expected t e) ↔ Parts [t, e] [.destroy, .copy, .move, .swap] := by
  simp only [Honest, forall_op] at ht he ⊢
  simp [Parts, expected, expectedSays, expectedDoes, expectedSwapSays, expectedSwapDoes, storage, Storage.usable, swapSays, swapDoes, ht, he]
  grind

/-- The constructors of `expected<T, E>` are right for all types: what is said is what compiles and what should. -/
theorem c124_expected_made {t e : Cap} (ht : Honest t) (he : Honest e) (op : Op) (hop : op = .copy ∨ op = .move) :
    (expected t e).says op = (expected t e).does op ∧ ((expected t e).does op = true ↔ can [t, e] op) := by
  simp only [Honest, forall_op] at ht he
  rcases hop with rfl | rfl <;>
  · simp [can, Parts, expected, expectedSays, expectedDoes, storage, ht, he]
    try grind

/-- The assignments compile exactly if the parts can be made, moved, swapped and destroyed, whether or not they can be assigned. -/
theorem c124_expected_assign {t e : Cap} (ht : Honest t) (he : Honest e) :
    ((expected t e).does .copyAssign = true ↔ Parts [t, e] [.destroy, .copy, .move, .swap]) ∧
    ((expected t e).does .moveAssign = true ↔ Parts [t, e] [.destroy, .move, .swap]) := by
  simp only [Honest, forall_op] at ht he
  constructor <;>
  · simp [Parts, expected, expectedDoes, expectedSwapSays, expectedSwapDoes, storage, Storage.usable, ht, he]
    grind

/-- Also if the traits of the parts lie, no operation of `expected<T, E>` does without what it needs. -/
theorem c124_expected_needs {t e : Cap} :
    ((expected t e).does .destroy = true → can [t, e] .destroy) ∧ ((expected t e).does .copy = true → can [t, e] .copy) ∧
    ((expected t e).does .move = true → can [t, e] .move) ∧
    ((expected t e).does .copyAssign = true → Parts [t, e] [.destroy, .copy, .move, .swap]) ∧
    ((expected t e).does .moveAssign = true → Parts [t, e] [.destroy, .move, .swap]) ∧
    ((expected t e).does .swap = true → Parts [t, e] [.destroy, .move, .swap]) := by
  refine ⟨?_, ?_, ?_, ?_, ?_, ?_⟩ <;>
  · simp [can, Parts, expected, expectedDoes, expectedSwapSays, expectedSwapDoes, storage, Storage.usable, swapDoes]
    try grind

/-- Nor does an assignment do without what the constraint of `swap` asks the traits: both parts swappable, one of them movable. -/
theorem c124_expected_asks {t e : Cap} {op : Op} (hop : op = .copyAssign ∨ op = .moveAssign) (h : (expected t e).does op = true) :
    t.says .swap = true ∧ e.says .swap = true ∧ (t.says .move = true ∨ e.says .move = true) := by
  rcases hop with rfl | rfl <;>
  · simp [expected, expectedDoes, expectedSwapSays] at h
    grind

/-- The assignments of `expected<int, int>` do compile. -/
example : (expected plain plain).does .copyAssign = true ∧ (expected plain plain).does .moveAssign = true := ⟨rfl, rfl⟩

/-- `expected<unique_ptr<int>, int>` is said to be copy assignable, and is not. An `expected` of a type that can be neither copied nor moved cannot even be destroyed;
one of a type that can be copied but not moved cannot be assigned though both could be. -/
theorem c124_expected_false : (expected moveOnly plain).says .copyAssign = true ∧ (expected moveOnly plain).does .copyAssign = false ∧
    (expected fixed plain).says .destroy = true ∧ (expected fixed plain).does .destroy = false ∧ can [fixed, plain] .destroy ∧
    can [copyOnly, plain] .copyAssign ∧ (expected copyOnly plain).says .copyAssign = true ∧ (expected copyOnly plain).does .copyAssign = false := by
  refine ⟨rfl, rfl, rfl, rfl, ?_, ?_, rfl, rfl⟩ <;> simp [can, Parts] <;> decide

/-- `expected<void, E>` is honest exactly if `E` can be destroyed, copied, moved and swapped. -/
theorem c124_void_partial {e : Cap} (he : Honest e) : Honest (expectedVoid e) ↔ Parts [e] [.destroy, .copy, .move, .swap] := by
  simp only [Honest, forall_op] at he ⊢
  simp [Parts, expectedVoid, voidSays, voidDoes, voidSwapSays, voidSwapDoes, storageVoid, Storage.usable, swapSays, swapDoes, he]
  grind

/-- The constructors of `expected<void, E>` are right for all types. -/
theorem c124_void_made {e : Cap} (he : Honest e) (op : Op) (hop : op = .copy ∨ op = .move) :
    (expectedVoid e).says op = (expectedVoid e).does op ∧ ((expectedVoid e).does op = true ↔ can [e] op) := by
  simp only [Honest, forall_op] at he
  rcases hop with rfl | rfl <;>
  · simp [can, Parts, expectedVoid, voidSays, voidDoes, storageVoid, he]
    try grind

/-- Also if the traits of `E` lie, no operation of `expected<void, E>` does without what it needs. -/
theorem c124_void_needs {e : Cap} :
    ((expectedVoid e).does .destroy = true → can [e] .destroy) ∧ ((expectedVoid e).does .copy = true → can [e] .copy) ∧
    ((expectedVoid e).does .move = true → can [e] .move) ∧
    ((expectedVoid e).does .copyAssign = true → Parts [e] [.destroy, .copy, .move, .swap]) ∧
    ((expectedVoid e).does .moveAssign = true → Parts [e] [.destroy, .move, .swap]) ∧
    ((expectedVoid e).does .swap = true → Parts [e] [.destroy, .move, .swap]) := by
  refine ⟨?_, ?_, ?_, ?_, ?_, ?_⟩ <;>
  · simp [can, Parts, expectedVoid, voidDoes, voidSwapSays, voidSwapDoes, storageVoid, Storage.usable, swapDoes]
    try grind

/-- Nor does an assignment do without what the constraint of `swap` asks the traits. -/
theorem c124_void_asks {e : Cap} {op : Op} (hop : op = .copyAssign ∨ op = .moveAssign) (h : (expectedVoid e).does op = true) :
    e.says .swap = true ∧ e.says .move = true := by
  rcases hop with rfl | rfl <;>
  · simp [expectedVoid, voidDoes, voidSwapSays] at h
    grind

/-- The assignments of `expected<void, int>` do compile. -/
example : (expectedVoid plain).does .copyAssign = true ∧ (expectedVoid plain).does .moveAssign = true := ⟨rfl, rfl⟩

/-- `expected<void, E>` of an `E` that can be neither copied nor moved cannot even be destroyed; that of one that can only be moved is said to be copy assignable, and is not. -/
theorem c124_void_false : (expectedVoid fixed).says .destroy = true ∧ (expectedVoid fixed).does .destroy = false ∧
    (expectedVoid moveOnly).says .copyAssign = true ∧ (expectedVoid moveOnly).does .copyAssign = false := ⟨rfl, rfl, rfl, rfl⟩

/-! ### unexpected_type -/

/-- `unexpected_type<E>` is an error where it is named, if `E` cannot be swapped. -/
theorem c124_unexpected_class (e : Cap) : unexpected e = none ↔ e.says .swap = false := by
  unfold unexpected
  cases e.says .swap <;> simp

/-- Otherwise it is honest exactly if `E` can be moved, by assignment or construction. -/
theorem c124_unexpected_partial {e w : Cap} (he : Honest e) (hw : unexpected e = some w) :
    Honest w ↔ e.does .moveAssign = true ∨ (e.does .move = true ∧ e.does .destroy = true) := by
  unfold unexpected at hw
  split at hw
  · rename_i hs
    cases hw
    rw [he] at hs
    simp only [Honest, forall_op] at he ⊢
    simp [unexpectedSays, unexpectedDoes, he]
    grind
  · cases hw

/-- The constructors and the copy assignment are right; the assignment from an rvalue moves also if `E` can be moved, but not assigned. -/
theorem c124_unexpected_made {e w : Cap} (he : Honest e) (hw : unexpected e = some w) :
    (∀ op, op = .copy ∨ op = .move → w.says op = w.does op ∧ (w.does op = true ↔ can [e] op)) ∧
    w.says .copyAssign = w.does .copyAssign ∧ w.does .copyAssign = e.does .copyAssign ∧
    (e.does .moveAssign = true → w.does .moveAssign = true) := by
  unfold unexpected at hw
  split at hw
  · cases hw
    simp only [Honest, forall_op] at he
    refine ⟨?_, ?_⟩
    · rintro op (rfl | rfl) <;>
      · simp [can, Parts, unexpectedSays, unexpectedDoes, he]
        try grind
    · simp [unexpectedSays, unexpectedDoes, he]
      grind
  · cases hw

/-- `unexpected_type<mutex>` and `unexpected_type<T>` for a `T` that cannot be moved are errors. A type that can only be swapped, with a `swap` of its own, is
said to be assignable from an rvalue, and is not. -/
theorem c124_unexpected_false : unexpected fixed = none ∧ unexpected copyOnly = none ∧
    ∃ w, unexpected (only [.destroy, .copy, .copyAssign, .swap]) = some w ∧ w.says .moveAssign = true ∧ w.does .moveAssign = false :=
  ⟨rfl, rfl, _, rfl, rfl, rfl⟩

/-! ### variant -/

/-- `variant` is honest exactly if all its alternatives can do everything but be swapped. -/
theorem c124_variant_partial {ts : List Cap} (h : ∀ t ∈ ts, Honest t) : Honest (variant ts) ↔ ∀ t ∈ ts, ∀ op, op ≠ .swap → t.does op = true := by
  constructor
  · intro hv t ht op hop
    have a := hv .destroy
    have b := hv .copy
    have c := hv .move
    have d := hv .copyAssign
    have e := hv .moveAssign
    simp only [variant, variantSays, variantDoes, eq_comm (a := true), Bool.and_eq_true, List.all_eq_true] at a b c d e
    cases op
    · exact a t ht
    · exact b t ht
    · exact c t ht
    · exact d.2 t ht
    · exact e.2 t ht
    · exact absurd rfl hop
  · intro hp
    have al : ∀ op, op ≠ .swap → (ts.all fun t => t.does op) = true := fun op hop => by
      rw [List.all_eq_true]; exact fun t ht => hp t ht op hop
    rintro (_ | _ | _ | _ | _ | _) <;> simp only [variant, variantSays, variantDoes, swapSays, swapDoes, al _ (by decide : Op.destroy ≠ .swap),
      al _ (by decide : Op.copy ≠ .swap), al _ (by decide : Op.move ≠ .swap), al _ (by decide : Op.copyAssign ≠ .swap),
      al _ (by decide : Op.moveAssign ≠ .swap), Bool.and_true, Bool.or_true]
    symm
    by_cases k : (ts.all fun t => t.says .move && t.says .swap) = true
    · rw [if_pos k, List.all_eq_true]
      rw [List.all_eq_true] at k
      intro t ht
      have := k t ht
      rw [Bool.and_eq_true] at this
      rw [← h t ht]
      exact this.2
    · rw [if_neg k]

/-- The operations of `variant` compile exactly where they should, but for the move of a copyable type and for swapping. -/
theorem c124_variant_can_partial {ts : List Cap} (op : Op) (hop : op ≠ .swap) : (op ≠ .move → op ≠ .moveAssign → can ts op → (variant ts).does op = true) ∧
    ((∀ t ∈ ts, t.does .move = true ∧ t.does .moveAssign = true) → can ts op → (variant ts).does op = true) := by
  cases op <;> simp [can, Parts, variant, variantDoes] at hop ⊢ <;> grind

/-- Also if the traits of the alternatives lie, no operation of `variant` does without what it needs. -/
theorem c124_variant_needs {ts : List Cap} {op : Op} (h : (variant ts).does op = true) : can ts op := by
  revert h
  cases op <;> simp [can, Parts, variant, variantDoes, swapDoes] <;> grind

/-- `variant<unique_ptr<int>, int>` is said to be copyable, and is not; that of a type that can be copied only is said to be movable, and an rvalue is not copied. A type
with a `swap` of its own that can be moved but not assigned makes `swap` fail though the parts can be moved and swapped. -/
theorem c124_variant_false : (variant [moveOnly, plain]).says .copy = true ∧ (variant [moveOnly, plain]).does .copy = false ∧
    can [copyOnly, plain] .move ∧ (variant [copyOnly, plain]).says .move = true ∧ (variant [copyOnly, plain]).does .move = false ∧
    can [only [.destroy, .move, .swap], plain] .swap ∧ (variant [only [.destroy, .move, .swap], plain]).does .swap = false := by
  refine ⟨rfl, rfl, Or.inr ?_, rfl, rfl, Or.inl ?_, rfl⟩ <;> simp [Parts] <;> decide

/-! ### Nesting -/

/-- Types built from types that can do everything. -/
inductive Built : Cap → Prop where
  | leaf {c : Cap} : Honest c → Regular c → Built c
  | optional {t : Cap} : Built t → Built (optional t)
  | expected {t e : Cap} : Built t → Built e → Built (expected t e)
  | expectedVoid {e : Cap} : Built e → Built (expectedVoid e)
  | unexpected {e w : Cap} : Built e → unexpected e = some w → Built w
  | variant {ts : List Cap} : (∀ t ∈ ts, Built t) → Built (variant ts)

/-- Wrappers of types that can do everything can do everything and say so, however they are nested, and none of them is an error. -/
theorem c124_nested {c : Cap} (h : Built c) : Honest c ∧ Regular c ∧ unexpected c ≠ none := by
  have key : Honest c ∧ Regular c := by
    induction h with
    | leaf h1 h2 => exact ⟨h1, h2⟩
    | optional _ ih =>
      obtain ⟨h1, h2⟩ := ih
      refine ⟨(c124_optional_partial h1).2 fun op _ => h2 op, ?_⟩
      simp only [Honest, Regular, forall_op] at h1 h2 ⊢
      simp [optional, optionalDoes, swapDoes, h1, h2]
    | expected _ _ i1 i2 =>
      obtain ⟨h1, h2⟩ := i1
      obtain ⟨h3, h4⟩ := i2
      refine ⟨(c124_expected_partial h1 h3).2 ?_, ?_⟩
      · simp only [Parts, List.forall_mem_cons]
        exact ⟨⟨h2 _, h2 _, h2 _, h2 _, by simp⟩, ⟨h4 _, h4 _, h4 _, h4 _, by simp⟩, by simp⟩
      · simp only [Honest, Regular, forall_op] at h1 h2 h3 h4 ⊢
        simp [expected, expectedDoes, expectedSwapSays, expectedSwapDoes, storage, Storage.usable, swapDoes, h1, h2, h3, h4]
    | expectedVoid _ i1 =>
      obtain ⟨h1, h2⟩ := i1
      refine ⟨(c124_void_partial h1).2 ?_, ?_⟩
      · simp only [Parts, List.forall_mem_cons]
        exact ⟨⟨h2 _, h2 _, h2 _, h2 _, by simp⟩, by simp⟩
      · simp only [Honest, Regular, forall_op] at h1 h2 ⊢
        simp [expectedVoid, voidDoes, voidSwapSays, voidSwapDoes, storageVoid, Storage.usable, swapDoes, h1, h2]
    | unexpected _ hw i1 =>
      obtain ⟨h1, h2⟩ := i1
      refine ⟨(c124_unexpected_partial h1 hw).2 (Or.inl (h2 _)), ?_⟩
      unfold Nanostl.Caps.unexpected at hw
      split at hw
      · cases hw
        simp only [Honest, Regular, forall_op] at h1 h2 ⊢
        simp [unexpectedDoes, h1, h2]
      · cases hw
    | variant _ ih =>
      have i1 := fun t ht => (ih t ht).1
      have i2 := fun t ht => (ih t ht).2
      have hh := (c124_variant_partial i1).2 fun t ht op _ => i2 t ht op
      refine ⟨hh, fun op => ?_⟩
      rw [← hh op]
      cases op <;> simp [variant, variantSays, swapSays]
  refine ⟨key.1, key.2, fun hn => ?_⟩
  rw [c124_unexpected_class, key.1, key.2] at hn
  cases hn

/-- `optional<expected<variant<int, int *>, unexpected_type<int>>>` is such a type. -/
example : ∃ w, unexpected plain = some w ∧ Built (optional (expected (variant [plain, plain]) w)) := by
  have p := Built.leaf (honest_only _) regular_plain
  refine ⟨_, rfl, .optional (.expected (.variant ?_) (.unexpected p rfl))⟩
  simp only [List.forall_mem_cons]
  exact ⟨p, p, by simp⟩

end Nanostl.Caps

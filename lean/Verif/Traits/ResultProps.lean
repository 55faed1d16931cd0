import Verif.Traits.Result

/-! C121: the nested types of `reference_wrapper<T>` are those of what it refers to ([refwrap] and [func.require] of C++11). -/

namespace Nanostl.Traits.Result

open Nanostl.Traits

/-! ### Specification -/

/-- The result of a function, pointer to function or pointer to member function. -/
def resultOf : Tgt → Option Ty
  | .fn f | .fnPtr _ f | .memFn _ _ f => some f.ret
  | _ => none

/-- What has to be passed to call it: for a pointer to member function first a pointer to an object, qualified as the function is. None is right for a function with `...`. -/
def inputs : Tgt → Option (List Ty)
  | .fn f | .fnPtr _ f => if f.variadic then none else some f.params
  | .memFn _ n f => if f.variadic then none else some (.ptr {} (.base f.cv (.cls n)) :: f.params)
  | _ => none

/-- The nested types of something with this result and these arguments. -/
def Says (m : Members) (r : Option Ty) (l : Option (List Ty)) : Prop :=
  m.result = r ∧ (∀ a, m.arg = some a ↔ l = some [a]) ∧ (∀ a, m.first = some a ↔ ∃ b, l = some [a, b]) ∧ (∀ b, m.second = some b ↔ ∃ a, l = some [a, b])

/-- A function type without `...`, `&`, `&&`, and without `noexcept` where that is part of the type. -/
def Ordinary (std17 : Bool) (f : Fn) : Prop := f.variadic = false ∧ f.ref = none ∧ (std17 = true → f.noexc = false)

/-- What the theorem is about: functions, pointers to functions, and pointers to member functions; the pointers neither const nor volatile. -/
def Simple (std17 : Bool) : Tgt → Prop
  | .fn f => Ordinary std17 f ∧ f.cv = {}
  | .fnPtr q f => q = {} ∧ Ordinary std17 f ∧ f.cv = {}
  | .memFn q _ f => q = {} ∧ Ordinary std17 f
  | _ => False

/-- A callable that is not a class: the pointer may be qualified, the function is one that a pointer or reference can point to. -/
def Callable : Tgt → Prop
  | .fn f => f.qualified = false
  | .fnPtr _ f => f.qualified = false
  | .memFn _ _ _ => True
  | _ => False

/-- `c` has exactly one base of the kind, and it can be used. -/
def Only {α : Type} (l : List (FBase α)) (a : α) : Prop := ∃ b, l = [b] ∧ b.args = a

/-- No sole base of the kind that cannot be used. -/
def Usable {α : Type} (l : List (FBase α)) : Prop := ∀ b, l = [b] → b.ok = true

/-! ### Theorems -/

/-- C121 for functions, pointers to functions and pointers to member functions, as far as it holds: `result_type` is the result; `argument_type` is there exactly if there is one argument, and is its type; `first_argument_type`
and `second_argument_type` exactly if there are two. Missing: function types with `...`, `&`, `&&` or `noexcept`, and pointers that are const (`c121_function_false`). -/
theorem c121_function_partial (std17 : Bool) (t : Tgt) (h : Simple std17 t) : ∃ m, reference_wrapper std17 t = some m ∧ Says m (resultOf t) (inputs t) := by
  have hp : ∀ f : Fn, Ordinary std17 f → f.cv = {} → f.plain std17 = true := by
    rintro ⟨r, ps, va, cv, rf, nx⟩ ⟨h1, h2, h3⟩ h4
    simp only at h1 h2 h3 h4
    subst h1; subst h2; subst h4
    cases std17 <;> simp_all [Fn.plain, Fn.qualified]
  have hm : ∀ f : Fn, Ordinary std17 f → f.plainMem std17 = true := by
    rintro ⟨r, ps, va, cv, rf, nx⟩ ⟨h1, h2, h3⟩
    simp only at h1 h2 h3
    subst h1; subst h2
    cases std17 <;> simp_all [Fn.plainMem]
  have fnSays : ∀ f : Fn, Says (weakFn f.ret f.params) (some f.ret) (some f.params) := by
    intro f
    rcases hps : f.params with _ | ⟨a, _ | ⟨b, _ | ⟨c, l⟩⟩⟩ <;> refine ⟨?_, ?_, ?_, ?_⟩ <;> simp [weakFn, unary_function, binary_function]
  match t, h with
  | .fn f, ⟨h1, h2⟩ => exact ⟨weakFn f.ret f.params, by simp only [reference_wrapper, weak_result_type, hp f h1 h2, if_true], by simp only [resultOf, inputs, h1.1, Bool.false_eq_true, if_false]; exact fnSays f⟩
  | .fnPtr q f, ⟨h0, h1, h2⟩ =>
    subst h0
    exact ⟨weakFn f.ret f.params, by simp only [reference_wrapper, weak_result_type, hp f h1 h2]; rfl, by simp only [resultOf, inputs, h1.1, Bool.false_eq_true, if_false]; exact fnSays f⟩
  | .memFn q n f, ⟨h0, h1⟩ =>
    subst h0
    refine ⟨weakMem f.ret n f.cv f.params, by simp only [reference_wrapper, weak_result_type, hm f h1]; rfl, ?_⟩
    simp only [resultOf, inputs, h1.1, Bool.false_eq_true, if_false]
    rcases hps : f.params with _ | ⟨a, _ | ⟨b, l⟩⟩ <;> refine ⟨?_, ?_, ?_, ?_⟩ <;> simp [weakMem, unary_function, binary_function]

/-- For every callable that is not a class `reference_wrapper` can be named, and a nested type that it has is the right one; also with `...`, `&`, `&&`, `noexcept` and for const pointers. -/
theorem c121_function_sound (std17 : Bool) (t : Tgt) (h : Callable t) : ∃ m, reference_wrapper std17 t = some m ∧
    (∀ r, m.result = some r → resultOf t = some r) ∧ (∀ a, m.arg = some a → inputs t = some [a]) ∧ ((∃ a, m.first = some a) ↔ ∃ b, m.second = some b) ∧
    (∀ a b, m.first = some a → m.second = some b → inputs t = some [a, b]) := by
  have empty : ∀ (r : Option Ty) (l : Option (List Ty)), (∀ x, ({} : Members).result = some x → r = some x) ∧ (∀ a, ({} : Members).arg = some a → l = some [a]) ∧
      ((∃ a, ({} : Members).first = some a) ↔ ∃ b, ({} : Members).second = some b) ∧ (∀ a b, ({} : Members).first = some a → ({} : Members).second = some b → l = some [a, b]) := by simp
  have fnSays : ∀ f : Fn, (∀ x, (weakFn f.ret f.params).result = some x → some f.ret = some x) ∧ (∀ a, (weakFn f.ret f.params).arg = some a → some f.params = some [a]) ∧
      ((∃ a, (weakFn f.ret f.params).first = some a) ↔ ∃ b, (weakFn f.ret f.params).second = some b) ∧
      (∀ a b, (weakFn f.ret f.params).first = some a → (weakFn f.ret f.params).second = some b → some f.params = some [a, b]) := by
    intro f
    rcases hps : f.params with _ | ⟨a, _ | ⟨b, _ | ⟨c, l⟩⟩⟩ <;> refine ⟨?_, ?_, ?_, ?_⟩ <;> simp [weakFn, unary_function, binary_function]
  have hv : ∀ f : Fn, f.plain std17 = true → f.variadic = false := by intro f hf; simp only [Fn.plain, Bool.and_eq_true, Bool.not_eq_true'] at hf; exact hf.1.1
  match t, h with
  | .fn f, h =>
    by_cases hp : f.plain std17 = true
    · refine ⟨weakFn f.ret f.params, by simp only [reference_wrapper, weak_result_type, hp, if_true], ?_⟩
      simp only [resultOf, inputs, hv f hp, Bool.false_eq_true, if_false]
      exact fnSays f
    · refine ⟨{}, ?_, empty _ _⟩
      simp only [Callable] at h
      simp only [reference_wrapper, weak_result_type, hp, h, Bool.false_eq_true, if_false]
  | .fnPtr q f, _ =>
    by_cases hp : (!q.c && !q.v && f.plain std17) = true
    · refine ⟨weakFn f.ret f.params, by simp only [reference_wrapper, weak_result_type, hp, if_true], ?_⟩
      simp only [Bool.and_eq_true] at hp
      simp only [resultOf, inputs, hv f hp.2, Bool.false_eq_true, if_false]
      exact fnSays f
    · refine ⟨{}, ?_, empty _ _⟩
      simp only [reference_wrapper, weak_result_type, hp, Bool.false_eq_true, if_false]
  | .memFn q n f, _ =>
    by_cases hp : (!q.c && !q.v && f.plainMem std17) = true
    · refine ⟨weakMem f.ret n f.cv f.params, by simp only [reference_wrapper, weak_result_type, hp, if_true], ?_⟩
      simp only [Bool.and_eq_true, Fn.plainMem, Bool.not_eq_true'] at hp
      simp only [resultOf, inputs, hp.2.1.1, Bool.false_eq_true, if_false]
      rcases hps : f.params with _ | ⟨a, _ | ⟨b, l⟩⟩ <;> refine ⟨?_, ?_, ?_, ?_⟩ <;> simp [weakMem, unary_function, binary_function]
    · refine ⟨{}, ?_, empty _ _⟩
      simp only [reference_wrapper, weak_result_type, hp, Bool.false_eq_true, if_false]

/-- C121 for classes, as far as it holds: `argument_type` and the types of two arguments are there exactly if the class has one base `unary_function` or `binary_function`, and are those of the base; `result_type` is what `T::result_type`
is. Missing: a `result_type` declared as a reference (`c121_class_false`), and bases that are not accessible (`c121_private_false`). -/
theorem c121_class_partial (std17 : Bool) (c : Cls) (hu : Usable c.unary) (hb : Usable c.binary) : ∃ m, reference_wrapper std17 (.cls c) = some m ∧
    (∀ a, m.arg = some a ↔ Only c.unary a) ∧ (∀ a, m.first = some a ↔ ∃ b, Only c.binary (a, b)) ∧ (∀ b, m.second = some b ↔ ∃ a, Only c.binary (a, b)) ∧
    (∀ r, c.lookup = .type r → canPtr r = true ∨ (c.own = none ∧ c.others = []) → m.result = some r) ∧ (c.lookup = .absent → m.result = none) := by
  obtain ⟨u, hmu, hu'⟩ : ∃ u, maybe_unary c = some u ∧ ((u = none ∧ ∀ x, c.unary ≠ [x]) ∨ ∃ x, c.unary = [x] ∧ u = some (unary_function x.args x.res)) := by
    unfold maybe_unary
    rcases hc : c.unary with _ | ⟨x, _ | ⟨y, l⟩⟩
    · exact ⟨none, rfl, .inl ⟨rfl, by simp⟩⟩
    · exact ⟨_, by simp only [deduce, hu x hc, if_true], .inr ⟨x, rfl, rfl⟩⟩
    · exact ⟨none, rfl, .inl ⟨rfl, by simp⟩⟩
  obtain ⟨b, hmb, hb'⟩ : ∃ b, maybe_binary c = some b ∧ ((b = none ∧ ∀ x, c.binary ≠ [x]) ∨ ∃ x, c.binary = [x] ∧ b = some (binary_function x.args.1 x.args.2 x.res)) := by
    unfold maybe_binary
    rcases hc : c.binary with _ | ⟨x, _ | ⟨y, l⟩⟩
    · exact ⟨none, rfl, .inl ⟨rfl, by simp⟩⟩
    · exact ⟨_, by simp only [deduce, hb x hc, if_true], .inr ⟨x, rfl, rfl⟩⟩
    · exact ⟨none, rfl, .inl ⟨rfl, by simp⟩⟩
  obtain ⟨m, hm, ha, hf, hs, hr⟩ : ∃ m, reference_wrapper std17 (.cls c) = some m ∧ m.arg = (join u b).arg ∧ m.first = (join u b).first ∧ m.second = (join u b).second ∧
      m.result = (has_result_type c).orElse fun _ => (join u b).result := by
    simp only [reference_wrapper, weak_result_type, weak_result_type_imp, hmu, hmb]
    cases has_result_type c <;> simp
  clear hmu hmb
  refine ⟨m, hm, ?_, ?_, ?_, ?_, ?_⟩
  · intro a
    rw [ha]
    rcases hu' with ⟨rfl, h⟩ | ⟨x, h, rfl⟩ <;> rcases hb' with ⟨rfl, h'⟩ | ⟨y, h', rfl⟩ <;> simp [join, unary_function, binary_function, Only, h]
  · intro a
    rw [hf]
    rcases hu' with ⟨rfl, h⟩ | ⟨x, h, rfl⟩ <;> rcases hb' with ⟨rfl, h'⟩ | ⟨y, h', rfl⟩ <;> simp [join, unary_function, binary_function, Only, h', Prod.ext_iff]
  · intro a
    rw [hs]
    rcases hu' with ⟨rfl, h⟩ | ⟨x, h, rfl⟩ <;> rcases hb' with ⟨rfl, h'⟩ | ⟨y, h', rfl⟩ <;> simp [join, unary_function, binary_function, Only, h', Prod.ext_iff]
  · intro r hl hc
    rw [hr]
    by_cases hp : canPtr r = true
    · simp [has_result_type, hl, hp]
    · rcases hc with hc | ⟨ho, hot⟩
      · exact absurd hc hp
      · simp only [has_result_type, hl, hp, Bool.false_eq_true, if_false, Option.orElse_none]
        simp only [Cls.lookup, ho, Cls.inherited, hot, List.append_nil] at hl
        rcases hu' with ⟨rfl, h⟩ | ⟨x, h, rfl⟩ <;> rcases hb' with ⟨rfl, h'⟩ | ⟨y, h', rfl⟩
        · rcases hc1 : c.unary with _ | ⟨x, _ | ⟨y, l⟩⟩ <;> rcases hc2 : c.binary with _ | ⟨x', _ | ⟨y', l'⟩⟩ <;> simp_all
        · rcases hc1 : c.unary with _ | ⟨x, _ | ⟨z, l⟩⟩
          · simp only [hc1, h', List.map_nil, List.nil_append, List.map_cons, hb y h'] at hl
            cases hl; rfl
          · exact absurd hc1 (h x)
          · simp [hc1, h'] at hl
        · rcases hc1 : c.binary with _ | ⟨y, _ | ⟨z, l⟩⟩
          · simp only [hc1, h, List.map_nil, List.append_nil, List.map_cons, hu x h] at hl
            cases hl; rfl
          · exact absurd hc1 (h' y)
          · simp [hc1, h] at hl
        · simp [h, h'] at hl
  · intro hl
    rw [hr]
    simp only [has_result_type, hl, Option.orElse_none]
    have hn : c.inherited = [] := by
      unfold Cls.lookup at hl
      repeat' split at hl
      all_goals first | (cases hl; done) | assumption
    simp only [Cls.inherited, List.append_eq_nil_iff, List.map_eq_nil_iff] at hn
    rcases hu' with ⟨rfl, h⟩ | ⟨x, h, rfl⟩ <;> rcases hb' with ⟨rfl, h'⟩ | ⟨y, h', rfl⟩ <;> simp_all [join]

/-- C121 is false of functions with `...`, of `noexcept` functions (C++17), of pointers that are const, and of member functions with `&`: there is no `result_type`. -/
theorem c121_function_false : ∃ (r a : Ty) (m : Members), m.result = none ∧
    reference_wrapper false (.fnPtr { c := true } { ret := r, params := [a] }) = some m ∧ reference_wrapper false (.fn { ret := r, params := [a], variadic := true }) = some m ∧
    reference_wrapper true (.fnPtr {} { ret := r, params := [a], noexc := true }) = some m ∧ reference_wrapper false (.memFn {} 0 { ret := r, params := [], ref := some false }) = some m ∧
    (∀ (q : CV) (f : Fn), f = { ret := r, params := [a] } ∨ f = { ret := r, params := [a], noexc := true } → resultOf (.fnPtr q f) = some r ∧ inputs (.fnPtr q f) = some [a]) :=
  ⟨.base {} (.fund .int), .base {} (.fund .long), {}, rfl, by decide, by decide, by decide, by decide, by rintro _ _ (rfl | rfl) <;> exact ⟨rfl, rfl⟩⟩

/-- C121 is false of a class that declares `result_type` as a reference: `reference_wrapper` has none; or, if the class has a base `unary_function`, that of the base, which is another type. -/
theorem c121_class_false : ∃ (r s a : Ty) (c d : Cls), r ≠ s ∧ c.lookup = .type r ∧ d.lookup = .type r ∧ (∃ m, reference_wrapper false (.cls c) = some m ∧ m.result = none) ∧
    (∃ m, reference_wrapper false (.cls d) = some m ∧ m.result = some s ∧ m.arg = some a) :=
  ⟨.lref (.base {} (.fund .int)), .base {} (.fund .int), .base {} (.fund .long), { own := some (some (.lref (.base {} (.fund .int)))) },
    { own := some (some (.lref (.base {} (.fund .int)))), unary := [{ args := .base {} (.fund .long), res := .base {} (.fund .int) }] }, by decide, by decide, by decide, ⟨_, rfl, by decide⟩, ⟨_, rfl, by decide, by decide⟩⟩

/-- C121 is false of a class with one base `unary_function` that is private: `reference_wrapper` of it is an error; with two such bases it is not. -/
theorem c121_private_false : ∃ b b' : FBase Ty, reference_wrapper false (.cls { unary := [b] }) = none ∧ ∃ m, reference_wrapper false (.cls { unary := [b, b'] }) = some m :=
  ⟨{ args := .base {} (.fund .long), res := .base {} (.fund .int), ok := false }, { args := .base {} (.fund .int), res := .base {} (.fund .int), ok := false }, by decide, ⟨_, rfl⟩⟩

/-! The hypotheses are met. -/

example : Simple true (.memFn {} 3 { ret := .base {} (.fund .int), params := [.base {} (.fund .long)], cv := { c := true } }) := ⟨rfl, rfl, rfl, fun _ => rfl⟩
example : reference_wrapper true (.memFn {} 3 { ret := .base {} (.fund .int), params := [.base {} (.fund .long)], cv := { c := true } }) =
    some { result := some (.base {} (.fund .int)), first := some (.ptr {} (.base { c := true } (.cls 3))), second := some (.base {} (.fund .long)) } := by decide
example : Simple false (.fn { ret := .base {} (.fund .int), params := [.base {} (.fund .long)], noexc := true }) := ⟨⟨rfl, rfl, by simp⟩, rfl⟩
example : Callable (.fnPtr { c := true } { ret := .base {} (.fund .int), params := [.base {} (.fund .long)], variadic := true }) := rfl
example : let c : Cls := { unary := [{ args := .base {} (.fund .long), res := .lref (.base {} (.fund .int)) }] }
    Usable c.unary ∧ Usable c.binary ∧ c.lookup = .type (.lref (.base {} (.fund .int))) ∧ c.own = none ∧ c.others = [] ∧ Only c.unary (.base {} (.fund .long)) := by
  refine ⟨?_, ?_, by decide, rfl, rfl, ⟨_, rfl, rfl⟩⟩
  · rintro b h
    cases h; rfl
  · rintro b h
    cases h

end Nanostl.Traits.Result

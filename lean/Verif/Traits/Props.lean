import Verif.Traits.Lemmas
import Mathlib.Tactic.Ring
import Mathlib.Tactic.Tauto
import Mathlib.Tactic.NormNum

/-! C72-C74: type traits. Every theorem is about all types, however deeply built. -/

namespace Nanostl.Traits
open Spec
set_option linter.unusedSimpArgs false
set_option linter.unusedTactic false
set_option linter.unreachableTactic false
set_option linter.unnecessarySeqFocus false

/-- Case distinction on the shape of a type, as far as categories look. -/
local macro "by_ty " t:ident : tactic => `(tactic| (
  rcases $t:ident with ⟨q, ((_ | _ | _ | _ | _ | _ | _ | _ | _ | _ | _ | _ | _ | _ | _ | _ | _ | _ | _ | _ | _ | _ | _) | n | n | n)⟩ | ⟨q, t⟩ |
    ⟨q, (_ | _ | _ | _ | _ | _ | _), n⟩ | ⟨t, (_ | n)⟩ | ⟨(_ | _), r, a⟩ | t | t))

private theorem tt_iff {b : Bool} {p : Prop} (h : b = true) (hp : p) : b = true ↔ p := ⟨fun _ => hp, fun _ => h⟩

/-! ### C72: categories -/

/-- The traits that are right for every type. -/
theorem c72_right {t : Ty} (h : wf t) :
    (is_void t = true ↔ cat t = .void) ∧ (is_floating_point t = true ↔ cat t = .floating) ∧ (is_array t = true ↔ cat t = .array) ∧
    (is_pointer t = true ↔ cat t = .pointer) ∧ (is_lvalue_reference t = true ↔ cat t = .lref) ∧ (is_rvalue_reference t = true ↔ cat t = .rref) ∧
    (is_reference t = true ↔ cat t = .lref ∨ cat t = .rref) ∧ (is_function t = true ↔ cat t = .function) ∧
    (is_member_pointer t = true ↔ cat t = .memObj ∨ cat t = .memFn) ∧ (is_member_function_pointer t = true ↔ cat t = .memFn) := by
  have h8 := is_function_eq h
  have hm : is_member_function_pointer t = true ↔ cat t = .memFn := by
    unfold is_member_function_pointer
    rw [remove_cv_eq]
    by_ty t
    all_goals simp only [strip]
    all_goals first | (simp [cat, is_function, is_const_eq, addConst, quals, is_reference]; done) | (rw [is_function_eq h.1]; simp [cat]; done) | simp [cat]
  refine ⟨?_, ?_, ?_, ?_, ?_, ?_, ?_, by rw [h8]; simp, ?_, hm⟩ <;> clear hm h8 h
  all_goals by_ty t
  all_goals first | exact tt_iff rfl rfl | (simp [is_void, is_floating_point, is_pointer, is_member_pointer, is_same, tyVoid, remove_cv_eq, strip, cat,
    libcpp_is_floating_point, is_array, is_lvalue_reference, is_rvalue_reference, is_reference]; done)

/-- `is_integral` is right but for the forgotten types. -/
theorem c72_integral_partial {t : Ty} (h : forgotten t = false) : is_integral t = true ↔ cat t = .integral := by
  unfold is_integral
  rw [remove_cv_eq]
  cases t with
  | base q b => cases b <;> simp [strip, cat, libcpp_is_integral]; rename_i f; cases f <;> simp_all [cat, forgotten]
  | mem q u n => cases u <;> simp [strip, cat, libcpp_is_integral]
  | _ => simp [strip, cat, libcpp_is_integral]

/-- What is missing in `c72_integral_partial`: every forgotten type, however qualified, is called an enumeration and not integral. -/
theorem c72_integral_false {t : Ty} (h : forgotten t = true) : cat t = .integral ∧ is_integral t = false ∧ is_arithmetic t = false ∧ is_enum t = true := by
  cases t with
  | base q b =>
    cases b with
    | fund f =>
      cases f <;> simp_all [forgotten] <;>
        simp [cat, is_integral, is_arithmetic, is_floating_point, is_enum, is_void, is_pointer, is_member_pointer, is_same, remove_cv_eq, strip,
          libcpp_is_integral, libcpp_is_floating_point, tyVoid, is_array, is_reference, is_union, is_class, class_test, is_function, is_const_eq, addConst, quals]
    | _ => simp [forgotten] at h
  | _ => simp [forgotten] at h

/-- `is_class` and `is_union` are right for everything but unions. -/
theorem c72_class_partial {t : Ty} (h : cat t ≠ .union) : (is_class t = true ↔ cat t = .cls) ∧ is_union t = false := by
  cases t with
  | base q b => cases b <;> simp_all [is_class, class_test, cat, is_union]; rename_i f; cases f <;> simp [cat]
  | mem q u n => cases u <;> simp [is_class, class_test, cat, is_union]
  | _ => simp [is_class, class_test, cat, is_union]

/-- Every union is called a class and no union. -/
theorem c72_union_false {t : Ty} (h : cat t = .union) : is_union t = false ∧ is_class t = true := by
  cases t with
  | base q b => cases b <;> simp_all [is_class, class_test, cat, is_union]; rename_i f; cases f <;> simp [cat] at h
  | mem q u n => cases u <;> simp [cat] at h
  | _ => simp [cat] at h

/-- `is_enum` is right but for the forgotten types and the type of `nullptr`. -/
theorem c72_enum_partial {t : Ty} (w : wf t) (h : forgotten t = false) (h2 : cat t ≠ .nullptr) : is_enum t = true ↔ cat t = .enum := by
  obtain ⟨h1, h2', h3, h4, -, -, h7, h8, h9, -⟩ := c72_right w
  have hi := c72_integral_partial h
  have hc : is_class t = true ↔ cat t = .cls ∨ cat t = .union := by
    by_cases hu : cat t = .union
    · simp [(c72_union_false hu).2, hu]
    · rw [(c72_class_partial hu).1]; simp [hu]
  have hn : ∀ {b : Bool} {p : Prop}, (b = true ↔ p) → ((!b) = true ↔ ¬ p) := by intro b p h; rw [← h]; cases b <;> simp
  unfold is_enum
  simp only [Bool.and_eq_true, hn h1, hn h2', hn h3, hn h4, hn h7, hn h8, hn h9, hn hi, hn hc, show is_union t = false from rfl, Bool.not_false]
  generalize cat t = c at *
  cases c <;> simp_all

/-- The type of `nullptr` is called an enumeration, and is no `nullptr_t` of the library, which is a class. -/
theorem c72_nullptr_false {t : Ty} (h : cat t = .nullptr) : is_enum t = true ∧ is_nullptr_t t = false := by
  cases t with
  | base q b =>
    cases b with
    | fund f => cases f <;> simp [cat] at h <;>
        simp [is_integral, is_nullptr_t, tyNullptr, is_floating_point, is_enum, is_void, is_pointer, is_member_pointer, is_same, remove_cv_eq, strip,
          libcpp_is_integral, libcpp_is_floating_point, tyVoid, is_array, is_reference, is_union, is_class, class_test, is_function, is_const_eq, addConst, quals]
    | _ => simp [cat] at h
  | mem q u n => cases u <;> simp [cat] at h
  | _ => simp [cat] at h

/-- Apart from unions, the forgotten types and `nullptr`'s, exactly one of the header's categories holds of each type: the one the grammar gives. -/
theorem c72_exactly_one_partial {t : Ty} (w : wf t) (h : forgotten t = false) (h2 : cat t ≠ .nullptr) (h3 : cat t ≠ .union) :
    [is_void t, is_integral t, is_floating_point t, is_array t, is_pointer t, is_lvalue_reference t, is_rvalue_reference t,
      is_member_pointer t, is_enum t, is_union t, is_class t, is_function t].count true = 1 := by
  obtain ⟨a1, a2, a3, a4, a5, a6, a7, a8, a9, -⟩ := c72_right w
  have b1 := c72_integral_partial h
  have b2 := c72_enum_partial w h h2
  have b3 := c72_class_partial h3
  have hd : ∀ {b : Bool} {p : Prop} [Decidable p], (b = true ↔ p) → b = decide p := by intro b p _ h; cases b <;> simp_all
  rw [hd a1, hd a2, hd a3, hd a4, hd a5, hd a6, hd a8, hd a9, hd b1, hd b2, hd b3.1, b3.2]
  generalize cat t = c at *
  cases c <;> first | rfl | simp_all

/-- What `is_enum` holds of, for all types. -/
theorem is_enum_iff {t : Ty} (w : wf t) : is_enum t = true ↔ cat t = .enum ∨ cat t = .nullptr ∨ forgotten t = true := by
  by_cases h : forgotten t = true
  · simp [(c72_integral_false h).2.2.2, h]
  · by_cases h2 : cat t = .nullptr
    · simp [(c72_nullptr_false h2).1, h2]
    · rw [c72_enum_partial w (by simpa using h) h2]; simp [h, h2]

theorem is_integral_iff (t : Ty) : is_integral t = true ↔ cat t = .integral ∧ forgotten t = false := by
  by_cases h : forgotten t = true
  · simp [(c72_integral_false h).2.1, h]
  · rw [c72_integral_partial (by simpa using h)]; simp [h]

theorem is_scalar_eq (t : Ty) : is_scalar t = (is_arithmetic t || is_member_pointer t || is_pointer t || is_nullptr_t t || is_enum t) := by
  unfold is_scalar
  split
  · rename_i h
    subst h
    simp [is_nullptr_t, is_same, remove_cv_eq, tyNullptr, strip]
  · rfl

theorem is_nullptr_t_cat {t : Ty} (h : is_nullptr_t t = true) : cat t = .cls := by
  simp only [is_nullptr_t, is_same, decide_eq_true_eq] at h
  rw [← cat_strip, ← remove_cv_eq, h]; rfl

theorem is_scalar_iff {t : Ty} (w : wf t) : is_scalar t = true ↔ scalar t ∨ is_nullptr_t t = true := by
  obtain ⟨-, a2, -, a4, -, -, -, -, a9, -⟩ := c72_right w
  rw [is_scalar_eq]
  simp only [Bool.or_eq_true, is_arithmetic, is_integral_iff, a2, a4, a9, is_enum_iff w, scalar]
  have hf : forgotten t = true → cat t = .integral := fun h => (c72_integral_false h).1
  clear a2 a4 a9 w
  generalize forgotten t = f at *
  generalize is_nullptr_t t = b at *
  generalize cat t = c at *
  cases f <;> cases b <;> cases c <;> simp_all

/-- `is_object` is right for every type, the misplaced ones too. -/
theorem c72_object {t : Ty} (w : wf t) : is_object t = true ↔ object t := by
  obtain ⟨a1, -, a3, -, -, -, -, -, -, -⟩ := c72_right w
  have hc : is_class t = true ↔ cat t = .cls ∨ cat t = .union := by
    by_cases hu : cat t = .union
    · simp [(c72_union_false hu).2, hu]
    · rw [(c72_class_partial hu).1]; simp [hu]
  unfold is_object
  have hn := @is_nullptr_t_cat t
  simp only [Bool.or_eq_true, is_scalar_iff w, a3, hc, show is_union t = false from rfl, object, scalar]
  generalize is_nullptr_t t = b at *
  generalize cat t = c at *
  cases c <;> simp_all

/-- `is_scalar` is right for every type but the library's own `nullptr_t`. -/
theorem c72_scalar_partial {t : Ty} (w : wf t) (h : is_nullptr_t t = false) : is_scalar t = true ↔ scalar t := by
  rw [is_scalar_iff w]; simp [h]

/-- `nullptr_t` of the library is a class, and is called scalar as well. -/
theorem c72_scalar_false {t : Ty} (w : wf t) (h : remove_cv t = tyNullptr) : is_scalar t = true ∧ is_class t = true ∧ ¬ scalar t := by
  have hn : is_nullptr_t t = true := by simp [is_nullptr_t, is_same, h]
  have hc := is_nullptr_t_cat hn
  refine ⟨(is_scalar_iff w).2 (.inr hn), ((c72_class_partial (by simp [hc])).1).2 hc, by simp [scalar, hc]⟩

theorem cast_neg_one (e : Env) (f : Fund) (h : f ≠ .bool) : f.cast e (-1) = if f.signed e then -1 else 2 ^ e.width f - 1 := by
  have hw : (4 : Int) ≤ 2 ^ e.width f := by
    obtain ⟨k, hk⟩ := Nat.exists_eq_add_of_lt (e.width_pos f)
    have : (2 : Nat) ^ 2 ≤ 2 ^ e.width f := Nat.pow_le_pow_right (by omega) (e.width_pos f)
    exact_mod_cast this
  unfold Fund.cast
  rw [if_neg h]
  split
  · rw [Int.bmod_def]
    have : ((2 ^ e.width f : Nat) : Int) = 2 ^ e.width f := by norm_cast
    rw [this]
    have hm : (-1 : Int) % 2 ^ e.width f = 2 ^ e.width f - 1 := by
      rw [show (-1 : Int) = (2 ^ e.width f - 1) + 2 ^ e.width f * (-1) by ring, Int.add_mul_emod_self_left]
      exact Int.emod_eq_of_lt (by omega) (by omega)
    rw [hm]
    split <;> omega
  · have : ((2 ^ e.width f : Nat) : Int) = 2 ^ e.width f := by norm_cast
    rw [this, show (-1 : Int) = (2 ^ e.width f - 1) + 2 ^ e.width f * (-1) by ring, Int.add_mul_emod_self_left]
    exact Int.emod_eq_of_lt (by omega) (by omega)

theorem cast_zero (e : Env) (f : Fund) : f.cast e 0 = 0 := by
  unfold Fund.cast
  split
  · rfl
  · split
    · exact Int.zero_bmod
    · exact Int.zero_emod _

theorem castLt_eq (e : Env) (q : CV) (f : Fund) : castLt e (.base q (.fund f)) (-1) 0 = f.signed e ∧
    castLt e (.base q (.fund f)) 0 (-1) = !f.signed e := by
  simp only [castLt, cast_zero]
  by_cases h : f = .bool
  · subst h; simp [Fund.cast, Fund.signed]
  · have hw : (4 : Int) ≤ 2 ^ e.width f := by
      have : (2 : Nat) ^ 2 ≤ 2 ^ e.width f := Nat.pow_le_pow_right (by omega) (e.width_pos f)
      exact_mod_cast this
    rw [cast_neg_one e f h]
    cases f.signed e <;> simp <;> omega

/-- `is_signed` and `is_unsigned`: floating types are signed, integral ones as their values are, nothing else is either; `char` and `wchar_t`
follow the platform. -/
theorem c72_signed_partial (e : Env) {t : Ty} (w : wf t) (h : forgotten t = false) :
    (is_signed e t = true ↔ cat t = .floating ∨ ∃ q f, t = .base q (.fund f) ∧ cat t = .integral ∧ f.signed e = true) ∧
    (is_unsigned e t = true ↔ ∃ q f, t = .base q (.fund f) ∧ cat t = .integral ∧ f.signed e = false) := by
  have a2 := (c72_right w).2.1
  have b1 := c72_integral_partial h
  unfold is_signed is_unsigned is_arithmetic
  by_cases hi : cat t = .integral
  · rw [b1.2 hi]
    obtain ⟨q, f, rfl⟩ : ∃ q f, t = .base q (.fund f) := by
      revert hi; clear * -
      by_ty t
      all_goals first | (intro hi; exact ⟨_, _, rfl⟩) | (intro hi; simp [cat] at hi)
    simp only [Bool.true_or, if_true, castLt_eq e q f]
    refine ⟨⟨fun h => .inr ⟨q, f, rfl, hi, h⟩, ?_⟩, ⟨fun h => ⟨q, f, rfl, hi, by simpa using h⟩, ?_⟩⟩
    · rintro (h | ⟨q', f', h1, -, h3⟩)
      · simp [hi] at h
      · simp only [Ty.base.injEq, Base.fund.injEq] at h1; rw [h1.2]; exact h3
    · rintro ⟨q', f', h1, -, h3⟩
      simp only [Ty.base.injEq, Base.fund.injEq] at h1; rw [h1.2, h3]; rfl
  · have : is_integral t = false := by rw [← Bool.not_eq_true, b1]; exact hi
    rw [this]
    simp [hi, a2]

/-- Every qualified version of a pointer to an array of member pointers is a pointer and nothing else. -/
example (q : CV) : is_pointer (.ptr q (.arr (.mem {} (.fn true tyVoid .nil) 1) none)) = true ∧ is_enum (.ptr q (.arr (.mem {} (.fn true tyVoid .nil) 1) none)) = false := by
  rcases q with ⟨_ | _, _ | _⟩ <;> decide
example : wf (.lref (.arr (.ptr {} (.fn false tyVoid (.cons tyVoid .nil))) (some 3))) := by simp [wf, cat, object, tyVoid]
example : forgotten (.base ⟨true, false⟩ (.fund .char16)) = true ∧ cat (.base ⟨true, false⟩ (.union 4)) = .union ∧
    remove_cv (.base ⟨true, true⟩ (.cls 0)) = tyNullptr := by decide

/-! ### C73: transformations -/

/-- `remove_const<T>` is the one type that is not `const` and becomes `T const` when `const` is put back. -/
theorem c73_remove_const (t u : Ty) : u = remove_const t ↔ (quals u).c = false ∧ addConst u = addConst t := by
  have key : (quals (remove_const t)).c = false ∧ addConst (remove_const t) = addConst t := by
    unfold remove_const
    cases h : matchConst t with
    | none => exact ⟨matchConst_none h, rfl⟩
    | some w =>
      obtain ⟨a, b, -⟩ := matchConst_some h
      refine ⟨by simp [b], ?_⟩
      simp only [Option.getD_some]
      rw [← a, addConst_addConst]
  constructor
  · rintro rfl; exact key
  · rintro ⟨h1, h2⟩; exact addConst_inj h1 key.1 (h2.trans key.2.symm)

theorem c73_remove_volatile (t u : Ty) : u = remove_volatile t ↔ (quals u).v = false ∧ addVolatile u = addVolatile t := by
  have key : (quals (remove_volatile t)).v = false ∧ addVolatile (remove_volatile t) = addVolatile t := by
    unfold remove_volatile
    cases h : matchVolatile t with
    | none => exact ⟨matchVolatile_none h, rfl⟩
    | some w =>
      obtain ⟨a, b, -⟩ := matchVolatile_some h
      refine ⟨by simp [b], ?_⟩
      simp only [Option.getD_some]
      rw [← a, addVolatile_addVolatile]
  constructor
  · rintro rfl; exact key
  · rintro ⟨h1, h2⟩; exact addVolatile_inj h1 key.1 (h2.trans key.2.symm)

/-- `remove_cv<T>` is the one type without qualifiers that becomes `T const volatile`. -/
theorem c73_remove_cv (t u : Ty) : u = remove_cv t ↔ quals u = {} ∧ addConst (addVolatile u) = addConst (addVolatile t) := by
  have key : quals (remove_cv t) = {} ∧ addConst (addVolatile (remove_cv t)) = addConst (addVolatile t) := by
    rw [remove_cv_eq]; exact ⟨quals_strip t, addBoth_strip t⟩
  constructor
  · rintro rfl; exact key
  · rintro ⟨h1, h2⟩
    rw [← addBoth_inj h1 key.1 (h2.trans key.2.symm)]

/-- `remove_reference` takes off what `&` and `&&` put on, and nothing else. -/
theorem c73_remove_reference {t : Ty} (w : wf t) :
    cat (remove_reference t) ≠ .lref ∧ cat (remove_reference t) ≠ .rref ∧
    (cat t = .lref → t = .lref (remove_reference t)) ∧ (cat t = .rref → t = .rref (remove_reference t)) ∧
    (cat t ≠ .lref → cat t ≠ .rref → remove_reference t = t) := by
  revert w
  by_ty t
  all_goals intro w
  all_goals first | (simp [remove_reference, cat]; done) | exact ⟨w.2.1, w.2.2.1, by simp [remove_reference, cat], by simp [remove_reference, cat], by simp [cat]⟩

/-- `T&` and `T&&` collapse: an lvalue reference wins; types that cannot be referred to stay as they are. -/
theorem c73_add_reference {t : Ty} (w : wf t) :
    (canRef t = true → add_lvalue_reference t = .lref (remove_reference t) ∧
      add_rvalue_reference t = (if cat t = .lref then .lref (remove_reference t) else .rref (remove_reference t)) ∧
      wf (add_lvalue_reference t) ∧ wf (add_rvalue_reference t)) ∧
    (canRef t = false → add_lvalue_reference t = t ∧ add_rvalue_reference t = t) ∧
    (canRef t = false ↔ cat t = .void ∨ ∃ r a, t = .fn true r a) := by
  revert w
  by_ty t
  all_goals intro w
  all_goals first
    | (simp_all [add_lvalue_reference, add_rvalue_reference, is_referenceable, canRef, mkLref, mkRref, remove_reference, cat, wf]; done)
    | (cases q <;> simp_all [add_lvalue_reference, add_rvalue_reference, is_referenceable, canRef, mkLref, mkRref, remove_reference, cat, wf]; done)

/-- `add_pointer`: a pointer to what a reference refers to; functions with qualifiers of their own stay as they are. -/
theorem c73_add_pointer {t : Ty} (w : wf t) :
    ((∀ r a, t ≠ .fn true r a) → add_pointer t = .ptr {} (remove_reference t) ∧ wf (add_pointer t)) ∧
    (∀ r a, t = .fn true r a → add_pointer t = t) := by
  revert w
  by_ty t
  all_goals intro w
  all_goals first
    | (simp_all [add_pointer, is_referenceable, canRef, remove_reference, cat, wf, is_same, remove_cv_eq, strip, tyVoid]; done)
    | (cases q <;> simp_all [add_pointer, is_referenceable, canRef, remove_reference, cat, wf, is_same, remove_cv_eq, strip, tyVoid]; done)

/-- `decay` is the type an argument has after being passed by value. -/
theorem c73_decay {t : Ty} (w : wf t) : decay t = Spec.decay t := by
  have obj : ∀ u, wf u → cat u ≠ .lref → cat u ≠ .rref → remove_reference t = u → decay t = Spec.decayObj u := by
    intro u wu h1 h2 hr
    unfold decay
    simp only [hr, is_function_eq wu]
    revert wu h1 h2; clear * -
    by_ty u
    all_goals intro wu h1 h2
    all_goals first
      | (simp_all [is_referenceable, canRef, is_array, cat, remove_extent, Spec.decayObj, remove_cv_eq, strip, add_pointer, remove_reference]; done)
      | (cases q <;> simp_all [is_referenceable, canRef, is_array, cat, remove_extent, Spec.decayObj, remove_cv_eq, strip, add_pointer, remove_reference]; done)
  cases t with
  | lref u => exact obj u w.1 w.2.1 w.2.2.1 rfl
  | rref u => exact obj u w.1 w.2.1 w.2.2.1 rfl
  | base q b => exact obj _ w (by rcases b with (_ | _) | _ | _ | _ <;> simp [cat]) (by rcases b with (_ | _) | _ | _ | _ <;> simp [cat]) rfl
  | mem q u n => exact obj _ w (by cases u <;> simp [cat]) (by cases u <;> simp [cat]) rfl
  | _ => exact obj _ w (by simp [cat]) (by simp [cat]) rfl

theorem decayObj_props {t : Ty} (w : wf t) (h1 : cat t ≠ .lref) (h2 : cat t ≠ .rref) : Spec.decay (decayObj t) = decayObj t ∧ quals (decayObj t) = {} ∧
    cat (decayObj t) ≠ .array ∧ cat (decayObj t) ≠ .lref ∧ cat (decayObj t) ≠ .rref ∧ wf (decayObj t) := by
  revert w h1 h2
  by_ty t
  all_goals intro w h1 h2
  case arr.none | arr.some =>
    refine ⟨rfl, rfl, by simp [decayObj, cat], by simp [decayObj, cat], by simp [decayObj, cat], w.1, w.2.1.2.1, w.2.1.2.2.1, ?_⟩
    rintro r a rfl
    exact w.2.1.1 rfl
  all_goals first
    | exact ⟨rfl, rfl, by simp [decayObj, cat], by simp [decayObj, cat], by simp [decayObj, cat], w⟩
    | exact ⟨rfl, rfl, by simp [decayObj, cat], by simp [decayObj, cat], by simp [decayObj, cat], w, by simp [cat], by simp [cat], by simp⟩
    | exact absurd rfl h1
    | exact absurd rfl h2

/-- Decaying twice is decaying once, and the result is an unqualified type that is neither array nor reference. -/
theorem c73_decay_idem {t : Ty} (w : wf t) : decay (decay t) = decay t ∧ quals (decay t) = {} ∧ cat (decay t) ≠ .array ∧
    cat (decay t) ≠ .lref ∧ cat (decay t) ≠ .rref ∧ wf (decay t) := by
  obtain ⟨u, wu, h1, h2, h⟩ : ∃ u, wf u ∧ cat u ≠ .lref ∧ cat u ≠ .rref ∧ Spec.decay t = decayObj u := by
    cases t with
    | lref u => exact ⟨u, w.1, w.2.1, w.2.2.1, rfl⟩
    | rref u => exact ⟨u, w.1, w.2.1, w.2.2.1, rfl⟩
    | base q b => exact ⟨_, w, by rcases b with (_ | _) | _ | _ | _ <;> simp [cat], by rcases b with (_ | _) | _ | _ | _ <;> simp [cat], rfl⟩
    | mem q u n => exact ⟨_, w, by cases u <;> simp [cat], by cases u <;> simp [cat], rfl⟩
    | _ => exact ⟨_, w, by simp [cat], by simp [cat], rfl⟩
  have hp := decayObj_props wu h1 h2
  rw [← h, ← c73_decay w] at hp
  exact ⟨by rw [c73_decay hp.2.2.2.2.2]; exact hp.1, hp.2⟩

/-- `remove_all_extents` gives the element type below all dimensions, qualifiers kept. -/
theorem c73_remove_all_extents : ∀ t : Ty, remove_all_extents t = innermost t ∧ cat (remove_all_extents t) ≠ .array ∧
    quals (remove_all_extents t) = quals t
  | .arr t none => c73_remove_all_extents t
  | .arr t (some _) => c73_remove_all_extents t
  | .base q b => by
    refine ⟨rfl, ?_, rfl⟩
    rcases b with (_ | _) | _ | _ | _ <;> simp [remove_all_extents, cat]
  | .mem q u n => by
    refine ⟨rfl, ?_, rfl⟩
    cases u <;> simp [remove_all_extents, cat]
  | .ptr .. | .fn .. | .lref _ | .rref _ => by refine ⟨rfl, ?_, rfl⟩; simp [remove_all_extents, cat]

/-- Passing a reference to a qualified array, a function, a qualified pointer. -/
example (n : Nat) : decay (.lref (.arr (.base ⟨true, false⟩ (.cls n)) (some 4))) = .ptr {} (.base ⟨true, false⟩ (.cls n)) ∧
    decay (.fn false tyVoid .nil) = .ptr {} (.fn false tyVoid .nil) ∧ decay (.rref (.ptr ⟨true, true⟩ tyVoid)) = .ptr {} tyVoid := by
  refine ⟨by rw [c73_decay (by simp [wf, cat, object])]; rfl, by decide, by decide⟩

/-! ### C74: destructible and empty types -/

/-- A class type's destructor is asked for below all dimensions. -/
theorem destructor_innermost (e : Env) : ∀ {t : Ty}, wf t → object t → (∀ u, t ≠ .arr u none) →
    is_destructor_wellformed e (remove_all_extents t) = destructible e t
  | .arr t none, _, _, h => absurd rfl (h t)
  | .arr t (some n), w, _, _ => by
    simp only [remove_all_extents, destructible]
    exact destructor_innermost e w.1 w.2.1 w.2.2
  | .base q b, _, o, _ => by
    rcases b with f | _ | _ | _ <;> simp only [remove_all_extents, is_destructor_wellformed, destructible]
    cases f <;> first | rfl | exact absurd rfl o.2.2.2
  | .ptr .., _, _, _ => rfl
  | .mem .., _, _, _ => rfl
  | .fn .., _, o, _ => absurd rfl o.1
  | .lref _, _, o, _ => absurd rfl o.2.1
  | .rref _, _, o, _ => absurd rfl o.2.2.1

/-- `is_destructible` is right for every type. -/
theorem c74_destructible (e : Env) {t : Ty} (w : wf t) : is_destructible e t = destructible e t := by
  have hf := is_function_eq w
  cases t with
  | arr u n =>
    cases n with
    | none => rfl
    | some n =>
      have : is_function (.arr u (some n)) = false := by rw [hf]; rfl
      simp only [is_destructible, this, is_reference]
      exact destructor_innermost e w ⟨by simp [cat], by simp [cat], by simp [cat], by simp [cat]⟩ (by simp)
  | base q b =>
    have : is_function (.base q b) = false := by rw [hf]; rcases b with (_ | _) | _ | _ | _ <;> rfl
    unfold is_destructible
    split
    · rename_i h; cases h
    · simp_all [destructible]
    · simp only [this, is_reference]
      rcases b with f | _ | _ | _ <;> simp [remove_all_extents, is_destructor_wellformed, destructible]
      cases f <;> rfl
  | fn q r a =>
    have : is_function (.fn q r a) = true := by rw [hf]; rfl
    simp [is_destructible, this, destructible]
  | lref u => simp [is_destructible, destructible, is_function, is_reference]
  | rref u => simp [is_destructible, destructible, is_function, is_reference]
  | ptr q u => rfl
  | mem q u n => rfl

/-- `is_empty` is right for types that are no unions and no final classes. -/
theorem c74_empty_partial (e : Env) {t : Ty} (h : ∀ q n, t = .base q (.cls n) → e.clsFinal n = false) (hu : cat t ≠ .union) :
    is_empty e t = some (match t with | .base _ (.cls n) => e.clsEmpty n | _ => false) := by
  rcases t with ⟨q, f | n | n | n⟩ | _ | _ | _ | _ | _ | _
  case base.cls => simp [is_empty, is_class, class_test, is_union, h q n rfl]
  case base.union => exact absurd rfl hu
  all_goals rfl

/-- For a union or a final class `is_empty` does not compile, instead of giving false or the class's emptiness. -/
theorem c74_empty_false (e : Env) (q : CV) (n : Nat) : is_empty e (.base q (.union n)) = none ∧
    (e.clsFinal n = true → is_empty e (.base q (.cls n)) = none) := by
  refine ⟨by simp [is_empty, is_class, class_test, is_union], fun h => by simp [is_empty, is_class, class_test, is_union, h]⟩

/-- A platform with signed `char` on which class 1 is final and has no destructor to use. -/
def env1 : Env where
  charSigned := true
  wcharSigned := true
  width := fun _ => 32
  width_pos := fun _ => by decide
  clsFinal := fun n => n == 1
  clsEmpty := fun _ => true
  clsDtor := fun n => n != 1
  unionDtor := fun _ => true

example : is_destructible env1 (.arr (.arr (.base {} (.cls 1)) (some 2)) (some 3)) = false ∧
    is_destructible env1 (.arr (.arr (.base {} (.cls 2)) (some 2)) (some 3)) = true ∧
    is_empty env1 (.base {} (.cls 2)) = some true ∧ is_empty env1 (.base {} (.cls 1)) = none := by decide

end Nanostl.Traits

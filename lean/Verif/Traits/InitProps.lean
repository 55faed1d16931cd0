import Verif.Traits.InitSpec
import Verif.Traits.Props

/-! C106-C108: traits about construction, conversion and assignment; `common_type`; value categories. -/

namespace Nanostl.Traits
open Spec
set_option linter.unusedSimpArgs false

theorem isVoidTy_eq (t : Ty) : isVoidTy t = decide (cat t = .void) := by
  rcases t with ⟨q, (f | n | n | n)⟩ | _ | ⟨q, (_ | _ | _ | _ | _ | _ | _), n⟩ | _ | _ | _ | _ <;> try rfl
  cases f <;> rfl

theorem isFnTy_eq (t : Ty) : isFnTy t = decide (cat t = .function) := by
  rcases t with ⟨q, (f | n | n | n)⟩ | _ | ⟨q, (_ | _ | _ | _ | _ | _ | _), n⟩ | _ | _ | _ | _ <;> try rfl
  cases f <;> rfl

theorem declval_eq (t : Ty) : declval t = valueOf t := by
  rcases t with ⟨q, (f | n | n | n)⟩ | _ | ⟨q, t, n⟩ | _ | ⟨(_ | _), r, a⟩ | t | t
  case base.fund => cases f <;> rfl
  case rref => simp [declval, canRef, mkRref, callOf, valueOf, isFnTy_eq]
  all_goals rfl

theorem mapM_declval (as : List Ty) : as.mapM declval = as.mapM valueOf := by
  rw [funext declval_eq]

theorem is_void_eq (t : Ty) : is_void t = decide (cat t = .void) := by
  rcases t with ⟨⟨(_ | _), (_ | _)⟩, (f | n | n | n)⟩ | ⟨⟨(_ | _), (_ | _)⟩, t⟩ | ⟨⟨(_ | _), (_ | _)⟩, (_ | _ | _ | _ | _ | _ | _), n⟩ | ⟨t, n⟩ | _ | _ | _
  case arr => simp [is_void, is_same, remove_cv_eq, strip, tyVoid, cat]
  all_goals try (cases f <;> decide)
  all_goals simp [is_void, is_same, remove_cv_eq, strip, tyVoid, cat]

theorem is_array_eq (t : Ty) : is_array t = decide (cat t = .array) := by
  rcases t with ⟨q, (f | n | n | n)⟩ | _ | ⟨q, (_ | _ | _ | _ | _ | _ | _), n⟩ | ⟨t, (_ | n)⟩ | _ | _ | _ <;> try rfl
  cases f <;> rfl

theorem is_reference_eq (t : Ty) : is_reference t = decide (cat t = .lref ∨ cat t = .rref) := by
  rcases t with ⟨q, (f | n | n | n)⟩ | _ | ⟨q, (_ | _ | _ | _ | _ | _ | _), n⟩ | ⟨t, (_ | n)⟩ | _ | _ | _ <;> try rfl
  cases f <;> rfl

theorem afv_eq {t : Ty} (w : wf t) : array_function_or_void t =
    if cat t = .array then 1 else if cat t = .function then 2 else if cat t = .void then 3 else 0 := by
  rw [array_function_or_void, is_array_eq, is_function_eq w, is_void_eq]
  cases cat t <;> rfl

/-- For types that are no arrays or references the header's question for the destructor is the right one. -/
theorem dtor_eq (e : Env) {t : Ty} (h1 : cat t ≠ .array) (h2 : cat t ≠ .lref) (h3 : cat t ≠ .rref) : is_destructor_wellformed e t = destructible e t := by
  rcases t with ⟨q, (f | n | n | n)⟩ | _ | ⟨q, t, n⟩ | ⟨t, (_ | n)⟩ | _ | _ | _
  case base.fund => cases f <;> rfl
  case arr.none | arr.some => exact absurd rfl h1
  case lref => exact absurd rfl h2
  case rref => exact absurd rfl h3
  all_goals rfl

theorem of_lref {t : Ty} (h : cat t = .lref) : ∃ u, t = .lref u := by
  rcases t with ⟨q, (f | n | n | n)⟩ | _ | ⟨q, (_ | _ | _ | _ | _ | _ | _), n⟩ | _ | _ | u | _
  case lref => exact ⟨_, rfl⟩
  case base.fund => cases f <;> simp [cat] at h
  all_goals simp [cat] at h

theorem of_rref {t : Ty} (h : cat t = .rref) : ∃ u, t = .rref u := by
  rcases t with ⟨q, (f | n | n | n)⟩ | _ | ⟨q, (_ | _ | _ | _ | _ | _ | _), n⟩ | _ | _ | u | _
  case rref => exact ⟨_, rfl⟩
  case base.fund => cases f <;> simp [cat] at h
  all_goals simp [cat] at h

/-! ### C106 -/

/-- C106: `is_convertible<From, To>` tells whether a function that returns `To` can return a `From`, for all types. -/
theorem c106_convertible (L : Lang) {f t : Ty} (wf' : wf f) (wt : wf t) : is_convertible L f t = convertible L f t := by
  have pass : ∀ e, cat t ≠ .array → canPass L e t = (L.conv e t && destructible L.env t) := by
    intro e h1
    rcases t with ⟨q, b⟩ | _ | ⟨q, t, n⟩ | ⟨t, n⟩ | _ | _ | _
    case arr => exact absurd rfl h1
    case lref | rref => simp [canPass, destructible]
    case base =>
      have := dtor_eq L.env (t := .base q b) h1 (by rcases b with (_ | _) | _ | _ | _ <;> simp [cat]) (by rcases b with (_ | _) | _ | _ | _ <;> simp [cat])
      simp only [canPass, this]
    all_goals rfl
  simp only [is_convertible, afv_eq wf', afv_eq wt, convertible]
  by_cases h1 : cat t = .array
  · simp [h1]
  by_cases h2 : cat t = .function
  · simp [h2]
  by_cases h3 : cat t = .void
  · simp only [h3, if_true, if_false, or_self, reduceCtorEq, false_or]
    by_cases g1 : cat f = .array
    · simp [g1]
    by_cases g2 : cat f = .function
    · simp [g2]
    by_cases g3 : cat f = .void <;> simp [g1, g2, g3]
  · simp only [h1, h2, h3, if_false, or_self]
    rw [convertible_test, declval_eq]
    cases valueOf f with
    | none => split <;> simp_all
    | some e =>
      simp only
      rw [← pass e h1]
      split <;> simp_all

/-- Types whose variables are initialised as a whole. -/
def Plain (t : Ty) : Prop := cat t ≠ .array ∧ cat t ≠ .lref ∧ cat t ≠ .rref ∧ cat t ≠ .function ∧ cat t ≠ .void

theorem plain_defines (L : Lang) {t : Ty} (h : Plain t) (es : List Expr) : defines L t es = (L.init t es && destructible L.env t) := by
  obtain ⟨h1, h2, h3, h4, h5⟩ := h
  rcases t with ⟨q, (f | n | n | n)⟩ | _ | ⟨q, t, n⟩ | ⟨t, (_ | n)⟩ | _ | _ | _
  case base.fund => cases f <;> first | rfl | exact absurd rfl h5
  case arr.none | arr.some => exact absurd rfl h1
  case lref => exact absurd rfl h2
  case rref => exact absurd rfl h3
  case fn => exact absurd rfl h4
  all_goals rfl

theorem plain_definesNo (L : Lang) {t : Ty} (h : Plain t) (es : List Expr) :
    definesNo L t es = (L.init t es && destructible L.env t && L.initNo t es && L.dtorNo t) := by
  obtain ⟨h1, h2, h3, h4, h5⟩ := h
  rcases t with ⟨q, (f | n | n | n)⟩ | _ | ⟨q, t, n⟩ | ⟨t, (_ | n)⟩ | _ | _ | _
  case base.fund => cases f <;> first | rfl | exact absurd rfl h5
  case arr.none | arr.some => exact absurd rfl h1
  case lref => exact absurd rfl h2
  case rref => exact absurd rfl h3
  case fn => exact absurd rfl h4
  all_goals rfl

theorem plain_cast (L : Lang) {t : Ty} (h : Plain t) (es : List Expr) : canCast L t es = (L.init t es && (L.elides || destructible L.env t)) := by
  obtain ⟨h1, h2, h3, h4, h5⟩ := h
  rw [← dtor_eq L.env h1 h2 h3]
  rcases t with ⟨q, (f | n | n | n)⟩ | _ | ⟨q, t, n⟩ | ⟨t, (_ | n)⟩ | _ | _ | _
  case base.fund => cases f <;> first | rfl | exact absurd rfl h5
  case arr.none | arr.some => exact absurd rfl h1
  case lref => exact absurd rfl h2
  case rref => exact absurd rfl h3
  case fn => exact absurd rfl h4
  all_goals rfl

theorem plain_new (L : Lang) {t : Ty} (h : Plain t) (e : Expr) : canNew L t e = L.init t [e] := by
  obtain ⟨h1, h2, h3, h4, h5⟩ := h
  rcases t with ⟨q, (f | n | n | n)⟩ | _ | ⟨q, t, n⟩ | ⟨t, (_ | n)⟩ | _ | _ | _
  case base.fund => cases f <;> first | rfl | exact absurd rfl h5
  case arr.none | arr.some => exact absurd rfl h1
  case lref => exact absurd rfl h2
  case rref => exact absurd rfl h3
  case fn => exact absurd rfl h4
  all_goals rfl

theorem notPlain {t : Ty} (h1 : cat t ≠ .lref) (h2 : cat t ≠ .rref) (h : ¬ Plain t) : cat t = .array ∨ cat t = .function ∨ cat t = .void := by
  unfold Plain at h
  cases hc : cat t <;> simp_all

theorem odd_new (L : Lang) {t : Ty} (h : cat t = .array ∨ cat t = .function ∨ cat t = .void) (e : Expr) :
    canNew L t e = false ∧ defines L t [e] = false ∧ definesNo L t [e] = false := by
  rcases t with ⟨q, (f | n | n | n)⟩ | _ | ⟨q, (_ | _ | _ | _ | _ | _ | _), n⟩ | ⟨t, (_ | n)⟩ | _ | _ | _
  case base.fund => cases f <;> first | exact ⟨rfl, rfl, rfl⟩ | simp [cat] at h
  case arr.none | arr.some | fn => exact ⟨rfl, rfl, rfl⟩
  all_goals simp [cat] at h

theorem odd_cast (L : Lang) {t : Ty} (h : cat t = .array ∨ cat t = .function ∨ cat t = .void) {es : List Expr} (h2 : es ≠ []) :
    canCast L t es = false ∧ defines L t es = false ∧ definesNo L t es = false := by
  obtain ⟨e, r, rfl⟩ := List.exists_cons_of_ne_nil h2
  rcases t with ⟨q, (f | n | n | n)⟩ | _ | ⟨q, (_ | _ | _ | _ | _ | _ | _), n⟩ | ⟨t, (_ | n)⟩ | _ | _ | _
  case base.fund => cases f <;> first | exact ⟨rfl, rfl, rfl⟩ | simp [cat] at h
  case arr.none | arr.some | fn => exact ⟨rfl, rfl, rfl⟩
  all_goals simp [cat] at h

theorem odd_nil (L : Lang) {t : Ty} (h : cat t = .function ∨ cat t = .void) :
    (cat t = .function → canCast L t [] = false) ∧ defines L t [] = false ∧ definesNo L t [] = false := by
  rcases t with ⟨q, (f | n | n | n)⟩ | _ | ⟨q, (_ | _ | _ | _ | _ | _ | _), n⟩ | ⟨t, (_ | n)⟩ | _ | _ | _
  case base.fund => cases f <;> first | exact ⟨fun k => by simp [cat] at k, rfl, rfl⟩ | simp [cat] at h
  case fn => exact ⟨fun _ => rfl, rfl, rfl⟩
  all_goals simp [cat] at h

theorem mapM_length {α β : Type} {f : α → Option β} : ∀ {l : List α} {r : List β}, l.mapM f = some r → r.length = l.length
  | [], r, h => by simp at h; subst h; rfl
  | a :: l, r, h => by
    simp only [List.mapM_cons, Option.bind_eq_bind, Option.bind_eq_some_iff, Option.pure_def, Option.some.injEq] at h
    obtain ⟨b, _, s, hs, rfl⟩ := h
    simp [mapM_length hs]

/-- C106: `is_constructible` for types that are no references: whether the variable can be defined.
Missing: arrays without arguments (`c106_array_false`); types that cannot be destroyed, asked about with no or several arguments under C++17
(`c106_destructor_false`); references to be made by an explicit conversion (`c106_explicit_false`). -/
theorem c106_constructible_partial (L : Lang) {t : Ty} (w : wf t) (as : List Ty) (h1 : cat t ≠ .lref) (h2 : cat t ≠ .rref)
    (h3 : cat t = .array → as ≠ []) (h4 : L.elides = true → as.length ≠ 1 → destructible L.env t = true) :
    is_constructible L t as = some (constructible L t as) := by
  have hd := c74_destructible L.env w
  have hr : is_reference t = false := by rw [is_reference_eq]; simp [h1, h2]
  match as, h3, h4 with
  | [], h3, h4 =>
    have h3 : cat t ≠ .array := fun k => h3 k rfl
    have h4 : L.elides = true → destructible L.env t = true := fun k => h4 k (by simp)
    simp only [is_constructible, constructible, List.mapM_nil, Option.pure_def, isVoidTy_eq]
    by_cases hp : Plain t
    · rw [plain_defines L hp, plain_cast L hp]
      have := hp.2.2.2.2
      cases he : L.elides <;> cases hi : L.init t [] <;> simp_all
    · have ho : cat t = .function ∨ cat t = .void := by
        rcases notPlain h1 h2 hp with k | k
        · exact absurd k h3
        · exact k
      obtain ⟨g1, g2, _⟩ := odd_nil L ho
      rcases ho with k | k <;> simp_all
  | [a], h3, h4 =>
    simp only [is_constructible, hr, hd, constructible, List.mapM_cons, List.mapM_nil, declval_eq]
    cases valueOf a with
    | none => simp
    | some e =>
      by_cases hp : Plain t
      · simp [plain_defines L hp, plain_new L hp, Bool.and_comm]
      · obtain ⟨g1, g2, _⟩ := odd_new L (notPlain h1 h2 hp) e
        simp [g1, g2]
  | a :: b :: r, h3, h4 =>
    have h4 : L.elides = true → destructible L.env t = true := fun k => h4 k (by simp)
    simp only [is_constructible, constructible, mapM_declval]
    cases hm : (a :: b :: r).mapM valueOf with
    | none => rfl
    | some es =>
      have hl := mapM_length hm
      have hn : es ≠ [] := by rintro rfl; simp at hl
      by_cases hp : Plain t
      · simp only [plain_defines L hp, plain_cast L hp]
        cases he : L.elides <;> cases hi : L.init t es <;> simp_all
      · obtain ⟨g1, g2, _⟩ := odd_cast L (notPlain h1 h2 hp) hn
        simp [g1, g2]

theorem valueOf_void {t : Ty} (w : wf t) {e : Expr} (h : valueOf t = some e) : cat e.ty = .void ↔ cat t = .void := by
  rcases t with ⟨q, (f | n | n | n)⟩ | _ | ⟨q, t, n⟩ | _ | ⟨(_ | _), r, a⟩ | t | t
  case base.fund => cases f <;> (injection h with h; subst h; simp [cat])
  case fn.true => cases h
  case lref => injection h with h; subst h; exact ⟨fun k => absurd k w.2.2.2.1, fun k => Cat.noConfusion (k : Cat.lref = .void)⟩
  case rref => injection h with h; subst h; exact ⟨fun k => absurd k w.2.2.2.1, fun k => Cat.noConfusion (k : Cat.rref = .void)⟩
  all_goals (injection h with h; subst h; rfl)

/-- C106: a reference. What the header calls constructible is, whenever implicit conversions are among the explicit ones; where there are no explicit
ones both agree. Missing: explicit conversion functions (`c106_explicit_false`); an argument of type void ends the translation
(`c106_void_error`). -/
theorem c106_reference_partial (L : Lang) {t : Ty} (h : cat t = .lref ∨ cat t = .rref) (hb : ∀ e, L.conv e t = true → L.bind t e = true) (as : List Ty) :
    (is_constructible L t as = some true → constructible L t as = true) ∧
    ((∀ e, L.bind t e = L.conv e t) → (∀ a ∈ as, wf a ∧ cat a ≠ .void ∧ valueOf a ≠ none) → is_constructible L t as = some (constructible L t as)) := by
  obtain ⟨hr, hnv⟩ : is_reference t = true ∧ isVoidTy t = false := by
    rw [is_reference_eq, isVoidTy_eq]; rcases h with k | k <;> simp [k]
  have hcast : ∀ es, canCast L t es = false := by
    intro es
    rcases t with ⟨q, (f | n | n | n)⟩ | _ | ⟨q, (_ | _ | _ | _ | _ | _ | _), n⟩ | ⟨t, (_ | n)⟩ | _ | _ | _
    case base.fund => cases f <;> simp [cat] at h
    case lref | rref => rfl
    all_goals simp [cat] at h
  have hdef : ∀ es, es.length ≠ 1 → defines L t es = false := by
    intro es hl
    rcases t with ⟨q, (f | n | n | n)⟩ | _ | ⟨q, (_ | _ | _ | _ | _ | _ | _), n⟩ | ⟨t, (_ | n)⟩ | _ | _ | _
    case base.fund => cases f <;> simp [cat] at h
    case lref | rref =>
      rcases es with _ | ⟨a, _ | ⟨b, r⟩⟩
      · rfl
      · exact absurd rfl hl
      · rfl
    all_goals simp [cat] at h
  have hdef1 : ∀ e, defines L t [e] = (decide (cat e.ty ≠ .void) && L.bind t e) := by
    intro e
    rcases t with ⟨q, (f | n | n | n)⟩ | _ | ⟨q, (_ | _ | _ | _ | _ | _ | _), n⟩ | ⟨t, (_ | n)⟩ | _ | _ | _
    case base.fund => cases f <;> simp [cat] at h
    case lref | rref => rfl
    all_goals simp [cat] at h
  match as with
  | [] => simp [is_constructible, hnv, hcast, constructible, hdef]
  | [a] =>
    simp only [is_constructible, hr, if_true, constructible, List.mapM_cons, List.mapM_nil, declval_eq, isVoidTy_eq]
    cases hv : valueOf a with
    | none => simp [hv]
    | some e =>
      by_cases hev : cat e.ty = .void
      · refine ⟨by simp [hev], fun _ hn => ?_⟩
        have h1 := hn a (by simp)
        exact absurd ((valueOf_void h1.1 hv).1 hev) h1.2.1
      · constructor
        · simp only [hev, decide_false, Bool.false_eq_true, if_false, Option.some.injEq, Option.pure_def, Option.bind_eq_bind, Option.bind_some]
          intro k
          simp [hdef1, hev, hb e k]
        · intro k _
          simp [hdef1, hev, k]
  | a :: b :: r =>
    have : ∀ es, (a :: b :: r).mapM valueOf = some es → defines L t es = false := by
      intro es hm
      apply hdef
      have := mapM_length hm
      simp at this; omega
    simp only [is_constructible, constructible, mapM_declval]
    cases hm : (a :: b :: r).mapM valueOf with
    | none => simp
    | some es => simp [hcast, this es hm]

/-- Classes 4 convert explicitly to references to `int`; classes 1 have no destructor to use (`env1`). -/
def lang1 (elides : Bool) : Lang where
  env := env1
  elides := elides
  init := fun _ es => es.length ≤ 1
  conv := fun e t => match t with
    | .lref u => e.vc = .lv && e.ty = u
    | .rref u => e.vc ≠ .lv && e.ty = u
    | u => e.ty = u
  bind := fun t e => match t with
    | .lref u => (e.vc = .lv && e.ty = u) || e.ty = .base {} (.cls 4)
    | .rref u => e.vc ≠ .lv && e.ty = u
    | _ => false
  assign := fun x y => x.vc = .lv && x.ty = y.ty
  cond := fun x y => if x.ty = y.ty then some (if cat x.ty = .void then x.ty else if x.vc = .lv then .lref x.ty else .rref x.ty)
    else if cat x.ty = .integral ∧ cat y.ty = .floating then some y.ty else none
  initNo := fun t _ => cat t ≠ .cls
  dtorNo := fun _ => true
  convNo := fun _ _ => true
  assignNo := fun x _ => cat x.ty ≠ .cls

abbrev tInt : Ty := .base {} (.fund .int)
abbrev tCls (n : Nat) : Ty := .base {} (.cls n)

example : is_convertible (lang1 true) (.lref tInt) tInt = true ∧ is_convertible (lang1 true) (.rref tInt) (.lref tInt) = false ∧
    is_convertible (lang1 true) tyVoid tyVoid = true ∧ is_convertible (lang1 true) tInt tyVoid = false := by decide
example : is_constructible (lang1 true) (tCls 2) [tInt] = some true ∧ is_constructible (lang1 true) (tCls 2) [tInt, tInt] = some false ∧
    is_constructible (lang1 true) (tCls 1) [tInt] = some false ∧ is_constructible (lang1 true) tInt [] = some true ∧
    constructible (lang1 true) (tCls 2) [tInt] = true := by decide
example : (∀ e, (lang1 true).conv e (.lref tInt) = true → (lang1 true).bind (.lref tInt) e = true) ∧
    is_constructible (lang1 true) (.lref tInt) [.lref tInt] = some true := by
  refine ⟨fun e h => ?_, by decide⟩
  simp only [lang1] at h ⊢
  simp [h]
example : ∀ e, (lang1 true).bind (.rref tInt) e = (lang1 true).conv e (.rref tInt) := fun _ => rfl

/-- C106, the code disagrees: an array is never default constructible, though a variable of it can be defined when one of its elements can. -/
theorem c106_array_false (L : Lang) (t : Ty) (n : Nat) (h : constructible L t [] = true) :
    is_default_constructible L (.arr t (some n)) = some false ∧ constructible L (.arr t (some n)) [] = true := by
  refine ⟨rfl, ?_⟩
  simp only [constructible, List.mapM_nil, Option.pure_def] at h ⊢
  simpa [defines] using h

/-- C106, the code disagrees with itself: the same array is nothrow default constructible. -/
theorem c106_nothrow_array_false (L : Lang) {t : Ty} (w : wf t) (n : Nat) (h : nothrowConstructible L t [] = true) (h2 : cat t ≠ .array) :
    is_nothrow_constructible L (.arr t (some n)) [] = some true ∧ is_constructible L (.arr t (some n)) [] = some false := by
  refine ⟨?_, rfl⟩
  simp only [nothrowConstructible, List.mapM_nil, Option.pure_def] at h
  have hl : cat t ≠ .lref := by intro k; obtain ⟨u, rfl⟩ := of_lref k; simp [definesNo] at h
  have hr : cat t ≠ .rref := by intro k; obtain ⟨u, rfl⟩ := of_rref k; simp [definesNo] at h
  have hp : Plain t := by
    by_contra hp
    rcases notPlain hl hr hp with k | k
    · exact h2 k
    · rw [(odd_nil L k).2.2] at h; cases h
  rw [plain_definesNo L hp] at h
  simp only [Bool.and_eq_true] at h
  obtain ⟨⟨⟨g1, g2⟩, g3⟩, g4⟩ := h
  have hc := c106_constructible_partial L w [] hl hr (fun k => absurd k h2) (fun _ _ => g2)
  have hrf : is_reference t = false := by rw [is_reference_eq]; simp [hl, hr]
  simp [is_nothrow_constructible, nothrow_constructible_imp, hc, constructible, plain_defines L hp, hrf, g1, g2, g3, g4]

example : constructible (lang1 true) (tCls 2) [] = true ∧ nothrowConstructible (lang1 true) tInt [] = true := by decide

/-- C106, the code disagrees: a reference that only an explicit conversion makes is not called constructible. -/
theorem c106_explicit_false : ∃ L : Lang, (∀ e t, cat t = .lref → L.conv e t = true → L.bind t e = true) ∧
    is_constructible L (.lref tInt) [tCls 4] = some false ∧ constructible L (.lref tInt) [tCls 4] = true := by
  refine ⟨lang1 true, fun e t ht h => ?_, by decide, by decide⟩
  cases t with
  | lref u => simp only [lang1] at h ⊢; simp [h]
  | base q b => rcases b with (_ | _) | _ | _ | _ <;> simp [cat] at ht
  | mem q t n => cases t <;> simp [cat] at ht
  | _ => simp [cat] at ht

/-- C106, the code disagrees: asking whether a reference is constructible from void, of whatever qualifiers, or from a function with qualifiers of
its own ends the translation, where the answer is no. -/
theorem c106_void_error (L : Lang) {t : Ty} (h : cat t = .lref ∨ cat t = .rref) (q : CV) (r : Ty) (a : Tys) :
    is_constructible L t [.base q (.fund .void)] = none ∧ constructible L t [.base q (.fund .void)] = false ∧
    is_constructible L t [.fn true r a] = none ∧ constructible L t [.fn true r a] = false := by
  have hr : is_reference t = true := by rw [is_reference_eq]; simpa using h
  refine ⟨by simp [is_constructible, hr, declval_eq, valueOf, isVoidTy], ?_, by simp [is_constructible, hr, declval_eq, valueOf], rfl⟩
  rcases t with ⟨q, (f | n | n | n)⟩ | _ | ⟨q, (_ | _ | _ | _ | _ | _ | _), n⟩ | ⟨t, (_ | n)⟩ | _ | _ | _
  case base.fund => cases f <;> simp [cat] at h
  case lref | rref => rfl
  all_goals simp [cat] at h

/-- C106, the code disagrees: since C++17 a type that cannot be destroyed is called constructible from no or several arguments. -/
theorem c106_destructor_false : is_constructible (lang1 true) (tCls 1) [] = some true ∧ constructible (lang1 true) (tCls 1) [] = false ∧
    is_constructible (lang1 true) (tCls 1) [tInt] = some false ∧ is_constructible (lang1 false) (tCls 1) [] = some false := by decide

/-- C106: `is_nothrow_constructible` for types that are no references or arrays. Missing as for `is_constructible`. -/
theorem c106_nothrow_partial (L : Lang) {t : Ty} (w : wf t) (as : List Ty) (h1 : cat t ≠ .lref) (h2 : cat t ≠ .rref)
    (h3 : cat t = .array → as ≠ []) (h4 : L.elides = true → as.length ≠ 1 → destructible L.env t = true) :
    is_nothrow_constructible L t as = some (nothrowConstructible L t as) := by
  have hc := c106_constructible_partial L w as h1 h2 h3 h4
  have hrf : is_reference t = false := by rw [is_reference_eq]; simp [h1, h2]
  have hi : is_nothrow_constructible L t as = nothrow_constructible_imp L t as := by
    unfold is_nothrow_constructible
    split
    · exact absurd rfl (h3 rfl)
    · rfl
  rw [hi]
  simp only [nothrow_constructible_imp, hc, mapM_declval, hrf, constructible, nothrowConstructible]
  cases hm : as.mapM valueOf with
  | none => rfl
  | some es =>
    have hl := mapM_length hm
    by_cases hp : Plain t
    · simp only [plain_defines L hp, plain_definesNo L hp]
      cases L.init t es && destructible L.env t <;> simp
    · rcases notPlain h1 h2 hp with k | k
      · have : es ≠ [] := by
          rintro rfl
          exact h3 k (List.eq_nil_of_length_eq_zero hl.symm)
        obtain ⟨_, g2, g3⟩ := odd_cast L (.inl k) this
        simp [g2, g3]
      · by_cases hn : es = []
        · subst hn
          obtain ⟨_, g2, g3⟩ := odd_nil L k
          simp [g2, g3]
        · obtain ⟨_, g2, g3⟩ := odd_cast L (.inr k) hn
          simp [g2, g3]

/-- C106: what cannot throw can be written, arrays without arguments aside (`c106_nothrow_array_false`). -/
theorem c106_nothrow_constructible (L : Lang) (t : Ty) (as : List Ty) (h : cat t = .array → as ≠ []) (hn : is_nothrow_constructible L t as = some true) :
    is_constructible L t as = some true := by
  have hi : is_nothrow_constructible L t as = nothrow_constructible_imp L t as := by
    unfold is_nothrow_constructible
    split
    · exact absurd rfl (h rfl)
    · rfl
  rw [hi] at hn
  unfold nothrow_constructible_imp at hn
  cases hc : is_constructible L t as with
  | none => simp [hc] at hn
  | some b => cases b with
    | false => simp [hc] at hn
    | true => rfl

/-- C106: copying and moving, for types that are no references: references to them exist and the variable can be defined from one. -/
theorem c106_copy_move (L : Lang) {t : Ty} (w : wf t) (h1 : cat t ≠ .lref) (h2 : cat t ≠ .rref) :
    is_copy_constructible L t = some (referenceable t && constructible L t [.lref (addConst t)]) ∧
    is_move_constructible L t = some (referenceable t && constructible L t [.rref t]) ∧
    is_nothrow_copy_constructible L t = some (referenceable t && nothrowConstructible L t [.lref (addConst t)]) ∧
    is_nothrow_move_constructible L t = some (referenceable t && nothrowConstructible L t [.rref t]) := by
  have c := fun a => c106_constructible_partial L w [a] h1 h2 (by simp) (by simp)
  have n := fun a => c106_nothrow_partial L w [a] h1 h2 (by simp) (by simp)
  simp only [is_copy_constructible, is_move_constructible, is_nothrow_copy_constructible, is_nothrow_move_constructible, c, n, Option.some.injEq]
  by_cases hr : canRef t = true
  · have hq : referenceable t = true := by
      rcases t with ⟨q, (f | k | k | k)⟩ | _ | ⟨q, (_ | _ | _ | _ | _ | _ | _), k⟩ | ⟨t, (_ | k)⟩ | ⟨(_ | _), _, _⟩ | _ | _
      case base.fund => cases f <;> simp_all [canRef, referenceable, cat]
      all_goals simp_all [canRef, referenceable, cat]
    have e1 : add_lvalue_reference (addConst t) = .lref (addConst t) := by
      rcases t with ⟨q, (f | k | k | k)⟩ | _ | ⟨q, t, k⟩ | ⟨t, (_ | k)⟩ | ⟨(_ | _), _, _⟩ | _ | _
      case base.fund => cases f <;> first | rfl | simp [canRef] at hr
      case lref => exact absurd rfl h1
      case rref => exact absurd rfl h2
      case fn.true => simp [canRef] at hr
      all_goals rfl
    have e2 : add_rvalue_reference t = .rref t := by
      rcases t with ⟨q, (f | k | k | k)⟩ | _ | ⟨q, t, k⟩ | ⟨t, (_ | k)⟩ | ⟨(_ | _), _, _⟩ | _ | _
      case base.fund => cases f <;> first | rfl | simp [canRef] at hr
      case lref => exact absurd rfl h1
      case rref => exact absurd rfl h2
      case fn.true => simp [canRef] at hr
      all_goals rfl
    simp [hq, e1, e2]
  · have hk : cat t = .function ∨ cat t = .void := by
      rcases t with ⟨q, (f | k | k | k)⟩ | _ | ⟨q, t, k⟩ | ⟨t, (_ | k)⟩ | ⟨(_ | _), _, _⟩ | _ | _
      case base.fund => cases f <;> first | exact .inr rfl | simp [canRef] at hr
      case fn.true => exact .inl rfl
      all_goals simp [canRef] at hr
    have hq : referenceable t = false := by
      rcases t with ⟨q, (f | k | k | k)⟩ | _ | ⟨q, (_ | _ | _ | _ | _ | _ | _), k⟩ | ⟨t, (_ | k)⟩ | ⟨(_ | _), _, _⟩ | _ | _
      case base.fund => cases f <;> simp_all [canRef, referenceable, cat]
      all_goals simp_all [canRef, referenceable, cat]
    have d : ∀ a, constructible L t [a] = false ∧ nothrowConstructible L t [a] = false := by
      intro a
      simp only [constructible, nothrowConstructible]
      cases hm : [a].mapM valueOf with
      | none => exact ⟨rfl, rfl⟩
      | some es =>
        have : es ≠ [] := by rintro rfl; have := mapM_length hm; simp at this
        exact ⟨(odd_cast L (.inr hk) this).2.1, (odd_cast L (.inr hk) this).2.2⟩
    simp [hq, d]

example : is_copy_constructible (lang1 true) (tCls 2) = some true ∧ is_nothrow_copy_constructible (lang1 true) (tCls 2) = some false ∧
    is_nothrow_move_constructible (lang1 true) tInt = some true ∧ is_move_constructible (lang1 true) tyVoid = some false ∧
    is_copy_constructible (lang1 true) (.arr tInt (some 3)) = some false := by decide

/-- C106: `is_assignable` and `is_nothrow_assignable`, for all types. -/
theorem c106_assignable (L : Lang) {t a : Ty} (wt : wf t) (wa : wf a) : is_assignable L t a = assignable L t a ∧
    (is_nothrow_assignable L t a = true → is_assignable L t a = true) ∧
    (∀ x y, valueOf t = some x → valueOf a = some y → is_nothrow_assignable L t a = (assignable L t a && L.assignNo x y)) := by
  have key : is_assignable L t a = assignable L t a := by
    simp only [is_assignable, assignable, is_void_eq, declval_eq]
    cases hx : valueOf t with
    | none => simp
    | some x => cases hy : valueOf a with
      | none => simp
      | some y =>
        have e1 := valueOf_void wt hx
        have e2 := valueOf_void wa hy
        by_cases k1 : cat t = .void <;> by_cases k2 : cat a = .void <;> simp_all
  refine ⟨key, fun h => ?_, fun x y hx hy => ?_⟩
  · unfold is_nothrow_assignable at h
    cases hk : is_assignable L t a with
    | true => rfl
    | false => simp [hk] at h
  · simp only [is_nothrow_assignable, key, declval_eq, hx, hy]
    cases assignable L t a <;> rfl

/-- C106: copy and move assignment, for types that are no references; those of a reference are those of the type it refers to. -/
theorem c106_copy_assign (L : Lang) {t : Ty} (w : wf t) (h1 : cat t ≠ .lref) (h2 : cat t ≠ .rref) :
    is_copy_assignable L t = (referenceable t && assignable L (.lref t) (.lref (addConst t))) ∧
    is_move_assignable L t = (referenceable t && assignable L (.lref t) (.rref t)) := by
  by_cases hr : canRef t = true
  · have hv : cat t ≠ .void := fun k => by
      rcases t with ⟨q, (f | k | k | k)⟩ | _ | ⟨q, (_ | _ | _ | _ | _ | _ | _), k⟩ | ⟨t, (_ | k)⟩ | ⟨(_ | _), _, _⟩ | _ | _
      case base.fund => cases f <;> simp_all [canRef, cat]
      all_goals simp_all [cat]
    have hv2 : cat (addConst t) ≠ .void := fun k => by
      rcases t with ⟨q, (f | k | k | k)⟩ | _ | ⟨q, (_ | _ | _ | _ | _ | _ | _), k⟩ | ⟨t, (_ | k)⟩ | ⟨(_ | _), _, _⟩ | _ | _
      case base.fund => cases f <;> simp_all [canRef, cat, addConst]
      all_goals simp_all [cat, addConst]
    have e0 : add_lvalue_reference t = .lref t ∧ add_lvalue_reference (addConst t) = .lref (addConst t) ∧ add_rvalue_reference t = .rref t := by
      rcases t with ⟨q, (f | k | k | k)⟩ | _ | ⟨q, t, k⟩ | ⟨t, (_ | k)⟩ | ⟨(_ | _), _, _⟩ | _ | _
      case base.fund => cases f <;> first | exact ⟨rfl, rfl, rfl⟩ | simp [canRef] at hr
      case lref => exact absurd rfl h1
      case rref => exact absurd rfl h2
      case fn.true => simp [canRef] at hr
      all_goals exact ⟨rfl, rfl, rfl⟩
    have hq : referenceable t = true := by
      cases t with
      | fn b r a => cases b <;> simp_all [canRef, referenceable]
      | _ => simp_all [referenceable]
    have cl : ∀ u, cat (.lref u) ≠ .void := fun u k => Cat.noConfusion (k : Cat.lref = .void)
    have cr : ∀ u, cat (.rref u) ≠ .void := fun u k => Cat.noConfusion (k : Cat.rref = .void)
    simp [is_copy_assignable, is_move_assignable, e0, hq, is_assignable, assignable, is_void_eq, declval_eq, valueOf, hv, hv2, cl, cr]
  · rcases t with ⟨q, (f | k | k | k)⟩ | _ | ⟨q, t, k⟩ | ⟨t, (_ | k)⟩ | ⟨(_ | _), _, _⟩ | _ | _
    case base.fund => cases f <;> (rcases q with ⟨_ | _, _ | _⟩ <;> exact ⟨rfl, rfl⟩)
    case fn.true => exact ⟨rfl, rfl⟩
    all_goals simp [canRef] at hr

/-- C106: what converts implicitly can be constructed. -/
theorem c106_convertible_constructible (L : Lang) {f t : Ty} (wf' : wf f) (wt : wf t) (hv : cat t ≠ .void)
    (hi : ∀ e, cat t ≠ .lref → cat t ≠ .rref → L.conv e t = true → L.init t [e] = true) (hvf : cat f ≠ .void) (h : is_convertible L f t = true) :
    is_constructible L t [f] = some true := by
  rw [c106_convertible L wf' wt, convertible] at h
  by_cases ha : cat t = .array ∨ cat t = .function
  · simp [ha] at h
  simp only [ha, hv, if_false] at h
  cases hf : valueOf f with
  | none => simp [hf] at h
  | some e =>
    simp only [hf, Bool.and_eq_true] at h
    have hve : cat e.ty ≠ .void := fun k => hvf ((valueOf_void wf' hf).1 k)
    by_cases h1 : cat t = .lref ∨ cat t = .rref
    · have hr : is_reference t = true := by rw [is_reference_eq]; simpa using h1
      simp [is_constructible, hr, declval_eq, hf, isVoidTy_eq, hve, h.1]
    · simp only [not_or] at h1 ha
      rw [c106_constructible_partial L wt [f] h1.1 h1.2 (by simp) (by simp)]
      simp [constructible, hf, plain_defines L ⟨ha.1, h1.1, h1.2, ha.2, hv⟩, hi e h1.1 h1.2 h.1, h.2]

example : assignable (lang1 true) (.lref tInt) tInt = true ∧ is_assignable (lang1 true) tInt tInt = false ∧ is_nothrow_assignable (lang1 true) (.lref (tCls 2)) (tCls 2) = false ∧
    is_copy_assignable (lang1 true) tyVoid = false ∧ is_move_assignable (lang1 true) tInt = true := by decide
example : ∀ e, (lang1 true).init tInt [e] = true := by intro e; simp [lang1]

/-! ### C107: value categories -/

/-- An expression that can be an argument: its type is no reference, not void, no function with qualifiers of its own; functions are lvalues. -/
def Arg (e : Expr) : Prop :=
  wf e.ty ∧ cat e.ty ≠ .lref ∧ cat e.ty ≠ .rref ∧ cat e.ty ≠ .void ∧ (∀ r a, e.ty ≠ .fn true r a) ∧ (cat e.ty = .function → e.vc = .lv)

theorem mkRref_obj {t : Ty} (h1 : cat t ≠ .lref) (h2 : cat t ≠ .rref) : mkRref t = .rref t := by
  cases t <;> first | rfl | exact absurd rfl h1 | exact absurd rfl h2

theorem remove_reference_obj {t : Ty} (h1 : cat t ≠ .lref) (h2 : cat t ≠ .rref) : remove_reference t = t := by
  cases t <;> first | rfl | exact absurd rfl h1 | exact absurd rfl h2

/-- `forward<T>(t)` inside of `f(T&& t)` called with `e`. -/
def relay (e : Expr) : Option Expr := forward (deduce e) (named (mkRref (deduce e)))

/-- C107: forwarding keeps the type with its qualifiers and the category. -/
theorem c107_forward {e : Expr} (h : Arg e) : relay e = some (forwarded e) := by
  obtain ⟨vc, t⟩ := e
  obtain ⟨w, h1, h2, h3, h4, h5⟩ := h
  simp only at *
  cases vc
  · rfl
  all_goals
    have hf : cat t ≠ .function := fun k => by cases h5 k
    simp [relay, deduce, forward, named, mkRref_obj h1 h2, is_lvalue_reference, callOf, forwarded, asRvalue, isFnTy_eq, hf]

/-- C107: through any number of functions. -/
theorem c107_forward_chain {e : Expr} (h : Arg e) (n : Nat) : (relay e).bind (fun x => (List.range n).foldlM (fun y _ => relay y) x) = some (forwarded e) := by
  have hx : Arg (forwarded e) := by
    obtain ⟨w, h1, h2, h3, h4, h5⟩ := h
    have ht : (forwarded e).ty = e.ty := by unfold forwarded; split <;> rfl
    refine ⟨by rw [ht]; exact w, by rw [ht]; exact h1, by rw [ht]; exact h2, by rw [ht]; exact h3, by rw [ht]; exact h4, fun k => ?_⟩
    rw [ht] at k
    simp [forwarded, h5 k]
  have hs : relay (forwarded e) = some (forwarded e) := by
    rw [c107_forward hx]
    by_cases k : e.vc = .lv
    · simp [forwarded, k]
    · by_cases kf : cat e.ty = .function <;> simp [forwarded, k, asRvalue, kf]
  rw [c107_forward h, Option.bind_some]
  generalize List.range n = l
  induction l with
  | nil => rfl
  | cons a l ih => rw [List.foldlM_cons, hs]; exact ih

/-- C107: `forward` refuses exactly to make an lvalue of an rvalue; otherwise the category is that of the reference asked for. -/
theorem c107_forward_refuses {t : Ty} (w : wf t) (e : Expr) (he : e.ty = remove_reference t) :
    (forward t e = none ↔ e.vc ≠ .lv ∧ cat t = .lref) ∧
    (∀ x, forward t e = some x → x.ty = e.ty ∧ (x.vc = .lv ↔ cat t = .lref ∨ cat e.ty = .function) ∧ x.vc ≠ .pr) := by
  have hl : is_lvalue_reference t = decide (cat t = .lref) := by
    rcases t with ⟨q, (f | n | n | n)⟩ | _ | ⟨q, (_ | _ | _ | _ | _ | _ | _), n⟩ | _ | _ | _ | _ <;> try rfl
    cases f <;> rfl
  have hcall : (callOf (mkRref t)).ty = remove_reference t ∧ ((callOf (mkRref t)).vc = .lv ↔ cat t = .lref ∨ cat (remove_reference t) = .function) ∧
      (callOf (mkRref t)).vc ≠ .pr := by
    by_cases h1 : cat t = .lref
    · cases t with
      | lref u => exact ⟨rfl, by simp [mkRref, callOf, cat], by simp [mkRref, callOf]⟩
      | base q b => rcases b with (_ | _) | _ | _ | _ <;> simp [cat] at h1
      | mem q t n => cases t <;> simp [cat] at h1
      | _ => simp [cat] at h1
    · have : mkRref t = .rref (remove_reference t) := by
        cases t <;> first | rfl | exact absurd rfl h1
      rw [this]
      by_cases hf : cat (remove_reference t) = .function <;> simp [callOf, isFnTy_eq, h1, hf]
  constructor
  · unfold forward
    rw [hl]
    by_cases k : e.vc = .lv <;> by_cases k2 : cat t = .lref <;> simp [k, k2]
  · intro x hx
    have : x = callOf (mkRref t) := by
      unfold forward at hx
      split at hx
      · exact (Option.some.inj hx).symm
      · split at hx
        · cases hx
        · exact (Option.some.inj hx).symm
    rw [this, he]; exact hcall

/-- C107: `move` makes an rvalue of whatever it is given and keeps the type. -/
theorem c107_move {e : Expr} (h : Arg e) : move e = asRvalue e ∧ (cat e.ty ≠ .function → Arg (move e) ∧ move (move e) = move e) := by
  obtain ⟨vc, t⟩ := e
  obtain ⟨w, h1, h2, h3, h4, h5⟩ := h
  simp only at *
  have key : ∀ v, (cat t = .function → v = .lv) → move ⟨v, t⟩ = asRvalue ⟨v, t⟩ := by
    intro v hv
    have hr : remove_reference (deduce ⟨v, t⟩) = t := by
      unfold deduce
      split
      · rfl
      · exact remove_reference_obj h1 h2
    simp [move, hr, mkRref_obj h1 h2, callOf, asRvalue, isFnTy_eq]
  refine ⟨key vc h5, fun hf => ?_⟩
  rw [key vc h5]
  simp only [asRvalue, hf, if_false]
  refine ⟨⟨w, h1, h2, h3, h4, fun k => absurd k hf⟩, ?_⟩
  rw [key .xv (fun k => absurd k hf)]
  simp [asRvalue, hf]

/-- C107: `move_if_noexcept` of an object: the object as an rvalue, or, if moving may throw and there is a copy to fall back on, as a constant. -/
theorem c107_move_if_noexcept (L : Lang) {t : Ty} (w : wf t) (h : object t) :
    move_if_noexcept L t = some (if nothrowConstructible L t [.rref t] = false ∧ constructible L t [.lref (addConst t)] = true
      then ⟨.lv, addConst t⟩ else ⟨.xv, t⟩) := by
  obtain ⟨hf, h1, h2, hv⟩ := h
  obtain ⟨c1, _, _, c4⟩ := c106_copy_move L w h1 h2
  have hq : referenceable t = true := by
    unfold referenceable
    cases t <;> simp_all [cat]
  have hm : mkLref (addConst t) = .lref (addConst t) := by
    cases t <;> first | rfl | exact absurd rfl h1 | exact absurd rfl h2
  simp only [move_if_noexcept, c1, c4, hq, Bool.true_and, Option.some.injEq]
  cases nothrowConstructible L t [.rref t] <;> cases constructible L t [.lref (addConst t)] <;>
    simp [hm, mkRref_obj h1 h2, callOf, isFnTy_eq, hf]

/-- C107: `__decay_copy` gives a new object of the decayed type, made from the argument as it is, if there is one. -/
theorem c107_decay_copy (L : Lang) {e : Expr} (h : Arg e) : decay_copy L e =
    if L.conv (forwarded e) (Spec.decay e.ty) = true ∧ destructible L.env (Spec.decay e.ty) = true then some ⟨.pr, Spec.decay e.ty⟩ else none := by
  have hfw := c107_forward h
  obtain ⟨w, h1, h2, h3, h4, h5⟩ := h
  have hd : decay (deduce e) = Spec.decay e.ty := by
    unfold deduce
    split
    · rw [c73_decay (t := .lref e.ty) ⟨w, h1, h2, h3, h4⟩]
      cases he : e.ty <;> first | rfl | (rw [he] at h1 h2; exact absurd rfl h1) | (rw [he] at h1 h2; exact absurd rfl h2)
    · exact c73_decay w
  obtain ⟨_, _, k1, k2, k3, _⟩ := c73_decay_idem w
  rw [c73_decay w] at k1 k2 k3
  have hpass : canPass L (forwarded e) (Spec.decay e.ty) = (L.conv (forwarded e) (Spec.decay e.ty) && destructible L.env (Spec.decay e.ty)) := by
    rw [← dtor_eq L.env k1 k2 k3]
    revert k2 k3
    generalize Spec.decay e.ty = u
    intro k2 k3
    cases u <;> first | rfl | exact absurd rfl k2 | exact absurd rfl k3
  have hcall : callOf (Spec.decay e.ty) = ⟨.pr, Spec.decay e.ty⟩ := by
    revert k2 k3
    generalize Spec.decay e.ty = u
    intro k2 k3
    cases u <;> first | rfl | exact absurd rfl k2 | exact absurd rfl k3
  have hfw' : forward (deduce e) (named (mkRref (deduce e))) = some (forwarded e) := hfw
  simp only [decay_copy, hfw', hd, hpass, hcall, Bool.and_eq_true]

example : Arg ⟨.xv, .base ⟨true, false⟩ (.cls 2)⟩ ∧ Arg ⟨.lv, .arr tInt (some 3)⟩ ∧ Arg ⟨.lv, .fn false tInt .nil⟩ := by
  simp [Arg, wf, cat, object]
example : relay ⟨.pr, tCls 2⟩ = some ⟨.xv, tCls 2⟩ ∧ relay ⟨.lv, tCls 2⟩ = some ⟨.lv, tCls 2⟩ ∧ forward (.lref tInt) ⟨.xv, tInt⟩ = none := by decide
example : move_if_noexcept (lang1 true) (tCls 2) = some ⟨.lv, .base ⟨true, false⟩ (.cls 2)⟩ ∧ move_if_noexcept (lang1 true) tInt = some ⟨.xv, tInt⟩ ∧
    move_if_noexcept (lang1 true) (tCls 1) = some ⟨.xv, tCls 1⟩ := by decide
example : decay_copy (lang1 true) ⟨.lv, tInt⟩ = some ⟨.pr, tInt⟩ ∧ decay_copy (lang1 true) ⟨.lv, tCls 1⟩ = none := by decide

/-! ### C108: common_type -/

/-- The conditional operator gives types that can be written. -/
def CondWf (L : Lang) : Prop := ∀ t u x y c, wf t → wf u → valueOf t = some x → valueOf u = some y → L.cond x y = some c → wf c

theorem common_imp {L : Lang} (hc : CondWf L) {t u : Ty} (wt : wf t) (wu : wf u) : common_type2_imp L t u =
    (match valueOf t, valueOf u with
      | some x, some y => (L.cond x y).map Spec.decay
      | _, _ => none) := by
  simp only [common_type2_imp, declval_eq]
  cases hx : valueOf t with
  | none => rfl
  | some x => cases hy : valueOf u with
    | none => rfl
    | some y => cases h : L.cond x y with
      | none => simp [h]
      | some c => simp [h, c73_decay (hc t u x y c wt wu hx hy h)]

theorem common_two {L : Lang} (hc : CondWf L) {t u : Ty} (wt : wf t) (wu : wf u) (fuel : Nat) :
    common_type2 L (fuel + 2) t u = common2 L t u := by
  have it := c73_decay_idem wt
  have iu := c73_decay_idem wu
  unfold common2
  rw [common_type2]
  by_cases h : is_same t (decay t) = true ∧ is_same u (decay u) = true
  · have e1 : t = decay t := by simpa [is_same] using h.1
    have e2 : u = decay u := by simpa [is_same] using h.2
    simp only [h.1, h.2, Bool.and_self, if_true]
    rw [common_imp hc wt wu, ← c73_decay wt, ← c73_decay wu, ← e1, ← e2]
    cases valueOf t <;> cases valueOf u <;> rfl
  · have h' : ¬ ((is_same t (decay t) && is_same u (decay u)) = true) := by simpa using h
    rw [if_neg h', common_type2]
    have e1 : is_same (decay t) (decay (decay t)) = true := by simp [is_same, it.1]
    have e2 : is_same (decay u) (decay (decay u)) = true := by simp [is_same, iu.1]
    simp only [e1, e2, Bool.and_self, if_true]
    rw [common_imp hc it.2.2.2.2.2 iu.2.2.2.2.2, c73_decay wt, c73_decay wu]
    cases valueOf (Spec.decay t) <;> cases valueOf (Spec.decay u) <;> rfl

theorem common2_wf {L : Lang} (hc : CondWf L) {t u c : Ty} (wt : wf t) (wu : wf u) (h : common2 L t u = some c) : wf c := by
  unfold common2 at h
  rw [← c73_decay wt, ← c73_decay wu] at h
  cases hx : valueOf (decay t) with
  | none => simp [hx] at h
  | some x => cases hy : valueOf (decay u) with
    | none => simp [hx, hy] at h
    | some y => cases hk : L.cond x y with
      | none => simp [hx, hy, hk] at h
      | some d =>
        simp only [hx, hy, hk, Option.map_some, Option.some.injEq] at h
        have wd := hc _ _ _ _ _ (c73_decay_idem wt).2.2.2.2.2 (c73_decay_idem wu).2.2.2.2.2 hx hy hk
        rw [← h, ← c73_decay wd]
        exact (c73_decay_idem wd).2.2.2.2.2

theorem common_impl {L : Lang} (hc : CondWf L) (fuel : Nat) : ∀ (r : List Ty) (t u : Ty), wf t → wf u → (∀ x ∈ r, wf x) →
    common_type_impl L (fuel + 2) (t :: u :: r) = (common2 L t u).bind fun c => r.foldlM (common2 L) c
  | [], t, u, wt, wu, _ => by
    rw [common_type_impl, common_two hc wt wu]
    cases common2 L t u <;> rfl
  | v :: r, t, u, wt, wu, wr => by
    rw [common_type_impl, common_two hc wt wu]
    cases h : common2 L t u with
    | none => rfl
    | some c =>
      simp only
      rw [common_impl hc fuel r c v (common2_wf hc wt wu h) (wr v (by simp)) (fun x hx => wr x (by simp [hx]))]
      rfl

/-- C108: `common_type` of any number of types, if the compiler allows instantiations of depth two. -/
theorem c108_common_type {L : Lang} (hc : CondWf L) (fuel : Nat) {ts : List Ty} (w : ∀ t ∈ ts, wf t) :
    common_type L (fuel + 2) ts = common L ts := by
  match ts, w with
  | [], _ => rfl
  | [t], w => exact common_two hc (w t (by simp)) (w t (by simp)) fuel
  | [t, u], w =>
    rw [common_type, common_two hc (w t (by simp)) (w u (by simp)), common]
    cases common2 L t u <;> rfl
  | t :: u :: v :: r, w => exact common_impl hc fuel (v :: r) t u (w t (by simp)) (w u (by simp)) (fun x hx => w x (by simp only [List.mem_cons] at hx ⊢; exact .inr (.inr hx)))

/-- C108: references, qualifiers, arrays and functions count as what they decay to, and the result has decayed. -/
theorem c108_decay {L : Lang} (hc : CondWf L) (fuel : Nat) {ts : List Ty} (w : ∀ t ∈ ts, wf t) :
    common_type L (fuel + 2) (ts.map decay) = common_type L (fuel + 2) ts ∧
    (∀ c, common_type L (fuel + 2) ts = some c → wf c ∧ decay c = c ∧ quals c = {} ∧ cat c ≠ .array ∧ cat c ≠ .lref ∧ cat c ≠ .rref) := by
  have two : ∀ {t u}, wf t → wf u → common2 L (decay t) (decay u) = common2 L t u := by
    intro t u wt wu
    have a := c73_decay_idem wt
    have b := c73_decay_idem wu
    unfold common2
    rw [← c73_decay a.2.2.2.2.2, ← c73_decay b.2.2.2.2.2, a.1, b.1, c73_decay wt, c73_decay wu]
  have res : ∀ {t u c}, wf t → wf u → common2 L t u = some c → wf c ∧ decay c = c := by
    intro t u c wt wu h
    refine ⟨common2_wf hc wt wu h, ?_⟩
    unfold common2 at h
    rw [← c73_decay wt, ← c73_decay wu] at h
    cases hx : valueOf (decay t) with
    | none => simp [hx] at h
    | some x => cases hy : valueOf (decay u) with
      | none => simp [hx, hy] at h
      | some y => cases hk : L.cond x y with
        | none => simp [hx, hy, hk] at h
        | some d =>
          simp only [hx, hy, hk, Option.map_some, Option.some.injEq] at h
          have wd := hc _ _ _ _ _ (c73_decay_idem wt).2.2.2.2.2 (c73_decay_idem wu).2.2.2.2.2 hx hy hk
          rw [← h, ← c73_decay wd]
          exact (c73_decay_idem wd).1
  have fold : ∀ (r : List Ty), (∀ x ∈ r, wf x) → ∀ c, wf c → decay c = c →
      (r.map decay).foldlM (common2 L) c = r.foldlM (common2 L) c ∧ (∀ d, r.foldlM (common2 L) c = some d → wf d ∧ decay d = d) := by
    intro r
    induction r with
    | nil => intro _ c wc dc; exact ⟨rfl, fun d hd => by cases hd; exact ⟨wc, dc⟩⟩
    | cons v r ih =>
      intro wr c wc dc
      have wv := wr v (by simp)
      have e : common2 L c (decay v) = common2 L c v := by
        have := two wc wv
        rwa [dc] at this
      simp only [List.map_cons, List.foldlM_cons, e]
      cases h : common2 L c v with
      | none => exact ⟨rfl, fun d hd => by cases hd⟩
      | some d =>
        obtain ⟨wd, dd⟩ := res wc wv h
        exact ih (fun x hx => wr x (by simp [hx])) d wd dd
  have wm : ∀ t ∈ ts.map decay, wf t := by
    intro t ht
    obtain ⟨u, hu, rfl⟩ := List.mem_map.1 ht
    exact (c73_decay_idem (w u hu)).2.2.2.2.2
  rw [c108_common_type hc fuel w, c108_common_type hc fuel wm]
  have main : common L (ts.map decay) = common L ts ∧ ∀ c, common L ts = some c → wf c ∧ decay c = c := by
    match ts, w with
    | [], _ => exact ⟨rfl, fun c h => by cases h⟩
    | [t], w => exact ⟨two (w t (by simp)) (w t (by simp)), fun c h => res (w t (by simp)) (w t (by simp)) h⟩
    | t :: u :: r, w =>
      have wt := w t (by simp)
      have wu := w u (by simp)
      have wr : ∀ x ∈ r, wf x := fun x hx => w x (by simp [hx])
      simp only [List.map_cons, common, two wt wu]
      cases h : common2 L t u with
      | none => exact ⟨rfl, fun c hc => by cases hc⟩
      | some c =>
        obtain ⟨wc, dc⟩ := res wt wu h
        exact fold r wr c wc dc
  refine ⟨main.1, fun c h => ?_⟩
  obtain ⟨wc, dc⟩ := main.2 c h
  have := c73_decay_idem wc
  rw [dc] at this
  exact ⟨wc, this.1, this.2.1, this.2.2.1, this.2.2.2.1, this.2.2.2.2.1⟩

theorem lang1_cond (b : Bool) : CondWf (lang1 b) := by
  intro t u x y c wt wu hx hy h
  have ex : ∀ {t : Ty} {x : Expr}, wf t → valueOf t = some x → wf x.ty ∧ cat x.ty ≠ .lref ∧ cat x.ty ≠ .rref ∧ (∀ r a, x.ty ≠ .fn true r a) := by
    intro t x w h
    rcases t with ⟨q, (f | n | n | n)⟩ | _ | ⟨q, (_ | _ | _ | _ | _ | _ | _), n⟩ | _ | ⟨(_ | _), r, a⟩ | t | t
    case base.fund => cases f <;> (injection h with h; subst h; simp [wf, cat])
    case fn.true => cases h
    case lref => injection h with h; subst h; exact ⟨w.1, w.2.1, w.2.2.1, w.2.2.2.2⟩
    case rref => injection h with h; subst h; exact ⟨w.1, w.2.1, w.2.2.1, w.2.2.2.2⟩
    all_goals (injection h with h; subst h; refine ⟨w, ?_, ?_, ?_⟩ <;> simp [cat])
  obtain ⟨w1, w2, w3, w4⟩ := ex wt hx
  simp only [lang1] at h
  split at h
  · injection h with h; subst h
    by_cases hv : cat x.ty = .void
    · simpa [hv] using w1
    · by_cases hl : x.vc = .lv <;> simp only [hv, hl, if_true, if_false] <;> exact ⟨w1, w2, w3, hv, w4⟩
  · split at h
    · injection h with h; subst h
      exact (ex wu hy).1
    · cases h

example : common_type (lang1 true) 900 [.lref (.base ⟨true, false⟩ (.fund .int)), tInt, .rref (.base {} (.fund .double))] = some (.base {} (.fund .double)) ∧
    common_type (lang1 true) 900 [.arr tInt (some 3), .ptr {} tInt] = some (.ptr {} tInt) ∧
    common_type (lang1 true) 900 [tCls 2, tInt] = none ∧ common_type (lang1 true) 900 [tyVoid] = some tyVoid := by
  refine ⟨?_, ?_, ?_, ?_⟩ <;> (rw [c108_common_type (lang1_cond true) 898 (by simp [wf, cat, object, tyVoid])]; decide)

end Nanostl.Traits

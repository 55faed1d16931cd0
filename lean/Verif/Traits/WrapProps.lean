import Verif.Traits.Wrap
import Verif.Traits.InitProps

/-! C113, C114: conversions into `expected` and `optional` keep what the source holds: a value stays a value, an error an error, nothing nothing. -/

namespace Nanostl.Traits.Wrap
open Nanostl.Traits.Spec

/-- A type an `optional` or `expected` can hold: an object type, not an array. -/
structure Held (t : Ty) : Prop where
  wf : wf t
  obj : object t
  arr : cat t ≠ .array

/-- The reference type by which an argument of the class `x` arrives. -/
def arrives (x : Ty) (lv const : Bool) : Ty :=
  if lv then .lref (if const then addConst x else x) else .rref (if const then addConst x else x)

/-- `T` cannot be made from a `x`, however it arrives. -/
def Foreign (L : Lang) (t x : Ty) : Prop := ∀ lv const, constructible L t [arrives x lv const] = false ∧ convertible L (arrives x lv const) t = false

/-- `T v(a);` can be written, for an implicit conversion also `T v = a;`. -/
def makes (L : Lang) (direct : Bool) (t a : Ty) : Bool := constructible L t [a] && (direct || convertible L a t)

theorem Held.addConst {t : Ty} (h : Held t) : Held (addConst t) := by
  obtain ⟨h1, h2, h3⟩ := h
  refine ⟨?_, ?_, ?_⟩
  · rcases t with ⟨q, (f | k | k | k)⟩ | _ | ⟨q, t, k⟩ | ⟨t, n⟩ | ⟨(_ | _), _, _⟩ | _ | _ <;> first | exact h1 | skip
    exact absurd rfl h3
  · rcases t with ⟨q, (f | k | k | k)⟩ | _ | ⟨q, t, k⟩ | ⟨t, n⟩ | ⟨(_ | _), _, _⟩ | _ | _ <;> first | exact h2 | skip
    · cases f <;> exact h2
    · cases t <;> exact h2
  · rcases t with ⟨q, (f | k | k | k)⟩ | _ | ⟨q, t, k⟩ | ⟨t, n⟩ | ⟨(_ | _), _, _⟩ | _ | _ <;> first | exact h3 | skip
    · cases f <;> exact h3
    · cases t <;> exact h3

theorem Held.nofn {t : Ty} (h : Held t) (q r a) : t ≠ .fn q r a := by rintro rfl; exact h.obj.1 rfl

theorem Held.lref {t : Ty} (h : Held t) : Spec.wf (.lref t) := ⟨h.wf, h.obj.2.1, h.obj.2.2.1, h.obj.2.2.2, fun r a => h.nofn _ r a⟩
theorem Held.rref {t : Ty} (h : Held t) : Spec.wf (.rref t) := ⟨h.wf, h.obj.2.1, h.obj.2.2.1, h.obj.2.2.2, fun r a => h.nofn _ r a⟩

theorem ctor_eq (L : Lang) {t : Ty} (h : Held t) (a : Ty) : ctor L t a = constructible L t [a] := by
  unfold ctor
  rw [c106_constructible_partial L h.wf [a] h.obj.2.1 h.obj.2.2.1 (by simp) (by simp)]
  cases constructible L t [a] <;> simp

theorem arrives_wf {x : Ty} (h : Held x) (lv const : Bool) : Spec.wf (arrives x lv const) := by
  cases lv <;> cases const <;> simp only [arrives, if_true, if_false, Bool.false_eq_true] <;>
    first | exact h.rref | exact h.lref | exact h.addConst.rref

theorem fwd_eq (s : Src) : s.fwd = arrives s.base s.lv s.const := rfl

theorem unrelated_eq (L : Lang) {t x : Ty} (ht : Held t) (hx : Held x) : unrelated L t x = true ↔ Foreign L t x := by
  have e := fun a (w : Spec.wf a) => c106_convertible L w ht.wf
  simp only [unrelated, ctor_eq L ht, e _ hx.lref, e _ hx.rref, e _ hx.addConst.lref, e _ hx.addConst.rref, Bool.and_eq_true, Bool.not_eq_true', Foreign]
  constructor
  · rintro ⟨⟨⟨⟨⟨⟨⟨a, b⟩, c⟩, d⟩, e⟩, f⟩, g⟩, h⟩ lv const
    cases lv <;> cases const <;> simp only [arrives, if_true, if_false, Bool.false_eq_true] <;> constructor <;> assumption
  · intro h
    have h1 := h true false; have h2 := h false false; have h3 := h true true; have h4 := h false true
    simp only [arrives, if_true, if_false, Bool.false_eq_true] at h1 h2 h3 h4
    exact ⟨⟨⟨⟨⟨⟨⟨h1.1, h2.1⟩, h3.1⟩, h4.1⟩, h1.2⟩, h2.2⟩, h3.2⟩, h4.2⟩

theorem both (direct c : Bool) (k : Bool) : ((k && (c != false)) || (direct && (k && (c != true)))) = (k && (direct || c)) := by
  cases direct <;> cases c <;> cases k <;> rfl

/-- What a conversion is to be: from a non-const rvalue by moving, otherwise by copying. -/
def expectedPick (s : Src) (mv cp : Bool) : Pick := if !s.lv && !s.const && mv then .move else if cp then .copy else .none

theorem resolve_fw (s : Src) (cp mv : Bool) : resolve s cp mv false = expectedPick s mv cp := by
  cases hl : s.lv <;> cases hc : s.const <;> cases cp <;> cases mv <;> simp [resolve, expectedPick, hl, hc]

theorem optFrom_eq (L : Lang) {t u self : Ty} (ht : Held t) (hu : Held u) (s : Src) (hs : Held s.base) (direct : Bool) :
    optFrom L t u self direct s = resolve s (unrelated L t s.base && makes L direct t (.lref (addConst u))) (unrelated L t s.base && makes L direct t (.rref u))
      (!is_same (uncvref s.fwd) self && makes L direct t s.fwd) := by
  have e := fun a (w : Spec.wf a) => c106_convertible L w ht.wf
  have wf' := arrives_wf hs s.lv s.const
  unfold optFrom optCopy optMove optValue
  rw [both, both, both, e _ hu.addConst.lref, e _ hu.rref, fwd_eq, e _ wf', ctor_eq L ht, ctor_eq L ht, ctor_eq L ht]
  simp only [makes]
  congr 1 <;> simp only [Bool.and_assoc, Bool.and_comm, Bool.and_left_comm]

/-- C114, as far as it holds: if `T` cannot be made from an `optional<U>`, an `optional<T>` is made from one exactly if a `T` is made from the `U`, implicitly
exactly if the `T` is, by moving from an rvalue if that can be, else by copying; and it is empty exactly if the source is. Missing: types that can be
made from an `optional<U>`. -/
theorem c114_conversion_partial (L : Lang) {t u self : Ty} (ht : Held t) (hu : Held u) (s : Src) (hs : Held s.base) (hf : Foreign L t s.base)
    (direct : Bool) :
    optFrom L t u self direct s = expectedPick s (makes L direct t (.rref u)) (makes L direct t (.lref (addConst u))) ∧
    ∀ has, (optFrom L t u self direct s) ≠ .none → (optFrom L t u self direct s).has has = has := by
  have h1 : optFrom L t u self direct s = expectedPick s (makes L direct t (.rref u)) (makes L direct t (.lref (addConst u))) := by
    have : makes L direct t s.fwd = false := by simp [makes, fwd_eq, hf s.lv s.const]
    rw [optFrom_eq L ht hu s hs, this, (unrelated_eq L ht hs).2 hf, Bool.and_false, resolve_fw, Bool.true_and, Bool.true_and]
  refine ⟨h1, fun has hn => ?_⟩
  rw [h1] at hn ⊢
  unfold expectedPick at hn ⊢
  split
  · rfl
  · split
    · rfl
    · simp_all

theorem uncvref_fwd {s : Src} (h : Held s.base) (hq : quals s.base = {}) : uncvref s.fwd = s.base := by
  obtain ⟨x, lv, const⟩ := s
  obtain ⟨h1, h2, h3⟩ := h
  simp only [Src.fwd, Src.ty, uncvref, remove_cv_eq] at *
  have e : ∀ b : Bool, strip (if b then addConst x else x) = x := by
    intro b
    rcases x with ⟨q, k⟩ | ⟨q, t⟩ | ⟨q, t, k⟩ | ⟨t, n⟩ | ⟨q, r, a⟩ | t | t <;> cases b <;> simp_all [strip, addConst, quals, cat, object]
  cases lv <;> simp [remove_reference, e]

/-- C114: if a `T` can be made from the `optional<U>` itself, as it is given, then that is done, and the result has a value even if the source is empty; and only
then. -/
theorem c114_value (L : Lang) {t u self : Ty} (ht : Held t) (hu : Held u) (s : Src) (hs : Held s.base) (hq : quals s.base = {}) (hd : s.base ≠ self)
    (direct : Bool) : optFrom L t u self direct s = .value ↔ makes L direct t s.fwd = true := by
  have hx : is_same (uncvref s.fwd) self = false := by
    rw [uncvref_fwd hs hq]; simpa [is_same] using hd
  rw [optFrom_eq L ht hu s hs, hx, Bool.not_false, Bool.true_and]
  cases hm : makes L direct t s.fwd with
  | true =>
    have : unrelated L t s.base = false := by
      by_contra k
      have := (unrelated_eq L ht hs).1 (by simpa using k) s.lv s.const
      simp only [makes, fwd_eq, this.1, Bool.false_and, Bool.false_eq_true] at hm
    rw [this]
    cases hl : s.lv <;> cases hc : s.const <;> simp [resolve, hl, hc]
  | false =>
    rw [resolve_fw]
    simp only [expectedPick]
    constructor
    · intro h; split at h <;> [cases h; (split at h <;> cases h)]
    · intro h; cases h

theorem valueOf_rref {u : Ty} (h : Held u) : valueOf (.rref u) = valueOf u := by
  obtain ⟨h1, h2, h3⟩ := h
  rcases u with ⟨q, (f | k | k | k)⟩ | ⟨q, t⟩ | ⟨q, t, k⟩ | ⟨t, n⟩ | ⟨q, r, a⟩ | t | t
  case base.fund => cases f <;> simp_all [valueOf, cat, object]
  all_goals simp_all [valueOf, cat, object]

theorem constructible_rref (L : Lang) (t : Ty) {u : Ty} (h : Held u) : constructible L t [u] = constructible L t [.rref u] := by
  simp only [constructible, List.mapM_cons, valueOf_rref h]

theorem convertible_rref (L : Lang) (t : Ty) {u : Ty} (h : Held u) : convertible L u t = convertible L (.rref u) t := by
  simp only [convertible, valueOf_rref h]
  split
  · rfl
  · split
    · have h1 := h.obj.2.2.2
      have h2 : cat (.rref u) ≠ .void := by simp [cat]
      simp [h1, h2]
    · rfl

theorem assignable_rref (L : Lang) (t : Ty) {u : Ty} (h : Held u) : assignable L t u = assignable L t (.rref u) := by
  simp only [assignable, valueOf_rref h]

/-- What the program ends up with after an assignment: by which constructor the new `optional<T>` is made. -/
def Assign.made (L : Lang) (t u self : Ty) (s : Src) : Assign → Pick
  | .from p => optAssignBody L t u self s p
  | .convert q => q

/-- An object of the class `x` can be assigned to no `T`. -/
def NeverAssigned (L : Lang) (t x : Ty) : Prop := ∀ lv const, assignable L (.lref t) (arrives x lv const) = false

theorem notAssignable_eq (L : Lang) {t x : Ty} (ht : Held t) (hx : Held x) : notAssignable L t x = true ↔ NeverAssigned L t x := by
  have e := fun a (w : Spec.wf a) => (c106_assignable L ht.lref w).1
  simp only [notAssignable, e _ hx.lref, e _ hx.rref, e _ hx.addConst.lref, e _ hx.addConst.rref, Bool.and_eq_true, Bool.not_eq_true', NeverAssigned]
  constructor
  · rintro ⟨⟨⟨a, b⟩, c⟩, d⟩ lv const
    cases lv <;> cases const <;> simp only [arrives, if_true, if_false, Bool.false_eq_true] <;> assumption
  · intro h
    exact ⟨⟨⟨h true false, h false false⟩, h true true⟩, h false true⟩

theorem Src.held {s : Src} (h : Held s.base) : Held s.ty := by
  unfold Src.ty; split
  · exact h.addConst
  · exact h

/-- If there is an assignment of its own, that; else the conversion. -/
def assignBy (p q : Pick) : Assign := if p = .none then .convert q else .from p

/-- `T` can be made from and assigned. -/
def makesAssigns (L : Lang) (t a : Ty) : Bool := constructible L t [a] && assignable L (.lref t) a

/-- C114, as far as it holds, for assignments: if `T` cannot be made from an `optional<U>`, an assignment that compiles leaves the target with a value exactly if the
source has one; and if no `T` can be assigned one either, the assignment for `optional<U>` is called exactly if a `T` can be made from and assigned the `U`, its body
then compiles, and otherwise the source is converted implicitly. -/
theorem c114_assign_partial (L : Lang) {t u self : Ty} (ht : Held t) (hu : Held u) (s : Src) (hs : Held s.base) (hf : Foreign L t s.base) :
    (∀ has, (optAssign L t u self s).made L t u self s ≠ .none → ((optAssign L t u self s).made L t u self s).has has = has) ∧
    (NeverAssigned L t s.base →
      optAssign L t u self s =
        assignBy (expectedPick s (makesAssigns L t (.rref u)) (makesAssigns L t (.lref (addConst u)))) (optFrom L t u self false s) ∧
      ∀ p, optAssign L t u self s = .from p → optAssignBody L t u self s p = p) := by
  have hv : optAssignValue L t self s = false := by
    have h0 : constructible L t [if s.lv then .lref s.ty else s.ty] = false := by
      have := (hf s.lv s.const).1
      cases hl : s.lv
      · simp only [Bool.false_eq_true, if_false, constructible_rref L t (Src.held hs)]
        simpa [arrives, hl, Src.ty] using this
      · simpa [arrives, hl, Src.ty] using this
    simp only [optAssignValue, ctor_eq L ht, h0, Bool.false_and]
  have hun := (unrelated_eq L ht hs).2 hf
  have hc : optAssignCopy L t u s.base = (makesAssigns L t (.lref (addConst u)) && notAssignable L t s.base) := by
    simp only [optAssignCopy, ctor_eq L ht, (c106_assignable L ht.lref hu.addConst.lref).1, hun, Bool.and_true, makesAssigns]
  have hm : optAssignMove L t u s.base = (makesAssigns L t (.rref u) && notAssignable L t s.base) := by
    simp only [optAssignMove, ctor_eq L ht, (c106_assignable L ht.lref hu.wf).1, hun, Bool.and_true, makesAssigns, constructible_rref L t hu, assignable_rref L _ hu]
  have hA : optAssign L t u self s =
        assignBy (expectedPick s (makesAssigns L t (.rref u) && notAssignable L t s.base) (makesAssigns L t (.lref (addConst u)) && notAssignable L t s.base))
          (optFrom L t u self false s) := by
    unfold optAssign assignBy
    rw [hv, resolve_fw, hc, hm]
    cases expectedPick s (makesAssigns L t (.rref u) && notAssignable L t s.base) (makesAssigns L t (.lref (addConst u)) && notAssignable L t s.base) <;> rfl
  have hbody : ∀ p, optAssign L t u self s = .from p → optAssignBody L t u self s p = p ∧ (p = .copy ∨ p = .move) := by
    intro p hp
    rw [hA] at hp
    unfold assignBy at hp
    split at hp
    · cases hp
    · rename_i hne
      generalize hq : expectedPick s _ _ = q at hp hne
      cases hp
      unfold expectedPick at hq
      split at hq
      · cases hq; rename_i k
        simp only [Bool.and_eq_true, Bool.not_eq_true', makesAssigns] at k
        refine ⟨?_, .inr rfl⟩
        have := (c114_conversion_partial L (self := self) ht hu ⟨s.base, false, false⟩ hs hf true).1
        simp only [optAssignBody, this, expectedPick, makes, k.2.1.1]; rfl
      · split at hq
        · cases hq; rename_i k
          simp only [Bool.and_eq_true, makesAssigns] at k
          refine ⟨?_, .inl rfl⟩
          have := (c114_conversion_partial L (self := self) ht hu ⟨s.base, true, true⟩ hs hf true).1
          simp only [optAssignBody, this, expectedPick, makes, k.1.1]; rfl
        · exact absurd hq.symm hne
  refine ⟨fun has hn => ?_, fun hna => ⟨?_, fun p hp => (hbody p hp).1⟩⟩
  · cases ho : optAssign L t u self s with
    | «from» p =>
      rw [ho] at hn
      obtain ⟨h1, h2⟩ := hbody p ho
      simp only [Assign.made, h1]
      rcases h2 with rfl | rfl <;> rfl
    | convert q =>
      rw [ho] at hn
      have hq : q = optFrom L t u self false s := by
        rw [hA] at ho; unfold assignBy at ho; split at ho
        · cases ho; rfl
        · cases ho
      simp only [Assign.made] at hn ⊢
      rw [hq] at hn ⊢
      exact (c114_conversion_partial L ht hu s hs hf false).2 has hn
  · rw [hA, (notAssignable_eq L ht hs).2 hna, Bool.and_true, Bool.and_true]

theorem is_scalar_cls {n : Nat} (hn : n ≠ 0) : is_scalar (.base {} (.cls n)) = false := by
  rw [Bool.eq_false_iff]
  intro k
  have w : Spec.wf (.base {} (.cls n)) := trivial
  rcases (is_scalar_iff w).1 k with k | k
  · simp [scalar, cat] at k
  · simp [is_nullptr_t, is_same, remove_cv_eq, strip, tyNullptr] at k
    try exact hn k

/-- C114: if a `T` can be made from an `optional<U>` in some form, the assignment from a value is called exactly if `T` can be made from and assigned it as it is given, and the
result has a value even if the source is empty; otherwise it is converted implicitly. -/
theorem c114_assign_value (L : Lang) {t u self : Ty} (ht : Held t) (s : Src) {n : Nat} (hn : n ≠ 0) (hs : s.base = .base {} (.cls n)) (hd : s.base ≠ self)
    (hf : ¬ Foreign L t s.base) :
    optAssign L t u self s = assignBy (if makesAssigns L t s.fwd then .value else .none) (optFrom L t u self false s) := by
  have hb : Held s.base := by rw [hs]; exact ⟨trivial, by simp [object, cat], by simp [cat]⟩
  have hun : unrelated L t s.base = false := by
    by_contra k; exact hf ((unrelated_eq L ht hb).1 (by simpa using k))
  have hty : Held s.ty := Src.held hb
  have hq : quals s.base = {} := by rw [hs]; rfl
  have hv : optAssignValue L t self s = makesAssigns L t s.fwd := by
    have e1 : constructible L t [if s.lv then .lref s.ty else s.ty] = constructible L t [s.fwd] := by
      unfold Src.fwd; split
      · rfl
      · exact constructible_rref L t hty
    have e2 : is_assignable L (.lref t) (if s.lv then .lref s.ty else s.ty) = assignable L (.lref t) s.fwd := by
      unfold Src.fwd; split
      · exact (c106_assignable L ht.lref hty.lref).1
      · rw [(c106_assignable L ht.lref hty.wf).1]; exact assignable_rref L _ hty
    have e3 : uncvref (if s.lv then .lref s.ty else s.ty) = s.base := by
      have := uncvref_fwd hb hq
      rw [← this]; unfold Src.fwd; split
      · rfl
      · simp only [uncvref]; congr 1
        unfold Src.ty; rw [hs]; split <;> rfl
    have e4 : decay (if s.lv then .lref s.ty else s.ty) = .base {} (.cls n) := by
      unfold Src.ty; rw [hs]; cases s.lv <;> cases s.const <;> rfl
    have e5 : (is_scalar t && is_same t (.base {} (.cls n))) = false := by
      by_cases k : t = .base {} (.cls n)
      · rw [k, is_scalar_cls hn, Bool.false_and]
      · simp [is_same, k]
    have e6 : is_same s.base self = false := by simpa [is_same] using hd
    simp only [optAssignValue, ctor_eq L ht, e1, e2, e3, e4, e5, e6, Bool.not_false, Bool.and_true, makesAssigns]
  unfold optAssign assignBy
  have hc : optAssignCopy L t u s.base = false := by simp [optAssignCopy, hun]
  have hm : optAssignMove L t u s.base = false := by simp [optAssignMove, hun]
  rw [hv, hc, hm]
  cases hl : s.lv <;> cases hk : s.const <;> cases makesAssigns L t s.fwd <;> simp [resolve, hl, hk]

/-! ### expected -/

/-- A `T` and an `E` can be made, implicitly only if both can. -/
def makes2 (L : Lang) (direct : Bool) (t a e b : Ty) : Bool := makes L direct t a && makes L direct e b

theorem both2 (direct c d k : Bool) : ((k && ((!c || !d) == false)) || (direct && (k && ((!c || !d) == true)))) = (k && (direct || (c && d))) := by
  cases direct <;> cases c <;> cases d <;> cases k <;> rfl

theorem expFrom_eq (L : Lang) {t e u g self unx : Ty} (ht : Held t) (he : Held e) (hu : Held u) (hg : Held g) (s : Src) (hs : Held s.base) (direct : Bool) :
    expFrom L t e u g self unx direct s = orConst (resolve s (unrelated L t s.base && makes2 L direct t (.lref (addConst u)) e (.lref (addConst g)))
      (unrelated L t s.base && makes2 L direct t (.rref u) e (.rref g)) (!is_same self (uncvref s.fwd) && !is_same unx (uncvref s.fwd) && makes L direct t s.fwd))
      (direct && expValueConst L t s) := by
  have c := fun a (w : Spec.wf a) => c106_convertible L w ht.wf
  have d := fun a (w : Spec.wf a) => c106_convertible L w he.wf
  have wf' := arrives_wf hs s.lv s.const
  unfold expFrom expCopy expMove expValue
  rw [both2, both2, both, c _ hu.addConst.lref, d _ hg.addConst.lref, c _ hu.wf, d _ hg.wf, fwd_eq, c _ wf', ctor_eq L ht, ctor_eq L ht, ctor_eq L ht, ctor_eq L he,
    ctor_eq L he, constructible_rref L t hu, constructible_rref L e hg, convertible_rref L t hu, convertible_rref L e hg]
  simp only [makes, makes2]
  congr 2
  · cases direct <;> simp only [Bool.true_or, Bool.false_or, Bool.and_true] <;> simp only [Bool.and_assoc, Bool.and_comm, Bool.and_left_comm]
  · cases direct <;> simp only [Bool.true_or, Bool.false_or, Bool.and_true] <;> simp only [Bool.and_assoc, Bool.and_comm, Bool.and_left_comm]
  · simp only [Bool.and_assoc, Bool.and_comm, Bool.and_left_comm]

/-- C113, as far as it holds: if `T` cannot be made from an `expected<U, G>`, nor a reference `T const &` be bound to one, an `expected<T, E>` is made from one exactly if
a `T` is made from the `U` and an `E` from the `G`, implicitly exactly if both are, by moving from an rvalue if that can be, else by copying; and it holds a value
exactly if the source does. Missing: types that can be made from an `expected<U, G>`. -/
theorem c113_conversion_partial (L : Lang) {t e u g self unx : Ty} (ht : Held t) (he : Held e) (hu : Held u) (hg : Held g) (s : Src) (hs : Held s.base)
    (hf : Foreign L t s.base) (hb : L.conv s.expr (.lref (addConst t)) = false) (direct : Bool) :
    expFrom L t e u g self unx direct s =
      expectedPick s (makes2 L direct t (.rref u) e (.rref g)) (makes2 L direct t (.lref (addConst u)) e (.lref (addConst g))) ∧
    ∀ has, expFrom L t e u g self unx direct s ≠ .none → (expFrom L t e u g self unx direct s).has has = has := by
  have h1 : expFrom L t e u g self unx direct s =
      expectedPick s (makes2 L direct t (.rref u) e (.rref g)) (makes2 L direct t (.lref (addConst u)) e (.lref (addConst g))) := by
    have : makes L direct t s.fwd = false := by simp [makes, fwd_eq, hf s.lv s.const]
    rw [expFrom_eq L ht he hu hg s hs, this, (unrelated_eq L ht hs).2 hf, Bool.and_false, resolve_fw, Bool.true_and, Bool.true_and, expValueConst, hb]
    simp [orConst]
  refine ⟨h1, fun has hn => ?_⟩
  rw [h1] at hn ⊢
  unfold expectedPick at hn ⊢
  split
  · rfl
  · split
    · rfl
    · simp_all

/-- C113: if a `T` can be made from the `expected<U, G>` itself, as it is given, then that is done, and the result has a value even if the source holds an error; and only
then. -/
theorem c113_value (L : Lang) {t e u g self unx : Ty} (ht : Held t) (he : Held e) (hu : Held u) (hg : Held g) (s : Src) (hs : Held s.base) (hq : quals s.base = {})
    (hd : s.base ≠ self) (hd2 : s.base ≠ unx) (direct : Bool) : expFrom L t e u g self unx direct s = .value ↔ makes L direct t s.fwd = true := by
  have hx : is_same self (uncvref s.fwd) = false := by
    rw [uncvref_fwd hs hq]; simpa [is_same] using Ne.symm hd
  have hy : is_same unx (uncvref s.fwd) = false := by
    rw [uncvref_fwd hs hq]; simpa [is_same] using Ne.symm hd2
  rw [expFrom_eq L ht he hu hg s hs, hx, hy, Bool.not_false, Bool.true_and, Bool.true_and]
  cases hm : makes L direct t s.fwd with
  | true =>
    have : unrelated L t s.base = false := by
      by_contra k
      have := (unrelated_eq L ht hs).1 (by simpa using k) s.lv s.const
      simp only [makes, fwd_eq, this.1, Bool.false_and, Bool.false_eq_true] at hm
    rw [this]
    cases hl : s.lv <;> cases hc : s.const <;> simp [resolve, hl, hc, orConst]
  | false =>
    rw [resolve_fw]
    simp only [expectedPick, orConst]
    constructor
    · intro h; split at h
      · cases h
      · split at h <;> [cases h; (split at h <;> cases h)]
    · intro h; cases h

/-- C113, as far as it holds: an `unexpected<G>` becomes an error, made by moving from an rvalue if that can be, else by copying, whenever an `E` can be made from the `G` so;
unless a `T` can be made from the `unexpected<G>` itself, `G` is not `E`, and the argument is neither a const lvalue nor an rvalue to be moved from. Missing: those. -/
theorem c113_unexpected_partial (L : Lang) {t e g self unx : Ty} (ht : Held t) (he : Held e) (hg : Held g) (s : Src) (hs : Held s.base) (hq : quals s.base = {})
    (direct : Bool) (hok : expectedPick s (makes L direct e (.rref g)) (makes L direct e (.lref (addConst g))) ≠ .none)
    (h : makes L direct t s.fwd = false ∨ s.base = unx ∨ (s.lv = true ∧ s.const = true) ∨ (s.lv = false ∧ s.const = false ∧ makes L direct e (.rref g) = true)) :
    expFromUnexpected L t e g self unx direct s = expectedPick s (makes L direct e (.rref g)) (makes L direct e (.lref (addConst g))) ∧
    (expFromUnexpected L t e g self unx direct s).has false = false := by
  have d := fun a (w : Spec.wf a) => c106_convertible L w he.wf
  have c := fun a (w : Spec.wf a) => c106_convertible L w ht.wf
  have h1 : expFromUnexpected L t e g self unx direct s = expectedPick s (makes L direct e (.rref g)) (makes L direct e (.lref (addConst g))) := by
    unfold expFromUnexpected expErrCopy expErrMove expValue
    rw [both, both, both, d _ hg.addConst.lref, d _ hg.rref, ctor_eq L he, ctor_eq L he, ctor_eq L ht, uncvref_fwd hs hq]
    have wf' := arrives_wf hs s.lv s.const
    rw [fwd_eq, c _ wf', ← fwd_eq]
    change orConst (resolve s (makes L direct e (.lref (addConst g))) (makes L direct e (.rref g)) _) _ = _
    have hfw : ∀ k : Bool, (makes L direct t s.fwd = false ∨ s.base = unx → k = false) →
        orConst (resolve s (makes L direct e (.lref (addConst g))) (makes L direct e (.rref g)) k) (direct && expValueConst L t s) =
        expectedPick s (makes L direct e (.rref g)) (makes L direct e (.lref (addConst g))) := by
      intro k hk
      revert hok h hk
      cases hl : s.lv <;> cases hc : s.const <;> cases makes L direct e (.lref (addConst g)) <;> cases makes L direct e (.rref g) <;> cases k <;>
        simp [resolve, expectedPick, hl, hc, orConst] <;> (intros; simp_all)
    apply hfw
    rintro (k | k)
    · simp only [makes, Bool.and_eq_false_iff] at k
      rcases k with k | k <;> simp [k]
    · simp [k, is_same]
  refine ⟨h1, ?_⟩
  rw [h1]
  revert hok
  unfold expectedPick
  split
  · intro; rfl
  · split
    · intro; rfl
    · intro k; exact absurd rfl k

/-- C113: `e = a` for a value `a` can be written exactly if `a` converts implicitly to `T`. Missing: values of which a `T` is only made explicitly, though it can be assigned them (the
second part of `c113_assign_value_false`). `dec`: a class of the program, `nanostl::decay<U>`. -/
theorem c113_assign_value_partial (L : Lang) {t e self unx : Ty} {n : Nat} (hn : n ≠ 0) (ht : Held t) (s : Src) (hs : Held s.base) (hq : quals s.base = {})
    (hd : s.base ≠ self) (hd2 : s.base ≠ unx) : expAssigns L t e self unx (.base {} (.cls n)) s = makes L false t s.fwd := by
  have h0 : ∀ a, expAssignValue L t e self (.base {} (.cls n)) a = false := by
    intro a
    have : (is_scalar t && is_same t (.base {} (.cls n))) = false := by
      by_cases k : t = .base {} (.cls n)
      · subst k
        rw [is_scalar_cls hn, Bool.false_and]
      · simp [is_same, k]
    simp [expAssignValue, this]
  have hx : is_same self (uncvref s.fwd) = false := by
    rw [uncvref_fwd hs hq]; simpa [is_same] using Ne.symm hd
  have hy : is_same unx (uncvref s.fwd) = false := by
    rw [uncvref_fwd hs hq]; simpa [is_same] using Ne.symm hd2
  have wf' := arrives_wf hs s.lv s.const
  simp only [expAssigns, h0, Bool.false_or, expValue, hx, hy, Bool.not_false, Bool.and_true, ctor_eq L ht, makes]
  rw [fwd_eq, c106_convertible L wf' ht.wf]
  cases convertible L (arrives s.base s.lv s.const) t <;> rfl

/-- C113: the assignment of an `unexpected<G>` leaves an error, moved from an rvalue if `E` can be moved, else copied; it is chosen by what `E` can do with an `E`, whatever `G` is, and
its body compiles exactly if an `E` can be made from the `G`. Missing: that it is chosen only then. -/
theorem c113_assign_unexpected_partial (L : Lang) {e g : Ty} (he : Held e) (s : Src) :
    expAssignErr L e s = expectedPick s (makesAssigns L e (.rref e)) (makesAssigns L e (.lref (addConst e))) ∧
    (expAssignErr L e s ≠ .none → (expAssignErr L e s).has false = false) ∧
    (expAssignErr L e s = .move → expAssignErrBody L e g .move = constructible L e [.rref g]) ∧
    (expAssignErr L e s = .copy → expAssignErrBody L e g .copy = constructible L e [.lref (addConst g)]) := by
  have hr : referenceable e = true := by
    have := he.nofn true
    unfold referenceable
    simp only [ne_eq, he.obj.2.2.2, not_false_eq_true, decide_true, Bool.true_and]
  obtain ⟨a1, a2, _, _⟩ := c106_copy_move L he.wf he.obj.2.1 he.obj.2.2.1
  obtain ⟨b1, b2⟩ := c106_copy_assign L he.wf he.obj.2.1 he.obj.2.2.1
  have h1 : expAssignErr L e s = expectedPick s (makesAssigns L e (.rref e)) (makesAssigns L e (.lref (addConst e))) := by
    unfold expAssignErr
    rw [resolve_fw, a1, a2, b1, b2, hr]
    simp [makesAssigns]
  refine ⟨h1, ?_, fun _ => ctor_eq L he _, fun _ => ctor_eq L he _⟩
  rw [h1]
  unfold expectedPick
  split
  · intro; rfl
  · split
    · intro; rfl
    · intro k; exact absurd rfl k

/-! ### Witnesses -/

/-- A program: class 6 converts explicitly to `bool`, as `optional` and `expected` do; class 7 is made from anything, as `any` is, and class 8 explicitly from and by assignment of an `int`;
numbers convert to each other; everything else is only made from its own type. -/
def langW : Lang where
  env := env1
  elides := true
  init := fun t es => match es with
    | [] => true
    | [e] => strip e.ty = strip t || (is_arithmetic e.ty && is_arithmetic t) || (strip t = .base {} (.fund .bool) && strip e.ty = tCls 6) || strip t = tCls 7 ||
        (strip t = tCls 8 && strip e.ty = tInt)
    | _ => false
  conv := fun e t => match t with
    | .lref u => (e.ty = u && e.vc = .lv) || (strip e.ty = strip u && (quals u).c)
    | .rref u => e.vc ≠ .lv && e.ty = u
    | u => strip e.ty = strip u || (is_arithmetic e.ty && is_arithmetic u) || strip u = tCls 7
  bind := fun _ _ => false
  assign := fun x y => x.vc = .lv && (strip x.ty = strip y.ty || (is_arithmetic x.ty && is_arithmetic y.ty) || (x.ty = tCls 8 && strip y.ty = tInt))
  cond := fun _ _ => none
  initNo := fun _ _ => true
  dtorNo := fun _ => true
  convNo := fun _ _ => true
  assignNo := fun _ _ => true

abbrev tBool : Ty := .base {} (.fund .bool)
abbrev tLong : Ty := .base {} (.fund .long)

theorem held_fund (f : Fund) (h : f ≠ .void) : Held (.base {} (.fund f)) := by
  cases f <;> first | exact absurd rfl h | exact ⟨trivial, by simp [object, cat], by simp [cat]⟩

theorem held_cls (n : Nat) : Held (tCls n) := ⟨trivial, by simp [object, cat], by simp [cat]⟩

/-- C114 is false: an empty `optional<int>` (class 6) converts to an `optional<bool>` (class 9) with a value, although an `int` converts to `bool`; and it cannot be assigned. -/
theorem c114_false : ∃ (L : Lang) (t u x self : Ty), Held t ∧ Held u ∧ Held x ∧ x ≠ self ∧
    (∀ direct a, a ∈ [Ty.rref u, .lref u, .lref (addConst u)] → makes L direct t a = true) ∧
    (∀ lv const, (optFrom L t u self true ⟨x, lv, const⟩).has false = true ∧ optFrom L t u self true ⟨x, lv, const⟩ = .value ∧
      (optAssign L t u self ⟨x, lv, const⟩).made L t u self ⟨x, lv, const⟩ = .none) :=
  ⟨langW, tBool, tInt, tCls 6, tCls 9, held_fund _ (by decide), held_fund _ (by decide), held_cls 6, by decide, by decide, by decide⟩

/-- C113 is false: an `expected<int, int>` (class 6) with an error converts to an `expected<bool, int>` (class 9) with a value. -/
theorem c113_false : ∃ (L : Lang) (t e u g x self unx : Ty), Held t ∧ Held e ∧ Held u ∧ Held g ∧ Held x ∧ x ≠ self ∧ x ≠ unx ∧
    (∀ direct, makes2 L direct t (.rref u) e (.rref g) = true ∧ makes2 L direct t (.lref (addConst u)) e (.lref (addConst g)) = true) ∧
    (∀ lv const, (expFrom L t e u g self unx true ⟨x, lv, const⟩).has false = true ∧ expFrom L t e u g self unx true ⟨x, lv, const⟩ = .value) :=
  ⟨langW, tBool, tInt, tInt, tInt, tCls 6, tCls 9, tCls 10, held_fund _ (by decide), held_fund _ (by decide), held_fund _ (by decide), held_fund _ (by decide), held_cls 6,
    by decide, by decide, by decide, by decide⟩

/-- C113 is false: an `unexpected<int>` (class 6) becomes a value of an `expected<any, long>`, explicitly and implicitly, if it is an lvalue that is not const or a const rvalue;
an `unexpected<long>` (class 10) does not. -/
theorem c113_unexpected_false : ∃ (L : Lang) (t e g x self unx : Ty), Held t ∧ Held e ∧ Held g ∧ Held x ∧ x ≠ self ∧ x ≠ unx ∧
    (∀ direct, makes L direct e (.rref g) = true ∧ makes L direct e (.lref (addConst g)) = true) ∧
    (∀ direct lv, expFromUnexpected L t e g self unx direct ⟨x, lv, !lv⟩ = .value ∧ expFromUnexpected L t e e self unx direct ⟨unx, lv, !lv⟩ = .copy) :=
  ⟨langW, tCls 7, tLong, tInt, tCls 6, tCls 9, tCls 10, held_cls 7, held_fund _ (by decide), held_fund _ (by decide), held_cls 6, by decide, by decide, by decide, by decide⟩

/-- C113 is false: a class (8) that is made explicitly from an `int` and can be assigned one; `expected` of it cannot be assigned an `int`. -/
theorem c113_assign_value_false : ∃ (L : Lang) (t e x self unx : Ty) (n : Nat), n ≠ 0 ∧ Held t ∧ Held e ∧ Held x ∧ x ≠ self ∧ x ≠ unx ∧
    (∀ lv const, makesAssigns L t (arrives x lv const) = true) ∧ is_nothrow_move_constructible L e = some true ∧
    ∀ lv const, expAssigns L t e self unx (.base {} (.cls n)) ⟨x, lv, const⟩ = false :=
  ⟨langW, tCls 8, tInt, tInt, tCls 9, tCls 10, 11, by decide, held_cls 8, held_fund _ (by decide), held_fund _ (by decide), by decide, by decide, by decide, by decide, by decide⟩

/-- C113 is false: the assignment of an `unexpected<C>` to an `expected<T, int>` is chosen, and does not compile, for a class `C` of which no `int` is made. -/
theorem c113_assign_unexpected_false : ∃ (L : Lang) (e g : Ty), Held e ∧ Held g ∧
    (∀ s : Src, expAssignErr L e s ≠ .none ∧ expAssignErrBody L e g (expAssignErr L e s) = false) := by
  refine ⟨langW, tInt, tCls 5, held_fund _ (by decide), held_cls 5, fun s => ?_⟩
  obtain ⟨b, lv, const⟩ := s
  have := (c113_assign_unexpected_partial langW (e := tInt) (g := tCls 5) (held_fund _ (by decide)) ⟨b, lv, const⟩).1
  rw [this]
  have m1 : makesAssigns langW tInt (.rref tInt) = true := by decide
  have m2 : makesAssigns langW tInt (.lref (addConst tInt)) = true := by decide
  have b1 : expAssignErrBody langW tInt (tCls 5) .move = false := by decide
  have b2 : expAssignErrBody langW tInt (tCls 5) .copy = false := by decide
  cases lv <;> cases const <;> simp [expectedPick, m1, m2, b1, b2]

/-! The hypotheses are met: `optional<int>` as class 5, of which no `long` is made. -/

theorem foreign5 : Foreign langW tLong (tCls 5) := by unfold Foreign; decide

example : optFrom langW tLong tInt (tCls 9) false ⟨tCls 5, false, false⟩ = .move ∧ optFrom langW tLong tInt (tCls 9) false ⟨tCls 5, true, false⟩ = .copy ∧
    optAssign langW tLong tInt (tCls 9) ⟨tCls 5, true, false⟩ = .from .copy ∧ NeverAssigned langW tLong (tCls 5) := by
  refine ⟨by decide, by decide, by decide, ?_⟩
  unfold NeverAssigned; decide
example : Foreign langW (tCls 8) (tCls 5) ∧ optFrom langW (tCls 8) tInt (tCls 9) false ⟨tCls 5, false, false⟩ = .none ∧
    optFrom langW (tCls 8) tInt (tCls 9) true ⟨tCls 5, false, false⟩ = .move := by
  refine ⟨?_, by decide, by decide⟩
  unfold Foreign; decide
example : makes langW true (tCls 7) (Src.fwd ⟨tCls 5, true, false⟩) = true ∧ optFrom langW (tCls 7) tInt (tCls 9) true ⟨tCls 5, true, false⟩ = .value := by decide
example : ¬ Foreign langW (tCls 7) (tCls 5) ∧ optAssign langW (tCls 7) tInt (tCls 9) ⟨tCls 5, true, false⟩ = .convert .value ∧
    optAssign langW (tCls 5) tInt (tCls 9) ⟨tCls 5, true, false⟩ = .from .value := by
  refine ⟨fun h => ?_, by decide, by decide⟩
  have := (h true true).1
  revert this; decide
example : langW.conv (Src.expr ⟨tCls 5, true, false⟩) (.lref (addConst tLong)) = false ∧
    expFrom langW tLong tLong tInt tInt (tCls 9) (tCls 10) false ⟨tCls 5, false, false⟩ = .move ∧
    expFrom langW (tCls 7) tLong tInt tInt (tCls 9) (tCls 10) true ⟨tCls 5, false, false⟩ = .value := by decide
example : expectedPick ⟨tCls 5, true, false⟩ (makes langW false tLong (.rref tInt)) (makes langW false tLong (.lref (addConst tInt))) ≠ .none ∧
    makes langW false tLong (Src.fwd ⟨tCls 5, true, false⟩) = false ∧
    expFromUnexpected langW tLong tLong tInt (tCls 9) (tCls 10) false ⟨tCls 5, true, false⟩ = .copy := by decide
example : expAssigns langW tLong tLong (tCls 9) (tCls 10) (tCls 11) ⟨tInt, true, false⟩ = true := by decide
example : expAssignErr langW tLong ⟨tCls 5, false, false⟩ = .move ∧ expAssignErrBody langW tLong tInt .move = true := by decide

end Nanostl.Traits.Wrap

import Verif.UPtr.Types
import Verif.Traits.InitProps

/-! C110: `unique_ptr` lets no wrong deletion compile. -/

namespace Nanostl.UPtr.Types
open Nanostl.Traits Nanostl.Traits.Spec

/-- The type without any qualifiers, at any depth: similar types ([conv.qual]) have the same. -/
def bare : Ty → Ty
  | .base _ b => .base {} b
  | .ptr _ t => .ptr {} (bare t)
  | .mem _ t n => .mem {} (bare t) n
  | .arr t n => .arr (bare t) n
  | t => t

/-- Facts of the language about conversions: pointers to arrays are converted only by adding qualifiers; a pointer is converted to its own type;
`direct e x`: a reference to `x` made from `e` refers to an object that exists before, through an lvalue. A reference to non-const binds only
so; one to const may also bind to what an rvalue reference could bind to; an rvalue converts to a reference to const. -/
structure Laws (L : Lang) (direct : Expr → Ty → Prop) : Prop where
  array : ∀ v u, L.conv ⟨.xv, .ptr {} (.arr v none)⟩ (.ptr {} (.arr u none)) = true → bare v = bare u
  same : ∀ t, L.conv ⟨.xv, .ptr {} t⟩ (.ptr {} t) = true
  lref : ∀ e x, L.conv e (.lref x) = true → (quals x).c = false → direct e x
  const : ∀ e x, L.conv e (.lref x) = true → (quals x).c = true → direct e x ∨ L.conv e (.rref x) = true
  xvalue : ∀ x, object x → (quals x).c = true → L.conv ⟨.xv, x⟩ (.lref x) = true

/-- A type arrays can be made of. -/
def Elem (t : Ty) : Prop := wf t ∧ object t ∧ ∀ u, t ≠ .arr u none

theorem convertible_ptr (L : Lang) {v u : Ty} (hv : wf (.ptr {} v)) (hu : wf (.ptr {} u)) :
    is_convertible L (.ptr {} v) (.ptr {} u) = L.conv ⟨.xv, .ptr {} v⟩ (.ptr {} u) := by
  rw [c106_convertible L hv hu]
  simp [convertible, cat, valueOf, destructible]

theorem wf_parr {t : Ty} (h : Elem t) : wf (.ptr {} (.arr t none)) := ⟨h, by simp [cat], by simp [cat], by simp⟩

theorem wf_ptr {t : Ty} (h : Elem t) : wf (.ptr {} t) :=
  ⟨h.1, h.2.1.2.1, h.2.1.2.2.1, fun r a k => by subst k; exact h.2.1.1 rfl⟩

/-- C110: a `unique_ptr<T[]>` takes by construction or `reset` only pointers to what `T` is up to qualifiers, never to a derived class; with a deleter
that has a `pointer` of its own only that. -/
theorem c110_array {L : Lang} {direct : Expr → Ty → Prop} (hl : Laws L direct) (u : UPT) (he : Elem u.elem) (ha : u.isArr = true) (p : Ty)
    (hp : ∀ v, p = .ptr {} v → Elem v) (h : canFromPtr L u p = true ∨ canReset L u p = true) :
    (∃ v, p = .ptr {} v ∧ u.pointer = .ptr {} u.elem ∧ bare v = bare u.elem) ∨ (p = u.pointer ∧ u.pointer ≠ .ptr {} u.elem) := by
  have hc : checkArr L u p = true := by
    rcases h with h | h
    · simp only [canFromPtr, ha, if_true, Bool.and_eq_true] at h; exact h.2
    · simpa [canReset, ha] using h
  by_cases hs : p = u.pointer
  · by_cases hd : u.pointer = .ptr {} u.elem
    · exact .inl ⟨u.elem, by rw [hs, hd], hd, rfl⟩
    · exact .inr ⟨hs, hd⟩
  · left
    unfold checkArr at hc
    split at hc
    · rename_i f
      have h1 : is_same (.ptr {} f) u.pointer = false := by simpa [is_same] using hs
      simp only [h1, Bool.false_or, Bool.and_eq_true] at hc
      have h2 : u.pointer = .ptr {} u.elem := by simpa [is_same] using hc.1
      rw [convertible_ptr L (wf_parr (hp f rfl)) (wf_parr he)] at hc
      exact ⟨f, rfl, h2, hl.array _ _ hc.2⟩
    · exact absurd (by simpa [is_same] using hc) hs

/-- C110: pointers to the element type are taken. -/
theorem c110_array_own {L : Lang} (u : UPT) (ha : u.isArr = true) : canReset L u u.pointer = true ∧
    canFromPtr L u u.pointer = deleterDefault L u.del := by
  have : checkArr L u u.pointer = true := by
    unfold checkArr
    split <;> rename_i hq <;> simp_all [is_same]
  simp [canReset, canFromPtr, ha, this]

/-- C110: moving from another `unique_ptr`, by construction or assignment: an array's only from an array's, of the same elements up to qualifiers; a
single object's only from a single object's, whose pointers convert. -/
theorem c110_move {L : Lang} {direct : Expr → Ty → Prop} (hl : Laws L direct) (u v : UPT) (hu : Elem u.elem) (hv : Elem v.elem)
    (h : canMove L u v = true ∨ canAssign L u v = true) :
    (u.isArr = true ∧ cat v.arg = .array ∧ u.pointer = .ptr {} u.elem ∧ v.pointer = .ptr {} v.elem ∧ bare v.elem = bare u.elem) ∨
    (u.isArr = false ∧ v.isArr = false ∧ cat v.elem ≠ .array ∧ is_convertible L v.pointer u.pointer = true) := by
  have hm : moveConvertible L u v = true := by
    rcases h with h | h
    · simp only [canMove, Bool.and_eq_true] at h; exact h.1
    · simp only [canAssign, Bool.and_eq_true] at h; exact h.1
  unfold moveConvertible at hm
  split at hm
  · rename_i ha
    simp only [Bool.and_eq_true, is_array_eq, decide_eq_true_eq] at hm
    obtain ⟨⟨⟨k1, k2⟩, k3⟩, k4⟩ := hm
    rw [convertible_ptr L (wf_parr hv) (wf_parr hu)] at k4
    exact .inl ⟨ha, k1, by simpa [is_same] using k2, by simpa [is_same] using k3, hl.array _ _ k4⟩
  · rename_i ha
    simp only [Bool.and_eq_true, is_array_eq, Bool.not_eq_true', decide_eq_false_iff_not] at hm
    have hb : v.isArr = false := by
      cases hb : v.isArr with
      | false => rfl
      | true => exact absurd (by simp [UPT.arg, hb, cat]) hm.2
    refine .inr ⟨by simpa using ha, hb, ?_, hm.1⟩
    simpa [UPT.arg, hb] using hm.2

/-- C110: deleters. A reference is taken over only from a `unique_ptr` with the same reference as deleter; otherwise, the source's deleter must convert,
for an assignment it must be assignable. -/
theorem c110_deleters {L : Lang} (u v : UPT) (hu : wf u.del) (hv : wf v.del) :
    (canMove L u v = true → (u.del = v.del ∧ is_reference u.del = true) ∨ (is_reference u.del = false ∧ convertible L v.del u.del = true)) ∧
    (wf (mkLref u.del) → wf (mkRref v.del) → canAssign L u v = true → assignable L (mkLref u.del) (mkRref v.del) = true) := by
  constructor
  · intro h
    simp only [canMove, deleterConvertible, Bool.and_eq_true, Bool.or_eq_true, Bool.not_eq_true'] at h
    rcases h.2 with ⟨k1, k2⟩ | ⟨k1, k2⟩
    · exact .inl ⟨by simpa [is_same] using k2, k1⟩
    · rw [c106_convertible L hv hu] at k2
      exact .inr ⟨k1, k2⟩
  · intro w1 w2 h
    simp only [canAssign, Bool.and_eq_true] at h
    rw [(c106_assignable L w1 w2).1] at h
    exact h.2

/-- C110: with default deleters that is all there is to it. `dd t a`: the class `default_delete<t>` or `default_delete<t[]>`. -/
theorem c110_default_deleters {L : Lang} (u v : UPT) (dd : Ty → Bool → Ty) (hu : Elem u.elem) (hv : Elem v.elem)
    (hd : ∀ a b c d, is_convertible L (dd a b) (dd c d) = defaultDeleteFrom L c d a b) (hr : is_reference (dd u.elem u.isArr) = false)
    (e1 : u.del = dd u.elem u.isArr) (e2 : v.del = dd v.elem v.isArr) (p1 : u.ptrMem = none) (p2 : v.ptrMem = none) :
    canMove L u v = true ↔ u.isArr = v.isArr ∧
      (if u.isArr then L.conv ⟨.xv, .ptr {} (.arr v.elem none)⟩ (.ptr {} (.arr u.elem none)) = true
        else cat v.elem ≠ .array ∧ L.conv ⟨.xv, .ptr {} v.elem⟩ (.ptr {} u.elem) = true) := by
  have q1 : u.pointer = .ptr {} u.elem := by simp [UPT.pointer, p1]
  have q2 : v.pointer = .ptr {} v.elem := by simp [UPT.pointer, p2]
  simp only [canMove, moveConvertible, deleterConvertible, e1, e2, hr, hd, q1, q2, is_array_eq, UPT.arg]
  rw [convertible_ptr L (wf_parr hv) (wf_parr hu), convertible_ptr L (wf_ptr hv) (wf_ptr hu)]
  have r1 := convertible_ptr L (wf_parr hv) (wf_parr hu)
  have r2 := convertible_ptr L (wf_ptr hv) (wf_ptr hu)
  have hcat : ∀ t, cat (.arr t none) = .array := fun _ => rfl
  cases ha : u.isArr <;> cases hb : v.isArr <;> simp [defaultDeleteFrom, r1, r2, is_same, hcat]
  exact fun h _ => h

/-- C110: a deleter that is a reference refers to an object of the caller's, not to a temporary: whatever the argument, the call is refused or the
reference binds directly. -/
theorem c110_reference_deleter {L : Lang} {direct : Expr → Ty → Prop} (hl : Laws L direct) {x : Ty} (hx : object x) (e : Expr) :
    selectDel L (.lref x) e ≠ .move ∧ (selectDel L (.lref x) e = .copy → direct e x) := by
  have hf : isFnTy x = false := by rw [isFnTy_eq]; simp [hx.1]
  have hs : selectDel L (.lref x) e = if (deleterFrom L (.lref x) (.rref x) && L.conv e (.rref x)) = true then .deleted
      else if (deleterFrom L (.lref x) (.lref x) && L.conv e (.lref x)) = true then .copy else .none := by
    simp [selectDel, is_reference, lvalRef, rvalRef, remove_reference, hf]
  rw [hs]
  by_cases h1 : (deleterFrom L (.lref x) (.rref x) && L.conv e (.rref x)) = true
  · rw [if_pos h1]; simp
  by_cases h2 : (deleterFrom L (.lref x) (.lref x) && L.conv e (.lref x)) = true
  swap
  · rw [if_neg h1, if_neg h2]; simp
  rw [if_neg h1, if_pos h2]
  refine ⟨by simp, fun _ => ?_⟩
  simp only [Bool.and_eq_true] at h2
  by_cases hc : (quals x).c = true
  · have hb : deleterFrom L (.lref x) (.rref x) = true := by
      have : valueOf (.rref x) = some ⟨.xv, x⟩ := by simp [valueOf, hx.1]
      have hv : isVoidTy x = false := by rw [isVoidTy_eq]; simp [hx.2.2.2]
      simp [deleterFrom, is_constructible, is_reference, declval_eq, this, hv, hl.xvalue x hx hc]
    rcases hl.const e x h2.2 hc with k | k
    · exact k
    · simp [hb, k] at h1
  · exact hl.lref e x h2.2 (by simpa using hc)

/-- C110: `unique_ptr()`, `unique_ptr(nullptr)` and for arrays `unique_ptr(p)` exist only if the deleter gets a value: not for function pointers, not
for references. -/
theorem c110_deleter_value_partial {L : Lang} (u : UPT) (hd : cat u.del = .cls ∨ cat u.del = .union ∨ cat u.del = .pointer ∨ cat u.del = .lref) (p : Ty)
    (h : canDefault L u = true ∨ (u.isArr = true ∧ canFromPtr L u p = true)) : deleterHasValue u = true := by
  have hc : deleterDefault L u.del = true := by
    rcases h with h | ⟨ha, h⟩
    · exact h
    · simp only [canFromPtr, ha, if_true, Bool.and_eq_true] at h; exact h.1
  simp only [deleterDefault, Bool.and_eq_true, decide_eq_true_eq, Bool.not_eq_true'] at hc
  unfold deleterHasValue
  rcases hu : u.del with ⟨q, (f | n | n | n)⟩ | ⟨⟨(_ | _), (_ | _)⟩, t⟩ | ⟨q, (_ | _ | _ | _ | _ | _ | _), n⟩ | ⟨t, n⟩ | _ | _ | _ <;> rw [hu] at hd hc
  case base.fund => cases f <;> simp [cat] at hd
  case lref => simp [is_default_constructible, is_constructible, isVoidTy, canCast] at hc
  case ptr.false.false | ptr.false.true | ptr.true.false | ptr.true.true =>
    simp [is_pointer, remove_cv_eq, strip] at hc
  all_goals simp [cat] at hd

/-- C110, the code disagrees: `unique_ptr<T, D>(p)` of a single object is not constrained (nanomemory.h:460-467): for a function pointer it is
accepted and the deleter has no value, where `unique_ptr<T, D>()` is refused. -/
theorem c110_deleter_value_false (L : Lang) (t f : Ty) (hl : L.conv ⟨.pr, .ptr {} t⟩ (.ptr {} t) = true) :
    canFromPtr L ⟨t, false, .ptr {} f, none⟩ (.ptr {} t) = true ∧ deleterHasValue ⟨t, false, .ptr {} f, none⟩ = false ∧
    canDefault L ⟨t, false, .ptr {} f, none⟩ = false ∧ canFromPtr L ⟨t, true, .ptr {} f, none⟩ (.ptr {} t) = false := by
  refine ⟨?_, rfl, ?_, ?_⟩
  · simp [canFromPtr, UPT.pointer, hl]
  · simp [canDefault, deleterDefault, is_pointer, remove_cv_eq, strip]
  · simp [canFromPtr, deleterDefault, is_pointer, remove_cv_eq, strip]

/-- A program with classes 0 and 2, the second derived from the first. -/
def lang2 : Lang where
  env := env1
  elides := true
  init := fun _ es => es.length ≤ 1
  conv := fun e t => match t with
    | .lref u => e.ty = u && (e.vc = .lv || (quals u).c)
    | .rref u => e.vc ≠ .lv && e.ty = u
    | u => e.ty = u || (e.ty = .ptr {} (tCls 2) && u = .ptr {} (tCls 0)) ||
      (e.ty = .ptr {} (.arr tInt none) && u = .ptr {} (.arr (addConst tInt) none))
  bind := fun _ _ => false
  assign := fun x y => x.vc = .lv && x.ty = y.ty
  cond := fun _ _ => none
  initNo := fun _ _ => true
  dtorNo := fun _ => true
  convNo := fun _ _ => true
  assignNo := fun _ _ => true

theorem laws2 : Laws lang2 (fun e x => e.vc = .lv ∧ e.ty = x) where
  array v u h := by
    simp only [lang2, Bool.or_eq_true, Bool.and_eq_true, decide_eq_true_eq] at h
    rcases h with (h | ⟨h, _⟩) | ⟨h, k⟩
    · cases h; rfl
    · cases h
    · cases h; cases k; rfl
  same t := by simp [lang2]
  lref e x h hc := by
    simp only [lang2, hc, Bool.or_false, Bool.and_eq_true, decide_eq_true_eq] at h
    exact ⟨h.2, h.1⟩
  const e x h hc := by
    simp only [lang2, Bool.and_eq_true, decide_eq_true_eq] at h ⊢
    by_cases k : e.vc = .lv
    · exact .inl ⟨k, h.1⟩
    · exact .inr ⟨by simpa using k, h.1⟩
  xvalue x _ hc := by simp [lang2, hc]

example : Elem tInt ∧ Elem (tCls 2) ∧ Elem (tCls 0) := by
  refine ⟨⟨trivial, by simp [object, cat], by simp⟩, ⟨trivial, by simp [object, cat], by simp⟩, ⟨trivial, by simp [object, cat], by simp⟩⟩
/-- `unique_ptr<A, D>` takes a `B*`; `unique_ptr<A[], D>` does not; `unique_ptr<const int[], D>` takes an `int*`. -/
example : canFromPtr lang2 ⟨tCls 0, false, tCls 2, none⟩ (.ptr {} (tCls 2)) = true ∧
    canFromPtr lang2 ⟨tCls 0, true, tCls 2, none⟩ (.ptr {} (tCls 2)) = false ∧
    canFromPtr lang2 ⟨addConst tInt, true, tCls 2, none⟩ (.ptr {} tInt) = true ∧
    canFromPtr lang2 ⟨tInt, true, tCls 2, none⟩ (.ptr {} (addConst tInt)) = false := by decide
example : canMove lang2 ⟨tCls 0, false, tCls 2, none⟩ ⟨tCls 2, false, tCls 2, none⟩ = true ∧
    canMove lang2 ⟨tCls 0, true, tCls 2, none⟩ ⟨tCls 2, true, tCls 2, none⟩ = false ∧
    canAssign lang2 ⟨addConst tInt, true, tCls 2, none⟩ ⟨tInt, true, tCls 2, none⟩ = true ∧
    canMove lang2 ⟨tInt, false, tCls 2, none⟩ ⟨tInt, true, tCls 2, none⟩ = false := by decide
/-- A deleter `const D&` takes an lvalue and refuses a temporary. -/
example : selectDel lang2 (.lref (addConst (tCls 2))) ⟨.lv, addConst (tCls 2)⟩ = .copy ∧
    selectDel lang2 (.lref (addConst (tCls 2))) ⟨.xv, addConst (tCls 2)⟩ = .deleted ∧
    selectDel lang2 (tCls 2) ⟨.xv, tCls 2⟩ = .move := by decide
example : canDefault lang2 ⟨tInt, false, tCls 2, none⟩ = true ∧ deleterHasValue ⟨tInt, false, tCls 2, none⟩ = true := by decide

end Nanostl.UPtr.Types

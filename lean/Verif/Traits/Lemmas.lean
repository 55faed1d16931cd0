import Verif.Traits.Spec

/-! Lemmas on qualifiers and on the header's tests, by the shape of the type. -/

namespace Nanostl.Traits
open Spec

/-! ### Qualifiers -/

theorem matchConst_some : ∀ {t u : Ty}, matchConst t = some u → addConst u = t ∧ quals u = { quals t with c := false } ∧ (quals t).c = true ∧
    addVolatile (addConst u) = addVolatile t
  | .base q b, u, h => by simp only [matchConst] at h; split at h <;> simp_all; subst h; cases q; simp_all [addConst, quals]
  | .ptr q b, u, h => by simp only [matchConst] at h; split at h <;> simp_all; subst h; cases q; simp_all [addConst, quals]
  | .mem q b n, u, h => by simp only [matchConst] at h; split at h <;> simp_all; subst h; cases q; simp_all [addConst, quals]
  | .arr t n, u, h => by
    simp only [matchConst, Option.map_eq_some_iff] at h
    obtain ⟨w, h1, rfl⟩ := h
    obtain ⟨a, b, c, d⟩ := matchConst_some h1
    simp [addConst, quals, a, b, c, addVolatile]
  | .fn .., u, h => by simp [matchConst] at h
  | .lref _, u, h => by simp [matchConst] at h
  | .rref _, u, h => by simp [matchConst] at h

theorem matchConst_none : ∀ {t : Ty}, matchConst t = none → (quals t).c = false
  | .base q b, h => by simp only [matchConst] at h; split at h <;> simp_all [quals]
  | .ptr q b, h => by simp only [matchConst] at h; split at h <;> simp_all [quals]
  | .mem q b n, h => by simp only [matchConst] at h; split at h <;> simp_all [quals]
  | .arr t n, h => by
    simp only [matchConst, Option.map_eq_none_iff] at h
    exact (matchConst_none (t := t) h : _)
  | .fn .., h => rfl
  | .lref _, h => rfl
  | .rref _, h => rfl

theorem matchVolatile_some : ∀ {t u : Ty}, matchVolatile t = some u → addVolatile u = t ∧ quals u = { quals t with v := false } ∧ (quals t).v = true
  | .base q b, u, h => by simp only [matchVolatile] at h; split at h <;> simp_all; subst h; cases q; simp_all [addVolatile, quals]
  | .ptr q b, u, h => by simp only [matchVolatile] at h; split at h <;> simp_all; subst h; cases q; simp_all [addVolatile, quals]
  | .mem q b n, u, h => by simp only [matchVolatile] at h; split at h <;> simp_all; subst h; cases q; simp_all [addVolatile, quals]
  | .arr t n, u, h => by
    simp only [matchVolatile, Option.map_eq_some_iff] at h
    obtain ⟨w, h1, rfl⟩ := h
    obtain ⟨a, b, c⟩ := matchVolatile_some h1
    simp [addVolatile, quals, a, b, c]
  | .fn .., u, h => by simp [matchVolatile] at h
  | .lref _, u, h => by simp [matchVolatile] at h
  | .rref _, u, h => by simp [matchVolatile] at h

theorem matchVolatile_none : ∀ {t : Ty}, matchVolatile t = none → (quals t).v = false
  | .base q b, h => by simp only [matchVolatile] at h; split at h <;> simp_all [quals]
  | .ptr q b, h => by simp only [matchVolatile] at h; split at h <;> simp_all [quals]
  | .mem q b n, h => by simp only [matchVolatile] at h; split at h <;> simp_all [quals]
  | .arr t n, h => by
    simp only [matchVolatile, Option.map_eq_none_iff] at h
    exact (matchVolatile_none (t := t) h : _)
  | .fn .., h => rfl
  | .lref _, h => rfl
  | .rref _, h => rfl

/-- A type without top level `const` is determined by its `const` version. -/
theorem addConst_inj : ∀ {t u : Ty}, (quals t).c = false → (quals u).c = false → addConst t = addConst u → t = u
  | .arr t n, .arr u m, h1, h2, h => by
    simp only [addConst, Ty.arr.injEq] at h
    rw [addConst_inj (t := t) (u := u) h1 h2 h.1, h.2]
  | .base q b, u, h1, h2, h => by cases q; cases u <;> simp_all [addConst, quals] <;> (rename_i q _ ; cases q; simp_all)
  | .ptr q b, u, h1, h2, h => by cases q; cases u <;> simp_all [addConst, quals] <;> (rename_i q _ ; cases q; simp_all)
  | .mem q b n, u, h1, h2, h => by cases q; cases u <;> simp_all [addConst, quals] <;> (rename_i q _ _ ; cases q; simp_all)
  | .fn .., u, h1, h2, h => by cases u <;> simp_all [addConst]
  | .lref _, u, h1, h2, h => by cases u <;> simp_all [addConst]
  | .rref _, u, h1, h2, h => by cases u <;> simp_all [addConst]
  | .arr t n, .base .., h1, h2, h => by simp [addConst] at h
  | .arr t n, .ptr .., h1, h2, h => by simp [addConst] at h
  | .arr t n, .mem .., h1, h2, h => by simp [addConst] at h
  | .arr t n, .fn .., h1, h2, h => by simp [addConst] at h
  | .arr t n, .lref _, h1, h2, h => by simp [addConst] at h
  | .arr t n, .rref _, h1, h2, h => by simp [addConst] at h

theorem addVolatile_inj : ∀ {t u : Ty}, (quals t).v = false → (quals u).v = false → addVolatile t = addVolatile u → t = u
  | .arr t n, .arr u m, h1, h2, h => by
    simp only [addVolatile, Ty.arr.injEq] at h
    rw [addVolatile_inj (t := t) (u := u) h1 h2 h.1, h.2]
  | .base q b, u, h1, h2, h => by cases q; cases u <;> simp_all [addVolatile, quals] <;> (rename_i q _ ; cases q; simp_all)
  | .ptr q b, u, h1, h2, h => by cases q; cases u <;> simp_all [addVolatile, quals] <;> (rename_i q _ ; cases q; simp_all)
  | .mem q b n, u, h1, h2, h => by cases q; cases u <;> simp_all [addVolatile, quals] <;> (rename_i q _ _ ; cases q; simp_all)
  | .fn .., u, h1, h2, h => by cases u <;> simp_all [addVolatile]
  | .lref _, u, h1, h2, h => by cases u <;> simp_all [addVolatile]
  | .rref _, u, h1, h2, h => by cases u <;> simp_all [addVolatile]
  | .arr t n, .base .., h1, h2, h => by simp [addVolatile] at h
  | .arr t n, .ptr .., h1, h2, h => by simp [addVolatile] at h
  | .arr t n, .mem .., h1, h2, h => by simp [addVolatile] at h
  | .arr t n, .fn .., h1, h2, h => by simp [addVolatile] at h
  | .arr t n, .lref _, h1, h2, h => by simp [addVolatile] at h
  | .arr t n, .rref _, h1, h2, h => by simp [addVolatile] at h

/-- `remove_cv` in closed form. -/
def strip : Ty → Ty
  | .base _ b => .base {} b
  | .ptr _ t => .ptr {} t
  | .mem _ t n => .mem {} t n
  | .arr t n => .arr (strip t) n
  | t => t

theorem remove_const_arr (t : Ty) (n) : remove_const (.arr t n) = .arr (remove_const t) n := by
  simp only [remove_const, matchConst]; cases matchConst t <;> rfl
theorem remove_volatile_arr (t : Ty) (n) : remove_volatile (.arr t n) = .arr (remove_volatile t) n := by
  simp only [remove_volatile, matchVolatile]; cases matchVolatile t <;> rfl

theorem remove_cv_eq : ∀ t, remove_cv t = strip t
  | .base ⟨c, v⟩ b => by cases c <;> cases v <;> rfl
  | .ptr ⟨c, v⟩ b => by cases c <;> cases v <;> rfl
  | .mem ⟨c, v⟩ b n => by cases c <;> cases v <;> rfl
  | .arr t n => by
    unfold remove_cv
    rw [remove_const_arr, remove_volatile_arr]
    simp only [strip, ← remove_cv_eq t]; rfl
  | .fn .. => rfl
  | .lref _ => rfl
  | .rref _ => rfl

theorem quals_addConst : ∀ t : Ty, wf t → (quals (addConst t)).c = true ∨ cat t = .function ∨ cat t = .lref ∨ cat t = .rref
  | .base .., _ => .inl rfl
  | .ptr .., _ => .inl rfl
  | .mem .., _ => .inl rfl
  | .arr t n, e => by
    simp only [wf, object] at e
    rcases quals_addConst t e.1 with h | h | h | h
    · exact .inl h
    all_goals simp_all
  | .fn .., _ => by simp [cat]
  | .lref .., _ => by simp [cat]
  | .rref .., _ => by simp [cat]

theorem is_const_eq (t : Ty) : is_const t = (quals t).c := by
  unfold is_const
  cases h : matchConst t with
  | none => rw [matchConst_none h]; rfl
  | some u => rw [(matchConst_some h).2.2.1]; rfl

theorem is_function_eq {t : Ty} (e : wf t) : is_function t = decide (cat t = .function) := by
  unfold is_function
  rw [is_const_eq]
  cases t with
  | arr t n =>
    rcases quals_addConst _ e with h | h | h | h
    · simp [h, cat]
    all_goals simp [cat] at h
  | base q b => cases b <;> simp [is_reference, addConst, quals, cat]; rename_i f; cases f <;> simp
  | mem q u n => cases u <;> simp [is_reference, addConst, quals, cat]
  | _ => simp [is_reference, addConst, quals, cat]

theorem strip_strip : ∀ t, strip (strip t) = strip t
  | .base .. => rfl
  | .ptr .. => rfl
  | .mem .. => rfl
  | .arr t n => by simp [strip, strip_strip t]
  | .fn .. => rfl
  | .lref _ => rfl
  | .rref _ => rfl

theorem addConst_addConst : ∀ t, addConst (addConst t) = addConst t
  | .arr t n => by simp [addConst, addConst_addConst t]
  | .base .. | .ptr .. | .mem .. | .fn .. | .lref _ | .rref _ => rfl

theorem addVolatile_addVolatile : ∀ t, addVolatile (addVolatile t) = addVolatile t
  | .arr t n => by simp [addVolatile, addVolatile_addVolatile t]
  | .base .. | .ptr .. | .mem .. | .fn .. | .lref _ | .rref _ => rfl

theorem quals_strip : ∀ t, quals (strip t) = {}
  | .arr t _ => quals_strip t
  | .base .. | .ptr .. | .mem .. | .fn .. | .lref _ | .rref _ => rfl

theorem addBoth_strip : ∀ t, addConst (addVolatile (strip t)) = addConst (addVolatile t)
  | .arr t n => by simp [strip, addConst, addVolatile, addBoth_strip t]
  | .base .. | .ptr .. | .mem .. | .fn .. | .lref _ | .rref _ => rfl

theorem quals_addVolatile_c : ∀ t, (quals (addVolatile t)).c = (quals t).c
  | .arr t _ => quals_addVolatile_c t
  | .base .. | .ptr .. | .mem .. | .fn .. | .lref _ | .rref _ => rfl

theorem addBoth_inj {t u : Ty} (h1 : quals t = {}) (h2 : quals u = {}) (h : addConst (addVolatile t) = addConst (addVolatile u)) : t = u :=
  addVolatile_inj (by rw [h1]) (by rw [h2]) (addConst_inj (by rw [quals_addVolatile_c, h1]) (by rw [quals_addVolatile_c, h2]) h)

theorem cat_strip : ∀ t, cat (strip t) = cat t
  | .base q b => by cases b <;> simp [strip, cat]; rename_i f; cases f <;> rfl
  | .ptr .. => rfl
  | .mem q u n => by cases u <;> rfl
  | .arr t n => rfl
  | .fn .. => rfl
  | .lref _ => rfl
  | .rref _ => rfl

end Nanostl.Traits

import Verif.Variant.Spec
import Mathlib.Tactic.Common

/-! Lifetime invariant of `variant`, which every primitive keeps, and weakest preconditions over the abstract contents. -/

namespace Nanostl.Variant

variable {α : Type}

open Spec

theorem bind_eq {β γ : Type} (m : M α β) (f : β → M α γ) : (m >>= f) = M.bind m f := rfl
theorem pure_eq {β : Type} (b : β) : (pure b : M α β) = M.pure b := rfl

/-! ### Lifetimes -/

/-- Identity of the object in a variable. -/
def own (w : W α) (x : Var) : Option Nat := (w.vars x).bind (·.obj.map (·.1))

structure Inv (w : W α) : Prop where
  inj : ∀ x y id, own w x = some id → own w y = some id → x = y
  tr : ∃ f, life w.evs (fun _ => none) = some f ∧ (∀ id, f id = none ↔ w.next ≤ id) ∧ ∀ id, f id = some true ↔ ∃ x, own w x = some id

theorem inv_init : Inv (init : W α) where
  inj _ _ _ h := by cases h
  tr := ⟨fun _ => none, rfl, by simp [init], by simp [init, own]⟩

theorem life_append (es : List Ev) (e : List Ev) (f : Life) : life (es ++ e) f = (life es f).bind (life e) := by
  induction es generalizing f with
  | nil => rfl
  | cons x es ih =>
    cases x <;> simp only [List.cons_append, life] <;> split <;> simp [ih]

theorem Inv.congr {w w' : W α} (h : Inv w) (ho : ∀ x, own w' x = own w x) (hn : w'.next = w.next) (he : w'.evs = w.evs) : Inv w' := by
  refine ⟨fun x y id hx hy => h.inj x y id (by rw [← ho]; exact hx) (by rw [← ho]; exact hy), ?_⟩
  obtain ⟨f, t1, t2, t3⟩ := h.tr
  exact ⟨f, by rw [he]; exact t1, by rw [hn]; exact t2, fun id => by simp only [ho]; exact t3 id⟩

theorem Inv.fresh {w : W α} (h : Inv w) (x : Var) : own w x ≠ some w.next := by
  obtain ⟨f, -, h2, h3⟩ := h.tr
  intro hc
  have := (h3 _).2 ⟨x, hc⟩
  rw [(h2 _).2 (Nat.le_refl _)] at this
  cases this

/-- `m` keeps the lifetimes in order. -/
structure Pres {β : Type} (m : M α β) : Prop where
  ok : ∀ {w w' b}, Inv w → m w = .ok w' b → Inv w'
  exc : ∀ {w w'}, Inv w → m w = .exc w' → Inv w'

/-- From a case analysis of the outcome. -/
theorem Pres.of {β : Type} {m : M α β} (h : ∀ w, Inv w → match m w with
  | .ok w' _ => Inv w'
  | .exc w' => Inv w'
  | _ => True) : Pres m :=
  ⟨fun {w _ _} i e => by have := h w i; rw [e] at this; exact this, fun {w _} i e => by have := h w i; rw [e] at this; exact this⟩

theorem Pres.run {β : Type} {m : M α β} (h : Pres m) (w : W α) (i : Inv w) : match m w with
  | .ok w' _ => Inv w'
  | .exc w' => Inv w'
  | _ => True := by
  cases e : m w with
  | ok => exact h.ok i e
  | exc => exact h.exc i e
  | term => trivial
  | bad => trivial

theorem Pres.pure {β : Type} (b : β) : Pres (pure b : M α β) := .of fun _ h => h
theorem Pres.bad {β : Type} : Pres (bad : M α β) := .of fun _ _ => trivial

theorem Pres.bind {β γ : Type} {m : M α β} {f : β → M α γ} (hm : Pres m) (hf : ∀ b, Pres (f b)) : Pres (m >>= f) := by
  refine .of fun w h => ?_
  have h1 := hm.run w h
  simp only [bind_eq, M.bind]
  cases e : m w with
  | ok w' b => simp only [e] at h1 ⊢; exact (hf b).run w' h1
  | exc w' => simp only [e] at h1 ⊢; exact h1
  | term => trivial
  | bad => trivial

theorem Pres.noexcept {β : Type} {m : M α β} (b : Bool) (hm : Pres m) : Pres (M.noexcept b m) := by
  refine .of fun w h => ?_
  have h1 := hm.run w h
  simp only [M.noexcept]
  cases e : m w with
  | ok w' b => simp only [e] at h1 ⊢; exact h1
  | exc w' => simp only [e] at h1 ⊢; cases b <;> simp [h1]
  | term => trivial
  | bad => trivial

theorem Pres.finally_ {m d : M α Unit} (hm : Pres m) (hd : Pres d) : Pres (M.finally_ m d) := by
  refine .of fun w h => ?_
  have h1 := hm.run w h
  simp only [M.finally_]
  cases e : m w with
  | ok w' b => simp only [e] at h1 ⊢; exact hd.run w' h1
  | exc w' =>
    simp only [e] at h1 ⊢
    have h2 := hd.run w' h1
    cases e2 : d w' <;> simp only [e2] at h2 ⊢ <;> assumption
  | term => trivial
  | bad => trivial

theorem Pres.onExc {m d : M α Unit} (hm : Pres m) (hd : Pres d) : Pres (M.onExc m d) := by
  refine .of fun w h => ?_
  have h1 := hm.run w h
  simp only [M.onExc]
  cases e : m w with
  | ok w' b => simp only [e] at h1 ⊢; exact h1
  | exc w' =>
    simp only [e] at h1 ⊢
    have h2 := hd.run w' h1
    cases e2 : d w' <;> simp only [e2] at h2 ⊢ <;> assumption
  | term => trivial
  | bad => trivial

theorem Pres.slot (x : Var) : Pres (slot x : M α _) := by
  refine .of fun w h => ?_
  unfold Variant.slot; cases w.vars x <;> simp [h]

theorem Pres.readObj (x : Var) (t : Nat) : Pres (readObj x t : M α _) := by
  refine .of fun w h => ?_
  unfold Variant.readObj
  cases e : w.vars x with
  | none => trivial
  | some s =>
    obtain ⟨i, _ | ⟨id, u, v⟩⟩ := s
    · trivial
    · simp only
      by_cases hu : u = t <;> simp [hu, h]

theorem Pres.call (c : Cls α) (b : Bool) : Pres (call c b) := by
  refine .of fun w h => ?_
  unfold Variant.call
  by_cases hb : b = true
  · simp only [hb, if_true]; exact h
  · by_cases ht : c.throws w.calls = true
    · simp only [hb, ht, if_true]; exact h.congr (fun _ => rfl) rfl rfl
    · simp only [hb, ht]; exact h.congr (fun _ => rfl) rfl rfl

theorem Pres.setIdx (x : Var) (i : Int) : Pres (setIdx x i : M α _) := by
  refine .of fun w h => ?_
  unfold Variant.setIdx
  cases e : w.vars x with
  | none => trivial
  | some s =>
    refine h.congr (fun y => ?_) rfl rfl
    simp only [own, W.set]
    split
    · subst y; simp [e]
    · rfl

theorem Pres.declare (x : Var) (i : Int) : Pres (declare x i : M α _) := by
  refine .of fun w h => ?_
  unfold Variant.declare
  cases e : w.vars x with
  | some s => trivial
  | none =>
    refine h.congr (fun y => ?_) rfl rfl
    simp only [own, W.set]
    split
    · subst y; simp [e]
    · rfl

theorem Pres.undeclare (x : Var) : Pres (undeclare x : M α _) := by
  refine .of fun w h => ?_
  unfold Variant.undeclare
  cases e : w.vars x with
  | none => trivial
  | some s =>
    obtain ⟨i, _ | o⟩ := s
    · refine h.congr (fun y => ?_) rfl rfl
      simp only [own, W.set]
      split
      · subst y; simp [e]
      · rfl
    · trivial

theorem Pres.writeObj (x : Var) (t : Nat) (v : α) : Pres (writeObj x t v : M α _) := by
  refine .of fun w h => ?_
  unfold Variant.writeObj
  cases e : w.vars x with
  | none => trivial
  | some s =>
    obtain ⟨i, _ | ⟨id, u, v⟩⟩ := s
    · trivial
    · simp only
      by_cases hu : u = t
      · rw [if_pos hu]
        refine h.congr (fun y => ?_) rfl rfl
        simp only [own, W.set]
        split
        · subst y; simp [e]
        · rfl
      · rw [if_neg hu]; trivial

theorem Pres.place (x : Var) (t : Nat) (v : α) : Pres (place x t v : M α _) := by
  refine .of fun w h => ?_
  unfold Variant.place
  cases e : w.vars x with
  | none => trivial
  | some s =>
    obtain ⟨i, _ | o⟩ := s
    · simp only
      have ho : ∀ y, own ({ w with next := w.next + 1, evs := w.evs ++ [Ev.cons w.next] }.set x (some ⟨i, some (w.next, t, v)⟩)) y =
          if y = x then some w.next else own w y := by
        intro y; simp only [own, W.set]; split <;> rfl
      have hx : own w x = none := by simp [own, e]
      refine ⟨?_, ?_⟩
      · intro y z id hy hz
        rw [ho] at hy hz
        split at hy <;> split at hz
        · simp_all
        · simp only [Option.some.injEq] at hy; subst hy; exact absurd hz (h.fresh z)
        · simp only [Option.some.injEq] at hz; subst hz; exact absurd hy (h.fresh y)
        · exact h.inj y z id hy hz
      · obtain ⟨f, t1, t2, t3⟩ := h.tr
        refine ⟨fun j => if j = w.next then some true else f j, ?_, ?_, ?_⟩
        · simp only [W.set, life_append, t1, Option.bind_some, life, (t2 _).2 (Nat.le_refl _), if_true]
        · intro id; simp only [W.set]
          split
          · subst id; simp
          · rw [t2]; omega
        · intro id; simp only [ho]
          split
          · subst id; simp only [true_iff]; exact ⟨x, by simp⟩
          · rename_i hid
            rw [t3]
            constructor
            · rintro ⟨y, hy⟩
              have : y ≠ x := by rintro rfl; rw [hx] at hy; cases hy
              exact ⟨y, by rw [if_neg this]; exact hy⟩
            · rintro ⟨y, hy⟩
              split at hy
              · simp only [Option.some.injEq] at hy; exact absurd hy.symm hid
              · exact ⟨y, hy⟩
    · trivial

theorem Pres.destroyObj (x : Var) (t : Nat) : Pres (destroyObj x t : M α _) := by
  refine .of fun w h => ?_
  unfold Variant.destroyObj
  cases e : w.vars x with
  | none => trivial
  | some s =>
    obtain ⟨i, _ | ⟨id, u, v⟩⟩ := s
    · trivial
    · simp only
      by_cases hu : u = t
      · rw [if_pos hu]
        have ho : ∀ y, own ({ w with evs := w.evs ++ [Ev.dest id] }.set x (some ⟨i, none⟩)) y = if y = x then none else own w y := by
          intro y; simp only [own, W.set]; split <;> rfl
        have hx : own w x = some id := by simp [own, e]
        refine ⟨?_, ?_⟩
        · intro y z id hy hz
          rw [ho] at hy hz
          split at hy
          · cases hy
          · split at hz
            · cases hz
            · exact h.inj y z id hy hz
        · obtain ⟨f, t1, t2, t3⟩ := h.tr
          have hl : f id = some true := (t3 id).2 ⟨x, hx⟩
          refine ⟨fun j => if j = id then some false else f j, ?_, ?_, ?_⟩
          · simp only [W.set, life_append, t1, Option.bind_some, life, hl, if_true]
          · intro j; simp only [W.set]
            split
            · subst j
              have := t2 id
              rw [hl] at this
              simpa using this
            · exact t2 j
          · intro j; simp only [ho]
            split
            · subst j
              simp only [Option.some.injEq, Bool.false_eq_true, false_iff, not_exists]
              intro y hy
              split at hy
              · cases hy
              · rename_i hne; exact hne (h.inj _ _ _ hy hx)
            · rename_i hj
              rw [t3]
              constructor
              · rintro ⟨y, hy⟩
                have : y ≠ x := by rintro rfl; rw [hx] at hy; simp only [Option.some.injEq] at hy; exact hj hy.symm
                exact ⟨y, by rw [if_neg this]; exact hy⟩
              · rintro ⟨y, hy⟩
                split at hy
                · cases hy
                · exact ⟨y, hy⟩
      · rw [if_neg hu]; trivial

/-- Goes through a function statement by statement. -/
macro "pres" : tactic => `(tactic| repeat' first
  | exact Pres.pure _ | exact Pres.bad | exact Pres.slot _ | exact Pres.readObj _ _ | exact Pres.call _ _ | exact Pres.setIdx _ _ | exact Pres.declare _ _
  | exact Pres.undeclare _ | exact Pres.writeObj _ _ _ | exact Pres.place _ _ _ | exact Pres.destroyObj _ _
  | assumption | apply Pres.noexcept | apply Pres.finally_ | apply Pres.onExc | apply Pres.bind | intro _ | split)

theorem pres_construct (c : Cls α) (b x t v) : Pres (construct c b x t v) := by unfold construct; pres
theorem pres_destroy (i x) : Pres (destroy i x : M α _) := by unfold destroy; pres
theorem pres_readSrc (s t) : Pres (readSrc s t : M α _) := by unfold readSrc; pres
theorem pres_leave (c : Cls α) (m s t v) : Pres (leave c m s t v) := by unfold leave; pres
theorem pres_constructFrom (c : Cls α) (m x t s) : Pres (constructFrom c m x t s) := by
  have h1 := fun b x t v => pres_construct c b x t v
  have h2 := pres_readSrc s t
  have h3 := fun v => pres_leave c m s t v
  exact h2.bind fun v => (h1 _ _ _ _).bind fun _ => h3 v
theorem pres_assignFrom (c : Cls α) (m x t s) : Pres (assignFrom c m x t s) :=
  (pres_readSrc s t).bind fun v => (Pres.readObj x t).bind fun _ => (Pres.call _ _).bind fun _ => (Pres.writeObj _ _ _).bind fun _ => pres_leave c m s t v
theorem pres_constructT (c : Cls α) (m x t s) : Pres (constructT c m x t s) := (pres_constructFrom c m x t s).bind fun _ => Pres.pure _
theorem pres_constructI (c : Cls α) (m x t s) : Pres (constructI c m x t s) := (pres_constructT c m x t s).bind fun _ => Pres.pure _
theorem pres_moveConstruct (c : Cls α) (i y x) : Pres (moveConstruct c i y x) := by unfold moveConstruct construct; pres
theorem pres_moveAssign (c : Cls α) (i y x) : Pres (moveAssign c i y x) := by unfold moveAssign; pres
theorem pres_copyConstruct (c : Cls α) (i y x) : Pres (copyConstruct c i y x) := by unfold copyConstruct construct; pres
theorem pres_copyAssign (c : Cls α) (i y x) : Pres (copyAssign c i y x) := by unfold copyAssign; pres
theorem pres_valueless (x) : Pres (valueless x : M α _) := by unfold valueless; pres
theorem pres_index (x) : Pres (index x : M α _) := by unfold index; pres
theorem pres_clear (x) : Pres (clear x : M α _) := (Pres.slot x).bind fun _ => (pres_destroy _ _).bind fun _ => Pres.setIdx _ _
theorem pres_ctor (x i) {m : M α Unit} (h : Pres m) : Pres (ctor x i m) := (Pres.declare x i).bind fun _ => Pres.onExc h (Pres.undeclare x)
theorem pres_dtor (x) : Pres (dtor x : M α _) := by
  have h1 := pres_valueless (α := α) x
  have h2 := fun i => pres_destroy (α := α) i x
  unfold dtor
  refine h1.bind fun b => ?_
  split
  · exact (Pres.slot x).bind fun o => (h2 _).bind fun _ => Pres.undeclare x
  · exact Pres.undeclare x
theorem pres_ctorMove (c : Cls α) (x y) : Pres (ctorMove c x y) :=
  Pres.noexcept _ ((Pres.slot y).bind fun _ => pres_ctor _ _ ((pres_moveConstruct _ _ _ _).bind fun _ => Pres.pure _))
theorem pres_assignMove (c : Cls α) (x y) : Pres (assignMove c x y) := by
  refine Pres.noexcept _ ((pres_valueless x).bind fun _ => (pres_valueless y).bind fun _ => ?_)
  split
  · exact Pres.pure _
  · split
    · exact pres_clear x
    · refine (pres_index x).bind fun _ => (pres_index y).bind fun _ => ?_
      split
      · exact (Pres.slot y).bind fun _ => (pres_moveAssign _ _ _ _).bind fun _ => Pres.setIdx _ _
      · exact (pres_clear x).bind fun _ => (Pres.slot y).bind fun _ => (pres_moveConstruct _ _ _ _).bind fun _ => Pres.setIdx _ _
theorem pres_assignCopy (c : Cls α) (x y) : Pres (assignCopy c x y) := by
  refine ((pres_valueless x).bind fun _ => (pres_valueless y).bind fun _ => ?_)
  split
  · exact Pres.pure _
  · split
    · exact pres_clear x
    · refine (pres_index x).bind fun _ => (pres_index y).bind fun _ => ?_
      split
      · exact (Pres.slot y).bind fun _ => (pres_copyAssign _ _ _ _).bind fun _ => Pres.setIdx _ _
      · exact (pres_clear x).bind fun _ => (Pres.slot y).bind fun _ => (pres_copyConstruct _ _ _ _).bind fun _ => Pres.setIdx _ _
theorem pres_assignValue (c : Cls α) (m x k s) : Pres (assignValue c m x k s) := by
  refine (pres_index x).bind fun _ => ?_
  split
  · exact pres_assignFrom _ _ _ _ _
  · exact (pres_clear x).bind fun _ => (pres_constructFrom _ _ _ _ _).bind fun _ => Pres.setIdx _ _
theorem pres_emplaceT (c : Cls α) (m x k s) : Pres (emplaceT c m x k s) :=
  (pres_clear x).bind fun _ => (pres_constructT _ _ _ _ _).bind fun _ => Pres.setIdx _ _
theorem pres_swapValue (c : Cls α) (i x y) : Pres (swapValue c i x y) := by unfold swapValue construct; pres
theorem pres_swap (c : Cls α) (x y) : Pres (swap c x y) := by
  refine Pres.noexcept _ ((pres_valueless x).bind fun _ => (pres_valueless y).bind fun _ => ?_)
  split
  · exact Pres.pure _
  · refine (Pres.slot x).bind fun _ => (Pres.slot y).bind fun _ => ?_
    split
    · exact pres_swapValue _ _ _ _
    · exact (pres_ctorMove _ _ _).bind fun _ => Pres.finally_ ((pres_assignMove _ _ _).bind fun _ => pres_assignMove _ _ _) (pres_dtor _)

theorem pres_step (c : Cls α) (k : Cmd α) : Pres (step c k) := by
  cases k with
  | default i => exact pres_ctor _ _ (pres_construct _ _ _ _ _)
  | ofValue i m k s => exact pres_ctor _ _ (pres_constructFrom _ _ _ _ _)
  | inPlaceT i m k s => exact pres_ctor _ _ ((pres_constructT _ _ _ _ _).bind fun _ => Pres.setIdx _ _)
  | inPlaceI i m k s => exact pres_ctor _ _ ((pres_constructI _ _ _ _ _).bind fun _ => Pres.setIdx _ _)
  | copy i j => exact (Pres.slot _).bind fun _ => pres_ctor _ _ ((pres_copyConstruct _ _ _ _).bind fun _ => Pres.pure _)
  | move i j => exact pres_ctorMove _ _ _
  | assignCopy i j => exact pres_assignCopy _ _ _
  | assignMove i j => exact pres_assignMove _ _ _
  | assignValue i m k s => exact pres_assignValue _ _ _ _ _
  | emplaceT i m k s => exact pres_emplaceT _ _ _ _ _
  | emplaceI i m k s => exact pres_emplaceT _ _ _ _ _
  | swap i j => exact pres_swap _ _ _
  | destroy i => exact pres_dtor _

end Nanostl.Variant

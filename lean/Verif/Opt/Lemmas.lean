import Verif.Opt.Spec
import Mathlib.Tactic.Common

/-!
Invariant of `optional` and its proof for every command.
-/

namespace Nanostl.Opt

variable {α : Type}

open Spec

/-! ### Invariant; `T` is the set of living temporaries -/

structure Inv (w : W α) (T : Nat → Prop) : Prop where
  flags : ∀ i o, w.vars i = some o → o.has = o.st.isSome
  inj : ∀ i j o p id u v, w.vars i = some o → w.vars j = some p → o.st = some (id, u) → p.st = some (id, v) → i = j
  tmp : ∀ i o id u, w.vars i = some o → o.st = some (id, u) → ¬ T id
  tr : ∃ f, life w.evs (fun _ => none) = some f ∧ (∀ id, f id = none ↔ w.next ≤ id) ∧
    ∀ id, f id = some true ↔ T id ∨ ∃ i o u, w.vars i = some o ∧ o.st = some (id, u)

def noT : Nat → Prop := fun _ => False

theorem inv_init : Inv (init : W α) noT where
  flags _ _ h := by cases h
  inj _ _ _ _ _ _ _ h := by cases h
  tmp _ _ _ _ h := by cases h
  tr := ⟨fun _ => none, rfl, by simp [init], by simp [init, noT]⟩

theorem life_append (es : List Ev) (e : List Ev) (f : Life) : life (es ++ e) f = (life es f).bind (life e) := by
  induction es generalizing f with
  | nil => rfl
  | cons x es ih =>
    cases x <;> simp only [List.cons_append, life] <;> split <;> simp [ih]

/-- The counter of calls does not matter. -/
theorem Inv.calls {w : W α} {T : Nat → Prop} (h : Inv w T) (n : Nat) : Inv { w with calls := n } T :=
  ⟨h.flags, h.inj, h.tmp, h.tr⟩

/-- Changing a variable without touching any object. -/
theorem Inv.setEmpty {w : W α} {T : Nat → Prop} (h : Inv w T) {i : Nat} (hi : ∀ o, w.vars i = some o → o.st = none) {x : Option (Ov α)}
    (hx : x = none ∨ x = some ⟨false, none⟩) : Inv (w.set i x) T := by
  have hv : ∀ j, (w.set i x).vars j = if j = i then x else w.vars j := fun _ => rfl
  have key : ∀ j o id u, (w.set i x).vars j = some o → o.st = some (id, u) → w.vars j = some o := by
    intro j o id u hj ho
    rw [hv] at hj
    split at hj
    · rcases hx with hx | hx <;> rw [hx] at hj
      · cases hj
      · have := Option.some.inj hj; subst this; cases ho
    · exact hj
  refine ⟨?_, ?_, ?_, ?_⟩
  · intro j o hj
    rw [hv] at hj
    split at hj
    · rcases hx with hx | hx <;> rw [hx] at hj
      · cases hj
      · have := Option.some.inj hj; subst this; rfl
    · exact h.flags j o hj
  · intro j k o p id u v hj hk ho hp
    exact h.inj j k o p id u v (key j o id u hj ho) (key k p id v hk hp) ho hp
  · intro j o id u hj ho
    exact h.tmp j o id u (key j o id u hj ho) ho
  · obtain ⟨f, h1, h2, h3⟩ := h.tr
    refine ⟨f, h1, h2, ?_⟩
    intro id
    rw [h3]
    constructor
    · rintro (ht | ⟨j, o, u, hj, ho⟩)
      · exact .inl ht
      · refine .inr ⟨j, o, u, ?_, ho⟩
        rw [hv, if_neg]
        · exact hj
        · rintro rfl
          rw [hi o hj] at ho
          cases ho
    · rintro (ht | ⟨j, o, u, hj, ho⟩)
      · exact .inl ht
      · exact .inr ⟨j, o, u, key j o id u hj ho, ho⟩

/-- Changing a value. -/
theorem Inv.setValue {w : W α} {T : Nat → Prop} (h : Inv w T) {i id : Nat} {v u : α} (hi : w.vars i = some ⟨true, some (id, v)⟩) :
    Inv (w.set i (some ⟨true, some (id, u)⟩)) T := by
  have hv : ∀ j, (w.set i (some ⟨true, some (id, u)⟩)).vars j = if j = i then some ⟨true, some (id, u)⟩ else w.vars j := fun _ => rfl
  have key : ∀ j o k x, (w.set i (some ⟨true, some (id, u)⟩)).vars j = some o → o.st = some (k, x) →
      ∃ o' x', w.vars j = some o' ∧ o'.st = some (k, x') := by
    intro j o k x hj ho
    rw [hv] at hj
    split at hj
    · rename_i he
      have := Option.some.inj hj; subst this
      simp only [Option.some.injEq, Prod.mk.injEq] at ho
      rw [← ho.1, he]
      exact ⟨_, v, hi, rfl⟩
    · exact ⟨o, x, hj, ho⟩
  refine ⟨?_, ?_, ?_, ?_⟩
  · intro j o hj
    rw [hv] at hj
    split at hj
    · have := Option.some.inj hj; subst this; rfl
    · exact h.flags j o hj
  · intro j k o p n x y hj hk ho hp
    obtain ⟨o', x', h1, h2⟩ := key j o n x hj ho
    obtain ⟨p', y', h3, h4⟩ := key k p n y hk hp
    exact h.inj j k o' p' n x' y' h1 h3 h2 h4
  · intro j o n x hj ho
    obtain ⟨o', x', h1, h2⟩ := key j o n x hj ho
    exact h.tmp j o' n x' h1 h2
  · obtain ⟨f, h1, h2, h3⟩ := h.tr
    refine ⟨f, h1, h2, ?_⟩
    intro n
    rw [h3]
    constructor
    · rintro (ht | ⟨j, o, x, hj, ho⟩)
      · exact .inl ht
      · by_cases hji : j = i
        · subst hji
          rw [hi] at hj
          have := Option.some.inj hj; subst this
          simp only [Option.some.injEq, Prod.mk.injEq] at ho
          rw [← ho.1]
          exact .inr ⟨j, ⟨true, some (id, u)⟩, u, by rw [hv, if_pos rfl], rfl⟩
        · exact .inr ⟨j, o, x, by rw [hv, if_neg hji]; exact hj, ho⟩
    · rintro (ht | ⟨j, o, x, hj, ho⟩)
      · exact .inl ht
      · obtain ⟨o', x', h4, h5⟩ := key j o n x hj ho
        exact .inr ⟨j, o', x', h4, h5⟩

/-- Construction in the storage of a variable without object. -/
def W.birth (w : W α) (i : Nat) (v : α) : W α :=
  { w with next := w.next + 1, evs := w.evs ++ [Ev.cons w.next] }.set i (some ⟨true, some (w.next, v)⟩)

theorem Inv.birth {w : W α} {T : Nat → Prop} (h : Inv w T) {i : Nat} {v : α} (hi : ∀ o, w.vars i = some o → o.st = none) (hT : ¬ T w.next) :
    Inv (w.birth i v) T := by
  have hv : ∀ j, (w.birth i v).vars j = if j = i then some ⟨true, some (w.next, v)⟩ else w.vars j := fun _ => rfl
  obtain ⟨f, h1, h2, h3⟩ := h.tr
  have fresh : ∀ j o u, w.vars j = some o → o.st ≠ some (w.next, u) := by
    intro j o u hj ho
    have := (h3 w.next).2 (.inr ⟨j, o, u, hj, ho⟩)
    rw [(h2 w.next).2 (Nat.le_refl _)] at this
    cases this
  refine ⟨?_, ?_, ?_, ?_⟩
  · intro j o hj
    rw [hv] at hj
    split at hj
    · have := Option.some.inj hj; subst this; rfl
    · exact h.flags j o hj
  · intro j k o p n x y hj hk ho hp
    rw [hv] at hj hk
    split at hj
    · rename_i hji
      have := Option.some.inj hj; subst this
      simp only [Option.some.injEq, Prod.mk.injEq] at ho
      split at hk
      · rename_i hki; rw [hji, hki]
      · rw [← ho.1] at hp
        exact absurd hp (fresh k p y hk)
    · split at hk
      · have := Option.some.inj hk; subst this
        simp only [Option.some.injEq, Prod.mk.injEq] at hp
        rw [← hp.1] at ho
        exact absurd ho (fresh j o x hj)
      · exact h.inj j k o p n x y hj hk ho hp
  · intro j o n x hj ho
    rw [hv] at hj
    split at hj
    · have := Option.some.inj hj; subst this
      simp only [Option.some.injEq, Prod.mk.injEq] at ho
      rw [← ho.1]; exact hT
    · exact h.tmp j o n x hj ho
  · refine ⟨fun n => if n = w.next then some true else f n, ?_, ?_, ?_⟩
    · show life (w.evs ++ [Ev.cons w.next]) _ = _
      rw [life_append, h1]
      simp only [Option.bind_some, life]
      rw [if_pos ((h2 w.next).2 (Nat.le_refl _))]
    · intro n
      show _ ↔ w.next + 1 ≤ n
      by_cases hn : n = w.next
      · simp [hn]
      · simp only [hn, if_false]; rw [h2]; omega
    · intro n
      by_cases hn : n = w.next
      · subst hn
        simp only [if_true, true_iff]
        exact .inr ⟨i, _, v, by rw [hv, if_pos rfl], rfl⟩
      · simp only [hn, if_false]
        rw [h3]
        constructor
        · rintro (ht | ⟨j, o, x, hj, ho⟩)
          · exact .inl ht
          · refine .inr ⟨j, o, x, ?_, ho⟩
            rw [hv, if_neg]
            · exact hj
            · rintro rfl
              rw [hi o hj] at ho
              cases ho
        · rintro (ht | ⟨j, o, x, hj, ho⟩)
          · exact .inl ht
          · rw [hv] at hj
            split at hj
            · have := Option.some.inj hj; subst this
              simp only [Option.some.injEq, Prod.mk.injEq] at ho
              exact absurd ho.1.symm hn
            · exact .inr ⟨j, o, x, hj, ho⟩

/-- Destruction of the object of a variable, which becomes empty or ends. -/
def W.death (w : W α) (i id : Nat) (x : Option (Ov α)) : W α := { w with evs := w.evs ++ [Ev.dest id] }.set i x

theorem Inv.death {w : W α} {T : Nat → Prop} (h : Inv w T) {i id : Nat} {v : α} {x : Option (Ov α)}
    (hi : w.vars i = some ⟨true, some (id, v)⟩) (hx : x = none ∨ x = some ⟨false, none⟩) : Inv (w.death i id x) T := by
  have hv : ∀ j, (w.death i id x).vars j = if j = i then x else w.vars j := fun _ => rfl
  obtain ⟨f, h1, h2, h3⟩ := h.tr
  have key : ∀ j o n u, (w.death i id x).vars j = some o → o.st = some (n, u) → w.vars j = some o ∧ j ≠ i := by
    intro j o n u hj ho
    rw [hv] at hj
    split at hj
    · rcases hx with hx | hx <;> rw [hx] at hj
      · cases hj
      · have := Option.some.inj hj; subst this; cases ho
    · rename_i hji; exact ⟨hj, hji⟩
  have hlive : f id = some true := (h3 id).2 (.inr ⟨i, _, v, hi, rfl⟩)
  refine ⟨?_, ?_, ?_, ?_⟩
  · intro j o hj
    rw [hv] at hj
    split at hj
    · rcases hx with hx | hx <;> rw [hx] at hj
      · cases hj
      · have := Option.some.inj hj; subst this; rfl
    · exact h.flags j o hj
  · intro j k o p n u y hj hk ho hp
    exact h.inj j k o p n u y (key j o n u hj ho).1 (key k p n y hk hp).1 ho hp
  · intro j o n u hj ho
    exact h.tmp j o n u (key j o n u hj ho).1 ho
  · refine ⟨fun n => if n = id then some false else f n, ?_, ?_, ?_⟩
    · show life (w.evs ++ [Ev.dest id]) _ = _
      rw [life_append, h1]
      simp only [Option.bind_some, life]
      rw [if_pos hlive]
    · intro n
      show _ ↔ w.next ≤ n
      by_cases hn : n = id
      · subst hn
        simp only [if_true, reduceCtorEq, false_iff]
        rw [← h2, hlive]
        simp
      · simp only [hn, if_false]; rw [h2]
    · intro n
      by_cases hn : n = id
      · subst hn
        simp only [if_true, Option.some.injEq, Bool.false_eq_true, false_iff]
        rintro (ht | ⟨j, o, u, hj, ho⟩)
        · exact h.tmp i _ n v hi rfl ht
        · obtain ⟨h4, h5⟩ := key j o n u hj ho
          exact h5 (h.inj j i o _ n u v h4 hi ho rfl)
      · simp only [hn, if_false]
        rw [h3]
        constructor
        · rintro (ht | ⟨j, o, u, hj, ho⟩)
          · exact .inl ht
          · refine .inr ⟨j, o, u, ?_, ho⟩
            rw [hv, if_neg]
            · exact hj
            · rintro rfl
              rw [hi] at hj
              have := Option.some.inj hj; subst this
              simp only [Option.some.injEq, Prod.mk.injEq] at ho
              exact hn ho.1.symm
        · rintro (ht | ⟨j, o, u, hj, ho⟩)
          · exact .inl ht
          · exact .inr ⟨j, o, u, (key j o n u hj ho).1, ho⟩

/-- Birth and death of a temporary. -/
theorem Inv.tmpBirth {w : W α} (h : Inv w noT) :
    Inv { w with next := w.next + 1, evs := w.evs ++ [Ev.cons w.next] } (fun n => n = w.next) := by
  obtain ⟨f, h1, h2, h3⟩ := h.tr
  refine ⟨h.flags, h.inj, ?_, ?_⟩
  · rintro j o n u hj ho rfl
    have := (h3 w.next).2 (.inr ⟨j, o, u, hj, ho⟩)
    rw [(h2 w.next).2 (Nat.le_refl _)] at this
    cases this
  · refine ⟨fun n => if n = w.next then some true else f n, ?_, ?_, ?_⟩
    · show life (w.evs ++ [Ev.cons w.next]) _ = _
      rw [life_append, h1]
      simp only [Option.bind_some, life]
      rw [if_pos ((h2 w.next).2 (Nat.le_refl _))]
    · intro n
      show _ ↔ w.next + 1 ≤ n
      by_cases hn : n = w.next
      · simp [hn]
      · simp only [hn, if_false]; rw [h2]; omega
    · intro n
      by_cases hn : n = w.next
      · simp [hn]
      · simp only [hn, if_false, false_or]
        rw [h3]
        simp [noT]

theorem Inv.tmpDeath {w : W α} {id : Nat} (h : Inv w (fun n => n = id)) : Inv { w with evs := w.evs ++ [Ev.dest id] } noT := by
  obtain ⟨f, h1, h2, h3⟩ := h.tr
  have hlive : f id = some true := (h3 id).2 (.inl rfl)
  refine ⟨h.flags, h.inj, fun _ _ _ _ _ _ ht => ht, ?_⟩
  refine ⟨fun n => if n = id then some false else f n, ?_, ?_, ?_⟩
  · show life (w.evs ++ [Ev.dest id]) _ = _
    rw [life_append, h1]
    simp only [Option.bind_some, life]
    rw [if_pos hlive]
  · intro n
    show _ ↔ w.next ≤ n
    by_cases hn : n = id
    · subst hn
      simp only [if_true, reduceCtorEq, false_iff]
      rw [← h2, hlive]
      simp
    · simp only [hn, if_false]; rw [h2]
  · intro n
    by_cases hn : n = id
    · subst hn
      simp only [if_true, Option.some.injEq, Bool.false_eq_true, false_iff]
      rintro (ht | ⟨j, o, u, hj, ho⟩)
      · exact ht
      · exact h.tmp j o n u hj ho rfl
    · simp only [hn, if_false]
      rw [h3]
      simp [hn, noT]

theorem Inv.congr {w w' : W α} {T : Nat → Prop} (h : Inv w T) (hv : ∀ j, w'.vars j = w.vars j) (hn : w'.next = w.next) (he : w'.evs = w.evs) :
    Inv w' T := by
  obtain ⟨v, a, n, e⟩ := w
  obtain ⟨v', a', n', e'⟩ := w'
  obtain rfl : v' = v := funext hv
  obtain rfl : n' = n := hn
  obtain rfl : e' = e := he
  exact ⟨h.flags, h.inj, h.tmp, h.tr⟩

/-! ### Steps -/

theorem bind_eq {β γ : Type} (m : M α β) (f : β → M α γ) (w : W α) : (m >>= f) w = match m w with
  | .ok s b => f b s
  | .exc s => .exc s
  | .term => .term
  | .bad => .bad := rfl

theorem pure_eq {β : Type} (b : β) (w : W α) : (pure b : M α β) w = .ok w b := rfl

theorem var_eq {w : W α} {i : Nat} {o : Ov α} (h : w.vars i = some o) : var i w = .ok w o := by
  simp [var, h]

theorem hasValue_eq {w : W α} {i : Nat} {o : Ov α} (h : w.vars i = some o) : hasValue i w = .ok w o.has := by
  simp [hasValue, bind_eq, pure_eq, var_eq h]

/-- What every command does, given `Inv`. -/
def Good (c : Cls α) (k : Cmd α) (w : W α) : Prop :=
  (∃ w', step c k w = .ok w' () ∧ Inv w' noT ∧ cont w' = Spec.step c.moved (cont w) k) ∨
  ((∃ n, c.throws n = true) ∧
    ((∃ w', step c k w = .exc w' ∧ Inv w' noT ∧ AfterThrow (cont w) (cont w') k) ∨
     (step c k w = .term ∧ ((∃ i j, k = .assignCopy i j) ∧ c.nothrowMove = true ∨ (∃ i j, k = .assignMove i j) ∧ c.nothrowMove = false))))

theorem decl_of {w : W α} (hI : Inv w noT) {i : Nat} (h : cont w i ≠ none) :
    w.vars i = some ⟨false, none⟩ ∨ ∃ id v, w.vars i = some ⟨true, some (id, v)⟩ := by
  cases hv : w.vars i with
  | none => simp [cont, hv] at h
  | some o =>
    obtain ⟨b, st⟩ := o
    have := hI.flags i _ hv
    cases st with
    | none => left; simp at this; rw [this]
    | some x => right; obtain ⟨id, v⟩ := x; simp at this; exact ⟨id, v, by rw [this]⟩

theorem undecl_of {w : W α} {i : Nat} (h : cont w i = none) : w.vars i = none := by
  simpa [cont] using h

/-- Evaluates a command on a state whose relevant variables are known. -/
local macro "opt_eval" "[" hs:Lean.Parser.Tactic.simpLemma,* "]" : tactic =>
  `(tactic| simp [step, ctorEmpty, ctorValue, ctorCopy, ctorMove, reset, dtor, initial, Opt.assignCopy, Opt.assignMove, withTemp, Opt.assignValue,
    Opt.emplace, Opt.swap, M.noexcept, declare, ctorBody, construct, destruct, read, write, deref, setHas, setVar, hasValue, call, var, bind_eq,
    pure_eq, W.set, $hs,*])

/-- Compares contents of explicit states. -/
local macro "opt_cont" "[" hs:Lean.Parser.Tactic.simpLemma,* "]" : tactic =>
  `(tactic| (funext k; simp only [cont, Spec.step, upd]; split_ifs <;> simp_all [$hs,*]))

local macro "opt_vars" "[" hs:Lean.Parser.Tactic.simpLemma,* "]" : tactic =>
  `(tactic| (simp only [W.birth, W.death, W.set]; split_ifs <;> simp_all [$hs,*]))

theorem good_empty (c : Cls α) {w : W α} (hI : Inv w noT) {i : Nat} (h : cont w i = none) : Good c (.empty i) w := by
  have hv := undecl_of h
  left
  opt_eval [hv]
  refine ⟨?_, ?_⟩
  · exact hI.setEmpty (by simp [hv]) (.inr rfl)
  · opt_cont [hv]

theorem good_reset (c : Cls α) {w : W α} (hI : Inv w noT) {i : Nat} (h : cont w i ≠ none) : Good c (.assignNull i) w := by
  left
  rcases decl_of hI h with hv | ⟨id, v, hv⟩
  · opt_eval [hv]
    refine ⟨hI.setEmpty (by simp [hv]) (.inr rfl), ?_⟩
    opt_cont [hv]
  · opt_eval [hv]
    refine ⟨(hI.death hv (.inr rfl)).congr (fun j => ?_) rfl rfl, ?_⟩
    · opt_vars [hv]
    · opt_cont [hv]

theorem good_destroy (c : Cls α) {w : W α} (hI : Inv w noT) {i : Nat} (h : cont w i ≠ none) : Good c (.destroy i) w := by
  left
  rcases decl_of hI h with hv | ⟨id, v, hv⟩
  · opt_eval [hv]
    refine ⟨hI.setEmpty (by simp [hv]) (.inl rfl), ?_⟩
    opt_cont [hv]
  · opt_eval [hv]
    refine ⟨(hI.death hv (.inl rfl)).congr (fun j => ?_) rfl rfl, ?_⟩
    · opt_vars [hv]
    · opt_cont [hv]

theorem good_ofValue (c : Cls α) {w : W α} (hI : Inv w noT) {i : Nat} {v : α} (h : cont w i = none) : Good c (.ofValue i v) w := by
  have hv := undecl_of h
  cases ht : c.throws w.calls
  · left
    opt_eval [hv, ht]
    refine ⟨(hI.birth (i := i) (v := v) (by simp [hv]) (fun h => h)).congr (fun j => ?_) rfl rfl, ?_⟩
    · opt_vars [hv]
    · opt_cont [hv]
  · refine .inr ⟨⟨_, ht⟩, .inl ?_⟩
    opt_eval [hv, ht]
    refine ⟨hI.congr (fun j => ?_) rfl rfl, ?_⟩
    · opt_vars [hv]
    · simp only [AfterThrow]; opt_cont [hv]

theorem good_emplace (c : Cls α) {w : W α} (hI : Inv w noT) {i : Nat} {v : α} (h : cont w i ≠ none) : Good c (.emplace i v) w := by
  cases ht : c.throws w.calls
  · left
    rcases decl_of hI h with hv | ⟨id, u, hv⟩
    · opt_eval [hv, ht]
      refine ⟨(hI.birth (i := i) (v := v) (by simp [hv]) (fun h => h)).congr (fun j => ?_) rfl rfl, ?_⟩
      · opt_vars [hv]
      · opt_cont [hv]
    · opt_eval [hv, ht]
      refine ⟨((hI.death hv (.inr rfl)).birth (i := i) (v := v) (by simp [W.death, W.set]) (fun h => h)).congr (fun j => ?_) rfl (by simp [W.birth, W.death, W.set]), ?_⟩
      · opt_vars [hv]
      · opt_cont [hv]
  · refine .inr ⟨⟨_, ht⟩, .inl ?_⟩
    rcases decl_of hI h with hv | ⟨id, u, hv⟩
    · opt_eval [hv, ht]
      refine ⟨hI.congr (fun j => ?_) rfl rfl, ?_⟩
      · opt_vars [hv]
      · simp only [AfterThrow]; opt_cont [hv]
    · opt_eval [hv, ht]
      refine ⟨(hI.death hv (.inr rfl)).congr (fun j => ?_) rfl rfl, ?_⟩
      · opt_vars [hv]
      · simp only [AfterThrow]; opt_cont [hv]

theorem good_copy (c : Cls α) {w : W α} (hI : Inv w noT) {i j : Nat} (h : cont w i = none) (hj : cont w j ≠ none) : Good c (.copy i j) w := by
  have hv := undecl_of h
  have hij : j ≠ i := by rintro rfl; exact hj h
  rcases decl_of hI hj with hu | ⟨id, u, hu⟩
  · left
    opt_eval [hv, hu, hij]
    refine ⟨(hI.setEmpty (i := i) (x := some ⟨false, none⟩) (by simp [hv]) (.inr rfl)).congr (fun j => ?_) rfl rfl, ?_⟩
    · rfl
    · opt_cont [hv]
  · cases ht : c.throws w.calls
    · left
      opt_eval [hv, hu, hij, ht]
      refine ⟨(hI.birth (i := i) (v := u) (by simp [hv]) (fun h => h)).congr (fun j => ?_) rfl rfl, ?_⟩
      · opt_vars [hv]
      · opt_cont [hv]
    · refine .inr ⟨⟨_, ht⟩, .inl ?_⟩
      opt_eval [hv, hu, hij, ht]
      refine ⟨hI.congr (fun j => ?_) rfl rfl, ?_⟩
      · opt_vars [hv]
      · simp only [AfterThrow]; opt_cont [hv]

theorem good_move (c : Cls α) {w : W α} (hI : Inv w noT) {i j : Nat} (h : cont w i = none) (hj : cont w j ≠ none) : Good c (.move i j) w := by
  have hv := undecl_of h
  have hij : j ≠ i := by rintro rfl; exact hj h
  rcases decl_of hI hj with hu | ⟨id, u, hu⟩
  · left
    opt_eval [hv, hu, hij]
    refine ⟨(hI.setEmpty (i := i) (x := some ⟨false, none⟩) (by simp [hv]) (.inr rfl)).congr (fun j => ?_) rfl rfl, ?_⟩
    · rfl
    · opt_cont [hv]
  · have key := (hI.birth (i := i) (v := u) (by simp [hv]) (fun h => h)).setValue (i := j) (u := c.moved u) (by simp [W.birth, W.set, hij]; exact hu)
    cases hn : c.nothrowMove
    · cases ht : c.throws w.calls
      · left
        opt_eval [hv, hu, hij, ht, hn]
        refine ⟨key.congr (fun j => ?_) rfl rfl, ?_⟩
        · opt_vars [hv]
        · opt_cont [hv]
      · refine .inr ⟨⟨_, ht⟩, .inl ?_⟩
        opt_eval [hv, hu, hij, ht, hn]
        refine ⟨hI.congr (fun j => ?_) rfl rfl, ?_⟩
        · opt_vars [hv]
        · simp only [AfterThrow]; opt_cont [hv]
    · left
      opt_eval [hv, hu, hij, hn]
      refine ⟨key.congr (fun j => ?_) rfl rfl, ?_⟩
      · opt_vars [hv]
      · opt_cont [hv]

theorem good_assignValue (c : Cls α) {w : W α} (hI : Inv w noT) {i : Nat} {v : α} (h : cont w i ≠ none) : Good c (.assignValue i v) w := by
  rcases decl_of hI h with hv | ⟨id, u, hv⟩
  · have fin : ∀ n, Inv { (({ w with calls := n, next := w.next + 1, evs := w.evs ++ [Ev.cons w.next] } : W α).birth i v) with
        evs := w.evs ++ [Ev.cons w.next] ++ [Ev.cons (w.next + 1)] ++ [Ev.dest w.next] } noT := fun n =>
      ((((hI.tmpBirth).calls n).birth (i := i) (v := v) (by simp [hv]) (by simp)).tmpDeath)
    have fin' : Inv ({ w with next := w.next + 1, evs := w.evs ++ [Ev.cons w.next] ++ [Ev.dest w.next] } : W α) noT := (hI.tmpBirth).tmpDeath
    cases ht : c.throws w.calls
    · cases hn : c.nothrowMove
      · cases ht' : c.throws (w.calls + 1)
        · left
          opt_eval [hv, ht, ht', hn]
          refine ⟨(fin 0).congr (fun j => ?_) rfl (by simp), ?_⟩
          · opt_vars [hv]
          · opt_cont [hv]
        · refine .inr ⟨⟨_, ht'⟩, .inl ?_⟩
          opt_eval [hv, ht, ht', hn]
          refine ⟨fin'.congr (fun j => rfl) rfl (by simp), ?_⟩
          simp only [AfterThrow]; rfl
      · left
        opt_eval [hv, ht, hn]
        refine ⟨(fin 0).congr (fun j => ?_) rfl (by simp), ?_⟩
        · opt_vars [hv]
        · opt_cont [hv]
    · refine .inr ⟨⟨_, ht⟩, .inl ?_⟩
      opt_eval [hv, ht]
      refine ⟨hI.congr (fun j => rfl) rfl rfl, ?_⟩
      simp only [AfterThrow]; rfl
  · cases ht : c.throws w.calls
    · left
      opt_eval [hv, ht]
      refine ⟨(hI.setValue (u := v) hv).congr (fun j => ?_) rfl rfl, ?_⟩
      · rfl
      · opt_cont [hv]
    · refine .inr ⟨⟨_, ht⟩, .inl ?_⟩
      opt_eval [hv, ht]
      refine ⟨hI.congr (fun j => rfl) rfl rfl, ?_⟩
      simp only [AfterThrow]; rfl

theorem good_assignCopy (c : Cls α) {w : W α} (hI : Inv w noT) {i j : Nat} (h : cont w i ≠ none) (hj : cont w j ≠ none) :
    Good c (.assignCopy i j) w := by
  rcases decl_of hI h with hv | ⟨id, v, hv⟩ <;> rcases decl_of hI hj with hu | ⟨id', u, hu⟩
  · left
    opt_eval [hv, hu]
    exact ⟨hI, by opt_cont [hv]⟩
  · have hij : j ≠ i := by rintro rfl; rw [hv] at hu; cases hu
    cases ht : c.throws w.calls
    · left
      opt_eval [hv, hu, hij, ht]
      refine ⟨(hI.birth (i := i) (v := u) (by simp [hv]) (fun h => h)).congr (fun j => ?_) rfl rfl, ?_⟩
      · opt_vars [hv]
      · opt_cont [hv]
    · refine .inr ⟨⟨_, ht⟩, ?_⟩
      cases hn : c.nothrowMove
      · left
        opt_eval [hv, hu, hij, ht, hn]
        refine ⟨hI.congr (fun j => rfl) rfl rfl, ?_⟩
        simp only [AfterThrow]; rfl
      · right
        opt_eval [hv, hu, hij, ht, hn]
  · left
    opt_eval [hv, hu]
    refine ⟨(hI.death hv (.inr rfl)).congr (fun j => ?_) rfl rfl, ?_⟩
    · opt_vars [hv]
    · opt_cont [hv]
  · cases ht : c.throws w.calls
    · left
      opt_eval [hv, hu, ht]
      refine ⟨(hI.setValue (u := u) hv).congr (fun j => ?_) rfl rfl, ?_⟩
      · rfl
      · opt_cont [hv]
    · refine .inr ⟨⟨_, ht⟩, ?_⟩
      cases hn : c.nothrowMove
      · left
        opt_eval [hv, hu, ht, hn]
        refine ⟨hI.congr (fun j => rfl) rfl rfl, ?_⟩
        simp only [AfterThrow]; rfl
      · right
        opt_eval [hv, hu, ht, hn]

theorem good_assignMove (c : Cls α) {w : W α} (hI : Inv w noT) {i j : Nat} (h : cont w i ≠ none) (hj : cont w j ≠ none) :
    Good c (.assignMove i j) w := by
  rcases decl_of hI h with hv | ⟨id, v, hv⟩ <;> rcases decl_of hI hj with hu | ⟨id', u, hu⟩
  · left
    opt_eval [hv, hu]
    exact ⟨hI, by opt_cont [hv]⟩
  · have hij : j ≠ i := by rintro rfl; rw [hv] at hu; cases hu
    have key := (hI.birth (i := i) (v := u) (by simp [hv]) (fun h => h)).setValue (i := j) (u := c.moved u) (by simp [W.birth, W.set, hij]; exact hu)
    cases hn : c.nothrowMove
    · cases ht : c.throws w.calls
      · left
        opt_eval [hv, hu, hij, ht, hn]
        refine ⟨key.congr (fun j => ?_) rfl rfl, ?_⟩
        · opt_vars [hv]
        · opt_cont [hv]
      · refine .inr ⟨⟨_, ht⟩, .inr ?_⟩
        opt_eval [hv, hu, hij, ht, hn]
    · left
      opt_eval [hv, hu, hij, hn]
      refine ⟨key.congr (fun j => ?_) rfl rfl, ?_⟩
      · opt_vars [hv]
      · opt_cont [hv]
  · have hij : j ≠ i := by rintro rfl; rw [hv] at hu; cases hu
    left
    opt_eval [hv, hu]
    refine ⟨(hI.death hv (.inr rfl)).congr (fun j => ?_) rfl rfl, ?_⟩
    · opt_vars [hv]
    · opt_cont [hv]
  · by_cases hij : j = i
    · subst hij
      rw [hv] at hu
      obtain ⟨rfl, rfl⟩ : id = id' ∧ v = u := by simpa using hu
      have key := hI.setValue (u := c.moved v) hv
      cases hn : c.nothrowMove
      · cases ht : c.throws w.calls
        · left
          opt_eval [hv, ht, hn]
          refine ⟨key.congr (fun j => ?_) rfl rfl, ?_⟩
          · opt_vars [hv]
          · opt_cont [hv]
        · refine .inr ⟨⟨_, ht⟩, .inr ?_⟩
          opt_eval [hv, ht, hn]
      · left
        opt_eval [hv, hn]
        refine ⟨key.congr (fun j => ?_) rfl rfl, ?_⟩
        · opt_vars [hv]
        · opt_cont [hv]
    · have key := (hI.setValue (u := u) hv).setValue (i := j) (u := c.moved u) (by simp [W.set, hij]; exact hu)
      cases hn : c.nothrowMove
      · cases ht : c.throws w.calls
        · left
          opt_eval [hv, hu, hij, ht, hn]
          refine ⟨key.congr (fun j => ?_) rfl rfl, ?_⟩
          · rfl
          · opt_cont [hv]
        · refine .inr ⟨⟨_, ht⟩, .inr ?_⟩
          opt_eval [hv, hu, ht, hn]
      · left
        opt_eval [hv, hu, hij, hn]
        refine ⟨key.congr (fun j => ?_) rfl rfl, ?_⟩
        · rfl
        · opt_cont [hv]

theorem good_swap (c : Cls α) {w : W α} (hI : Inv w noT) {i j : Nat} (h : cont w i ≠ none) (hj : cont w j ≠ none) :
    Good c (.swap i j) w := by
  rcases decl_of hI h with hv | ⟨id, v, hv⟩ <;> rcases decl_of hI hj with hu | ⟨id', u, hu⟩
  · left
    opt_eval [hv, hu]
    exact ⟨hI, by opt_cont [hv]⟩
  · have hij : j ≠ i := by rintro rfl; rw [hv] at hu; cases hu
    have hji : i ≠ j := fun h => hij h.symm
    have key := ((hI.birth (i := i) (v := u) (by simp [hv]) (fun h => h)).setValue (i := j) (u := c.moved u)
      (by simp [W.birth, W.set, hij]; exact hu)).death (i := j) (x := some ⟨false, none⟩) (by simp [W.set]; exact ⟨rfl, rfl⟩) (.inr rfl)
    cases hn : c.nothrowMove
    · cases ht : c.throws w.calls
      · left
        opt_eval [hv, hu, hij, hji, ht, hn]
        refine ⟨key.congr (fun j => ?_) rfl (by simp [W.birth, W.death, W.set]), ?_⟩
        · opt_vars [hv]
        · opt_cont [hv]
      · refine .inr ⟨⟨_, ht⟩, .inl ?_⟩
        opt_eval [hv, hu, hij, hji, ht, hn]
        refine ⟨hI.congr (fun j => rfl) rfl rfl, ?_⟩
        exact ⟨fun _ _ _ => rfl, fun _ => rfl⟩
    · left
      opt_eval [hv, hu, hij, hji, hn]
      refine ⟨key.congr (fun j => ?_) rfl (by simp [W.birth, W.death, W.set]), ?_⟩
      · opt_vars [hv]
      · opt_cont [hv]
  · have hij : j ≠ i := by rintro rfl; rw [hv] at hu; cases hu
    have hji : i ≠ j := fun h => hij h.symm
    have key := ((hI.birth (i := j) (v := v) (by simp [hu]) (fun h => h)).setValue (i := i) (u := c.moved v)
      (by simp [W.birth, W.set, hji]; exact hv)).death (i := i) (x := some ⟨false, none⟩) (by simp [W.set]; exact ⟨rfl, rfl⟩) (.inr rfl)
    cases hn : c.nothrowMove
    · cases ht : c.throws w.calls
      · left
        opt_eval [hv, hu, hij, hji, ht, hn]
        refine ⟨key.congr (fun j => ?_) rfl (by simp [W.birth, W.death, W.set]), ?_⟩
        · opt_vars [hv]
        · opt_cont [hv]
      · refine .inr ⟨⟨_, ht⟩, .inl ?_⟩
        opt_eval [hv, hu, hij, hji, ht, hn]
        refine ⟨hI.congr (fun j => rfl) rfl rfl, ?_⟩
        exact ⟨fun _ _ _ => rfl, fun _ => rfl⟩
    · left
      opt_eval [hv, hu, hij, hji, hn]
      refine ⟨key.congr (fun j => ?_) rfl (by simp [W.birth, W.death, W.set]), ?_⟩
      · opt_vars [hv]
      · opt_cont [hv]
  · by_cases hij : j = i
    · subst hij
      rw [hv] at hu
      obtain ⟨rfl, rfl⟩ : id = id' ∧ v = u := by simpa using hu
      have key : ∀ x, Inv { ({ w with next := w.next + 1, evs := w.evs ++ [Ev.cons w.next] } : W α).set j (some ⟨true, some (id, x)⟩) with
        evs := w.evs ++ [Ev.cons w.next] ++ [Ev.dest w.next] } noT := fun x => (hI.tmpBirth.setValue (u := x) hv).tmpDeath
      cases hn : c.nothrowMove
      · cases ht : c.throws w.calls
        · cases ht1 : c.throws (w.calls + 1)
          · cases ht2 : c.throws (w.calls + 1 + 1)
            · left
              opt_eval [hv, ht, ht1, ht2, hn]
              refine ⟨(key v).congr (fun j => ?_) rfl (by simp), ?_⟩
              · opt_vars [hv]
              · opt_cont [hv]
            · refine .inr ⟨⟨_, ht2⟩, .inl ?_⟩
              opt_eval [hv, ht, ht1, ht2, hn]
              refine ⟨(key (c.moved (c.moved v))).congr (fun j => ?_) rfl (by simp), ?_⟩
              · opt_vars [hv]
              · refine ⟨fun k h1 h2 => ?_, fun k => ?_⟩
                · simp [cont, h1]
                · simp only [cont]; split_ifs <;> simp_all
          · refine .inr ⟨⟨_, ht1⟩, .inl ?_⟩
            opt_eval [hv, ht, ht1, hn]
            refine ⟨(key (c.moved v)).congr (fun j => ?_) rfl (by simp), ?_⟩
            · rfl
            · refine ⟨fun k h1 h2 => ?_, fun k => ?_⟩
              · simp [cont, h1]
              · simp only [cont]; split_ifs <;> simp_all
        · refine .inr ⟨⟨_, ht⟩, .inl ?_⟩
          opt_eval [hv, ht, hn]
          refine ⟨hI.congr (fun j => rfl) rfl rfl, ?_⟩
          exact ⟨fun _ _ _ => rfl, fun _ => rfl⟩
      · left
        opt_eval [hv, hn]
        refine ⟨(key v).congr (fun j => ?_) rfl (by simp), ?_⟩
        · opt_vars [hv]
        · opt_cont [hv]
    · have hji : i ≠ j := fun h => hij h.symm
      have key : ∀ x y, Inv { (({ w with next := w.next + 1, evs := w.evs ++ [Ev.cons w.next] } : W α).set i (some ⟨true, some (id, x)⟩)).set j
          (some ⟨true, some (id', y)⟩) with
        evs := w.evs ++ [Ev.cons w.next] ++ [Ev.dest w.next] } noT := fun x y =>
        ((hI.tmpBirth.setValue (u := x) hv).setValue (i := j) (u := y) (by simp [W.set, hij]; exact hu)).tmpDeath
      cases hn : c.nothrowMove
      · cases ht : c.throws w.calls
        · cases ht1 : c.throws (w.calls + 1)
          · cases ht2 : c.throws (w.calls + 1 + 1)
            · left
              opt_eval [hv, hu, hij, hji, ht, ht1, ht2, hn]
              refine ⟨(key u v).congr (fun j => ?_) rfl (by simp), ?_⟩
              · opt_vars [hv]
              · opt_cont [hv]
            · refine .inr ⟨⟨_, ht2⟩, .inl ?_⟩
              opt_eval [hv, hu, hij, hji, ht, ht1, ht2, hn]
              refine ⟨(key u (c.moved u)).congr (fun j => ?_) rfl (by simp), ?_⟩
              · opt_vars [hv]
              · refine ⟨fun k h1 h2 => ?_, fun k => ?_⟩
                · simp [cont, h1, h2]
                · simp only [cont]; split_ifs <;> simp_all
          · refine .inr ⟨⟨_, ht1⟩, .inl ?_⟩
            opt_eval [hv, hu, hij, hji, ht, ht1, hn]
            refine ⟨(key (c.moved v) u).congr (fun j => ?_) rfl (by simp), ?_⟩
            · opt_vars [hv]
            · refine ⟨fun k h1 h2 => ?_, fun k => ?_⟩
              · simp [cont, h1]
              · simp only [cont]; split_ifs <;> simp_all
        · refine .inr ⟨⟨_, ht⟩, .inl ?_⟩
          opt_eval [hv, hu, ht, hn]
          refine ⟨hI.congr (fun j => rfl) rfl rfl, ?_⟩
          exact ⟨fun _ _ _ => rfl, fun _ => rfl⟩
      · left
        opt_eval [hv, hu, hij, hji, hn]
        refine ⟨(key u v).congr (fun j => ?_) rfl (by simp), ?_⟩
        · opt_vars [hv]
        · opt_cont [hv]

theorem good_step (c : Cls α) {w : W α} (hI : Inv w noT) {k : Cmd α} (h : Legal (cont w) k) : Good c k w := by
  cases k with
  | empty i => exact good_empty c hI h
  | ofValue i v => exact good_ofValue c hI h
  | copy i j => exact good_copy c hI h.1 h.2
  | move i j => exact good_move c hI h.1 h.2
  | assignNull i => exact good_reset c hI h
  | assignCopy i j => exact good_assignCopy c hI h.1 h.2
  | assignMove i j => exact good_assignMove c hI h.1 h.2
  | assignValue i v => exact good_assignValue c hI h
  | emplace i v => exact good_emplace c hI h
  | swap i j => exact good_swap c hI h.1 h.2
  | destroy i => exact good_destroy c hI h

theorem inv_run (c : Cls α) {w : W α} (hI : Inv w noT) (ks : List (Cmd α)) (h : LegalRun c w ks) :
    run c w ks ≠ .inl false ∧ ∀ w' ts, run c w ks = .inr (w', ts) → Inv w' noT := by
  induction ks generalizing w with
  | nil =>
    refine ⟨by simp [run], ?_⟩
    intro w' ts e
    simp [run] at e
    rw [← e.1]; exact hI
  | cons k ks ih =>
    obtain ⟨hk, hs⟩ := h
    rcases good_step c hI hk with ⟨w1, e, h1, -⟩ | ⟨-, ⟨w1, e, h1, -⟩ | ⟨e, -⟩⟩
    · rw [e] at hs
      obtain ⟨i1, i2⟩ := ih h1 hs
      simp only [run, e]
      cases hr : run c w1 ks with
      | inl b => rw [hr] at i1; exact ⟨i1, by simp⟩
      | inr x =>
        obtain ⟨w2, ts2⟩ := x
        refine ⟨by simp, ?_⟩
        intro w' ts e2
        simp at e2
        rw [← e2.1]; exact i2 _ _ hr
    · rw [e] at hs
      obtain ⟨i1, i2⟩ := ih h1 hs
      simp only [run, e]
      cases hr : run c w1 ks with
      | inl b => rw [hr] at i1; exact ⟨i1, by simp⟩
      | inr x =>
        obtain ⟨w2, ts2⟩ := x
        refine ⟨by simp, ?_⟩
        intro w' ts e2
        simp at e2
        rw [← e2.1]; exact i2 _ _ hr
    · simp [run, e]

theorem life_count (es : List Ev) (f g : Life) (h : life es f = some g) (id : Nat) :
    (f id = none → es.count (.cons id) = (if g id = none then 0 else 1) ∧ es.count (.dest id) = (if g id = some false then 1 else 0)) ∧
    (f id = some true → es.count (.cons id) = 0 ∧ es.count (.dest id) = (if g id = some false then 1 else 0) ∧ g id ≠ none) ∧
    (f id = some false → es.count (.cons id) = 0 ∧ es.count (.dest id) = 0 ∧ g id = some false) := by
  induction es generalizing f with
  | nil =>
    simp only [life, Option.some.injEq] at h
    subst h
    refine ⟨?_, ?_, ?_⟩ <;> intro h <;> simp [h]
  | cons e es ih =>
    cases e with
    | cons n =>
      simp only [life] at h
      split at h
      · rename_i hn
        obtain ⟨h1, h2, h3⟩ := ih _ h
        by_cases hi : id = n
        · subst hi
          simp only [if_true] at h2
          obtain ⟨a, b, c⟩ := h2 trivial
          simp [hn, a, b, c]
        · have hi' : ¬ n = id := fun e => hi e.symm
          simp only [hi, if_false] at h1 h2 h3
          simpa [List.count_cons, hi'] using ⟨h1, h2, h3⟩
      · cases h
    | dest n =>
      simp only [life] at h
      split at h
      · rename_i hn
        obtain ⟨h1, h2, h3⟩ := ih _ h
        by_cases hi : id = n
        · subst hi
          simp only [if_true] at h3
          obtain ⟨a, b, c⟩ := h3 trivial
          simp [hn, a, b, c]
        · have hi' : ¬ n = id := fun e => hi e.symm
          simp only [hi, if_false] at h1 h2 h3
          simpa [List.count_cons, hi'] using ⟨h1, h2, h3⟩
      · cases h

end Nanostl.Opt

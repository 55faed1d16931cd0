import Verif.UPtr.Model
import Mathlib.Tactic.Common

/-!
C37, C38: every object handed to a `unique_ptr` is deleted exactly once, by the deleter it was handed over with.
-/

namespace Nanostl.UPtr

variable {D : Type}

/-! ### Specification -/

namespace Spec

/-- What may happen to an object. -/
inductive Status (D : Type) where
  | absent
  /-- in the hands of the program: allocated or released -/
  | held
  /-- handed over, to be deleted with `d` -/
  | owned (d : D)
  | deleted (d : D)

/-- Variables with the object they own (0: none) and their deleter; objects with their status. -/
structure Sp (D : Type) where
  slot : Nat → Option (Nat × D)
  status : Nat → Status D

def Sp.setSlot (s : Sp D) (i : Nat) (v : Option (Nat × D)) : Sp D := { s with slot := fun j => if j = i then v else s.slot j }

def Sp.setStatus (s : Sp D) (o : Nat) (v : Status D) : Sp D := if o = 0 then s else { s with status := fun q => if q = o then v else s.status q }

/-- The variable lets go of its object, which is deleted. -/
def Sp.drop (s : Sp D) (i : Nat) : Sp D := match s.slot i with
  | none => s
  | some (o, d) => s.setStatus o (.deleted d)

/-- Effect of a command according to the C++ standard. -/
def step (s : Sp D) : Cmd D → Sp D
  | .alloc o => s.setStatus o .held
  | .make i o d => (s.setSlot i (some (o, d))).setStatus o (.owned d)
  | .moveCtor i j => match s.slot j with
    | none => s
    | some (o, d) => (s.setSlot j (some (0, d))).setSlot i (some (o, d))
  | .moveAssign i j => if i = j then s else match s.slot j with
    | none => s
    | some (o, d) => ((s.drop i).setSlot j (some (0, d))).setSlot i (some (o, d))
  | .reset i o => match s.slot i with
    | none => s
    | some (_, d) => ((s.drop i).setSlot i (some (o, d))).setStatus o (.owned d)
  | .assignNull i => match s.slot i with
    | none => s
    | some (_, d) => (s.drop i).setSlot i (some (0, d))
  | .release i => match s.slot i with
    | none => s
    | some (o, d) => (s.setSlot i (some (0, d))).setStatus o .held
  | .swap i j => { s with slot := fun k => if k = i then s.slot j else if k = j then s.slot i else s.slot k }
  | .destroy i => (s.drop i).setSlot i none

/-- What the program must respect: variables are declared before use, only objects in the program's hands are handed over, addresses of
new objects are not reused (objects are told apart by address). -/
def Legal (s : Sp D) : Cmd D → Prop
  | .alloc o => o ≠ 0 ∧ s.status o = .absent
  | .make i o _ => s.slot i = none ∧ (o = 0 ∨ s.status o = .held)
  | .moveCtor i j => s.slot i = none ∧ s.slot j ≠ none
  | .moveAssign i j => s.slot i ≠ none ∧ s.slot j ≠ none
  | .reset i o => s.slot i ≠ none ∧ (o = 0 ∨ s.status o = .held)
  | .assignNull i => s.slot i ≠ none
  | .release i => s.slot i ≠ none
  | .swap i j => s.slot i ≠ none ∧ s.slot j ≠ none
  | .destroy i => s.slot i ≠ none

def LegalRun : Sp D → List (Cmd D) → Prop
  | _, [] => True
  | s, c :: cs => Legal s c ∧ LegalRun (step s c) cs

def run (s : Sp D) (cs : List (Cmd D)) : Sp D := cs.foldl step s

def init : Sp D := ⟨fun _ => none, fun _ => .absent⟩

/-- The deleter with which object `o` was last handed over in a history: that given to the constructor, or that stored in the variable
at the time of `reset`. -/
def handed (o : Nat) : Sp D → List (Cmd D) → Option D → Option D
  | _, [], h => h
  | s, c :: cs, h => handed o (step s c) cs (match c with
    | .make _ p d => if p = o then some d else h
    | .reset i p => if p = o then (s.slot i).map Prod.snd else h
    | _ => h)

end Spec

open Spec

/-! ### Invariant -/

structure Inv (s : St D) (sp : Sp D) : Prop where
  vars : ∀ i, s.vars i = (sp.slot i).map fun x => ⟨x.1, x.2⟩
  alive : ∀ o, s.alive o = true ↔ sp.status o = .held ∨ ∃ d, sp.status o = .owned d
  log : ∀ o d, (∃ e, sp.status o = .deleted e) ∨ (o, d) ∉ s.log
  log1 : ∀ o d, sp.status o = .deleted d → s.log.filter (fun x => x.1 == o) = [(o, d)]
  own : ∀ o d, sp.status o = .owned d ↔ o ≠ 0 ∧ ∃ i, sp.slot i = some (o, d)
  inj : ∀ i j o d e, o ≠ 0 → sp.slot i = some (o, d) → sp.slot j = some (o, e) → i = j
  zero : sp.status 0 = .absent

theorem inv_init : Inv (init : St D) Spec.init where
  vars _ := rfl
  alive _ := by simp [init, Spec.init]
  log _ _ := .inr (by simp [init])
  log1 _ _ h := by cases h
  own _ _ := by simp [Spec.init]
  inj _ _ _ _ _ _ h := by cases h
  zero := rfl

theorem Inv.slot {s : St D} {sp : Sp D} (h : Inv s sp) {i : Nat} (hi : sp.slot i ≠ none) :
    ∃ o d, sp.slot i = some (o, d) ∧ s.vars i = some ⟨o, d⟩ := by
  cases e : sp.slot i with
  | none => exact absurd e hi
  | some x => exact ⟨x.1, x.2, rfl, by rw [h.vars, e]; rfl⟩

/-- A state that differs in the slots only. -/
theorem vars_setVar {s : St D} {sp : Sp D} (h : ∀ i, s.vars i = (sp.slot i).map fun x => (⟨x.1, x.2⟩ : UP D)) (i o : Nat) (d : D) (k : Nat) :
    (s.setVar i (some ⟨o, d⟩)).vars k = ((sp.setSlot i (some (o, d))).slot k).map fun x => ⟨x.1, x.2⟩ := by
  unfold St.setVar Sp.setSlot
  by_cases hk : k = i
  · simp [hk]
  · simp [hk, h k]

theorem slot_setStatus (sp : Sp D) (o : Nat) (v : Status D) : (sp.setStatus o v).slot = sp.slot := by
  unfold Sp.setStatus; split <;> rfl

theorem slot_drop (sp : Sp D) (i : Nat) : (sp.drop i).slot = sp.slot := by
  unfold Sp.drop
  split
  · rfl
  · exact slot_setStatus _ _ _

theorem status_setSlot (sp : Sp D) (i : Nat) (v : Option (Nat × D)) : (sp.setSlot i v).status = sp.status := rfl

theorem inv_alloc {s : St D} {sp : Sp D} (h : Inv s sp) {o : Nat} (ho : o ≠ 0) (ha : sp.status o = .absent) :
    Inv { s with alive := fun q => if q = o then true else s.alive q } (sp.setStatus o .held) := by
  unfold Sp.setStatus
  rw [if_neg ho]
  refine ⟨h.vars, ?_, ?_, ?_, ?_, h.inj, ?_⟩
  · intro q
    by_cases hq : q = o
    · simp [hq]
    · simp [hq, h.alive q]
  · intro q d
    by_cases hq : q = o
    · refine .inr ?_
      subst hq
      rcases h.log q d with ⟨e, he⟩ | hn
      · rw [ha] at he; cases he
      · exact hn
    · simp only [hq, if_false]; exact h.log q d
  · intro q d hd
    by_cases hq : q = o
    · simp [hq] at hd
    · simp only [hq, if_false] at hd; exact h.log1 q d hd
  · intro q d
    by_cases hq : q = o
    · subst hq
      simp only [if_true]
      constructor
      · intro hc; cases hc
      · intro hc
        have := (h.own q d).2 hc
        rw [ha] at this; cases this
    · simp only [hq, if_false]; exact h.own q d
  · simp only [Ne.symm ho, if_false]; exact h.zero

/-- Handing an object in the program's hands (or nothing) to a variable that is new or owns nothing. -/
theorem inv_hand {s : St D} {sp : Sp D} (h : Inv s sp) {i o : Nat} {d : D} (hi : sp.slot i = none ∨ ∃ e, sp.slot i = some (0, e))
    (ho : o = 0 ∨ sp.status o = .held) :
    Inv (s.setVar i (some ⟨o, d⟩)) ((sp.setSlot i (some (o, d))).setStatus o (.owned d)) := by
  have hne : ∀ q e, q ≠ 0 → sp.slot i ≠ some (q, e) := by
    intro q e hq hc
    rcases hi with hi | ⟨e', hi⟩ <;> rw [hi] at hc
    · cases hc
    · injection hc with hc; injection hc with hc; exact hq hc.symm
  have hnot : o ≠ 0 → ∀ j e, sp.slot j ≠ some (o, e) := by
    intro h0 j e hc
    have := (h.own o e).2 ⟨h0, j, hc⟩
    rcases ho with ho | ho
    · exact h0 ho
    · rw [ho] at this; cases this
  have hst : ∀ q, ((sp.setSlot i (some (o, d))).setStatus o (.owned d)).status q =
      if q = o ∧ o ≠ 0 then .owned d else sp.status q := by
    intro q
    unfold Sp.setStatus
    by_cases h0 : o = 0
    · simp [h0, status_setSlot]
    · simp [h0, status_setSlot]
  have hsl : ∀ k, ((sp.setSlot i (some (o, d))).setStatus o (.owned d)).slot k = if k = i then some (o, d) else sp.slot k := by
    intro k; rw [slot_setStatus]; rfl
  have hheld : ∀ q, q = o ∧ o ≠ 0 → sp.status q = .held := by
    rintro q ⟨rfl, h0⟩
    exact ho.resolve_left h0
  refine ⟨?_, ?_, ?_, ?_, ?_, ?_, ?_⟩
  · intro k; rw [slot_setStatus]; exact vars_setVar h.vars i o d k
  · intro q
    rw [hst]
    show s.alive q = true ↔ _
    rw [h.alive q]
    split
    · rename_i hq; simp [hheld q hq]
    · rfl
  · intro q e
    rw [hst]
    split
    · rename_i hq
      rcases h.log q e with ⟨e', he⟩ | hn
      · rw [hheld q hq] at he; cases he
      · exact .inr hn
    · exact h.log q e
  · intro q e hd
    rw [hst] at hd
    split at hd
    · cases hd
    · exact h.log1 q e hd
  · intro q e
    rw [hst]
    simp only [hsl]
    split
    · rename_i hq
      obtain ⟨rfl, h0⟩ := hq
      constructor
      · intro hc
        injection hc with hc
        subst hc
        exact ⟨h0, i, by simp⟩
      · rintro ⟨_, j, hj⟩
        split at hj
        · injection hj with hj; injection hj with _ hj; rw [hj]
        · exact absurd hj (hnot h0 j e)
    · rename_i hq
      rw [h.own q e]
      constructor
      · rintro ⟨h0, j, hj⟩
        refine ⟨h0, j, ?_⟩
        rw [if_neg]
        · exact hj
        · rintro rfl; exact hne q e h0 hj
      · rintro ⟨h0, j, hj⟩
        refine ⟨h0, j, ?_⟩
        split at hj
        · injection hj with hj; injection hj with hj _
          exact absurd ⟨hj.symm, by rw [hj]; exact h0⟩ hq
        · exact hj
  · intro j k q e f h0 hj hk
    rw [hsl] at hj hk
    by_cases h1 : j = i <;> by_cases h2 : k = i
    · rw [h1, h2]
    · simp only [h1, h2, if_true, if_false] at hj hk
      injection hj with hj; injection hj with hj _; subst hj
      exact absurd hk (hnot h0 k f)
    · simp only [h1, h2, if_true, if_false] at hj hk
      injection hk with hk; injection hk with hk _; subst hk
      exact absurd hj (hnot h0 j e)
    · simp only [h1, h2, if_false] at hj hk
      exact h.inj j k q e f h0 hj hk
  · rw [hst, if_neg]
    · exact h.zero
    · rintro ⟨rfl, h0⟩; exact h0 rfl

/-- Releasing. -/
theorem inv_release {s : St D} {sp : Sp D} (h : Inv s sp) {i o : Nat} {d : D} (hi : sp.slot i = some (o, d)) :
    Inv (s.setVar i (some ⟨0, d⟩)) ((sp.setSlot i (some (0, d))).setStatus o .held) := by
  have hst : ∀ q, ((sp.setSlot i (some (0, d))).setStatus o .held).status q =
      if q = o ∧ o ≠ 0 then .held else sp.status q := by
    intro q
    unfold Sp.setStatus
    by_cases h0 : o = 0
    · simp [h0, status_setSlot]
    · simp [h0, status_setSlot]
  have hsl : ∀ k, ((sp.setSlot i (some (0, d))).setStatus o .held).slot k = if k = i then some (0, d) else sp.slot k := by
    intro k; rw [slot_setStatus]; rfl
  have howned : ∀ q, q = o ∧ o ≠ 0 → sp.status q = .owned d := by
    rintro q ⟨rfl, h0⟩
    exact (h.own q d).2 ⟨h0, i, hi⟩
  refine ⟨?_, ?_, ?_, ?_, ?_, ?_, ?_⟩
  · intro k; rw [slot_setStatus]; exact vars_setVar h.vars i 0 d k
  · intro q
    rw [hst]
    show s.alive q = true ↔ _
    rw [h.alive q]
    split
    · rename_i hq; simp [howned q hq]
    · rfl
  · intro q e
    rw [hst]
    split
    · rename_i hq
      rcases h.log q e with ⟨e', he⟩ | hn
      · rw [howned q hq] at he; cases he
      · exact .inr hn
    · exact h.log q e
  · intro q e hd
    rw [hst] at hd
    split at hd
    · cases hd
    · exact h.log1 q e hd
  · intro q e
    rw [hst]
    simp only [hsl]
    split
    · rename_i hq
      obtain ⟨rfl, h0⟩ := hq
      constructor
      · intro hc; cases hc
      · rintro ⟨_, j, hj⟩
        split at hj
        · injection hj with hj; injection hj with hj _; exact absurd hj.symm h0
        · rename_i hji
          exact absurd (h.inj j i q e d h0 hj hi) hji
    · rename_i hq
      rw [h.own q e]
      constructor
      · rintro ⟨h0, j, hj⟩
        refine ⟨h0, j, ?_⟩
        rw [if_neg]
        · exact hj
        · rintro rfl
          rw [hi] at hj
          injection hj with hj; injection hj with hj _
          exact hq ⟨hj.symm, by rw [hj]; exact h0⟩
      · rintro ⟨h0, j, hj⟩
        refine ⟨h0, j, ?_⟩
        split at hj
        · injection hj with hj; injection hj with hj _
          exact absurd hj.symm h0
        · exact hj
  · intro j k q e f h0 hj hk
    rw [hsl] at hj hk
    split at hj
    · injection hj with hj; injection hj with hj _; exact absurd hj.symm h0
    · split at hk
      · injection hk with hk; injection hk with hk _; exact absurd hk.symm h0
      · exact h.inj j k q e f h0 hj hk
  · rw [hst, if_neg]
    · exact h.zero
    · rintro ⟨rfl, h0⟩; exact h0 rfl

/-- The owned object of variable `i` is deleted and the variable left without object: a release followed by the deleter's call. -/
theorem inv_delete {s : St D} {sp : Sp D} (h : Inv s sp) {o : Nat} {d : D} (ho : sp.status o = .held) :
    ∃ s', callDel s d o = some s' ∧ Inv s' (sp.setStatus o (.deleted d)) ∧ s'.vars = s.vars := by
  have h0 : o ≠ 0 := by rintro rfl; rw [h.zero] at ho; cases ho
  have hal : s.alive o = true := (h.alive o).2 (.inl ho)
  have hnl : ∀ d, (o, d) ∉ s.log := by
    intro d
    rcases h.log o d with ⟨e, he⟩ | hn
    · rw [ho] at he; cases he
    · exact hn
  refine ⟨{ s with alive := fun q => if q = o then false else s.alive q, log := s.log ++ [(o, d)] },
    by unfold callDel; rw [if_pos hal], ?_, rfl⟩
  unfold Sp.setStatus
  rw [if_neg h0]
  refine ⟨h.vars, ?_, ?_, ?_, ?_, h.inj, ?_⟩
  · intro q
    by_cases hq : q = o
    · simp [hq]
    · simp [hq, h.alive q]
  · intro q e
    by_cases hq : q = o
    · exact .inl ⟨d, by simp [hq]⟩
    · simp only [hq, if_false]
      rcases h.log q e with hl | hl
      · exact .inl hl
      · refine .inr ?_
        simp [hl, hq]
  · intro q e hd
    rw [List.filter_append]
    by_cases hq : q = o
    · subst hq
      simp only [if_true] at hd
      injection hd with hd
      subst hd
      have : s.log.filter (fun x => x.1 == q) = [] := by
        rw [List.filter_eq_nil_iff]
        rintro ⟨a, b⟩ hab hc
        simp only [beq_iff_eq] at hc
        subst hc
        exact hnl b hab
      simp [this]
    · simp only [hq, if_false] at hd
      rw [h.log1 q e hd]
      simp [Ne.symm hq]
  · intro q e
    by_cases hq : q = o
    · subst hq
      simp only [if_true]
      constructor
      · intro hc; cases hc
      · intro hc
        have := (h.own q e).2 hc
        rw [ho] at this; cases this
    · simp only [hq, if_false]; exact h.own q e
  · simp only [Ne.symm h0, if_false]; exact h.zero

theorem setStatus_setStatus (sp : Sp D) (o : Nat) (v w : Status D) : (sp.setStatus o v).setStatus o w = sp.setStatus o w := by
  unfold Sp.setStatus
  by_cases h0 : o = 0
  · simp [h0]
  · simp only [h0, if_false]
    congr 1
    funext q
    by_cases hq : q = o <;> simp [hq]

theorem setSlot_setStatus (sp : Sp D) (i o : Nat) (u : Option (Nat × D)) (v : Status D) :
    (sp.setStatus o v).setSlot i u = (sp.setSlot i u).setStatus o v := by
  unfold Sp.setStatus
  by_cases h0 : o = 0
  · simp [h0]
  · simp only [h0, if_false]; rfl

theorem setSlot_setSlot (sp : Sp D) (i : Nat) (u v : Option (Nat × D)) : (sp.setSlot i u).setSlot i v = sp.setSlot i v := by
  unfold Sp.setSlot
  congr 1
  funext q
  by_cases hq : q = i <;> simp [hq]

theorem setVar_setVar (s : St D) (i : Nat) (u v : Option (UP D)) : (s.setVar i u).setVar i v = s.setVar i v := by
  unfold St.setVar
  congr 1
  funext q
  by_cases hq : q = i <;> simp [hq]

theorem setStatus_comm (sp : Sp D) {o p : Nat} (h : o ≠ p) (v w : Status D) :
    (sp.setStatus o v).setStatus p w = (sp.setStatus p w).setStatus o v := by
  unfold Sp.setStatus
  by_cases h0 : o = 0 <;> by_cases h1 : p = 0 <;> simp only [h0, h1, if_true, if_false]
  congr 1
  funext q
  by_cases hq : q = o
  · subst hq; simp [h]
  · simp [hq]

theorem callDel_setVar (s : St D) (i : Nat) (u : Option (UP D)) (d : D) (p : Nat) :
    callDel (s.setVar i u) d p = (callDel s d p).map (·.setVar i u) := by
  unfold callDel
  show (if s.alive p = true then _ else _) = _
  split <;> rfl

/-- `reset`. -/
theorem inv_reset {s : St D} {sp : Sp D} (h : Inv s sp) {i o t : Nat} {d : D} (hi : sp.slot i = some (t, d))
    (ho : o = 0 ∨ sp.status o = .held) :
    ∃ s', reset s i o = some s' ∧ Inv s' (((sp.setStatus t (.deleted d)).setSlot i (some (o, d))).setStatus o (.owned d)) := by
  have hv : s.vars i = some ⟨t, d⟩ := by rw [h.vars, hi]; rfl
  have hto : o = 0 ∨ o ≠ t := by
    rcases ho with ho | ho
    · exact .inl ho
    · by_cases h0 : o = 0
      · exact .inl h0
      · refine .inr ?_
        rintro rfl
        have := (h.own o d).2 ⟨h0, i, hi⟩
        rw [ho] at this; cases this
  unfold reset
  rw [hv]
  by_cases ht : t = 0
  · subst ht
    refine ⟨_, by simp; rfl, ?_⟩
    have e : sp.setStatus 0 (.deleted d) = sp := by unfold Sp.setStatus; simp
    rw [e]
    exact inv_hand h (.inr ⟨d, hi⟩) ho
  · /- release t, delete it, then hand over o -/
    have h1 := inv_release h hi
    have hheld : ((sp.setSlot i (some (0, d))).setStatus t .held).status t = .held := by
      unfold Sp.setStatus; simp [ht]
    obtain ⟨s2, hc, h2, _⟩ := inv_delete h1 (d := d) hheld
    rw [setStatus_setStatus] at h2
    have hsl : ((sp.setSlot i (some (0, d))).setStatus t (.deleted d)).slot i = some (0, d) := by
      rw [slot_setStatus]; unfold Sp.setSlot; simp
    have ho2 : o = 0 ∨ ((sp.setSlot i (some (0, d))).setStatus t (.deleted d)).status o = .held := by
      rcases ho with ho | ho
      · exact .inl ho
      · rcases hto with h0 | h0
        · exact .inl h0
        · refine .inr ?_
          unfold Sp.setStatus
          simp only [ht, if_false, h0]
          exact ho
    have h3 := inv_hand h2 (d := d) (.inr ⟨d, hsl⟩) ho2
    refine ⟨s2.setVar i (some ⟨o, d⟩), ?_, ?_⟩
    · simp only [ne_eq, ht, not_false_eq_true, if_true]
      rw [callDel_setVar] at hc ⊢
      cases hcd : callDel s d t with
      | none => rw [hcd] at hc; cases hc
      | some x =>
        rw [hcd] at hc
        simp only [Option.map_some, Option.some.injEq] at hc ⊢
        rw [← hc, setVar_setVar]
    · rw [setSlot_setStatus, setSlot_setSlot, ← setSlot_setStatus] at h3
      exact h3

/-- Changing the deleter of a variable. -/
theorem inv_setDel {s : St D} {sp : Sp D} (h : Inv s sp) {i o : Nat} {d e : D} (hi : sp.slot i = some (o, e)) :
    Inv (s.setVar i (some ⟨o, d⟩)) ((sp.setSlot i (some (o, d))).setStatus o (.owned d)) := by
  have h1 := inv_release h hi
  have hsl : ((sp.setSlot i (some (0, e))).setStatus o .held).slot i = some (0, e) := by
    rw [slot_setStatus]; unfold Sp.setSlot; simp
  have ho : o = 0 ∨ ((sp.setSlot i (some (0, e))).setStatus o .held).status o = .held := by
    by_cases h0 : o = 0
    · exact .inl h0
    · refine .inr ?_
      unfold Sp.setStatus
      simp [h0]
  have h2 := inv_hand h1 (d := d) (.inr ⟨e, hsl⟩) ho
  rw [setVar_setVar, setSlot_setStatus, setSlot_setSlot, setStatus_setStatus] at h2
  exact h2

/-- Removing a variable that owns nothing. -/
theorem inv_kill {s : St D} {sp : Sp D} (h : Inv s sp) {i : Nat} {d : D} (hi : sp.slot i = some (0, d)) :
    Inv (s.setVar i none) (sp.setSlot i none) := by
  refine ⟨?_, h.alive, h.log, h.log1, ?_, ?_, h.zero⟩
  · intro k
    unfold St.setVar Sp.setSlot
    by_cases hk : k = i
    · simp [hk]
    · simp [hk, h.vars k]
  · intro q e
    rw [status_setSlot, h.own]
    unfold Sp.setSlot
    constructor
    · rintro ⟨h0, j, hj⟩
      refine ⟨h0, j, ?_⟩
      simp only
      rw [if_neg]
      · exact hj
      · rintro rfl
        rw [hi] at hj
        injection hj with hj; injection hj with hj _
        exact h0 hj.symm
    · rintro ⟨h0, j, hj⟩
      refine ⟨h0, j, ?_⟩
      simp only at hj
      split at hj
      · cases hj
      · exact hj
  · intro j k q e f h0 hj hk
    unfold Sp.setSlot at hj hk
    simp only at hj hk
    split at hj
    · cases hj
    · split at hk
      · cases hk
      · exact h.inj j k q e f h0 hj hk

theorem setStatus_same {sp : Sp D} {o : Nat} {v : Status D} (h : o ≠ 0 → sp.status o = v) : sp.setStatus o v = sp := by
  unfold Sp.setStatus
  by_cases h0 : o = 0
  · simp [h0]
  · simp only [h0, if_false]
    cases sp with
    | mk sl st =>
      congr 1
      funext q
      by_cases hq : q = o
      · subst hq; simp [← h h0]
      · simp [hq]

theorem setSlot_same {sp : Sp D} {i : Nat} {v : Option (Nat × D)} (h : sp.slot i = v) : sp.setSlot i v = sp := by
  cases sp with
  | mk sl st =>
    unfold Sp.setSlot
    congr 1
    funext q
    by_cases hq : q = i
    · subst hq; simp [← h]
    · simp [hq]

theorem setSlot_comm (sp : Sp D) {i j : Nat} (h : i ≠ j) (u v : Option (Nat × D)) :
    (sp.setSlot i u).setSlot j v = (sp.setSlot j v).setSlot i u := by
  unfold Sp.setSlot
  congr 1
  funext q
  by_cases hq : q = i
  · subst hq; simp [h]
  · simp [hq]

/-- Permuting the variables. -/
theorem inv_swap {s : St D} {sp : Sp D} (h : Inv s sp) {i j : Nat} (hi : sp.slot i ≠ none) (hj : sp.slot j ≠ none) :
    ∃ s', swap s i j = some s' ∧ Inv s' (Spec.step sp (.swap i j)) := by
  obtain ⟨o, d, hi1, hi2⟩ := h.slot hi
  obtain ⟨p, e, hj1, hj2⟩ := h.slot hj
  have key : ∃ s', swap s i j = some s' ∧ s'.alive = s.alive ∧ s'.log = s.log ∧
      ∀ k, s'.vars k = if k = i then s.vars j else if k = j then s.vars i else s.vars k := by
    by_cases hij : i = j
    · subst hij
      rw [hi2] at hj2
      injection hj2 with hj2
      injection hj2 with ha hb
      subst ha; subst hb
      refine ⟨(((s.setVar i (some ⟨o, d⟩)).setVar i (some ⟨o, d⟩)).setVar i (some ⟨o, d⟩)).setVar i (some ⟨o, d⟩), ?_, rfl, rfl, ?_⟩
      · unfold swap setDel St.setVar
        simp [hi2]
      · intro k
        unfold St.setVar
        by_cases hk : k = i
        · simp [hk, hi2]
        · simp [hk]
    · refine ⟨(((s.setVar i (some ⟨p, d⟩)).setVar j (some ⟨o, e⟩)).setVar i (some ⟨p, e⟩)).setVar j (some ⟨o, d⟩), ?_, rfl, rfl, ?_⟩
      · unfold swap setDel St.setVar
        simp [hi2, hj2, hij, Ne.symm hij]
      · intro k
        unfold St.setVar
        by_cases hk : k = i
        · subst hk; simp [hj2, hij]
        · by_cases hk2 : k = j
          · subst hk2; simp [hi2, hk]
          · simp [hk, hk2]
  obtain ⟨s', hs, ha, hl, hv⟩ := key
  refine ⟨s', hs, ?_⟩
  have hperm : ∀ k, ∃ k', (Spec.step sp (.swap i j)).slot k' = sp.slot k := by
    intro k
    by_cases hk : k = j
    · exact ⟨i, by simp [Spec.step, hk]⟩
    · by_cases hk2 : k = i
      · by_cases hij : j = i
        · exact ⟨i, by simp [Spec.step, hk2, hij]⟩
        · exact ⟨j, by simp [Spec.step, hk2, hij]⟩
      · exact ⟨k, by simp [Spec.step, hk, hk2]⟩
  refine ⟨?_, ?_, ?_, ?_, ?_, ?_, h.zero⟩
  · intro k
    rw [hv]
    unfold Spec.step
    simp only
    split
    · exact h.vars j
    · split
      · exact h.vars i
      · exact h.vars k
  · intro q; rw [ha]; exact h.alive q
  · intro q d; rw [hl]; exact h.log q d
  · intro q d hd; rw [hl]; exact h.log1 q d hd
  · intro q d
    show sp.status q = _ ↔ _
    rw [h.own]
    constructor
    · rintro ⟨h0, k, hk⟩
      obtain ⟨k', hk'⟩ := hperm k
      exact ⟨h0, k', by rw [hk', hk]⟩
    · rintro ⟨h0, k, hk⟩
      refine ⟨h0, ?_⟩
      unfold Spec.step at hk
      simp only at hk
      split at hk
      · exact ⟨_, hk⟩
      · split at hk
        · exact ⟨_, hk⟩
        · exact ⟨_, hk⟩
  · intro k l q d e h0 hk hl
    unfold Spec.step at hk hl
    simp only at hk hl
    have hk' : sp.slot (if k = i then j else if k = j then i else k) = some (q, d) := by
      rw [← hk]; split
      · rfl
      · split <;> rfl
    have hl' : sp.slot (if l = i then j else if l = j then i else l) = some (q, e) := by
      rw [← hl]; split
      · rfl
      · split <;> rfl
    have := h.inj _ _ q d e h0 hk' hl'
    split at this <;> split at this <;> (try split at this) <;> (try split at this) <;> omega

/-- Each legal command. -/
theorem step_ok {s : St D} {sp : Sp D} (h : Inv s sp) {c : Cmd D} (hc : Legal sp c) :
    ∃ s', step s c = some s' ∧ Inv s' (Spec.step sp c) := by
  cases c with
  | alloc o => exact ⟨_, rfl, inv_alloc h hc.1 hc.2⟩
  | make i o d => exact ⟨_, rfl, inv_hand h (.inl hc.1) hc.2⟩
  | moveCtor i j =>
    obtain ⟨o, d, hj1, hj2⟩ := h.slot hc.2
    have hij : i ≠ j := by rintro rfl; exact hc.2 hc.1
    have h1 := inv_release h hj1
    have ho : o = 0 ∨ ((sp.setSlot j (some (0, d))).setStatus o .held).status o = .held := by
      by_cases h0 : o = 0
      · exact .inl h0
      · refine .inr ?_
        unfold Sp.setStatus
        simp [h0]
    have hn : ((sp.setSlot j (some (0, d))).setStatus o .held).slot i = none := by
      rw [slot_setStatus]; unfold Sp.setSlot; simp [hij, hc.1]
    have h2 := inv_hand h1 (d := d) (.inl hn) ho
    refine ⟨(s.setVar j (some ⟨0, d⟩)).setVar i (some ⟨o, d⟩), ?_, ?_⟩
    rotate_left 1
    · rw [setSlot_setStatus, setStatus_setStatus] at h2
      rw [setStatus_same] at h2
      · show Inv _ (match sp.slot j with | none => sp | some (o, d) => _)
        rw [hj1]
        exact h2
      · intro h0
        exact (h.own o d).2 ⟨h0, j, hj1⟩
    · show moveCtor s i j = _
      unfold moveCtor release getDel
      rw [hj2]
      simp [St.setVar]
  | moveAssign i j =>
    obtain ⟨t, e, hi1, hi2⟩ := h.slot hc.1
    obtain ⟨o, d, hj1, hj2⟩ := h.slot hc.2
    have h1 := inv_release h hj1
    have hrel : release s j = some (s.setVar j (some ⟨0, d⟩), o) := by unfold release; rw [hj2]
    have ho : o = 0 ∨ ((sp.setSlot j (some (0, d))).setStatus o .held).status o = .held := by
      by_cases h0 : o = 0
      · exact .inl h0
      · refine .inr ?_
        unfold Sp.setStatus
        simp [h0]
    have hown : o ≠ 0 → sp.status o = .owned d := fun h0 => (h.own o d).2 ⟨h0, j, hj1⟩
    show ∃ s', moveAssign s i j = some s' ∧ _
    unfold moveAssign
    rw [hrel]
    simp only
    by_cases hij : i = j
    · subst hij
      rw [hi1] at hj1
      injection hj1 with hj1
      injection hj1 with ha hb
      subst ha; subst hb
      have hsl : ((sp.setSlot i (some (0, e))).setStatus t .held).slot i = some (0, e) := by
        rw [slot_setStatus]; unfold Sp.setSlot; simp
      obtain ⟨s2, hr, h2⟩ := inv_reset h1 (o := t) hsl ho
      rw [hr]
      have e0 : ∀ x : Sp D, x.setStatus 0 (.deleted e) = x := fun x => setStatus_same (fun h0 => absurd rfl h0)
      rw [e0, setSlot_setStatus, setSlot_setSlot, setStatus_setStatus, setSlot_same hi1, setStatus_same hown] at h2
      have hv : s2.vars i = some ⟨t, e⟩ := by rw [h2.vars, hi1]; rfl
      refine ⟨s2.setVar i (some ⟨t, e⟩), ?_, ?_⟩
      · unfold getDel setDel
        simp [hv]
      · have h3 := inv_setDel h2 (d := e) hi1
        rw [setSlot_same hi1, setStatus_same hown] at h3
        show Inv _ (if i = i then sp else _)
        rw [if_pos rfl]
        exact h3
    · have hji : j ≠ i := Ne.symm hij
      have hsl : ((sp.setSlot j (some (0, d))).setStatus o .held).slot i = some (t, e) := by
        rw [slot_setStatus]; unfold Sp.setSlot; simp [hij, hi1]
      obtain ⟨s2, hr, h2⟩ := inv_reset h1 (o := o) hsl ho
      rw [hr]
      have hsj : (((((sp.setSlot j (some (0, d))).setStatus o .held).setStatus t (.deleted e)).setSlot i (some (o, e))).setStatus o
          (.owned e)).slot j = some (0, d) := by
        rw [slot_setStatus]
        simp [Sp.setSlot, hji, slot_setStatus]
      have hsi : (((((sp.setSlot j (some (0, d))).setStatus o .held).setStatus t (.deleted e)).setSlot i (some (o, e))).setStatus o
          (.owned e)).slot i = some (o, e) := by
        rw [slot_setStatus]
        simp [Sp.setSlot]
      have hvj : s2.vars j = some ⟨0, d⟩ := by rw [h2.vars, hsj]; rfl
      have hvi : s2.vars i = some ⟨o, e⟩ := by rw [h2.vars, hsi]; rfl
      refine ⟨s2.setVar i (some ⟨o, d⟩), ?_, ?_⟩
      · unfold getDel setDel
        simp [hvj, hvi]
      · have h3 := inv_setDel h2 (d := d) hsi
        have ht : o = 0 ∨ o ≠ t := by
          by_cases h0 : o = 0
          · exact .inl h0
          · refine .inr ?_
            rintro rfl
            exact hij (h.inj i j o e d h0 hi1 hj1)
        have hfin : ((((((sp.setSlot j (some (0, d))).setStatus o .held).setStatus t (.deleted e)).setSlot i (some (o, e))).setStatus o
            (.owned e)).setSlot i (some (o, d))).setStatus o (.owned d) =
            ((sp.drop i).setSlot j (some (0, d))).setSlot i (some (o, d)) := by
          unfold Sp.drop
          rw [hi1]
          simp only
          rw [setSlot_setStatus, setStatus_setStatus, setSlot_setSlot, setSlot_setStatus, setSlot_setStatus (sp := sp.setSlot j _),
            setSlot_setStatus (sp := sp), setSlot_setStatus]
          generalize hX : (sp.setSlot j (some (0, d))).setSlot i (some (o, d)) = X
          have hXs : X.status = sp.status := by rw [← hX]; rfl
          rcases ht with h0 | h0
          · subst h0
            have e0 : ∀ (x : Sp D) (v : Status D), x.setStatus 0 v = x := fun x v => by unfold Sp.setStatus; simp
            rw [e0, e0]
          · rw [setStatus_comm _ (Ne.symm h0), setStatus_setStatus, setStatus_same (o := o) (sp := X)]
            intro h1
            rw [hXs]
            exact hown h1
        rw [hfin] at h3
        show Inv _ (if i = j then sp else match sp.slot j with | none => sp | some (o, d) => _)
        rw [if_neg hij, hj1]
        exact h3
  | reset i o =>
    obtain ⟨t, d, hi1, hi2⟩ := h.slot hc.1
    obtain ⟨s', hr, h2⟩ := inv_reset h hi1 hc.2
    refine ⟨s', hr, ?_⟩
    show Inv _ (match sp.slot i with | none => sp | some (_, d) => _)
    rw [hi1]
    unfold Sp.drop
    rw [hi1]
    exact h2
  | assignNull i =>
    obtain ⟨t, d, hi1, hi2⟩ := h.slot hc
    obtain ⟨s', hr, h2⟩ := inv_reset h (o := 0) hi1 (.inl rfl)
    refine ⟨s', hr, ?_⟩
    show Inv _ (match sp.slot i with | none => sp | some (_, d) => _)
    rw [hi1]
    unfold Sp.drop
    rw [hi1]
    have e0 : ∀ (x : Sp D) (v : Status D), x.setStatus 0 v = x := fun x v => by unfold Sp.setStatus; simp
    rw [e0] at h2
    exact h2
  | release i =>
    obtain ⟨t, d, hi1, hi2⟩ := h.slot hc
    refine ⟨s.setVar i (some ⟨0, d⟩), ?_, ?_⟩
    · show (release s i).map Prod.fst = _
      unfold release
      rw [hi2]
      rfl
    · show Inv _ (match sp.slot i with | none => sp | some (o, d) => _)
      rw [hi1]
      exact inv_release h hi1
  | swap i j => exact inv_swap h hc.1 hc.2
  | destroy i =>
    obtain ⟨t, d, hi1, hi2⟩ := h.slot hc
    obtain ⟨s', hr, h2⟩ := inv_reset h (o := 0) hi1 (.inl rfl)
    have e0 : ∀ (x : Sp D) (v : Status D), x.setStatus 0 v = x := fun x v => by unfold Sp.setStatus; simp
    rw [e0] at h2
    refine ⟨s'.setVar i none, ?_, ?_⟩
    · show dtor s i = _
      unfold dtor
      rw [hr]
    · have h3 := inv_kill h2 (i := i) (d := d) (by simp [Sp.setSlot])
      rw [setSlot_setSlot] at h3
      show Inv _ ((sp.drop i).setSlot i none)
      unfold Sp.drop
      rw [hi1]
      exact h3

theorem run_ok {s : St D} {sp : Sp D} (h : Inv s sp) {cs : List (Cmd D)} (hc : LegalRun sp cs) :
    ∃ s', run s cs = some s' ∧ Inv s' (Spec.run sp cs) := by
  induction cs generalizing s sp with
  | nil => exact ⟨s, rfl, h⟩
  | cons c cs ih =>
    obtain ⟨s1, h1, h2⟩ := step_ok h hc.1
    obtain ⟨s2, h3, h4⟩ := ih h2 hc.2
    exact ⟨s2, by unfold run; rw [h1]; exact h3, h4⟩

/-! ### C37 -/

/-- Every legal history runs without undefined behaviour; `get()` and `get_deleter()` of all variables are as specified; no two variables
own the same object; every object was deleted once if it was let go of, and never if it is still owned or in the program's hands. -/
theorem c37_exactly_once (cs : List (Cmd D)) (hc : LegalRun Spec.init cs) :
    ∃ s, run init cs = some s ∧
      (∀ i, (s.vars i).map (fun u => (u.first, u.second)) = (Spec.run Spec.init cs).slot i) ∧
      (∀ i j u v, s.vars i = some u → s.vars j = some v → u.first = v.first → u.first ≠ 0 → i = j) ∧
      (∀ o, (s.log.filter fun x => x.1 == o).length = match (Spec.run Spec.init cs).status o with
        | .deleted _ => 1
        | _ => 0) ∧
      (∀ o, o ≠ 0 → (Spec.run Spec.init cs).status o ≠ .absent → (∀ i u, s.vars i = some u → u.first ≠ o) →
        (Spec.run Spec.init cs).status o = .held ∨ (s.log.filter fun x => x.1 == o).length = 1) := by
  obtain ⟨s, hr, h⟩ := run_ok inv_init hc
  have hlen : ∀ o, (s.log.filter fun x => x.1 == o).length = match (Spec.run Spec.init cs).status o with
        | .deleted _ => 1
        | _ => 0 := by
    intro o
    split
    · rename_i d hd
      rw [h.log1 o d hd]; rfl
    · rename_i hnd
      rw [List.length_eq_zero_iff, List.filter_eq_nil_iff]
      rintro ⟨a, b⟩ hab hc
      simp only [beq_iff_eq] at hc
      subst hc
      rcases h.log a b with ⟨e, he⟩ | hn
      · exact hnd e he
      · exact hn hab
  refine ⟨s, hr, ?_, ?_, hlen, ?_⟩
  · intro i
    rw [h.vars]
    cases (Spec.run Spec.init cs).slot i <;> rfl
  · intro i j u v hu hv he h0
    rw [h.vars] at hu hv
    rw [Option.map_eq_some_iff] at hu hv
    obtain ⟨⟨a, d⟩, ha, rfl⟩ := hu
    obtain ⟨⟨b, e⟩, hb, rfl⟩ := hv
    simp only at he h0
    subst he
    exact h.inj i j a d e h0 ha hb
  · intro o h0 hab hno
    rw [hlen o]
    cases hst : (Spec.run Spec.init cs).status o with
    | absent => exact absurd hst hab
    | held => exact .inl rfl
    | owned d =>
      obtain ⟨_, i, hi⟩ := (h.own o d).1 hst
      exact absurd rfl (hno i ⟨o, d⟩ (by rw [h.vars, hi]; rfl))
    | deleted d => exact .inr rfl

/-! ### C38 -/

/-- The status carries the deleter of the last hand-over. -/
theorem status_handed (o : Nat) {cs : List (Cmd D)} : ∀ {s : St D} {sp : Sp D} {hd : Option D}, Inv s sp → LegalRun sp cs →
    (∀ d, sp.status o = .owned d ∨ sp.status o = .deleted d → hd = some d) →
    ∀ d, (Spec.run sp cs).status o = .owned d ∨ (Spec.run sp cs).status o = .deleted d → handed o sp cs hd = some d := by
  induction cs with
  | nil => intro s sp hd _ _ h; exact h
  | cons c cs ih =>
    intro s sp hd hinv hl h
    obtain ⟨s1, _, hinv1⟩ := step_ok hinv hl.1
    refine ih (sp := Spec.step sp c) hinv1 hl.2 ?_
    have hset : ∀ (x : Sp D) (p : Nat) (v : Status D), (x.setStatus p v).status o = if o = p ∧ p ≠ 0 then v else x.status o := by
      intro x p v
      unfold Sp.setStatus
      by_cases h0 : p = 0
      · simp [h0]
      · simp [h0]
    have hdrop : ∀ i d, (sp.drop i).status o = .owned d ∨ (sp.drop i).status o = .deleted d →
        sp.status o = .owned d ∨ sp.status o = .deleted d := by
      intro i d
      unfold Sp.drop
      split
      · exact id
      · rename_i t e hs
        rw [hset]
        split
        · rename_i ht
          rintro (hc | hc)
          · cases hc
          · injection hc with hc
            subst hc
            refine .inl ?_
            rw [hinv.own]
            exact ⟨by rw [ht.1]; exact ht.2, i, by rw [ht.1]; exact hs⟩
        · exact id
    intro d
    cases c with
    | alloc p =>
      simp only [Spec.step]
      rw [hset]
      split
      · rintro (hc | hc) <;> cases hc
      · exact h d
    | make i p e =>
      simp only [Spec.step]
      rw [hset, status_setSlot]
      have h0 : sp.status 0 = .absent := hinv.zero
      by_cases hp : p = o
      · subst hp
        by_cases hp0 : p = 0
        · subst hp0
          simp only [ne_eq, not_true_eq_false, and_false, if_false, if_true]
          rw [h0]
          rintro (hc | hc) <;> cases hc
        · simp only [ne_eq, hp0, not_false_eq_true, and_self, if_true]
          rintro (hc | hc)
          · injection hc with hc; rw [hc]
          · cases hc
      · simp only [Ne.symm hp, false_and, if_false, hp]
        exact h d
    | moveCtor i j =>
      simp only [Spec.step]
      split <;> exact h d
    | moveAssign i j =>
      simp only [Spec.step]
      split
      · exact h d
      · split
        · exact h d
        · exact fun hc => h d (hdrop i d hc)
    | reset i p =>
      have h0 : sp.status 0 = .absent := hinv.zero
      obtain ⟨t, e, hi1, _⟩ := hinv.slot hl.1.1
      simp only [Spec.step, hi1]
      rw [hset, status_setSlot]
      by_cases hp : p = o
      · subst hp
        by_cases hp0 : p = 0
        · subst hp0
          simp only [ne_eq, not_true_eq_false, and_false, if_false, if_true]
          intro hc
          have := hdrop i d hc
          rw [h0] at this
          rcases this with hc | hc <;> cases hc
        · simp only [ne_eq, hp0, not_false_eq_true, and_self, if_true]
          rintro (hc | hc)
          · injection hc with hc; rw [hc]; rfl
          · cases hc
      · simp only [Ne.symm hp, false_and, if_false, hp]
        exact fun hc => h d (hdrop i d hc)
    | assignNull i =>
      simp only [Spec.step]
      split
      · exact h d
      · exact fun hc => h d (hdrop i d hc)
    | release i =>
      simp only [Spec.step]
      split
      · exact h d
      · rw [hset]
        split
        · rintro (hc | hc) <;> cases hc
        · exact h d
    | swap i j => exact h d
    | destroy i => exact fun hc => h d (hdrop i d hc)

/-- Whatever was deleted was deleted by the deleter of its last hand-over. -/
theorem c38_right_deleter (cs : List (Cmd D)) (hc : LegalRun Spec.init cs) {s : St D} (hr : run init cs = some s) {o : Nat} {d : D}
    (h : (o, d) ∈ s.log) : handed o Spec.init cs none = some d := by
  obtain ⟨s', hr', hinv⟩ := run_ok inv_init hc
  rw [hr] at hr'
  injection hr' with hr'
  subst hr'
  refine status_handed o inv_init hc ?_ d ?_
  · rintro e (hc | hc) <;> cases hc
  · rcases hinv.log o d with ⟨e, he⟩ | hn
    · have hf := hinv.log1 o e he
      have : (o, d) ∈ s.log.filter (fun x => x.1 == o) := List.mem_filter.2 ⟨h, by simp⟩
      rw [hf] at this
      simp only [List.mem_singleton, Prod.mk.injEq, true_and] at this
      rw [this]
      exact .inr he
    · exact absurd h hn

/-- A history over three variables and four objects with two deleters `'a'`, `'b'`. -/
def demo : List (Cmd Char) :=
  [.alloc 1, .alloc 2, .alloc 3, .alloc 4, .make 0 1 'a', .make 1 2 'b', .moveAssign 0 1, .reset 1 3, .swap 0 1, .moveCtor 2 0,
    .release 2, .moveAssign 1 1, .reset 0 4, .assignNull 0, .destroy 1, .destroy 0, .destroy 2]

example : LegalRun Spec.init demo := by
  simp [demo, LegalRun, Legal, Spec.step, Spec.init, Sp.setStatus, Sp.setSlot, Sp.drop]

example : (run init demo).map (·.log) = some [(1, 'a'), (4, 'b'), (2, 'b')] := by rfl

end Nanostl.UPtr

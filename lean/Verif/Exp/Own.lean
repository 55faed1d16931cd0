import Verif.Opt.Spec
import Mathlib.Tactic.Common

/-!
Ownership of objects by slots: used for `expected`. `st i` is the object living in the storage of slot `i`; `T` is the set of living objects
that are in no slot (temporaries, or lost ones).
-/

namespace Nanostl.Exp

open Opt (Ev)
open Opt.Spec (life Life)

variable {γ : Type}

def put (st : Nat → Option (Nat × γ)) (i : Nat) (x : Option (Nat × γ)) : Nat → Option (Nat × γ) := fun j => if j = i then x else st j

structure Own (st : Nat → Option (Nat × γ)) (next : Nat) (evs : List Ev) (T : Nat → Prop) : Prop where
  inj : ∀ i j id u v, st i = some (id, u) → st j = some (id, v) → i = j
  tmp : ∀ i id u, st i = some (id, u) → ¬ T id
  tr : ∃ f, life evs (fun _ => none) = some f ∧ (∀ id, f id = none ↔ next ≤ id) ∧
    ∀ id, f id = some true ↔ T id ∨ ∃ i u, st i = some (id, u)

def noT : Nat → Prop := fun _ => False

theorem life_append (es : List Ev) (e : List Ev) (f : Life) : life (es ++ e) f = (life es f).bind (life e) := by
  induction es generalizing f with
  | nil => rfl
  | cons x es ih => cases x <;> simp only [List.cons_append, life] <;> split <;> simp [ih]

theorem own_init : Own (fun _ => (none : Option (Nat × γ))) 0 [] noT where
  inj _ _ _ _ _ h := by cases h
  tmp _ _ _ h := by cases h
  tr := ⟨fun _ => none, rfl, by simp, by simp [noT]⟩

variable {st : Nat → Option (Nat × γ)} {next : Nat} {evs : List Ev} {T : Nat → Prop}

theorem Own.fresh (h : Own st next evs T) : ¬ T next ∧ ∀ i u, st i ≠ some (next, u) := by
  obtain ⟨f, -, h2, h3⟩ := h.tr
  have hn := (h2 next).2 (Nat.le_refl _)
  constructor
  · intro ht
    have := (h3 next).2 (.inl ht)
    rw [hn] at this; cases this
  · intro i u hi
    have := (h3 next).2 (.inr ⟨i, u, hi⟩)
    rw [hn] at this; cases this

theorem Own.congr (h : Own st next evs T) {st' : Nat → Option (Nat × γ)} (e : ∀ i, st' i = st i) : Own st' next evs T := by
  obtain rfl : st' = st := funext e
  exact h

theorem Own.setValue (h : Own st next evs T) {i id : Nat} {v : γ} (u : γ) (hi : st i = some (id, v)) : Own (put st i (some (id, u))) next evs T := by
  have key : ∀ j n, (∃ x, put st i (some (id, u)) j = some (n, x)) ↔ ∃ x, st j = some (n, x) := by
    intro j n
    unfold put
    split
    · rename_i e; subst e; simp [hi]
    · rfl
  refine ⟨?_, ?_, ?_⟩
  · intro j k n x y hj hk
    obtain ⟨x', hj'⟩ := (key j n).1 ⟨x, hj⟩
    obtain ⟨y', hk'⟩ := (key k n).1 ⟨y, hk⟩
    exact h.inj j k n x' y' hj' hk'
  · intro j n x hj
    obtain ⟨x', hj'⟩ := (key j n).1 ⟨x, hj⟩
    exact h.tmp j n x' hj'
  · obtain ⟨f, h1, h2, h3⟩ := h.tr
    refine ⟨f, h1, h2, fun n => ?_⟩
    rw [h3]
    simp only [key]

theorem Own.birth (h : Own st next evs T) {i : Nat} (v : γ) (hi : st i = none) :
    Own (put st i (some (next, v))) (next + 1) (evs ++ [Ev.cons next]) T := by
  obtain ⟨hT, hs⟩ := h.fresh
  obtain ⟨f, h1, h2, h3⟩ := h.tr
  have hp : ∀ j n x, put st i (some (next, v)) j = some (n, x) → (j = i ∧ n = next) ∨ (j ≠ i ∧ st j = some (n, x)) := by
    intro j n x
    unfold put
    split
    · rename_i e; rintro ⟨⟩; exact .inl ⟨e, rfl⟩
    · rename_i e; exact fun q => .inr ⟨e, q⟩
  refine ⟨?_, ?_, ?_⟩
  · intro j k n x y hj hk
    rcases hp j n x hj with ⟨e, en⟩ | ⟨e, q⟩ <;> rcases hp k n y hk with ⟨e', en'⟩ | ⟨e', q'⟩
    · rw [e, e']
    · subst en; exact (hs _ _ q').elim
    · subst en'; exact (hs _ _ q).elim
    · exact h.inj j k n x y q q'
  · intro j n x hj
    rcases hp j n x hj with ⟨e, en⟩ | ⟨e, q⟩
    · rw [en]; exact hT
    · exact h.tmp j n x q
  · refine ⟨fun n => if n = next then some true else f n, ?_, ?_, ?_⟩
    · rw [life_append, h1]
      simp [life, (h2 next).2 (Nat.le_refl _)]
    · intro n
      by_cases e : n = next
      · subst e; simp
      · simp only [e, if_false]; rw [h2]; omega
    · intro n
      by_cases e : n = next
      · subst e; simp only [if_true, true_iff]
        exact .inr ⟨i, v, by simp [put]⟩
      · simp only [e, if_false]
        rw [h3]
        refine or_congr_right ⟨?_, ?_⟩
        · rintro ⟨j, x, hj⟩
          refine ⟨j, x, ?_⟩
          unfold put
          rw [if_neg]
          · exact hj
          · rintro rfl; rw [hi] at hj; cases hj
        · rintro ⟨j, x, hj⟩
          rcases hp j n x hj with ⟨-, en⟩ | ⟨-, q⟩
          · exact (e en).elim
          · exact ⟨j, x, q⟩

theorem put_none {i j n : Nat} {x : γ} (h : put st i none j = some (n, x)) : j ≠ i ∧ st j = some (n, x) := by
  unfold put at h
  split at h
  · cases h
  · exact ⟨by assumption, h⟩

theorem Own.death (h : Own st next evs T) {i id : Nat} {v : γ} (hi : st i = some (id, v)) :
    Own (put st i none) next (evs ++ [Ev.dest id]) T := by
  obtain ⟨f, h1, h2, h3⟩ := h.tr
  have hl := (h3 id).2 (.inr ⟨i, v, hi⟩)
  refine ⟨?_, ?_, ?_⟩
  · intro j k n x y hj hk
    exact h.inj j k n x y (put_none hj).2 (put_none hk).2
  · intro j n x hj
    exact h.tmp j n x (put_none hj).2
  · refine ⟨fun n => if n = id then some false else f n, ?_, ?_, ?_⟩
    · rw [life_append, h1]
      simp [life, hl]
    · intro n
      by_cases e : n = id
      · subst e; simp only [if_true]
        refine ⟨fun q => (by cases q), fun q => ?_⟩
        rw [(h2 n).2 q] at hl; cases hl
      · simp only [e, if_false]; exact h2 n
    · intro n
      by_cases e : n = id
      · subst e; simp only [if_true]
        refine ⟨fun q => (by cases q), ?_⟩
        rintro (ht | ⟨j, x, hj⟩)
        · exact (h.tmp i n v hi ht).elim
        · obtain ⟨a, b⟩ := put_none hj
          exact (a (h.inj j i n x v b hi)).elim
      · simp only [e, if_false]
        rw [h3]
        refine or_congr_right ⟨?_, ?_⟩
        · rintro ⟨j, x, hj⟩
          refine ⟨j, x, ?_⟩
          unfold put
          rw [if_neg]
          · exact hj
          · rintro rfl
            rw [hi] at hj; cases hj; exact e rfl
        · rintro ⟨j, x, hj⟩
          exact ⟨j, x, (put_none hj).2⟩

/-- The object in a slot stays alive but is no longer in the slot. -/
theorem Own.lose (h : Own st next evs T) {i id : Nat} {v : γ} (hi : st i = some (id, v)) :
    Own (put st i none) next evs (fun n => T n ∨ n = id) := by
  obtain ⟨f, h1, h2, h3⟩ := h.tr
  refine ⟨?_, ?_, f, h1, h2, fun n => ?_⟩
  · intro j k n x y hj hk
    exact h.inj j k n x y (put_none hj).2 (put_none hk).2
  · rintro j n x hj (ht | rfl)
    · exact h.tmp j n x (put_none hj).2 ht
    · obtain ⟨a, b⟩ := put_none hj
      exact a (h.inj j i n x v b hi)
  · rw [h3]
    constructor
    · rintro (ht | ⟨j, x, hj⟩)
      · exact .inl (.inl ht)
      · by_cases e : j = i
        · subst e; rw [hi] at hj; cases hj; exact .inl (.inr rfl)
        · exact .inr ⟨j, x, by simp [put, e, hj]⟩
    · rintro ((ht | rfl) | ⟨j, x, hj⟩)
      · exact .inl ht
      · exact .inr ⟨i, v, hi⟩
      · exact .inr ⟨j, x, (put_none hj).2⟩

theorem Own.tmpBirth (h : Own st next evs T) : Own st (next + 1) (evs ++ [Ev.cons next]) (fun n => T n ∨ n = next) := by
  obtain ⟨hT, hs⟩ := h.fresh
  obtain ⟨f, h1, h2, h3⟩ := h.tr
  refine ⟨h.inj, ?_, fun n => if n = next then some true else f n, ?_, ?_, ?_⟩
  · rintro j n x hj (ht | rfl)
    · exact h.tmp j n x hj ht
    · exact hs _ _ hj
  · rw [life_append, h1]
    simp [life, (h2 next).2 (Nat.le_refl _)]
  · intro n
    by_cases e : n = next
    · subst e; simp
    · simp only [e, if_false]; rw [h2]; omega
  · intro n
    by_cases e : n = next
    · subst e; simp
    · simp only [e, if_false, or_false]; exact h3 n

theorem Own.tmpDeath {id : Nat} (h : Own st next evs (fun n => T n ∨ n = id)) (hT : ¬ T id) : Own st next (evs ++ [Ev.dest id]) T := by
  obtain ⟨f, h1, h2, h3⟩ := h.tr
  have hl := (h3 id).2 (.inl (.inr rfl))
  refine ⟨h.inj, fun j n x hj ht => h.tmp j n x hj (.inl ht), fun n => if n = id then some false else f n, ?_, ?_, ?_⟩
  · rw [life_append, h1]
    simp [life, hl]
  · intro n
    by_cases e : n = id
    · subst e; simp only [if_true]
      refine ⟨fun q => (by cases q), fun q => ?_⟩
      rw [(h2 n).2 q] at hl; cases hl
    · simp only [e, if_false]; exact h2 n
  · intro n
    by_cases e : n = id
    · subst e; simp only [if_true]
      refine ⟨fun q => (by cases q), ?_⟩
      rintro (ht | ⟨j, x, hj⟩)
      · exact (hT ht).elim
      · exact (h.tmp j n x hj (.inr rfl)).elim
    · simp only [e, if_false]
      rw [h3]
      simp [e]

end Nanostl.Exp

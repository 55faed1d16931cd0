import Verif.Variant.Compare
import Verif.Variant.Props

/-! C82: the relational operators of `variant`. -/

namespace Nanostl.Variant

variable {α : Type}

open Spec

namespace Spec

/-- Equal: both valueless, or the same alternative and equal values. -/
def veq (eq : Nat → α → α → Bool) (o p : Option (Val α)) : Prop :=
  (o = none ∧ p = none) ∨ ∃ k a b, o = some (k, a) ∧ p = some (k, b) ∧ eq k a b = true

/-- Less: valueless before everything else, then by alternative, then by value. -/
def vlt (lt : Nat → α → α → Bool) (o p : Option (Val α)) : Prop :=
  (o = none ∧ p ≠ none) ∨ ∃ k a l b, o = some (k, a) ∧ p = some (l, b) ∧ (k < l ∨ k = l ∧ lt k a b = true)

end Spec

theorem cmp_read {c : Cls α} {w : W α} (h : Good c w) {i : Nat} {o : Option (Val α)} (hx : cont w i = some o) :
    index (.user i) w = .ok w (o.map Prod.fst) ∧ valueless (.user i) w = .ok w o.isNone ∧ ∀ k v, o = some (k, v) → k < c.n ∧ get c (.user i) k w = .ok w v := by
  obtain ⟨⟨j, q⟩, hs, hi, ho⟩ := read_step h hx
  simp only at hi ho
  cases o with
  | none =>
    simp only [enc] at hi
    subst hi
    simp [index, valueless, slot, hs, bind_eq, pure_eq, M.bind, M.pure]
  | some u =>
    obtain ⟨k, v⟩ := u
    have hk : k < c.n := h.ok i _ hx _ rfl
    simp only [enc] at hi
    subst hi
    cases q with
    | none => simp at ho
    | some r =>
      obtain ⟨id, k', v'⟩ := r
      simp only [Option.map_some, Option.some.injEq, Prod.mk.injEq] at ho
      obtain ⟨rfl, rfl⟩ := ho
      refine ⟨?_, ?_, ?_⟩
      · simp [index, slot, hs, bind_eq, pure_eq, M.bind, M.pure]
      · simp [valueless, slot, hs, bind_eq, pure_eq, M.bind, M.pure]
      · rintro k v ⟨⟩
        exact ⟨hk, by simp [get, index, indexOfSize, indexOf, hk, slot, readObj, hs, bind_eq, pure_eq, M.bind, M.pure]⟩

theorem opEq_ok {c : Cls α} (hn : c.n ≤ 16) {w : W α} (h : Good c w) (ops : Ops α) {i j : Nat} {o p : Option (Val α)} (hi : cont w i = some o) (hj : cont w j = some p) :
    ∃ r, opEq c ops (.user i) (.user j) w = .ok w r ∧ (r = true ↔ veq ops.eq o p) := by
  obtain ⟨a1, a2, a3⟩ := cmp_read h hi
  obtain ⟨b1, b2, b3⟩ := cmp_read h hj
  cases o with
  | none =>
    cases p with
    | none => exact ⟨true, by simp [opEq, a1, a2, b1, bind_eq, pure_eq, M.bind, M.pure], by simp [veq]⟩
    | some q => exact ⟨false, by simp [opEq, a1, b1, bind_eq, pure_eq, M.bind, M.pure], by simp [veq]⟩
  | some q =>
    obtain ⟨k, a⟩ := q
    cases p with
    | none => exact ⟨false, by simp [opEq, a1, b1, bind_eq, pure_eq, M.bind, M.pure], by simp [veq]⟩
    | some q =>
      obtain ⟨l, b⟩ := q
      obtain ⟨hk, ha⟩ := a3 k a rfl
      obtain ⟨-, hb⟩ := b3 l b rfl
      have h16 : k < 16 := by omega
      by_cases e : k = l
      · subst e
        refine ⟨ops.eq k a b, ?_, ?_⟩
        · simp [opEq, cmpEqual, caseIdx, h16, a1, a2, b1, ha, hb, bind_eq, pure_eq, M.bind, M.pure]
        · constructor
          · exact fun h => .inr ⟨k, a, b, rfl, rfl, h⟩
          · rintro (⟨h, -⟩ | ⟨k', a', b', h1, h2, h3⟩)
            · cases h
            · cases h1; cases h2; exact h3
      · refine ⟨false, by simp [opEq, a1, b1, e, bind_eq, pure_eq, M.bind, M.pure], ?_⟩
        constructor
        · intro h; cases h
        · rintro (⟨h, -⟩ | ⟨k', a', b', h1, h2, h3⟩)
          · cases h
          · cases h1; cases h2; exact absurd rfl e

theorem opLt_ok {c : Cls α} (hn : c.n ≤ 16) {w : W α} (h : Good c w) (ops : Ops α) {i j : Nat} {o p : Option (Val α)} (hi : cont w i = some o) (hj : cont w j = some p) :
    ∃ r, opLt c ops (.user i) (.user j) w = .ok w r ∧ (r = true ↔ vlt ops.lt o p) := by
  obtain ⟨a1, a2, a3⟩ := cmp_read h hi
  obtain ⟨b1, b2, b3⟩ := cmp_read h hj
  cases p with
  | none => exact ⟨false, by simp [opLt, b2, bind_eq, pure_eq, M.bind, M.pure], by simp [vlt]⟩
  | some q =>
    obtain ⟨l, b⟩ := q
    cases o with
    | none => exact ⟨true, by simp [opLt, a2, b2, bind_eq, pure_eq, M.bind, M.pure], by simp [vlt]⟩
    | some q =>
      obtain ⟨k, a⟩ := q
      obtain ⟨hk, ha⟩ := a3 k a rfl
      obtain ⟨-, hb⟩ := b3 l b rfl
      have h16 : k < 16 := by omega
      have vl : vlt ops.lt (some (k, a)) (some (l, b)) ↔ k < l ∨ k = l ∧ ops.lt k a b = true := by
        constructor
        · rintro (⟨h, -⟩ | ⟨k', a', l', b', h1, h2, h3⟩)
          · cases h
          · cases h1; cases h2; exact h3
        · exact fun h => .inr ⟨k, a, l, b, rfl, rfl, h⟩
      rw [vl]
      rcases Nat.lt_trichotomy k l with e | e | e
      · exact ⟨true, by simp [opLt, a1, a2, b1, b2, idxLt, e, bind_eq, pure_eq, M.bind, M.pure], by simp [e]⟩
      · subst e
        exact ⟨ops.lt k a b, by simp [opLt, cmpLess, caseIdx, h16, a1, a2, b1, b2, idxLt, ha, hb, bind_eq, pure_eq, M.bind, M.pure], by simp⟩
      · have e2 : ¬ k < l := by omega
        have e3 : k ≠ l := by omega
        exact ⟨false, by simp [opLt, a1, a2, b1, b2, idxLt, e, e2, bind_eq, pure_eq, M.bind, M.pure], by simp [e2, e3]⟩

/-- In a state reached by any history the six operators compare the contents as specified; none is undefined, throws or changes anything. -/
theorem c82_operators (c : Cls α) (hn : c.n ≤ 16) (h0 : 0 < c.n) (ks : List (Cmd α)) (h : LegalRun c init ks) (w : W α) (ts : List Bool)
    (e : run c init ks = .inr (w, ts)) (ops : Ops α) (i j : Nat) (o p : Option (Val α)) (hi : cont w i = some o) (hj : cont w j = some p) :
    (∃ r, opEq c ops (.user i) (.user j) w = .ok w r ∧ (r = true ↔ veq ops.eq o p)) ∧
    (∃ r, opNe c ops (.user i) (.user j) w = .ok w r ∧ (r = true ↔ ¬ veq ops.eq o p)) ∧
    (∃ r, opLt c ops (.user i) (.user j) w = .ok w r ∧ (r = true ↔ vlt ops.lt o p)) ∧
    (∃ r, opGt c ops (.user i) (.user j) w = .ok w r ∧ (r = true ↔ vlt ops.lt p o)) ∧
    (∃ r, opLe c ops (.user i) (.user j) w = .ok w r ∧ (r = true ↔ ¬ vlt ops.lt p o)) ∧
    ∃ r, opGe c ops (.user i) (.user j) w = .ok w r ∧ (r = true ↔ ¬ vlt ops.lt o p) := by
  have hg := (good_run hn h0 (good_init c) ks h).2 w ts e
  have h1 := opEq_ok hn hg ops hi hj
  have h2 := opLt_ok hn hg ops hi hj
  have h3 := opLt_ok hn hg ops hj hi
  refine ⟨h1, ?_, h2, h3, ?_, ?_⟩
  · obtain ⟨r, h, h'⟩ := h1
    exact ⟨!r, by simp [opNe, h, bind_eq, pure_eq, M.bind, M.pure], by rw [← h']; simp⟩
  · obtain ⟨r, h, h'⟩ := h3
    exact ⟨!r, by simp [opLe, opGt, h, bind_eq, pure_eq, M.bind, M.pure], by rw [← h']; simp⟩
  · obtain ⟨r, h, h'⟩ := h2
    exact ⟨!r, by simp [opGe, h, bind_eq, pure_eq, M.bind, M.pure], by rw [← h']; simp⟩

/-- `==` is an equivalence if that of every alternative is. -/
theorem c82_equivalence (eq : Nat → α → α → Bool) (refl : ∀ k a, eq k a a = true) (symm : ∀ k a b, eq k a b = true → eq k b a = true)
    (trans : ∀ k a b d, eq k a b = true → eq k b d = true → eq k a d = true) : Equivalence (veq eq) where
  refl o := by
    cases o with
    | none => exact .inl ⟨rfl, rfl⟩
    | some p => exact .inr ⟨p.1, p.2, p.2, rfl, rfl, refl _ _⟩
  symm := by
    rintro o p (⟨rfl, rfl⟩ | ⟨k, a, b, rfl, rfl, h⟩)
    · exact .inl ⟨rfl, rfl⟩
    · exact .inr ⟨k, b, a, rfl, rfl, symm _ _ _ h⟩
  trans := by
    rintro o p q (⟨rfl, rfl⟩ | ⟨k, a, b, rfl, rfl, h⟩) (⟨h1, rfl⟩ | ⟨k', a', b', h1, rfl, h2⟩)
    · exact .inl ⟨rfl, rfl⟩
    · cases h1
    · cases h1
    · cases h1
      exact .inr ⟨k, a, b', rfl, rfl, trans _ _ _ _ h h2⟩

/-- `<` is a strict weak order if that of every alternative is: irreflexive, transitive, and so is "neither is less". -/
theorem c82_order (lt : Nat → α → α → Bool) (irrefl : ∀ k a, lt k a a = false) (trans : ∀ k a b d, lt k a b = true → lt k b d = true → lt k a d = true)
    (inc : ∀ k a b d, lt k a b = false → lt k b a = false → lt k b d = false → lt k d b = false → lt k a d = false ∧ lt k d a = false) :
    (∀ o, ¬ vlt lt o o) ∧ (∀ o p q, vlt lt o p → vlt lt p q → vlt lt o q) ∧
    ∀ o p q, ¬ vlt lt o p → ¬ vlt lt p o → ¬ vlt lt p q → ¬ vlt lt q p → ¬ vlt lt o q ∧ ¬ vlt lt q o := by
  have vl : ∀ k a l b, vlt lt (some (k, a)) (some (l, b)) ↔ k < l ∨ k = l ∧ lt k a b = true := by
    intro k a l b
    constructor
    · rintro (⟨h, -⟩ | ⟨k', a', l', b', h1, h2, h3⟩)
      · cases h
      · cases h1; cases h2; exact h3
    · exact fun h => .inr ⟨k, a, l, b, rfl, rfl, h⟩
  have v1 : ∀ p, ¬ vlt lt p none := by rintro p (⟨-, h⟩ | ⟨k, a, l, b, -, h, -⟩) <;> simp at h
  have v2 : ∀ p, vlt lt none (some p) := fun p => .inl ⟨rfl, by simp⟩
  refine ⟨?_, ?_, ?_⟩
  · rintro (_ | ⟨k, a⟩)
    · exact v1 _
    · rw [vl]; simp [irrefl]
  · rintro o p (_ | ⟨m, d⟩) h1 h2
    · exact absurd h2 (v1 _)
    · rcases p with _ | ⟨l, b⟩
      · exact absurd h1 (v1 _)
      · rcases o with _ | ⟨k, a⟩
        · exact v2 _
        · rw [vl] at *
          rcases h1 with h1 | ⟨rfl, h1⟩
          · rcases h2 with h2 | ⟨rfl, h2⟩
            · exact .inl (by omega)
            · exact .inl h1
          · rcases h2 with h2 | ⟨rfl, h2⟩
            · exact .inl h2
            · exact .inr ⟨rfl, trans _ _ _ _ h1 h2⟩
  · rintro o p q h1 h2 h3 h4
    rcases p with _ | ⟨l, b⟩
    · rcases o with _ | o
      · rcases q with _ | q
        · exact ⟨h1, h1⟩
        · exact absurd (v2 _) h3
      · exact absurd (v2 _) h2
    · rcases o with _ | ⟨k, a⟩
      · exact absurd (v2 _) h1
      · rcases q with _ | ⟨m, d⟩
        · exact absurd (v2 _) h4
        · simp only [vl] at h1 h2 h3 h4 ⊢
          have e1 : k = l := by omega
          have e2 : l = m := by omega
          subst e1; subst e2
          simp only [Nat.lt_irrefl, false_or, true_and, Bool.not_eq_true] at h1 h2 h3 h4 ⊢
          exact inc _ _ _ _ h1 h2 h3 h4

/-- `<` and `==` agree if they do for every alternative: exactly one of `v < w`, `v == w`, `w < v` holds. -/
theorem c82_trichotomy (ops : Ops α) (tri : ∀ k a b, (ops.lt k a b = true ∧ ops.eq k a b = false ∧ ops.lt k b a = false) ∨
      (ops.lt k a b = false ∧ ops.eq k a b = true ∧ ops.lt k b a = false) ∨ (ops.lt k a b = false ∧ ops.eq k a b = false ∧ ops.lt k b a = true))
    (o p : Option (Val α)) : (vlt ops.lt o p ∧ ¬ veq ops.eq o p ∧ ¬ vlt ops.lt p o) ∨ (¬ vlt ops.lt o p ∧ veq ops.eq o p ∧ ¬ vlt ops.lt p o) ∨
      (¬ vlt ops.lt o p ∧ ¬ veq ops.eq o p ∧ vlt ops.lt p o) := by
  rcases o with _ | ⟨k, a⟩ <;> rcases p with _ | ⟨l, b⟩
  · simp [vlt, veq]
  · simp [vlt, veq]
  · simp [vlt, veq]
  · rcases Nat.lt_trichotomy k l with e | e | e
    · have h1 : ¬ l < k := by omega
      have h2 : l ≠ k := by omega
      simp [vlt, veq, e, h1, h2]
    · subst e
      have := tri k a b
      simpa [vlt, veq] using this
    · have h1 : ¬ k < l := by omega
      have h2 : k ≠ l := by omega
      simp [vlt, veq, e, h1, h2, Ne.symm h2]

/-- The operators of `monostate` are those of a type with one value. -/
theorem c82_monostate (a b : Unit) : (monoEq a b = true ↔ a = b) ∧ monoNe a b = (! monoEq a b) ∧ monoLt a b = false ∧ monoGt a b = monoLt b a ∧
    monoLe a b = (! monoGt a b) ∧ monoGe a b = (! monoLt a b) := by
  simp [monoEq, monoNe, monoLt, monoGt, monoLe, monoGe]

/-! ### Hypotheses are met -/

/-- Two integers, one in the reverse order. -/
def demoOps : Ops Int := ⟨fun _ a b => a == b, fun k a b => if k = 1 then b < a else a < b⟩

example : ∀ k a b, (demoOps.lt k a b = true ∧ demoOps.eq k a b = false ∧ demoOps.lt k b a = false) ∨
      (demoOps.lt k a b = false ∧ demoOps.eq k a b = true ∧ demoOps.lt k b a = false) ∨ (demoOps.lt k a b = false ∧ demoOps.eq k a b = false ∧ demoOps.lt k b a = true) := by
  intro k a b
  simp only [demoOps, beq_iff_eq, beq_eq_false_iff_ne]
  split <;> simp <;> omega

end Nanostl.Variant

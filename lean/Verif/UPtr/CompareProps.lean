import Verif.UPtr.Compare
import Verif.UPtr.Props

/-! C100: comparisons of `unique_ptr`. -/

namespace Nanostl.UPtr

open Spec

variable {D E F : Type}

/-- C100: in every state a program reaches, two `unique_ptr`s compare equal exactly if they are the same variable or both own nothing; of two that
are not equal exactly one is less; the other operators say the same. -/
theorem c100_owners (cs : List (Cmd D)) (hc : LegalRun Spec.init cs) :
    ∃ s, run init cs = some s ∧ ∀ i j u v, s.vars i = some u → s.vars j = some v →
      (opEq id id u v = true ↔ i = j ∨ (∀ o d, o ≠ 0 → (Spec.run Spec.init cs).slot i ≠ some (o, d) ∧ (Spec.run Spec.init cs).slot j ≠ some (o, d))) ∧
      (opNe id id u v = true ↔ ¬ opEq id id u v = true) ∧
      (opEq id id u v = true ∧ opLt id id u v = false ∧ opGt id id u v = false ∧ opLe id id u v = true ∧ opGe id id u v = true ∨
       opEq id id u v = false ∧ opLt id id u v = true ∧ opGt id id u v = false ∧ opLe id id u v = true ∧ opGe id id u v = false ∨
       opEq id id u v = false ∧ opLt id id u v = false ∧ opGt id id u v = true ∧ opLe id id u v = false ∧ opGe id id u v = true) := by
  obtain ⟨s, hr, h⟩ := run_ok inv_init hc
  refine ⟨s, hr, ?_⟩
  intro i j u v hu hv
  have slot_of : ∀ k w, s.vars k = some w → (Spec.run Spec.init cs).slot k = some (w.first, w.second) := by
    intro k w hk
    rw [h.vars] at hk
    cases e : (Spec.run Spec.init cs).slot k with
    | none => rw [e] at hk; cases hk
    | some x => rw [e] at hk; cases hk; rfl
  have si := slot_of i u hu
  have sj := slot_of j v hv
  refine ⟨?_, ?_, ?_⟩
  · unfold opEq get
    simp only [id, beq_iff_eq]
    constructor
    · intro e
      by_cases h0 : u.first = 0
      · right
        intro o d ho
        rw [si, sj]
        constructor
        · intro hh; cases hh; exact ho h0
        · intro hh; cases hh; exact ho (e ▸ h0)
      · exact .inl (h.inj i j u.first _ _ h0 si (e ▸ sj))
    · rintro (rfl | hn)
      · rw [hu] at hv; cases hv; rfl
      · have h1 : u.first = 0 := by
          by_contra h0
          exact (hn _ u.second h0).1 si
        have h2 : v.first = 0 := by
          by_contra h0
          exact (hn _ v.second h0).2 sj
        rw [h1, h2]
  · unfold opNe
    cases opEq id id u v <;> simp
  · unfold opEq opLe opGe opGt opLt less get
    simp only [id]
    rcases Nat.lt_trichotomy u.first v.first with hl | hl | hl
    · exact .inr (.inl ⟨by simp; omega, by simp; omega, by simp; omega, by simp; omega, by simp; omega⟩)
    · exact .inl ⟨by simp; omega, by simp; omega, by simp; omega, by simp; omega, by simp; omega⟩
    · exact .inr (.inr ⟨by simp; omega, by simp; omega, by simp; omega, by simp; omega, by simp; omega⟩)

/-- C100: pointers of three types, converted to a common one: `<` is a strict weak order whose equivalence is `==`, which is an equivalence. -/
theorem c100_order (f g k : Nat → Nat) (x : UP D) (y : UP E) (z : UP F) :
    opLt f f x x = false ∧ (opLt f g x y = true → opLt g k y z = true → opLt f k x z = true) ∧
    (opLt f g x y = true → opLt g f y x = false) ∧ (opLt f g x y = false ∧ opLt g f y x = false ↔ opEq f g x y = true) ∧
    opEq f f x x = true ∧ opEq f g x y = opEq g f y x ∧ (opEq f g x y = true → opEq g k y z = true → opEq f k x z = true) ∧
    opNe f g x y = !opEq f g x y ∧ opGt f g x y = opLt g f y x ∧ (opLe f g x y = true ↔ opLt f g x y = true ∨ opEq f g x y = true) ∧
    (opGe f g x y = true ↔ opGt f g x y = true ∨ opEq f g x y = true) := by
  unfold opNe opLe opGe opGt opLt opEq less get
  simp only [decide_eq_true_eq, decide_eq_false_iff_not, beq_iff_eq, Bool.not_eq_true', Bool.beq_comm, true_and]
  refine ⟨?_, ?_, ?_, ?_, ?_, ?_, ?_⟩ <;> first | trivial | omega

/-- C100: comparing with `nullptr` is comparing with an empty `unique_ptr`, whatever its type; it is null that is smallest. `f` maps the null pointer,
and no other, to the null pointer. -/
theorem c100_null (f : Nat → Nat) (hf : ∀ p, f p = 0 ↔ p = 0) (x : UP D) (n : UP E) (hn : n.first = 0) :
    (eqN x = opEq f id x n ∧ nEq x = opEq id f n x ∧ neN x = opNe f id x n ∧ nNe x = opNe id f n x) ∧
    (ltN x = opLt f id x n ∧ nLt x = opLt id f n x ∧ gtN x = opGt f id x n ∧ nGt x = opGt id f n x) ∧
    (leN x = opLe f id x n ∧ nLe x = opLe id f n x ∧ geN x = opGe f id x n ∧ nGe x = opGe id f n x) ∧
    (eqN x = true ↔ x.first = 0) ∧ (nLt x = true ↔ x.first ≠ 0) ∧ ltN x = false := by
  have h := hf x.first
  unfold eqN nEq neN nNe gtN nGt leN nLe geN nGe ltN nLt opNe opLe opGe opGt opLt opEq less get toBool
  rw [hn]
  by_cases h0 : x.first = 0
  · have h1 := h.mpr h0
    simp [h0, h0 ▸ h1]
  · have h1 : f x.first ≠ 0 := fun c => h0 (h.mp c)
    have h2 : 0 < x.first := Nat.pos_of_ne_zero h0
    have h3 : 0 < f x.first := Nat.pos_of_ne_zero h1
    have b1 : (x.first == 0) = false := by simpa using h0
    have b2 : (f x.first == 0) = false := by simpa using h1
    have b3 : (0 == f x.first) = false := by simpa using fun c : 0 = f x.first => h1 c.symm
    simp [bne, b1, b2, b3, h0, h2, h3]

/-! ### Hypotheses are met -/

/-- Two owners and an empty one. -/
example : LegalRun (D := Unit) Spec.init [.alloc 7, .alloc 9, .make 0 7 (), .make 1 9 (), .make 2 0 (), .moveCtor 3 0] ∧
    (run (D := Unit) init [.alloc 7, .alloc 9, .make 0 7 (), .make 1 9 (), .make 2 0 (), .moveCtor 3 0]).map
      (fun s => (s.vars 0).bind fun a => (s.vars 2).bind fun b => (s.vars 3).bind fun c => (s.vars 1).map fun d =>
        (opEq id id a b, opEq id id a c, opLt id id c d)) = some (some (true, false, true)) := by
  constructor
  · simp [LegalRun, Legal, Spec.init, Spec.step, Sp.setStatus, Sp.setSlot]
  · rfl
/-- A base class at offset 8. -/
example : ∀ p, (fun p => if p = 0 then 0 else p + 8) p = 0 ↔ p = 0 := by intro p; by_cases h : p = 0 <;> simp [h]

end Nanostl.UPtr

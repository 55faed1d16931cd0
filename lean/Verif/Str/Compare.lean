import Verif.Str.Lemmas

/-! Helper lemmas on reading strings. -/

namespace Nanostl.Str

open Nanostl.Vector

/-- The memory at `p` starts with the bytes `l` and a NUL. -/
def Holds (p : Nat → Option Byte) (l : List Byte) : Prop := ∀ i, i ≤ l.length → p i = some ((l ++ [0])[i]?.getD 0)

theorem holds_reader {h : Heap Byte} {v : Vec} {l : List Byte} (w : WF h v) (hv : view h v = enc l) : Holds (reader h v) l := by
  intro i hi
  have hlen := view_length w
  rw [hv] at hlen
  simp [enc] at hlen
  rcases w with ⟨e1, e2, e3⟩ | ⟨p, b, e1, e2, e3, e4, e5, e6⟩
  · omega
  · simp only [reader, e1, e2]
    simp only [view, e1, e2, Option.getD_some] at hv
    have h2 : (b.take v.size)[i]? = (enc l)[i]? := by rw [hv]
    rw [List.getElem?_take, if_pos (by omega)] at h2
    rw [h2]
    simp only [enc]
    have : List.map some l ++ [some 0] = (l ++ [0]).map some := by simp
    rw [this, List.getElem?_map]
    have hlt : i < (l ++ [(0 : Byte)]).length := by simp; omega
    rw [List.getElem?_eq_getElem hlt]
    simp

theorem Holds.head {p : Nat → Option Byte} {l : List Byte} {i : Nat} (h : Holds p l) (hi : i ≤ l.length) :
    (∃ c, l.drop i = c :: l.drop (i + 1) ∧ p i = some c) ∨ (l.drop i = [] ∧ i = l.length ∧ p i = some 0) := by
  have := h i hi
  rcases Nat.lt_or_ge i l.length with hlt | hge
  · left
    refine ⟨l[i], List.drop_eq_getElem_cons hlt, ?_⟩
    rw [this, List.getElem?_append_left hlt, List.getElem?_eq_getElem hlt]
    rfl
  · right
    have hil : i = l.length := by omega
    refine ⟨List.drop_eq_nil_of_le hge, hil, ?_⟩
    rw [this, hil]
    simp

/-- The characters before the first NUL. -/
def cpre (l : List Byte) : List Byte := l.takeWhile (· != 0)

theorem compareLoop_spec {p q : Nat → Option Byte} {l m : List Byte} (hp : Holds p l) (hq : Holds q m) :
    ∀ (n fuel i : Nat), l.length - i < n → n ≤ fuel → i ≤ l.length → i ≤ m.length →
      ∃ r, compareLoop p q fuel i = some r ∧ (r < 0 ↔ cpre (l.drop i) < cpre (m.drop i)) ∧
        (r = 0 ↔ cpre (l.drop i) = cpre (m.drop i)) := by
  intro n
  induction n with
  | zero => intro fuel i h; omega
  | succ n ih =>
    intro fuel i hn hf hi hj
    obtain ⟨fuel, rfl⟩ : ∃ k, fuel = k + 1 := ⟨fuel - 1, by omega⟩
    simp only [compareLoop]
    rcases hp.head hi with ⟨a, ha, pa⟩ | ⟨ha, hil, pa⟩ <;> rcases hq.head hj with ⟨b, hb, qb⟩ | ⟨hb, him, qb⟩
    · rw [pa, qb, ha, hb]
      simp only [Option.bind_eq_bind, Option.bind_some, cpre]
      by_cases h0 : a = 0
      · subst h0
        simp only [ne_eq, not_true_eq_false, false_and, if_false, Option.pure_def]
        refine ⟨_, rfl, ?_, ?_⟩
        · by_cases hb0 : b = 0
          · subst hb0; simp
          · have : 0 < b.toNat := by
              rcases Nat.eq_zero_or_pos b.toNat with h | h
              · exact absurd (UInt8.toNat_inj.mp (by simpa using h)) hb0
              · exact h
            simp [hb0]; omega
        · by_cases hb0 : b = 0
          · subst hb0; simp
          · have : b.toNat ≠ 0 := fun h => hb0 (UInt8.toNat_inj.mp (by simpa using h))
            simp [hb0]; omega
      · by_cases hab : a = b
        · subst hab
          simp only [ne_eq, h0, not_false_eq_true, and_self, if_true]
          have hil : i < l.length := by have := congrArg List.length ha; simp at this; omega
          have hjl : i < m.length := by have := congrArg List.length hb; simp at this; omega
          obtain ⟨r, h1, h2, h3⟩ := ih fuel (i + 1) (by omega) (by omega) (by omega) (by omega)
          refine ⟨r, h1, ?_, ?_⟩
          · rw [h2]; simp [h0, cpre]
          · rw [h3]; simp [h0, cpre]
        · simp only [hab, and_false, if_false, Option.pure_def]
          refine ⟨_, rfl, ?_, ?_⟩
          · by_cases hb0 : b = 0
            · subst hb0; simp [h0]
            · have h1 : a < b ↔ a.toNat < b.toNat := UInt8.lt_iff_toNat_lt
              simp only [List.takeWhile_cons, bne_iff_ne, ne_eq, h0, not_false_eq_true, if_true, hb0, List.cons_lt_cons_iff,
                hab, false_and, or_false, h1]
              omega
          · have h1 : a.toNat ≠ b.toNat := fun h => hab (UInt8.toNat_inj.mp h)
            by_cases hb0 : b = 0
            · subst hb0
              simp [h0]
              exact h1
            · simp [h0, hb0, hab]; omega
    · rw [pa, qb, ha, hb]
      simp only [Option.bind_eq_bind, Option.bind_some, cpre]
      by_cases h0 : a = 0
      · subst h0; exact ⟨0, by simp, by simp, by simp⟩
      · have h1 : a.toNat ≠ 0 := fun h => h0 (UInt8.toNat_inj.mp (by simpa using h))
        exact ⟨a.toNat, by simp [h0], by simp [h0], by simp [h0, h1]⟩
    · rw [pa, qb, ha, hb]
      simp only [Option.bind_eq_bind, Option.bind_some, cpre]
      by_cases h0 : b = 0
      · subst h0; exact ⟨0, by simp, by simp, by simp⟩
      · have h1 : b.toNat ≠ 0 := fun h => h0 (UInt8.toNat_inj.mp (by simpa using h))
        exact ⟨0 - b.toNat, by simp, by simp [h0]; omega, by simp [h0, h1]⟩
    · rw [pa, qb, ha, hb]
      exact ⟨0, by simp, by simp, by simp⟩

theorem strlenLoop_spec {p : Nat → Option Byte} {l : List Byte} (hp : Holds p l) :
    ∀ (n fuel i : Nat), l.length - i < n → n ≤ fuel → i ≤ l.length →
      strlenLoop p fuel i = some (i + (cpre (l.drop i)).length) := by
  intro n
  induction n with
  | zero => intro fuel i h; omega
  | succ n ih =>
    intro fuel i hn hf hi
    obtain ⟨fuel, rfl⟩ : ∃ k, fuel = k + 1 := ⟨fuel - 1, by omega⟩
    simp only [strlenLoop]
    rcases hp.head hi with ⟨a, ha, pa⟩ | ⟨ha, hil, pa⟩
    · rw [pa, ha]
      simp only [Option.bind_eq_bind, Option.bind_some]
      by_cases h0 : a = 0
      · subst h0; simp [cpre]
      · have hlt : i < l.length := by
          have := congrArg List.length ha; simp at this; omega
        simp only [h0, if_false]
        rw [ih fuel (i + 1) (by omega) (by omega) (by omega)]
        simp [cpre, h0]; omega
    · rw [pa, ha]; simp [cpre]

end Nanostl.Str

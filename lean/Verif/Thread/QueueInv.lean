import Verif.Thread.Queue
import Mathlib.Tactic.Ring
import Mathlib.Data.Nat.ModEq

/-!
Invariant of the queue when no call waits (timeout 0), over all schedules.
-/

namespace Nanostl.Thread
variable {V : Type}

/-- The call has decided to store, but has not taken its slot, not written it, not counted it. -/
def PPc.untaken : PPc V → Nat
  | .inc _ => 1
  | _ => 0
def PPc.unwritten : PPc V → Nat
  | .inc _ => 1
  | .write _ _ => 1
  | _ => 0
def PPc.uncounted : PPc V → Nat
  | .inc _ => 1
  | .write _ _ => 1
  | .count => 1
  | _ => 0
/-- The call has taken its slot, has given it back, without having returned. -/
def CPc.taken : CPc V → Nat
  | .read _ => 1
  | .dec _ => 1
  | .raise _ => 1
  | _ => 0
def CPc.given : CPc V → Nat
  | .raise _ => 1
  | _ => 0
/-- The call has seen that there is data and has not given back its slot. -/
def CPc.sure : CPc V → Nat
  | .inc => 1
  | .read _ => 1
  | .dec _ => 1
  | _ => 0
def PPc.begun : PPc V → Nat
  | .load _ _ => 1
  | _ => 0

/-- `E` are all values ever in the queue, in the order of storing. -/
structure Inv (E : List V) (s : St V) : Prop where
  pos : 0 < s.size
  size : s.size < 2 ^ 31
  len : s.values.length = s.size
  long : E.length ≤ 2 ^ 31
  tail : s.tail = E.length - s.p.untaken
  head : s.head = s.got.length + s.c.taken
  count : s.count = E.length - s.p.uncounted - (s.got.length + s.c.given)
  low : (s.c.sure : Int) ≤ s.count
  high : s.count + s.p.uncounted ≤ s.size
  nowaitP : ∀ v t, s.p ≠ .wait v t
  nowaitC : s.c ≠ .wait
  zeroP : ∀ v t, s.p = .load v t → t = 0
  zeroC : ∀ t, s.c = .load t → t = 0
  nonempty : s.p.uncounted ≤ E.length
  last : ∀ v, s.p = .inc v ∨ (∃ t, s.p = .write v t) → E[E.length - 1]? = some v
  write : ∀ v t, s.p = .write v t → t = ((E.length - 1 : Nat) : Int)
  read : ∀ h, s.c = .read h → h = (s.got.length : Int)
  value : ∀ v, s.c = .dec v ∨ s.c = .raise v → E[s.got.length]? = Option.some v
  pre : s.got = E.take s.got.length
  slots : ∀ i : Nat, s.got.length + s.c.given ≤ i → i < E.length - s.p.unwritten → s.values[i % s.size.toNat]? = E[i]?

theorem i32_id {x : Int} (h1 : -2 ^ 31 ≤ x) (h2 : x < 2 ^ 31) : i32 x = x := by unfold i32; omega

theorem slot_eq {size : Int} {i : Nat} (h : 0 < size) : slot size i = some (i % size.toNat) := by
  obtain ⟨n, rfl⟩ : ∃ n : Nat, size = n := ⟨size.toNat, by omega⟩
  have : ((i : Int).tmod n) = ((i % n : Nat) : Int) := by rw [Int.tmod_eq_emod_of_nonneg (by omega)]; rfl
  rw [slot, if_neg (by omega), this, if_pos (by omega), Int.toNat_natCast, Int.toNat_natCast]

theorem inv_pStep {E : List V} {s : St V} (h : Inv E s) (hl : ∀ v t, s.p = .load v t → E.length < 2 ^ 31) :
    ∃ s' E', pStep s = some s' ∧ Inv E' s' ∧ s'.size = s.size ∧
      ((E' = E ∧ s'.stored = s.stored ∧ s'.p.begun ≤ s.p.begun) ∨ ∃ v, E' = E ++ [v] ∧ s'.stored = s.stored ++ [v] ∧ s.p.begun = 1 ∧ s'.p.begun = 0) := by
  obtain ⟨h1, h2, h3, h4, h5, h6, h7, h8, h9, h10, h11, h12, h13, h14, h15, h16, h17, h18, h19, h20⟩ := h
  obtain ⟨size, values, count, head, tail, dr, so, p, c, stored, full, got, empty⟩ := s
  simp only at *
  cases p with
  | idle => exact ⟨_, E, rfl, ⟨h1, h2, h3, h4, h5, h6, h7, h8, h9, h10, h11, h12, h13, h14, h15, h16, h17, h18, h19, h20⟩, rfl, Or.inl ⟨rfl, rfl, Nat.le_refl _⟩⟩
  | wait v t => exact absurd rfl (h10 v t)
  | load v t =>
    have ht := h12 v t rfl
    have hE := hl v t rfl
    simp only [PPc.untaken, PPc.uncounted, PPc.unwritten] at *
    by_cases hc : i32 count = size
    · refine ⟨_, E, (if_pos hc).trans (if_pos ht), ?_, rfl, Or.inl ⟨rfl, rfl, Nat.zero_le _⟩⟩
      exact ⟨h1, h2, h3, h4, h5, h6, h7, h8, h9, by simp, h11, by simp, h13, by simp [PPc.uncounted], by simp, by simp, h17, h18, h19, h20⟩
    · refine ⟨_, E ++ [v], if_neg hc, ?_, rfl, Or.inr ⟨v, rfl, rfl, rfl, rfl⟩⟩
      have hg : got.length ≤ E.length := by rw [h19]; exact List.length_take_le' _ _
      rw [i32_id (by omega) (by omega)] at hc
      refine ⟨h1, h2, h3, by simp; omega, by simp [PPc.untaken]; omega, h6, by simp [PPc.uncounted]; omega, h8, by simp [PPc.uncounted]; omega, by simp, h11, by simp, h13,
        by simp [PPc.uncounted], ?_, by simp, h17, ?_, ?_, ?_⟩
      · simp
      · intro w hw
        have := h18 w hw
        rw [List.getElem?_append_left]; exact this
        exact (List.getElem?_eq_some_iff.1 this).1
      · simp only
        rw [List.take_append_of_le_length hg]; exact h19
      · simp only [PPc.unwritten, List.length_append, List.length_singleton]
        intro i hi1 hi2
        rw [List.getElem?_append_left (by omega)]
        exact h20 i hi1 (by omega)
  | inc v =>
    simp only [PPc.untaken, PPc.uncounted, PPc.unwritten] at *
    refine ⟨_, E, rfl, ?_, rfl, Or.inl ⟨rfl, rfl, Nat.le_refl _⟩⟩
    simp only [inc]
    refine ⟨h1, h2, h3, h4, by simp [PPc.untaken]; omega, h6, h7, h8, h9, by simp, h11, by simp, h13, h14, ?_, ?_, h17, h18, h19, h20⟩
    · intro w hw
      refine h15 w (Or.inl ?_)
      rcases hw with hw | ⟨t, hw⟩
      · exact absurd hw (by simp)
      · injection hw with a b; rw [a]
    · intro w t hw
      injection hw with a b
      rw [← b, i32_id (by omega) (by omega)]; omega
  | write v t =>
    simp only [PPc.untaken, PPc.uncounted, PPc.unwritten] at *
    have ht := h16 v t rfl
    have hv := h15 v (Or.inr ⟨t, rfl⟩)
    have hlt : (E.length - 1) % size.toNat < values.length := by
      have : (E.length - 1) % size.toNat < size.toNat := Nat.mod_lt _ (by omega)
      omega
    refine ⟨_, E, by simp only [pStep]; rw [ht, slot_eq h1]; simp only [Option.bind_eq_bind, Option.bind_some]; rw [if_pos hlt], ?_, rfl, Or.inl ⟨rfl, rfl, Nat.le_refl _⟩⟩
    refine ⟨h1, h2, by simpa using h3, h4, h5, h6, h7, h8, h9, by simp, h11, by simp, h13, h14, by simp, by simp, h17, h18, h19, ?_⟩
    simp only [PPc.unwritten, Nat.sub_zero]
    intro i hi1 hi2
    by_cases e : i = E.length - 1
    · rw [e, List.getElem?_set_self hlt, hv]
    · have hne : (E.length - 1) % size.toNat ≠ i % size.toNat := by
        intro hm
        have hsz : (E.length - 1) - i < size.toNat := by omega
        have : size.toNat ∣ (E.length - 1) - i := (Nat.modEq_iff_dvd' (show i ≤ E.length - 1 by omega)).1 hm.symm
        have := Nat.le_of_dvd (by omega) this
        omega
      rw [List.getElem?_set_ne hne]
      exact h20 i hi1 (by omega)
  | count =>
    simp only [PPc.untaken, PPc.uncounted, PPc.unwritten] at *
    have hlow : 0 ≤ count := by omega
    by_cases hc : i32 count = 0
    · refine ⟨_, E, if_pos hc, ?_, rfl, Or.inl ⟨rfl, rfl, Nat.le_refl _⟩⟩
      exact ⟨h1, h2, h3, h4, h5, h6, by simp [PPc.uncounted, inc]; omega, by simp [inc]; omega, by simp [PPc.uncounted, inc]; omega, by simp, h11, by simp, h13, by simp [PPc.uncounted], by simp, by simp,
        h17, h18, h19, h20⟩
    · refine ⟨_, E, if_neg hc, ?_, rfl, Or.inl ⟨rfl, rfl, Nat.le_refl _⟩⟩
      exact ⟨h1, h2, h3, h4, h5, h6, by simp [PPc.uncounted, inc]; omega, by simp [inc]; omega, by simp [PPc.uncounted, inc]; omega, by simp, h11, by simp, h13, by simp [PPc.uncounted], by simp, by simp,
        h17, h18, h19, h20⟩
  | raise =>
    simp only [PPc.untaken, PPc.uncounted, PPc.unwritten] at *
    refine ⟨_, E, rfl, ?_, rfl, Or.inl ⟨rfl, rfl, Nat.le_refl _⟩⟩
    exact ⟨h1, h2, h3, h4, h5, h6, h7, h8, h9, by simp, h11, by simp, h13, h14, by simp, by simp, h17, h18, h19, h20⟩

theorem inv_cStep {E : List V} {s : St V} (h : Inv E s) : ∃ s', cStep s = some s' ∧ Inv E s' ∧ s'.size = s.size ∧ s'.stored = s.stored ∧ s'.p = s.p := by
  obtain ⟨h1, h2, h3, h4, h5, h6, h7, h8, h9, h10, h11, h12, h13, h14, h15, h16, h17, h18, h19, h20⟩ := h
  obtain ⟨size, values, count, head, tail, dr, so, p, c, stored, full, got, empty⟩ := s
  simp only at *
  have hg : got.length ≤ E.length := by rw [h19]; exact List.length_take_le' _ _
  cases c with
  | idle => exact ⟨_, rfl, ⟨h1, h2, h3, h4, h5, h6, h7, h8, h9, h10, h11, h12, h13, h14, h15, h16, h17, h18, h19, h20⟩, rfl, rfl, rfl⟩
  | wait => exact absurd rfl h11
  | load t =>
    have ht := h13 t rfl
    simp only [CPc.taken, CPc.given, CPc.sure] at *
    by_cases hc : i32 count = 0
    · refine ⟨_, (if_pos hc).trans (if_pos ht), ?_, rfl, rfl, rfl⟩
      exact ⟨h1, h2, h3, h4, h5, h6, h7, h8, h9, h10, by simp, h12, by simp, h14, h15, h16, by simp, by simp, h19, h20⟩
    · refine ⟨_, if_neg hc, ?_, rfl, rfl, rfl⟩
      rw [i32_id (by omega) (by omega)] at hc
      exact ⟨h1, h2, h3, h4, h5, h6, h7, by simp [CPc.sure]; omega, h9, h10, by simp, h12, by simp, h14, h15, h16, by simp, by simp, h19, h20⟩
  | inc =>
    simp only [CPc.taken, CPc.given, CPc.sure] at *
    refine ⟨_, rfl, ?_, rfl, rfl, rfl⟩
    simp only [inc]
    refine ⟨h1, h2, h3, h4, h5, by simp [CPc.taken]; omega, h7, h8, h9, h10, by simp, h12, by simp, h14, h15, h16, ?_, by simp, h19, h20⟩
    intro w hw
    injection hw with a
    rw [← a, i32_id (by omega) (by omega)]
    show head = (got.length : Int)
    omega
  | read hd =>
    simp only [CPc.taken, CPc.given, CPc.sure] at *
    have hh := h17 hd rfl
    have hlt : got.length < E.length - p.unwritten := by
      have : p.unwritten ≤ p.uncounted := by cases p <;> simp [PPc.unwritten, PPc.uncounted]
      omega
    have hv := h20 got.length (by omega) hlt
    have he : E[got.length]? = some E[got.length] := List.getElem?_eq_getElem (by omega)
    refine ⟨{ size := size, values := values, count := count, head := head, tail := tail, dataReady := dr, spaceOpen := so, p := p, c := .dec E[got.length], stored := stored, full := full, got := got, empty := empty }, ?_, ?_, rfl, rfl, rfl⟩
    · simp only [cStep]
      rw [hh, slot_eq h1]
      simp only [Option.bind_eq_bind, Option.bind_some]
      rw [hv, he]; rfl
    · refine ⟨h1, h2, h3, h4, h5, h6, h7, h8, h9, h10, by simp, h12, by simp, h14, h15, h16, by simp, ?_, h19, h20⟩
      intro w hw
      rw [he]
      rcases hw with hw | hw
      · injection hw with a; rw [a]
      · exact absurd hw (by simp)
  | dec v =>
    simp only [CPc.taken, CPc.given, CPc.sure] at *
    have hv := h18 v (Or.inl rfl)
    have hlt := (List.getElem?_eq_some_iff.1 hv).1
    by_cases hc : i32 count = size
    · refine ⟨_, if_pos hc, ?_, rfl, rfl, rfl⟩
      simp only [dec]
      refine ⟨h1, h2, h3, h4, h5, h6, by simp [CPc.given]; omega, by simp [CPc.sure]; omega, by simp; omega, h10, by simp, h12, by simp, h14, h15, h16, by simp, ?_, h19, ?_⟩
      · intro w hw
        rcases hw with hw | hw
        · exact absurd hw (by simp)
        · injection hw with a; rw [← a]; exact hv
      · intro i hi1 hi2
        simp only [CPc.given] at hi1
        exact h20 i (by omega) hi2
    · refine ⟨_, if_neg hc, ?_, rfl, rfl, rfl⟩
      simp only [dec]
      refine ⟨h1, h2, h3, h4, h5, by simp [CPc.taken]; omega, by simp [CPc.given]; omega, by simp [CPc.sure]; omega, by simp; omega, h10, by simp, h12, by simp, h14, h15, h16, by simp,
        by simp, ?_, ?_⟩
      · simp only [List.length_append, List.length_singleton]
        rw [List.take_add_one, hv, ← h19]; rfl
      · intro i hi1 hi2
        simp only [CPc.given, List.length_append, List.length_singleton] at hi1
        exact h20 i (by omega) hi2
  | raise v =>
    simp only [CPc.taken, CPc.given, CPc.sure] at *
    have hv := h18 v (Or.inr rfl)
    refine ⟨_, rfl, ?_, rfl, rfl, rfl⟩
    refine ⟨h1, h2, h3, h4, h5, by simp [CPc.taken]; omega, by simp [CPc.given]; omega, by simp [CPc.sure]; omega, h9, h10, by simp, h12, by simp, h14, h15, h16, by simp,
      by simp, ?_, ?_⟩
    · simp only [List.length_append, List.length_singleton]
      rw [List.take_add_one, hv, ← h19]; rfl
    · intro i hi1 hi2
      simp only [CPc.given, List.length_append, List.length_singleton] at hi1
      exact h20 i (by omega) hi2

end Nanostl.Thread

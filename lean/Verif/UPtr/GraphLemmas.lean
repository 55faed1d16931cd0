import Verif.UPtr.Graph
import Mathlib.Data.Finset.Card
import Mathlib.Order.Interval.Finset.Nat

/-! Lemmas for C127: what one `delete` sets going. -/

namespace Nanostl.UPtr.Graph

/-- `b` belongs to `a`: it is `a`, or a member of something that belongs to `a` owns it. -/
inductive Reach (s : State) (a : Nat) : Nat → Prop
  | refl : Reach s a a
  | step {b c : Nat} (i : Nat) : Reach s a b → i < s.arity b → s.ptr (.mem b i) = some c → Reach s a c

/-- No object has two owners, every owned object is alive. -/
structure Inv (s : State) : Prop where
  own : ∀ l l' o, s.there l → s.there l' → s.ptr l = some o → s.ptr l' = some o → l = l'
  live : ∀ l o, s.there l → s.ptr l = some o → s.status o = .live
  used : ∀ o, s.status o ≠ .gone → o < s.next

/-- The objects in `D` are gone, all else is as it was. -/
structure Gone (s s' : State) (D : Nat → Prop) : Prop where
  arity : s'.arity = s.arity
  next : s'.next = s.next
  gone : ∀ o, D o → s'.status o = .gone
  kept : ∀ o, ¬ D o → s'.status o = s.status o
  ptr : ∀ l, (∀ o i, l = .mem o i → ¬ D o) → s'.ptr l = s.ptr l

theorem there_mem {s : State} {o i : Nat} : s.there (.mem o i) = true ↔ s.status o ≠ .gone ∧ i < s.arity o := by
  simp [State.there]

theorem there_var {s : State} {v : Nat} : s.there (.var v) = true := rfl

theorem reach_live {s : State} (I : Inv s) {a b : Nat} (h : Reach s a b) (ha : s.status a = .live) : s.status b = .live := by
  induction h with
  | refl => exact ha
  | step i _ hi hp ih => exact I.live _ _ (there_mem.2 ⟨by simp [ih], hi⟩) hp

theorem reach_trans {s : State} {a b c : Nat} (h : Reach s a b) (k : Reach s b c) : Reach s a c := by
  induction k with
  | refl => exact h
  | step i _ hi hp ih => exact .step i ih hi hp

theorem reach_head {s : State} {a b c i : Nat} (hi : i < s.arity a) (hp : s.ptr (.mem a i) = some b) (h : Reach s b c) : Reach s a c :=
  reach_trans (.step i .refl hi hp) h

/-- The first step of a way. -/
theorem reach_cases {s : State} {a c : Nat} (h : Reach s a c) : c = a ∨ ∃ i b, i < s.arity a ∧ s.ptr (.mem a i) = some b ∧ Reach s b c := by
  induction h with
  | refl => exact .inl rfl
  | @step b c i h hi hp ih =>
    rcases ih with rfl | ⟨j, x, hj, hx, hr⟩
    · exact .inr ⟨i, c, hi, hp, .refl⟩
    · exact .inr ⟨j, x, hj, hx, .step i hr hi hp⟩

/-- A way stays one if nothing changes in the objects on it. -/
theorem reach_congr {s u : State} {a b : Nat} (h : Reach s a b) (e : ∀ o, Reach s a o → u.arity o = s.arity o ∧ ∀ i, u.ptr (.mem o i) = s.ptr (.mem o i)) :
    Reach u a b := by
  induction h with
  | refl => exact .refl
  | step i h hi hp ih => exact .step i ih ((e _ h).1 ▸ hi) (((e _ h).2 i).trans hp)

/-! The number of objects alive -/

def nlive (s : State) : Nat := ((Finset.range s.next).filter fun o => s.status o = .live).card

theorem nlive_le {s u : State} (n : u.next = s.next) (h : ∀ o, u.status o = .live → s.status o = .live) : nlive u ≤ nlive s := by
  unfold nlive
  refine Finset.card_le_card fun o ho => ?_
  simp only [Finset.mem_filter, Finset.mem_range] at ho ⊢
  exact ⟨n ▸ ho.1, h o ho.2⟩

theorem nlive_lt {s u : State} (n : u.next = s.next) (h : ∀ o, u.status o = .live → s.status o = .live) {t : Nat} (hn : t < s.next) (hs : s.status t = .live)
    (hu : u.status t ≠ .live) : nlive u < nlive s := by
  unfold nlive
  refine Finset.card_lt_card ⟨fun o ho => ?_, fun k => ?_⟩
  · simp only [Finset.mem_filter, Finset.mem_range] at ho ⊢
    exact ⟨n ▸ ho.1, h o ho.2⟩
  · have : t ∈ (Finset.range u.next).filter fun o => u.status o = .live := k (by simp [hn, hs])
    simp [hu] at this

theorem nlive_bound (s : State) : nlive s ≤ s.next := by
  unfold nlive
  exact (Finset.card_filter_le _ _).trans (by simp)

/-! Changing a pointer -/

theorem there_setPtr {s : State} {l : Loc} {p : Option Nat} (k : Loc) : (s.setPtr l p).there k = s.there k := by cases k <;> rfl

theorem inv_null {s : State} (I : Inv s) (l : Loc) : Inv (s.setPtr l none) where
  own k k' o hk hk' e e' := by
    rw [there_setPtr] at hk hk'
    simp only [State.setPtr] at e e'
    split at e <;> [cases e; skip]
    split at e' <;> [cases e'; skip]
    exact I.own _ _ _ hk hk' e e'
  live k o hk e := by
    rw [there_setPtr] at hk
    simp only [State.setPtr] at e
    split at e <;> [cases e; skip]
    exact I.live _ _ hk e
  used := I.used

theorem inv_set {s : State} (I : Inv s) (l : Loc) {p : Nat} (hp : s.status p = .live) (free : ∀ k, s.there k → s.ptr k ≠ some p) : Inv (s.setPtr l (some p)) where
  own k k' o hk hk' e e' := by
    rw [there_setPtr] at hk hk'
    simp only [State.setPtr] at e e'
    split at e <;> split at e'
    · simp_all
    · simp at e; subst e; exact (free _ hk' e').elim
    · simp at e'; subst e'; exact (free _ hk e).elim
    · exact I.own _ _ _ hk hk' e e'
  live k o hk e := by
    rw [there_setPtr] at hk
    simp only [State.setPtr] at e
    split at e
    · simp at e; exact e ▸ hp
    · exact I.live _ _ hk e
  used := I.used

/-! One `delete` -/

/-- What `del` does to an object that nobody owns. -/
def Deletes (n : Nat) (del : State → Nat → Option State) : Prop :=
  ∀ s t, Inv s → s.status t = .live → (∀ l, s.there l → s.ptr l ≠ some t) → nlive s ≤ n → ∃ s', del s t = some s' ∧ Inv s' ∧ Gone s s' (Reach s t)

theorem destroy_spec {n : Nat} {del : State → Nat → Option State} (H : Deletes n del) (t : Nat) (is : List Nat) :
    ∀ u : State, Inv u → u.status t = .dying → (∀ i ∈ is, i < u.arity t) → nlive u ≤ n →
    ∃ u', destroyMembers del t is u = some u' ∧ Inv u' ∧ u'.arity = u.arity ∧ u'.next = u.next ∧
      (∀ o, (∃ i ∈ is, ∃ x, u.ptr (.mem t i) = some x ∧ Reach u x o) → u'.status o = .gone) ∧
      (∀ o, ¬ (∃ i ∈ is, ∃ x, u.ptr (.mem t i) = some x ∧ Reach u x o) → u'.status o = u.status o) ∧
      (∀ l, (∀ o i, l = .mem o i → ¬ (∃ i ∈ is, ∃ x, u.ptr (.mem t i) = some x ∧ Reach u x o) ∧ o ≠ t) → u'.ptr l = u.ptr l) := by
  induction is with
  | nil => intro u I _ _ _; exact ⟨u, rfl, I, rfl, rfl, by simp, by simp, by simp⟩
  | cons i is ih =>
    intro u I ht hi hn
    have hth : u.there (.mem t i) = true := there_mem.2 ⟨by simp [ht], hi i (by simp)⟩
    set u1 := u.setPtr (.mem t i) none with hu1
    have I1 : Inv u1 := inv_null I _
    have p1 : ∀ l, l ≠ .mem t i → u1.ptr l = u.ptr l := fun l h => by simp [hu1, State.setPtr, h]
    cases hx : u.ptr (.mem t i) with
    | none =>
      have p1' : u1 = u := by
        simp only [hu1, State.setPtr]
        congr 1
        funext k; split <;> simp_all
      obtain ⟨u', e, I', ea, en, hg, hk, hp⟩ := ih u I ht (fun j hj => hi j (by simp [hj])) hn
      refine ⟨u', ?_, I', ea, en, ?_, ?_, ?_⟩
      · simp only [destroyMembers, resetWith, hth, if_true, hx, Option.bind_some]
        rw [← hu1, p1', e]
      · rintro o ⟨j, hj, x, ex, hr⟩
        rcases List.mem_cons.1 hj with rfl | hj
        · simp [hx] at ex
        · exact hg o ⟨j, hj, x, ex, hr⟩
      · intro o ho
        exact hk o fun ⟨j, hj, x, ex, hr⟩ => ho ⟨j, List.mem_cons_of_mem _ hj, x, ex, hr⟩
      · intro l hl
        exact hp l fun o j e => ⟨fun ⟨j', hj, x, ex, hr⟩ => (hl o j e).1 ⟨j', List.mem_cons_of_mem _ hj, x, ex, hr⟩, (hl o j e).2⟩
    | some x =>
      have xl : u.status x = .live := I.live _ _ hth hx
      -- what belongs to `x` is alive, so it is not `t`
      have nt : ∀ o, Reach u x o → o ≠ t := fun o h e => by
        have := reach_live I h xl
        rw [e, ht] at this; cases this
      have r1 : ∀ o, Reach u1 x o ↔ Reach u x o := by
        intro o
        have f : ∀ o, Reach u x o → Reach u1 x o := fun o h => reach_congr h fun b hb => ⟨rfl, fun j => p1 _ (by simp [nt b hb])⟩
        refine ⟨fun h => ?_, f o⟩
        induction h with
        | refl => exact .refl
        | step j _ hj hp ih => exact .step j ih hj (by rw [← hp]; exact (p1 _ (by simp [nt _ ih])).symm)
      obtain ⟨u2, e2, I2, G⟩ := H u1 x I1 xl (fun l hl hp => by
          by_cases hll : l = .mem t i
          · simp [hu1, State.setPtr, hll] at hp
          · rw [p1 l hll] at hp
            exact hll (I.own l _ x (by rwa [there_setPtr] at hl) hth hp hx)) hn
      have t2 : u2.status t = .dying := by rw [G.kept t fun h => nt t ((r1 t).1 h) rfl]; exact ht
      have m2 : ∀ o j, ¬ Reach u x o → o ≠ t → u2.ptr (.mem o j) = u.ptr (.mem o j) := fun o j h ho => by
        rw [G.ptr _ (by rintro o' j' e; cases e; rwa [r1])]
        exact p1 _ (by simp [ho])
      have mt : ∀ j, j ≠ i → u2.ptr (.mem t j) = u.ptr (.mem t j) := fun j hj => by
        rw [G.ptr _ (by rintro o' j' e; cases e; rw [r1]; exact fun h => nt _ h rfl)]
        exact p1 _ (by simp [hj])
      have mi : u2.ptr (.mem t i) = none := by
        rw [G.ptr _ (by rintro o' j' e; cases e; rw [r1]; exact fun h => nt _ h rfl)]
        simp [hu1, State.setPtr]
      have a2 : u2.arity = u.arity := G.arity
      have l2 : ∀ o, u2.status o = .live → ¬ Reach u x o := fun o h k => by rw [G.gone o ((r1 o).2 k)] at h; cases h
      obtain ⟨u', e, I', ea, en, hg, hk, hp⟩ := ih u2 I2 t2 (fun j hj => by rw [a2]; exact hi j (by simp [hj]))
        ((nlive_le G.next fun o h => by
          have := G.kept o (fun k => l2 o h ((r1 o).1 k)); rw [this] at h; exact h).trans hn)
      -- belonging to another member is the same before and after
      have same : ∀ j y, u2.ptr (.mem t j) = some y → j < u.arity t → ∀ o, Reach u2 y o ↔ Reach u y o := by
        intro j y hy hj o
        have yl : u2.status y = .live := I2.live _ _ (there_mem.2 ⟨by simp [t2], by rw [a2]; exact hj⟩) hy
        have nt2 : ∀ o, u2.status o = .live → o ≠ t := fun o h e => by rw [e, t2] at h; cases h
        constructor
        · intro h
          refine reach_congr h fun b hb => ?_
          have bl := reach_live I2 hb yl
          exact ⟨by rw [a2], fun j => (m2 b j (l2 b bl) (nt2 b bl)).symm⟩
        · intro h
          induction h with
          | refl => exact .refl
          | step k _ hk hp ih =>
            have bl := reach_live I2 ih yl
            exact .step k ih (by rw [a2]; exact hk) ((m2 _ k (l2 _ bl) (nt2 _ bl)).trans hp)
      have D : ∀ o, (∃ j ∈ is, ∃ y, u2.ptr (.mem t j) = some y ∧ Reach u2 y o) → ∃ j ∈ i :: is, ∃ y, u.ptr (.mem t j) = some y ∧ Reach u y o := by
        rintro o ⟨j, hj, y, ey, hr⟩
        have hji : j ≠ i := by rintro rfl; rw [mi] at ey; cases ey
        exact ⟨j, by simp [hj], y, by rw [← mt j hji]; exact ey, (same j y ey (hi j (by simp [hj])) o).1 hr⟩
      have D' : ∀ o, (∃ j ∈ i :: is, ∃ y, u.ptr (.mem t j) = some y ∧ Reach u y o) →
          Reach u x o ∨ ∃ j ∈ is, ∃ y, u2.ptr (.mem t j) = some y ∧ Reach u2 y o := by
        rintro o ⟨j, hj, y, ey, hr⟩
        by_cases hji : j = i
        · subst hji; rw [hx] at ey; cases ey; exact .inl hr
        · have hj' : j ∈ is := by simpa [hji] using hj
          have ey2 : u2.ptr (.mem t j) = some y := by rw [mt j hji]; exact ey
          exact .inr ⟨j, hj', y, ey2, (same j y ey2 (hi j hj) o).2 hr⟩
      have r0 : ∀ o, Reach u x o → ∃ j ∈ i :: is, ∃ y, u.ptr (.mem t j) = some y ∧ Reach u y o := fun o h => ⟨i, by simp, x, hx, h⟩
      refine ⟨u', ?_, I', ea.trans a2, en.trans G.next, ?_, ?_, ?_⟩
      · simp only [destroyMembers, resetWith, hth, if_true, hx]
        rw [← hu1, e2, Option.bind_some, e]
      · intro o ho
        rcases D' o ho with h | h
        · by_cases h' : ∃ j ∈ is, ∃ y, u2.ptr (.mem t j) = some y ∧ Reach u2 y o
          · exact hg o h'
          · rw [hk o h']; exact G.gone o ((r1 o).2 h)
        · exact hg o h
      · intro o ho
        rw [hk o fun h => ho (D o h)]
        exact G.kept o fun h => ho (r0 o ((r1 o).1 h))
      · intro l hl
        rw [hp l fun o j e => ⟨fun h => (hl o j e).1 (D o h), (hl o j e).2⟩]
        rw [G.ptr l fun o j e h => (hl o j e).1 (r0 o ((r1 o).1 h))]
        exact p1 l fun e => (hl _ _ e).2 rfl

theorem delete_spec : ∀ n, Deletes n (delete n)
  | 0 => fun s t I ht _ hn => by
    have : nlive s ≠ 0 := by
      unfold nlive
      refine Finset.card_ne_zero_of_mem (a := t) ?_
      simp [ht, I.used t (by simp [ht])]
    omega
  | n + 1 => fun s t I ht hf hn => by
    have tn : t < s.next := I.used t (by simp [ht])
    set s1 := s.setStatus t .dying with hs1
    have st1 : s1.status t = .dying := by simp [hs1, State.setStatus]
    have so1 : ∀ o, o ≠ t → s1.status o = s.status o := fun o h => by simp [hs1, State.setStatus, h]
    have th1 : ∀ l, s1.there l = s.there l := by
      intro l
      cases l with
      | var v => rfl
      | mem o i =>
        simp only [State.there]
        by_cases h : o = t
        · subst h; simp [st1, ht]; rfl
        · rw [so1 o h]; rfl
    have I1 : Inv s1 := by
      refine ⟨fun l l' o h h' e e' => I.own l l' o (th1 l ▸ h) (th1 l' ▸ h') e e', fun l o h e => ?_, fun o h => ?_⟩
      · have hot : o ≠ t := by rintro rfl; exact hf l (th1 l ▸ h) e
        rw [so1 o hot]; exact I.live l o (th1 l ▸ h) e
      · by_cases hot : o = t
        · subst hot; exact tn
        · exact I.used o (so1 o hot ▸ h)
    have n1 : nlive s1 < nlive s := nlive_lt rfl (fun o h => by
      by_cases hot : o = t
      · subst hot; exact ht
      · rwa [so1 o hot] at h) tn ht (by simp [st1])
    obtain ⟨u, e, Iu, ea, en, hg, hk, hp⟩ := destroy_spec (delete_spec n) t (List.range (s.arity t)).reverse s1 I1 st1
      (fun i hi => (by simpa using hi : i < s.arity t)) (by omega)
    have r1 : ∀ a o, Reach s1 a o ↔ Reach s a o := fun a o => ⟨fun h => reach_congr h fun _ _ => ⟨rfl, fun _ => rfl⟩, fun h => reach_congr h fun _ _ => ⟨rfl, fun _ => rfl⟩⟩
    have D : ∀ o, (∃ i ∈ (List.range (s.arity t)).reverse, ∃ x, s1.ptr (.mem t i) = some x ∧ Reach s1 x o) ↔ o ≠ t ∧ Reach s t o := by
      intro o
      constructor
      · rintro ⟨i, hi, x, ex, hr⟩
        have hi' : i < s1.arity t := (by simpa using hi : i < s.arity t)
        refine ⟨?_, (r1 _ _).1 (reach_head hi' ex hr)⟩
        rintro rfl
        have xl : s1.status x = .live := I1.live _ _ (there_mem.2 ⟨by simp [st1], hi'⟩) ex
        have := reach_live I1 hr xl
        rw [st1] at this; cases this
      · rintro ⟨hot, hr⟩
        rcases reach_cases hr with h | ⟨i, x, hi, ex, h⟩
        · exact (hot h).elim
        · exact ⟨i, by simpa using hi, x, ex, (r1 _ _).2 h⟩
    have ut : u.status t = .dying := by rw [hk t fun h => ((D t).1 h).1 rfl]; exact st1
    refine ⟨u.setStatus t .gone, ?_, ?_, ?_⟩
    · simp only [delete, ht, if_true]
      rw [← hs1, e]; rfl
    · have th : ∀ l, (u.setStatus t .gone).there l → u.there l := by
        intro l h
        cases l with
        | var v => rfl
        | mem o i =>
          rw [there_mem] at h ⊢
          refine ⟨fun k => h.1 ?_, h.2⟩
          simp only [State.setStatus]; split <;> simp_all
      refine ⟨fun l l' o h h' e e' => Iu.own l l' o (th l h) (th l' h') e e', fun l o h e => ?_, fun o h => ?_⟩
      · have hl := Iu.live l o (th l h) e
        have hot : o ≠ t := by rintro rfl; rw [ut] at hl; cases hl
        simpa [State.setStatus, hot] using hl
      · refine Iu.used o fun k => h ?_
        simp only [State.setStatus]; split <;> simp_all
    · refine ⟨ea, en, fun o h => ?_, fun o h => ?_, fun l h => ?_⟩
      · by_cases hot : o = t
        · simp [State.setStatus, hot]
        · simpa [State.setStatus, hot] using hg o ((D o).2 ⟨hot, h⟩)
      · have hot : o ≠ t := by rintro rfl; exact h .refl
        simp only [State.setStatus, hot, if_false]
        rw [hk o fun k => h ((D o).1 k).2, so1 o hot]
      · exact hp l fun o i e => ⟨fun k => h o i e ((D o).1 k).2, fun k => h o i e (k ▸ .refl)⟩

end Nanostl.UPtr.Graph

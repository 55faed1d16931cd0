import Verif.UPtr.GraphLemmas

/-!
Property C127: lists and trees made of `unique_ptr`s. Dropping one deletes all that belongs to it and nothing else, each object once, whatever the shape is; nothing is
touched that is gone; if no object is put into what it owns itself, nothing is left behind.
-/

namespace Nanostl.UPtr.Graph

/-- What programs can come to. -/
inductive Run (data : Bool) : State → Prop
  | init : Run data init
  | step {s s' : State} (c : Cmd) : Run data s → step data s c = some s' → Run data s'

/-- The `unique_ptr`s that a command uses. -/
def Cmd.locs : Cmd → List Loc
  | .make l _ => [l]
  | .drop l => [l]
  | .move l l' => [l, l']
  | .swap l l' => [l, l']

/-- `o` belongs to the `unique_ptr` at `l`. -/
def Below (s : State) (l : Loc) (o : Nat) : Prop := ∃ t, s.ptr l = some t ∧ Reach s t o

theorem below_step {s : State} {l : Loc} {b c i : Nat} (h : Below s l b) (hi : i < s.arity b) (hp : s.ptr (.mem b i) = some c) : Below s l c := by
  obtain ⟨t, e, r⟩ := h
  exact ⟨t, e, .step i r hi hp⟩

/-! `reset` -/

theorem reset_spec {s : State} (I : Inv s) {l : Loc} (hl : s.there l) (p : Option Nat)
    (hp : ∀ x, p = some x → s.status x = .live ∧ ∀ k, s.there k → s.ptr k ≠ some x) :
    ∃ s', reset s l p = some s' ∧ Inv s' ∧ Gone (s.setPtr l p) s' (fun o => ∃ t, s.ptr l = some t ∧ Reach (s.setPtr l p) t o) := by
  have I1 : Inv (s.setPtr l p) := by
    cases p with
    | none => exact inv_null I l
    | some x => exact inv_set I l (hp x rfl).1 (hp x rfl).2
  cases ht : s.ptr l with
  | none =>
    refine ⟨s.setPtr l p, by simp [reset, resetWith, hl, ht], I1, rfl, rfl, ?_, ?_, ?_⟩ <;> simp
  | some t =>
    obtain ⟨s', e, I', G⟩ := delete_spec (s.next + 1) (s.setPtr l p) t I1 (I.live l t hl ht) (fun k hk e => by
        rw [there_setPtr] at hk
        simp only [State.setPtr] at e
        split at e
        · exact (hp t e).2 l hl ht
        · rename_i hkl; exact hkl (I.own k l t hk hl e ht)) (by
        have := nlive_bound (s.setPtr l p); simp only [State.setPtr] at this ⊢; omega)
    refine ⟨s', by simp [reset, resetWith, hl, ht, e], I', G.arity, G.next, fun o h => G.gone o ?_, fun o h => G.kept o fun k => h ⟨t, rfl, k⟩, fun k h => G.ptr k fun o i e r => h o i e ⟨t, rfl, r⟩⟩
    obtain ⟨t', e', r⟩ := h
    cases e'; exact r

/-- With `l` null, `t` still leads to all it led to: a way through `l` only comes back to `t`. -/
theorem reach_null {s : State} {l : Loc} {t o : Nat} (ht : s.ptr l = some t) : Reach (s.setPtr l none) t o ↔ Reach s t o := by
  constructor
  · intro h
    induction h with
    | refl => exact .refl
    | step i _ hi hp ih =>
      simp only [State.setPtr] at hp
      split at hp <;> [cases hp; skip]
      exact .step i ih hi hp
  · intro h
    induction h with
    | refl => exact .refl
    | @step b c i _ hi hp ih =>
      by_cases hl : Loc.mem b i = l
      · rw [hl, ht] at hp; cases hp; exact .refl
      · exact .step i ih hi (by simpa [State.setPtr, hl] using hp)

/-- Without a pointer, less is reached. -/
theorem reach_less {s : State} {l : Loc} {a o : Nat} (h : Reach (s.setPtr l none) a o) : Reach s a o := by
  induction h with
  | refl => exact .refl
  | step i _ hi hp ih =>
    simp only [State.setPtr] at hp
    split at hp <;> [cases hp; skip]
    exact .step i ih hi hp

/-! The invariant holds always. -/

theorem inv_init : Inv init := ⟨fun _ _ _ _ _ e => by simp [init] at e, fun _ _ _ e => by simp [init] at e, fun _ h => by simp [init] at h⟩

/-- Nothing is left half destroyed between commands. -/
def Calm (s : State) : Prop := ∀ o, s.status o ≠ .dying

theorem there_alloc {s : State} {k : Nat} {l : Loc} (h : s.there l) (I : Inv s) : (alloc s k).there l := by
  cases l with
  | var v => rfl
  | mem o i =>
    rw [there_mem] at h ⊢
    have : o ≠ s.next := fun e => by have := I.used o h.1; omega
    simpa [alloc, this] using h

theorem alloc_there {s : State} {k : Nat} {l : Loc} (h : (alloc s k).there l) : s.there l ∨ ∃ i, l = .mem s.next i := by
  cases l with
  | var v => exact .inl rfl
  | mem o i =>
    rw [there_mem] at h
    by_cases e : o = s.next
    · exact .inr ⟨i, by rw [e]⟩
    · exact .inl (by rw [there_mem]; simpa [alloc, e] using h)

theorem alloc_ptr {s : State} {k : Nat} {l : Loc} : (alloc s k).ptr l = s.ptr l ∨ (alloc s k).ptr l = none := by
  cases l with
  | var v => exact .inl rfl
  | mem o i => simp only [alloc]; split <;> simp

theorem alloc_own {s : State} {k : Nat} {l : Loc} {o : Nat} (h : (alloc s k).there l) (e : (alloc s k).ptr l = some o) : s.there l ∧ s.ptr l = some o := by
  rcases alloc_there h with h | ⟨i, rfl⟩
  · rcases alloc_ptr (s := s) (k := k) (l := l) with e' | e'
    · exact ⟨h, e' ▸ e⟩
    · rw [e'] at e; cases e
  · simp [alloc] at e

theorem inv_alloc {s : State} (I : Inv s) (k : Nat) : Inv (alloc s k) where
  own l l' o h h' e e' := I.own l l' o (alloc_own h e).1 (alloc_own h' e').1 (alloc_own h e).2 (alloc_own h' e').2
  live l o h e := by
    have := I.live l o (alloc_own h e).1 (alloc_own h e).2
    simp only [alloc]; split <;> simp_all
  used o h := by
    simp only [alloc] at h ⊢
    split at h
    · omega
    · have := I.used o h; omega

theorem fresh_free {s : State} (I : Inv s) (k : Nat) (l : Loc) (h : (alloc s k).there l) : (alloc s k).ptr l ≠ some s.next := fun e => by
  have a := alloc_own h e
  have := I.used s.next (by simp [I.live l _ a.1 a.2])
  omega

theorem make_spec {data : Bool} {s : State} (I : Inv s) {l : Loc} (hl : s.there l) (k : Nat) :
    ∃ s', step data s (.make l k) = some s' ∧ Inv s' ∧
      Gone ((alloc s k).setPtr l (some s.next)) s' (fun o => ∃ t, (alloc s k).ptr l = some t ∧ Reach ((alloc s k).setPtr l (some s.next)) t o) := by
  obtain ⟨s', e, h⟩ := reset_spec (inv_alloc I k) (there_alloc hl I) (some s.next) (fun x hx => by
    cases hx; exact ⟨by simp [alloc], fresh_free I k⟩)
  exact ⟨s', by simp [step, hl, e], h⟩

theorem move_spec {s : State} (I : Inv s) {l l' : Loc} (hl : s.there l) (hl' : s.there l') :
    ∃ s', step false s (.move l l') = some s' ∧ reset (s.setPtr l' none) l (s.ptr l') = some s' ∧ Inv s' ∧
      Gone ((s.setPtr l' none).setPtr l (s.ptr l')) s' (fun o => ∃ t, (s.setPtr l' none).ptr l = some t ∧ Reach ((s.setPtr l' none).setPtr l (s.ptr l')) t o) := by
  obtain ⟨s', e, h⟩ := reset_spec (inv_null I l') (by rwa [there_setPtr] : (s.setPtr l' none).there l) (s.ptr l') (fun x hx => by
    refine ⟨I.live l' x hl' hx, fun k hk e => ?_⟩
    rw [there_setPtr] at hk
    simp only [State.setPtr] at e
    split at e <;> [cases e; skip]
    rename_i hkl
    exact hkl (I.own k l' x hk hl' e hx))
  exact ⟨s', by simp [step, moveAssign, release, hl', e], e, h⟩

theorem inv_swap {s : State} (I : Inv s) {l l' : Loc} (hl : s.there l) (hl' : s.there l') : Inv ((s.setPtr l (s.ptr l')).setPtr l' (s.ptr l)) := by
  -- where a pointer was before
  have key : ∀ k o, s.there k → ((s.setPtr l (s.ptr l')).setPtr l' (s.ptr l)).ptr k = some o →
      s.there (if k = l' then l else if k = l then l' else k) ∧ s.ptr (if k = l' then l else if k = l then l' else k) = some o := by
    intro k o hk e
    simp only [State.setPtr] at e
    by_cases h1 : k = l'
    · simp_all
    · by_cases h2 : k = l <;> simp_all
  refine ⟨fun k k' o hk hk' e e' => ?_, fun k o hk e => ?_, I.used⟩
  · rw [there_setPtr, there_setPtr] at hk hk'
    have a := key k o hk e
    have a' := key k' o hk' e'
    have := I.own _ _ o a.1 a'.1 a.2 a'.2
    by_cases h1 : k = l' <;> by_cases h2 : k = l <;> by_cases h3 : k' = l' <;> by_cases h4 : k' = l <;> simp_all
  · rw [there_setPtr, there_setPtr] at hk
    have a := key k o hk e
    exact I.live _ o a.1 a.2

theorem gone_calm {s s' : State} {D : Nat → Prop} (G : Gone s s' D) (h : Calm s) : Calm s' := fun o => by
  by_cases d : D o
  · simp [G.gone o d]
  · rw [G.kept o d]; exact h o

theorem move_of_data {data : Bool} {s s' : State} {l l' : Loc} (h : step data s (.move l l') = some s') : step false s (.move l l') = some s' := by
  cases data with
  | false => exact h
  | true =>
    simp only [step, moveAssign, Bool.true_and, Bool.false_and, Option.bind_eq_bind, Option.bind_eq_some_iff] at h ⊢
    obtain ⟨⟨p, u⟩, e, w, e', h⟩ := h
    refine ⟨⟨p, u⟩, e, w, e', ?_⟩
    split at h <;> simp_all

theorem there_of {data : Bool} {s s' : State} {c : Cmd} (h : step data s c = some s') : ∀ l ∈ c.locs, s.there l := by
  cases c with
  | make l k =>
    intro l' hl'
    simp only [Cmd.locs, List.mem_singleton] at hl'; subst hl'
    by_contra hc
    simp [step, hc] at h
  | drop l =>
    intro l' hl'
    simp only [Cmd.locs, List.mem_singleton] at hl'; subst hl'
    by_contra hc
    simp [step, reset, resetWith, hc] at h
  | move l l' =>
    have h := move_of_data h
    simp only [step, moveAssign, release] at h
    intro k hk
    by_cases h' : s.there l'
    · by_cases h'' : s.there l
      · simp only [Cmd.locs, List.mem_cons, List.not_mem_nil, or_false] at hk
        rcases hk with rfl | rfl <;> assumption
      · simp [h', reset, resetWith, there_setPtr, h''] at h
    · simp [h'] at h
  | swap l l' =>
    simp only [step, swap] at h
    split at h <;> simp_all [Cmd.locs]

theorem step_inv {data : Bool} {s s' : State} {c : Cmd} (I : Inv s) (C : Calm s) (h : step data s c = some s') : Inv s' ∧ Calm s' := by
  have ht := there_of h
  cases c with
  | make l k =>
    obtain ⟨u, e, J, G⟩ := make_spec (data := data) I (ht l (by simp [Cmd.locs])) k
    rw [e] at h; cases h
    refine ⟨J, gone_calm G fun o => ?_⟩
    simp only [State.setPtr, alloc]
    split <;> [simp; exact C o]
  | drop l =>
    obtain ⟨u, e, J, G⟩ := reset_spec I (ht l (by simp [Cmd.locs])) none (by simp)
    simp only [step] at h
    rw [e] at h; cases h
    exact ⟨J, gone_calm G C⟩
  | move l l' =>
    obtain ⟨u, e, _, J, G⟩ := move_spec I (ht l (by simp [Cmd.locs])) (ht l' (by simp [Cmd.locs]))
    rw [move_of_data h] at e; cases e
    exact ⟨J, gone_calm G C⟩
  | swap l l' =>
    have hl := ht l (by simp [Cmd.locs])
    have hl' := ht l' (by simp [Cmd.locs])
    simp only [step, swap, hl, hl', Bool.and_self, if_true] at h
    cases h
    exact ⟨inv_swap I hl hl', C⟩

theorem run_inv {data : Bool} {s : State} (h : Run data s) : Inv s ∧ Calm s := by
  induction h with
  | init => exact ⟨inv_init, fun o => by simp [init]⟩
  | step c _ e ih => exact step_inv ih.1 ih.2 e

/-! ### The properties -/

/-- Whatever a program with `default_delete` does with `unique_ptr`s that are there is defined: nothing is deleted twice, nothing is touched that is gone. -/
theorem c127_safe {s : State} (h : Run false s) (c : Cmd) (hc : ∀ l ∈ c.locs, s.there l) : ∃ s', step false s c = some s' := by
  have I := (run_inv h).1
  cases c with
  | make l k => obtain ⟨s', e, _⟩ := make_spec (data := false) I (hc l (by simp [Cmd.locs])) k; exact ⟨s', e⟩
  | drop l => obtain ⟨s', e, _⟩ := reset_spec I (hc l (by simp [Cmd.locs])) none (by simp); exact ⟨s', e⟩
  | move l l' => obtain ⟨s', e, _⟩ := move_spec I (hc l (by simp [Cmd.locs])) (hc l' (by simp [Cmd.locs])); exact ⟨s', e⟩
  | swap l l' => exact ⟨_, by simp [step, swap, hc l (by simp [Cmd.locs]), hc l' (by simp [Cmd.locs])]; rfl⟩

/-- No object has two owners, and what is owned is alive, at all times. -/
theorem c127_owner {data : Bool} {s : State} (h : Run data s) {l l' : Loc} {o : Nat} (hl : s.there l) (hl' : s.there l') (e : s.ptr l = some o)
    (e' : s.ptr l' = some o) : l = l' ∧ s.status o = .live := ⟨(run_inv h).1.own l l' o hl hl' e e', (run_inv h).1.live l o hl e⟩

/-- `reset()` deletes what belongs to the pointer, whatever the shape, and leaves everything else as it was. -/
theorem c127_drop {data : Bool} {s s' : State} (h : Run data s) {l : Loc} (e : step data s (.drop l) = some s') :
    (∀ o, Below s l o → s'.status o = .gone) ∧ (∀ o, ¬ Below s l o → s'.status o = s.status o) ∧
    (∀ k, s'.there k → s'.ptr k = if k = l then none else s.ptr k) := by
  obtain ⟨u, e', _, G⟩ := reset_spec (run_inv h).1 (there_of e l (by simp [Cmd.locs])) none (by simp)
  simp only [step] at e
  rw [e'] at e; cases e
  have B : ∀ o, (∃ t, s.ptr l = some t ∧ Reach (s.setPtr l none) t o) ↔ Below s l o := fun o =>
    ⟨fun ⟨t, et, r⟩ => ⟨t, et, (reach_null et).1 r⟩, fun ⟨t, et, r⟩ => ⟨t, et, (reach_null et).2 r⟩⟩
  refine ⟨fun o b => G.gone o ((B o).2 b), fun o b => G.kept o fun k => b ((B o).1 k), fun k hk => ?_⟩
  refine G.ptr k fun o i ek d => ?_
  subst ek
  exact (there_mem.1 hk).1 (G.gone o d)

/-- `head = move(head->next)`: the first object goes with all that belongs to its other members, what belonged to `next` is kept as it was and belongs to `head`. -/
theorem c127_pop {s s' : State} (h : Run false s) {v o i : Nat} (ho : s.ptr (.var v) = some o) (hi : i < s.arity o)
    (e : step false s (.move (.var v) (.mem o i)) = some s') :
    s'.ptr (.var v) = s.ptr (.mem o i) ∧ s'.status o = .gone ∧
    (∀ x, (∃ j, j ≠ i ∧ j < s.arity o ∧ Below s (.mem o j) x) → s'.status x = .gone) ∧
    (∀ x, Below s (.mem o i) x → s'.status x = s.status x ∧ ∀ j, s'.ptr (.mem x j) = s.ptr (.mem x j)) ∧
    (∀ x, ¬ Below s (.var v) x → s'.status x = s.status x ∧ ∀ j, s'.ptr (.mem x j) = s.ptr (.mem x j)) := by
  obtain ⟨I, C⟩ := run_inv h
  have ol : s.status o = .live := I.live _ _ there_var ho
  have tho : s.there (.mem o i) = true := there_mem.2 ⟨by simp [ol], hi⟩
  obtain ⟨u, e', _, J, G⟩ := move_spec I (l := .var v) there_var tho
  rw [e'] at e; cases e
  set s2 := (s.setPtr (.mem o i) none).setPtr (.var v) (s.ptr (.mem o i)) with hs2
  have p2 : ∀ x j, s2.ptr (.mem x j) = if x = o ∧ j = i then none else s.ptr (.mem x j) := by
    intro x j; simp [hs2, State.setPtr]
  have hv : (s.setPtr (.mem o i) none).ptr (.var v) = some o := by simp [State.setPtr, ho]
  have D : ∀ x, (∃ t, (s.setPtr (.mem o i) none).ptr (.var v) = some t ∧ Reach s2 t x) ↔ Reach s2 o x := fun x => by simp [hv]
  -- what is reached after is reached before
  have less : ∀ a x, Reach s2 a x → Reach s a x := by
    intro a x r
    induction r with
    | refl => exact .refl
    | step j _ hj hp ih =>
      rw [p2] at hp
      split at hp <;> [cases hp; exact .step j ih hj hp]
  -- nothing that the member `i` owns is reached from `o` any more
  have apart : ∀ x, Reach s2 o x → ¬ Below s (.mem o i) x := by
    intro x r
    induction r with
    | refl =>
      rintro ⟨t, et, r⟩
      -- the last step to `o` would be a second owner
      cases r with
      | refl => exact Loc.noConfusion (I.own _ _ _ there_var tho ho et)
      | step j r hj hp =>
        have bl := reach_live I r (I.live _ _ tho et)
        exact Loc.noConfusion (I.own _ _ _ there_var (there_mem.2 ⟨by simp [bl], hj⟩) ho hp)
    | @step b c j r hj hp ih =>
      rintro ⟨t, et, r'⟩
      rw [p2] at hp
      split at hp <;> [cases hp; skip]
      rename_i hne
      have bl : s.status b = .live := reach_live I (less _ _ r) ol
      have thb : s.there (.mem b j) = true := there_mem.2 ⟨by simp [bl], hj⟩
      cases r' with
      | refl =>
        have := I.own _ _ _ thb tho hp et
        cases this; exact hne ⟨rfl, rfl⟩
      | @step b' _ j' r' hj' hp' =>
        have bl' := reach_live I r' (I.live _ _ tho et)
        have := I.own _ _ _ thb (there_mem.2 ⟨by simp [bl'], hj'⟩) hp hp'
        cases this; exact ih ⟨t, et, r'⟩
  have G' : ∀ x, ¬ Reach s2 o x → s'.status x = s.status x ∧ (x ≠ o → ∀ j, s'.ptr (.mem x j) = s.ptr (.mem x j)) := by
    intro x hx
    refine ⟨G.kept x fun k => hx ((D x).1 k), fun hxo j => ?_⟩
    rw [G.ptr _ (by rintro y k ek; cases ek; exact fun k => hx ((D x).1 k)), p2]
    simp [hxo]
  refine ⟨?_, G.gone o ((D o).2 .refl), ?_, ?_, ?_⟩
  · rw [G.ptr _ (by rintro y k ek; cases ek)]; simp [hs2, State.setPtr]
  · rintro x ⟨j, hji, hj, t, et, r⟩
    refine G.gone x ((D x).2 ?_)
    have rt : Reach s2 o t := .step j .refl hj (by rw [p2]; simp [hji, et])
    refine reach_trans rt ?_
    -- the way from `t` does not come back to `o`
    have no : ∀ y, Reach s t y → y ≠ o := by
      intro y ry hy
      subst hy
      cases ry with
      | refl => exact Loc.noConfusion (I.own _ _ _ there_var (there_mem.2 ⟨by simp [ol], hj⟩) ho et)
      | step k rk hk hp =>
        have bl := reach_live I rk (I.live _ _ (there_mem.2 ⟨by simp [ol], hj⟩) et)
        exact Loc.noConfusion (I.own _ _ _ there_var (there_mem.2 ⟨by simp [bl], hk⟩) ho hp)
    exact reach_congr r fun y ry => ⟨rfl, fun k => by rw [p2]; simp [no y ry]⟩
  · intro x hx
    have nr : ¬ Reach s2 o x := fun r => apart x r hx
    exact ⟨(G' x nr).1, (G' x nr).2 (by rintro rfl; exact nr .refl)⟩
  · intro x hx
    have nr : ¬ Reach s2 o x := fun r => hx ⟨o, ho, less _ _ r⟩
    exact ⟨(G' x nr).1, (G' x nr).2 (by rintro rfl; exact nr .refl)⟩

/-- With a deleter that has data the same assignment reads the deleter of an object that is gone, always. -/
theorem c127_pop_false {s : State} (h : Run true s) {v o i : Nat} (ho : s.ptr (.var v) = some o) (hi : i < s.arity o) :
    step true s (.move (.var v) (.mem o i)) = none := by
  obtain ⟨I, C⟩ := run_inv h
  have ol : s.status o = .live := I.live _ _ there_var ho
  have tho : s.there (.mem o i) = true := there_mem.2 ⟨by simp [ol], hi⟩
  obtain ⟨u, _, e, J, G⟩ := move_spec I (l := .var v) there_var tho
  have g : u.status o = .gone := G.gone o ⟨o, by simp [State.setPtr, ho], .refl⟩
  have : u.there (.mem o i) = false := by simp [State.there, g]
  simp [step, moveAssign, release, tho, e, this]

/-- Such an assignment is defined exactly if neither of the two pointers is in an object that goes. -/
theorem c127_data_partial {s : State} (h : Run true s) {l l' : Loc} (hl : s.there l) (hl' : s.there l') :
    (step true s (.move l l')).isSome ↔
      ∀ t o i, (s.setPtr l' none).ptr l = some t → l = .mem o i ∨ l' = .mem o i → ¬ Reach ((s.setPtr l' none).setPtr l (s.ptr l')) t o := by
  obtain ⟨I, C⟩ := run_inv h
  obtain ⟨u, _, e, J, G⟩ := move_spec I hl hl'
  have key : ∀ k, s.there k → (u.there k = true ↔ ∀ t o i, (s.setPtr l' none).ptr l = some t → k = .mem o i → ¬ Reach ((s.setPtr l' none).setPtr l (s.ptr l')) t o) := by
    intro k hk
    cases k with
    | var v => simp [there_var]
    | mem o i =>
      rw [there_mem] at hk ⊢
      have ea : u.arity o = s.arity o := by rw [G.arity]; rfl
      rw [ea]
      constructor
      · rintro ⟨a, _⟩ t o' i' et ek r
        cases ek
        exact a (G.gone o ⟨t, et, r⟩)
      · intro a
        refine ⟨?_, hk.2⟩
        rw [G.kept o fun ⟨t, et, r⟩ => a t o i et rfl r]
        exact hk.1
  have : (step true s (.move l l')).isSome ↔ u.there l = true ∧ u.there l' = true := by
    simp only [step, moveAssign, release, hl', if_true, Option.bind_eq_bind, Option.bind_some, e, Bool.true_and]
    cases u.there l <;> cases u.there l' <;> simp
  rw [this, key l hl, key l' hl']
  exact ⟨fun ⟨a, b⟩ t o i et ek => ek.elim (a t o i et) (b t o i et), fun a => ⟨fun t o i et ek => a t o i et (.inl ek), fun t o i et ek => a t o i et (.inr ek)⟩⟩

/-! ### Nothing is left behind -/

/-- `o` belongs to a variable. -/
def Held (s : State) (o : Nat) : Prop := ∃ v, Below s (.var v) o

/-- Every object belongs to a variable. -/
def Rooted (s : State) : Prop := ∀ o, s.status o = .live → Held s o

/-- Where every object belongs to a variable, nothing belongs to itself. -/
theorem acyclic {s : State} (I : Inv s) (R : Rooted s) {a i t : Nat} (ha : s.status a = .live) (hi : i < s.arity a) (ht : s.ptr (.mem a i) = some t) : ¬ Reach s t a := by
  intro r
  have tl : s.status t = .live := I.live _ _ (there_mem.2 ⟨by simp [ha], hi⟩) ht
  -- everything on the circle is owned by something on it
  have circ : ∀ o, Reach s t o → Reach s o a → ∃ b j, Reach s t b ∧ Reach s b a ∧ j < s.arity b ∧ s.ptr (.mem b j) = some o := by
    intro o h1 h2
    cases h1 with
    | refl => exact ⟨a, i, r, .refl, hi, ht⟩
    | @step b _ j h1 hj hp => exact ⟨b, j, h1, reach_head hj hp h2, hj, hp⟩
  obtain ⟨v, x, ex, rx⟩ := R a ha
  have : ∀ y, Reach s x y → Reach s t y → Reach s y a → False := by
    intro y hy
    induction hy with
    | refl =>
      intro h1 h2
      obtain ⟨b, j, r1, _, hj, hp⟩ := circ x h1 h2
      exact Loc.noConfusion (I.own _ _ _ there_var (there_mem.2 ⟨by simp [reach_live I r1 tl], hj⟩) ex hp)
    | @step b c j h hj hp ih =>
      intro h1 h2
      obtain ⟨b', j', r1, r2, hj', hp'⟩ := circ c h1 h2
      have bl : s.status b = .live := reach_live I h (I.live _ _ there_var ex)
      have := I.own _ _ _ (there_mem.2 ⟨by simp [bl], hj⟩) (there_mem.2 ⟨by simp [reach_live I r1 tl], hj'⟩) hp hp'
      cases this
      exact ih r1 r2
  exact this a rx r .refl

/-- `reset(p)` keeps everything that belongs to a variable or to `p`, if it is not within `p`. -/
theorem reset_rooted {s s' : State} (I : Inv s) (C : Calm s) {l : Loc} (hl : s.there l) {p : Option Nat}
    (hp : ∀ x, p = some x → s.status x = .live ∧ ∀ k, s.there k → s.ptr k ≠ some x)
    (R : ∀ o, s.status o = .live → Held s o ∨ ∃ x, p = some x ∧ Reach s x o)
    (out : ∀ x a i, p = some x → l = .mem a i → ¬ Reach s x a) (e : reset s l p = some s') : Rooted s' := by
  obtain ⟨u, e', J, G⟩ := reset_spec I hl p hp
  rw [e'] at e; cases e
  set s2 := s.setPtr l p with hs2
  have p2 : ∀ m, m ≠ l → s2.ptr m = s.ptr m := fun m h => by simp [hs2, State.setPtr, h]
  have pl : s2.ptr l = p := by simp [hs2, State.setPtr]
  -- gone, or belonging to a variable
  let Good := fun o => (∃ t, s.ptr l = some t ∧ Reach s2 t o) ∨ Held s' o
  have next : ∀ m b i c, m = Loc.mem b i → i < s.arity b → s2.ptr m = some c → Good b → Good c := by
    rintro m b i c rfl hi hc hb
    by_cases d : ∃ t, s.ptr l = some t ∧ Reach s2 t b
    · obtain ⟨t, et, r⟩ := d
      exact .inl ⟨t, et, .step i r hi hc⟩
    · obtain ⟨v, hb⟩ := hb.resolve_left d
      refine .inr ⟨v, below_step hb (by rw [G.arity]; exact hi) ?_⟩
      rw [G.ptr _ (by rintro o j ej; cases ej; exact d)]; exact hc
  have base : ∀ v c, s2.ptr (.var v) = some c → Good c := fun v c hc =>
    .inr ⟨v, c, by rw [G.ptr _ (by rintro o j ej; cases ej)]; exact hc, .refl⟩
  have A : ∀ o, Held s o → Good o := by
    rintro o ⟨v, x, ex, r⟩
    induction r with
    | refl =>
      by_cases hv : Loc.var v = l
      · subst hv; exact .inl ⟨x, ex, .refl⟩
      · exact base v x (by rw [p2 _ hv]; exact ex)
    | @step b c i _ hi hc ih =>
      by_cases hm : Loc.mem b i = l
      · subst hm; exact .inl ⟨c, hc, .refl⟩
      · exact next _ b i c rfl hi (by rw [p2 _ hm]; exact hc) ih
  have P : ∀ x, p = some x → Good x := by
    intro x hx
    cases l with
    | var v => exact base v x (by rw [pl]; exact hx)
    | mem a i =>
      have hth := there_mem.1 hl
      have al : s.status a = .live := by
        have := C a
        cases h : s.status a <;> simp_all
      refine next _ a i x rfl hth.2 (by rw [pl]; exact hx) (A a ?_)
      rcases R a al with h | ⟨y, hy, r⟩
      · exact h
      · exact (out y a i hy rfl r).elim
  have B : ∀ x o, p = some x → Reach s x o → Good o := by
    intro x o hx r
    induction r with
    | refl => exact P x hx
    | @step b c i r hi hc ih =>
      by_cases hm : Loc.mem b i = l
      · exact (out x b i hx hm.symm r).elim
      · exact next _ b i c rfl hi (by rw [p2 _ hm]; exact hc) ih
  intro o ho
  have nd : ¬ ∃ t, s.ptr l = some t ∧ Reach s2 t o := fun d => by rw [G.gone o d] at ho; cases ho
  have ol : s.status o = .live := by rw [G.kept o nd] at ho; exact ho
  rcases R o ol with h | ⟨x, hx, r⟩
  · exact (A o h).resolve_left nd
  · exact (B x o hx r).resolve_left nd

/-- No object is put into what belongs to it. -/
def Cmd.proper (s : State) : Cmd → Prop
  | .make _ _ => True
  | .drop _ => True
  | .move l l' => ∀ a i, l = .mem a i → ¬ Below s l' a
  | .swap l l' => (∀ a i, l = .mem a i → ¬ Below s l' a) ∧ ∀ a i, l' = .mem a i → ¬ Below s l a

/-- Then every object goes on belonging to a variable. -/
theorem c127_rooted {data : Bool} {s s' : State} (h : Run data s) (R : Rooted s) (c : Cmd) (hc : c.proper s) (e : step data s c = some s') : Rooted s' := by
  obtain ⟨I, C⟩ := run_inv h
  have ht := there_of e
  cases c with
  | make l k =>
    have hl := ht l (by simp [Cmd.locs])
    simp only [step, hl, if_true] at e
    have reach : ∀ a o, s.status a = .live → Reach s a o → Reach (alloc s k) a o := by
      intro a o ha r
      refine reach_congr r fun b hb => ?_
      have : b ≠ s.next := fun eb => by
        have := I.used b (by simp [reach_live I hb ha]); omega
      simp [alloc, this]
    have none_of : ∀ o, Reach (alloc s k) s.next o → o = s.next := by
      intro o r
      induction r with
      | refl => rfl
      | step i _ hi hp ih => subst ih; simp [alloc] at hp
    refine reset_rooted (inv_alloc I k) (fun o => ?_) (there_alloc hl I) (fun x hx => by cases hx; exact ⟨by simp [alloc], fresh_free I k⟩) (fun o ho => ?_) ?_ e
    · simp only [alloc]; split <;> [simp; exact C o]
    · by_cases hn : o = s.next
      · exact .inr ⟨s.next, rfl, hn ▸ .refl⟩
      · simp only [alloc, hn, if_false] at ho
        obtain ⟨v, x, ex, r⟩ := R o ho
        exact .inl ⟨v, x, ex, reach x o (I.live _ _ there_var ex) r⟩
    · rintro x a i hx rfl r
      cases hx
      have := none_of a r
      have := I.used a (there_mem.1 hl).1
      omega
  | drop l =>
    exact reset_rooted I C (ht l (by simp [Cmd.locs])) (by simp) (fun o ho => .inl (R o ho)) (by simp) e
  | move l l' =>
    have hl := ht l (by simp [Cmd.locs])
    have hl' := ht l' (by simp [Cmd.locs])
    obtain ⟨u, e', er, _⟩ := move_spec I hl hl'
    rw [move_of_data e] at e'; cases e'
    refine reset_rooted (inv_null I l') C (by rwa [there_setPtr]) (fun x hx => ⟨I.live l' x hl' hx, fun k hk ek => ?_⟩) (fun o ho => ?_)
      (fun x a i hx ha r => hc a i ha ⟨x, hx, reach_less r⟩) er
    · rw [there_setPtr] at hk
      simp only [State.setPtr] at ek
      split at ek <;> [cases ek; skip]
      rename_i hkl
      exact hkl (I.own k l' x hk hl' ek hx)
    · obtain ⟨v, x, ex, r⟩ := R o ho
      clear ho
      induction r with
      | refl =>
        by_cases hv : Loc.var v = l'
        · exact .inr ⟨x, hv ▸ ex, .refl⟩
        · exact .inl ⟨v, x, by simpa [State.setPtr, hv] using ex, .refl⟩
      | @step b c i _ hi hb ih =>
        by_cases hm : Loc.mem b i = l'
        · exact .inr ⟨c, hm ▸ hb, .refl⟩
        · have hb' : (s.setPtr l' none).ptr (.mem b i) = some c := by simpa [State.setPtr, hm] using hb
          rcases ih with ⟨w, hw⟩ | ⟨y, hy, ry⟩
          · exact .inl ⟨w, below_step hw hi hb'⟩
          · exact .inr ⟨y, hy, .step i ry hi hb'⟩
  | swap l l' =>
    have hl := ht l (by simp [Cmd.locs])
    have hl' := ht l' (by simp [Cmd.locs])
    simp only [step, swap, hl, hl', Bool.and_self, if_true] at e
    cases e
    set u := (s.setPtr l (s.ptr l')).setPtr l' (s.ptr l) with hu
    have pu : ∀ m, m ≠ l → m ≠ l' → u.ptr m = s.ptr m := fun m h h' => by simp [hu, State.setPtr, h, h']
    have live_of : ∀ a i, s.there (.mem a i) → s.status a = .live := fun a i h => by
      have := C a
      have := (there_mem.1 h).1
      cases hs : s.status a <;> simp_all
    have self : ∀ k, s.there k → ∀ a i, k = .mem a i → ¬ Below s k a := by
      rintro k hk a i rfl ⟨t, et, r⟩
      exact acyclic I R (live_of a i hk) (there_mem.1 hk).2 et r
    have A : ∀ o, Held s o → ¬ Below s l o → ¬ Below s l' o → Held u o := by
      rintro o ⟨v, x, ex, r⟩
      induction r with
      | refl =>
        intro h1 h2
        refine ⟨v, x, ?_, .refl⟩
        rw [pu _ (fun k => h1 ⟨x, k ▸ ex, .refl⟩) (fun k => h2 ⟨x, k ▸ ex, .refl⟩)]; exact ex
      | @step b c i _ hi hb ih =>
        intro h1 h2
        obtain ⟨w, hw⟩ := ih (fun k => h1 (below_step k hi hb)) (fun k => h2 (below_step k hi hb))
        refine ⟨w, below_step hw hi ?_⟩
        rw [pu _ (fun k => h1 ⟨c, k ▸ hb, .refl⟩) (fun k => h2 ⟨c, k ▸ hb, .refl⟩)]; exact hb
    have place : ∀ k x, s.there k → (∀ a i, k = .mem a i → ¬ Below s l a ∧ ¬ Below s l' a) → u.ptr k = some x → Held u x := by
      intro k x hk out ek
      cases k with
      | var v => exact ⟨v, x, ek, .refl⟩
      | mem a i =>
        obtain ⟨v, hv⟩ := A a (R a (live_of a i hk)) (out a i rfl).1 (out a i rfl).2
        exact ⟨v, below_step hv (there_mem.1 hk).2 ek⟩
    have Pl : ∀ x, u.ptr l = some x → Held u x := fun x => place l x hl fun a i ha => ⟨self l hl a i ha, hc.1 a i ha⟩
    have Pl' : ∀ x, u.ptr l' = some x → Held u x := fun x => place l' x hl' fun a i ha => ⟨hc.2 a i ha, self l' hl' a i ha⟩
    have ul : ∀ x, s.ptr l = some x → Held u x := fun x hx => Pl' x (by simp [hu, State.setPtr, hx])
    have ul' : ∀ x, s.ptr l' = some x → Held u x := fun x hx => by
      by_cases hll : l = l'
      · exact ul x (hll ▸ hx)
      · exact Pl x (by simp [hu, State.setPtr, hll, hx])
    intro o ho
    obtain ⟨v, x, ex, r⟩ := R o ho
    clear ho
    induction r with
    | refl =>
      by_cases h1 : Loc.var v = l
      · exact ul x (h1 ▸ ex)
      · by_cases h2 : Loc.var v = l'
        · exact ul' x (h2 ▸ ex)
        · exact ⟨v, x, by rw [pu _ h1 h2]; exact ex, .refl⟩
    | @step b c i _ hi hb ih =>
      by_cases h1 : Loc.mem b i = l
      · exact ul c (h1 ▸ hb)
      · by_cases h2 : Loc.mem b i = l'
        · exact ul' c (h2 ▸ hb)
        · obtain ⟨w, hw⟩ := ih
          exact ⟨w, below_step hw hi (by rw [pu _ h1 h2]; exact hb)⟩

/-- A program that never puts an object into what belongs to it. -/
inductive Proper (data : Bool) : State → Prop
  | init : Proper data init
  | step {s s' : State} (c : Cmd) : Proper data s → c.proper s → step data s c = some s' → Proper data s'

theorem proper_run {data : Bool} {s : State} (h : Proper data s) : Run data s ∧ Rooted s := by
  induction h with
  | init => exact ⟨.init, fun o ho => by simp [init] at ho⟩
  | step c _ hc e ih => exact ⟨.step c ih.1 e, c127_rooted ih.1 ih.2 c hc e⟩

/-- When its variables are null, every object has been deleted. -/
theorem c127_no_leak {data : Bool} {s : State} (h : Proper data s) (hv : ∀ v, s.ptr (.var v) = none) (o : Nat) : s.status o = .gone := by
  obtain ⟨r, R⟩ := proper_run h
  have c := (run_inv r).2 o
  cases ho : s.status o with
  | gone => rfl
  | dying => exact (c ho).elim
  | live =>
    obtain ⟨v, x, ex, _⟩ := R o ho
    rw [hv v] at ex; cases ex

/-- `p->next = move(p)` leaves an object that belongs to nobody: with cycles the claim is false. -/
theorem c127_cycle_false : ∃ s, Run false s ∧ (∀ v, s.ptr (.var v) = none) ∧ s.status 0 = .live := by
  have h1 := Run.step (data := false) (.make (.var 0) 1) .init rfl
  have h2 := Run.step (data := false) (.move (.mem 0 0) (.var 0)) h1 rfl
  refine ⟨_, h2, fun v => ?_, rfl⟩
  by_cases h : v = 0 <;> simp [State.setPtr, alloc, init, h]

/-! ### How deep the calls are -/

/-- A list of at least `n` objects, the `j`-th at address `t + j`. -/
def Chain (s : State) (t n : Nat) : Prop := ∀ j, j < n → s.status (t + j) = .live ∧ s.arity (t + j) = 1 ∧ (j + 1 < n → s.ptr (.mem (t + j) 0) = some (t + j + 1))

/-- A list of more than `n` objects cannot be deleted with `n` calls of `delete` within each other: they go as deep as the list is long. -/
theorem c127_depth : ∀ (n : Nat) (s : State) (t : Nat), Chain s t (n + 1) → delete n s t = none
  | 0, _, _, _ => rfl
  | n + 1, s, t, h => by
    obtain ⟨a, b, c⟩ := h 0 (by omega)
    simp only [Nat.add_zero, Nat.zero_add] at a b c
    have c := c (by omega)
    have th : (s.setStatus t .dying).there (.mem t 0) = true := by simp [State.there, State.setStatus, b]
    have ih := c127_depth n ((s.setStatus t .dying).setPtr (.mem t 0) none) (t + 1) (fun j hj => by
      obtain ⟨a, b, c⟩ := h (j + 1) (by omega)
      have e : t + 1 + j = t + (j + 1) := by omega
      have ne : t + (j + 1) ≠ t := by omega
      rw [e]
      refine ⟨by simpa [State.setPtr, State.setStatus] using a, b, fun hj => ?_⟩
      simpa [State.setPtr, State.setStatus] using c (by omega))
    have c' : (s.setStatus t .dying).ptr (.mem t 0) = some (t + 1) := c
    simp [delete, a, b, destroyMembers, resetWith, th, c', ih]

/-- Programs make lists of any length: whatever the stack holds, there is one whose `reset()` needs more. -/
theorem c127_deep (n : Nat) : ∃ s, Run false s ∧ s.ptr (.var 0) = some 0 ∧ delete n (s.setPtr (.var 0) none) 0 = none := by
  suffices h : ∃ s, Run false s ∧ s.ptr (.var 0) = some 0 ∧ s.next = n + 1 ∧ s.ptr (.mem n 0) = none ∧ Chain s 0 (n + 1) by
    obtain ⟨s, r, e, _, _, c⟩ := h
    exact ⟨s, r, e, c127_depth n _ 0 fun j hj => by
      obtain ⟨x, y, z⟩ := c j hj
      exact ⟨x, y, fun k => by simpa [State.setPtr] using z k⟩⟩
  induction n with
  | zero =>
    refine ⟨_, .step (.make (.var 0) 1) .init rfl, rfl, rfl, rfl, fun j hj => ?_⟩
    have : j = 0 := by omega
    subst this
    exact ⟨rfl, rfl, fun k => by omega⟩
  | succ n ih =>
    obtain ⟨s, r, e, hn, ep, c⟩ := ih
    obtain ⟨x, y, _⟩ := c n (by omega)
    simp only [Nat.zero_add] at x y
    have th : s.there (.mem n 0) = true := there_mem.2 ⟨by simp [x], by omega⟩
    have th' : (alloc s 1).there (.mem n 0) = true := there_alloc th (run_inv r).1
    have ep' : (alloc s 1).ptr (.mem n 0) = none := by simp [alloc, ep]
    have st : step false s (.make (.mem n 0) 1) = some ((alloc s 1).setPtr (.mem n 0) (some s.next)) := by simp [step, th, reset, resetWith, th', ep']
    refine ⟨_, .step _ r st, by simpa [State.setPtr, alloc] using e, by simp [State.setPtr, alloc, hn], by simp [State.setPtr, alloc, hn], fun j hj => ?_⟩
    simp only [Nat.zero_add]
    by_cases hj' : j = n + 1
    · subst hj'
      simp [State.setPtr, alloc, hn]
    · obtain ⟨x, y, z⟩ := c j (by omega)
      simp only [Nat.zero_add] at x y z
      refine ⟨by simp [State.setPtr, alloc, x], by simp [State.setPtr, alloc, hn, hj', y], fun k => ?_⟩
      by_cases hjn : j = n
      · subst hjn; simp [State.setPtr, hn]
      · simpa [State.setPtr, alloc, hn, hj', hjn] using z (by omega)

/-! ### Examples -/

/-- Runs of commands. -/
def steps (data : Bool) : State → List Cmd → Option State
  | s, [] => some s
  | s, c :: cs => (step data s c).bind fun s => steps data s cs

theorem run_steps {data : Bool} {cs : List Cmd} {s s' : State} (h : Run data s) (e : steps data s cs = some s') : Run data s' := by
  induction cs generalizing s with
  | nil => cases e; exact h
  | cons c cs ih =>
    simp only [steps, Option.bind_eq_some_iff] at e
    obtain ⟨u, e1, e2⟩ := e
    exact ih (.step c h e1) e2

/-- A tree: object 0 with members 1 and 2, object 2 with the member 3. -/
def tree : List Cmd := [.make (.var 0) 2, .make (.mem 0 0) 0, .make (.mem 0 1) 1, .make (.mem 2 0) 0]

example : ((steps false init tree).map fun s => (List.range 5).map s.status) = some [.live, .live, .live, .live, .gone] := by decide
-- all of it is deleted
example : ((steps false init (tree ++ [.drop (.var 0)])).map fun s => (List.range 5).map s.status) = some [.gone, .gone, .gone, .gone, .gone] := by decide
-- `head = move(head->right)` deletes the head and its left, and keeps the right
example : ((steps false init (tree ++ [.move (.var 0) (.mem 0 1)])).map fun s => (List.range 5).map s.status) = some [.gone, .gone, .live, .live, .gone] := by decide
example : ((steps false init (tree ++ [.move (.var 0) (.mem 0 1)])).bind fun s => s.ptr (.var 0)) = some 2 := by decide
-- the hypotheses of `c127_drop`, `c127_pop` and `c127_pop_false` are met
example : ∃ s, Run false s ∧ s.ptr (.var 0) = some 0 ∧ 1 < s.arity 0 ∧ Below s (.var 0) 3 := by
  obtain ⟨s, e⟩ : ∃ s, steps false init tree = some s := ⟨_, rfl⟩
  refine ⟨s, run_steps .init e, ?_⟩
  cases e
  exact ⟨rfl, by decide, 0, rfl, .step (b := 2) 0 (.step (b := 0) 1 .refl (by decide) rfl) (by decide) rfl⟩
example : steps true init (tree ++ [.move (.var 0) (.mem 0 1)]) = none := rfl
-- moving between variables is fine with any deleter
example : (steps true init [.make (.var 0) 1, .make (.var 1) 1, .move (.var 0) (.var 1)]).isSome := by decide
-- a place that is gone, used
example : steps false init (tree ++ [.drop (.var 0), .drop (.mem 0 0)]) = none := rfl
-- a program without cycles
example : ∃ s, Proper false s ∧ s.status 0 = .gone ∧ ∀ v, s.ptr (.var v) = none := by
  refine ⟨_, .step (.drop (.var 0)) (.step (.make (.var 0) 1) .init trivial rfl) trivial rfl, rfl, fun v => ?_⟩
  by_cases h : v = 0 <;> simp [State.setPtr, State.setStatus, alloc, init, h]

end Nanostl.UPtr.Graph

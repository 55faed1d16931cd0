import Verif.Vector.Lemmas

/-! Helper lemmas about `assign`. -/

namespace Nanostl.Vector

variable {α : Type}

/-- The reference denotes `c` and lies outside the block of `v`, so that it survives any operation on `v`. -/
def Stable (h : Heap α) (v : Vec) (r : Ref α) (c : Option α) : Prop :=
  match r with
  | .ext a => c = some a
  | .cell p i => ∃ b, h.mem p = some b ∧ i < b.length ∧ c = b.getD i none ∧ some p ≠ v.elements

theorem Stable.refVal {h : Heap α} {v : Vec} {r : Ref α} {c : Option α} (s : Stable h v r c) : RefVal h v r c := by
  cases r with
  | ext a => exact s
  | cell p i => obtain ⟨b, h1, h2, h3, h4⟩ := s; exact ⟨b, h1, h2, h3, .inl h4⟩

theorem Stable.frame {h h' : Heap α} {v v' : Vec} {r : Ref α} {c : Option α} (s : Stable h v r c) (hb : Bnd h)
    (f : Frame h v h' v') : Stable h' v' r c := by
  cases r with
  | ext a => exact s
  | cell p i =>
    obtain ⟨b, h1, h2, h3, h4⟩ := s
    have hp := hb p (by simp [h1])
    refine ⟨b, by rw [f.keep p h4 hp, h1], h2, h3, ?_⟩
    rcases f.newptr with e | ⟨q, e, hq⟩
    · rwa [e]
    · rw [e]; intro c; cases c; omega

/-- References and the cells they denote, position by position. -/
inductive StableL (h : Heap α) (v : Vec) : List (Ref α) → List (Option α) → Prop
  | nil : StableL h v [] []
  | cons {r c rs cs} : Stable h v r c → StableL h v rs cs → StableL h v (r :: rs) (c :: cs)

theorem StableL.frame {h h' : Heap α} {v v' : Vec} {rs : List (Ref α)} {cs : List (Option α)} (s : StableL h v rs cs)
    (hb : Bnd h) (f : Frame h v h' v') : StableL h' v' rs cs := by
  induction s with
  | nil => exact .nil
  | cons a _ ih => exact .cons (a.frame hb f) ih

/-- The capacity does not shrink, and storage is kept when the result fits. -/
def CapRel (v v' : Vec) : Prop := v.capacity ≤ v'.capacity ∧ (v'.size ≤ v.capacity → v'.elements = v.elements)

theorem CapRel.refl (v : Vec) : CapRel v v := ⟨Nat.le_refl _, fun _ => rfl⟩

theorem PushOut.cap {h : Heap α} {v : Vec} {c : Option α} {o : Out (St α) Unit} (w : WF h v) (p : PushOut h v c o) :
    ∀ s, (o = .ok s () ∨ o = .exc s) → CapRel v s.2 ∧ v.size ≤ s.2.size := by
  intro s hs
  cases p with
  | ok h' v' w' f e hc hk =>
    rcases hs with hs | hs <;> cases hs
    have := view_length w
    have h2 := view_length w'
    have := wf_size_le w
    rw [e, List.length_append, List.length_singleton] at h2
    exact ⟨⟨hc, fun hle => (hk (by simp only at hle; omega)).1⟩, by simp only; omega⟩
  | exc h' _ _ _ =>
    rcases hs with hs | hs <;> cases hs
    exact ⟨CapRel.refl _, Nat.le_refl _⟩

theorem AssignOut_size {h : Heap α} {v : Vec} {l : List (Option α)} (w : WF h v) {n : Nat} (e : (view h v) = l)
    (hn : n ≤ l.length) : n ≤ v.size := by
  rw [← view_length w, e]; exact hn

/-- What `assign` of `n` cells may do. -/
inductive AssignOut (h : Heap α) (v : Vec) (pre cs : List (Option α)) : Out (St α) Unit → Prop
  | ok (h' v') : WF h' v' → Frame h v h' v' → view h' v' = pre ++ cs → CapRel v v' →
      AssignOut h v pre cs (.ok (h', v') ())
  | exc (h' v' n) : WF h' v' → Frame h v h' v' → view h' v' = pre ++ cs.take n → n < cs.length → CapRel v v' →
      AssignOut h v pre cs (.exc (h', v'))

theorem assignLoop_spec : ∀ (rs : List (Ref α)) (cs : List (Option α)) (h : Heap α) (v : Vec), WF h v → Bnd h →
    StableL h v rs cs → AssignOut h v (view h v) cs (assignLoop rs (h, v)) := by
  intro rs
  induction rs with
  | nil =>
    intro cs h v w hb s
    cases s
    exact .ok _ _ w (Frame.refl hb) (by simp) (CapRel.refl _)
  | cons r rs ih =>
    intro cs h v w hb s
    cases s with
    | cons s1 s2 =>
      rename_i c cs
      simp only [assignLoop]
      have hp := pushBack_spec w hb s1.refVal
      have hcap := hp.cap w
      generalize ho : pushBack r (h, v) = o at hp
      cases hp with
      | ok h' v' w' f' e' hc _ =>
        rw [Act.bind_ok ho]
        have := ih cs h' v' w' f'.bnd (s2.frame hb f')
        generalize ho2 : assignLoop rs (h', v') = o2 at this
        cases this with
        | ok h'' v'' w'' f'' e'' hc' =>
          refine .ok _ _ w'' (f'.trans f'') (by rw [e'', e']; simp) ?_
          have hs := AssignOut_size (n := (view h' v').length) w'' e'' (by simp)
          rw [view_length w'] at hs
          have := (hcap _ (.inl ho)).1
          simp only at this
          exact ⟨Nat.le_trans this.1 hc'.1, fun hle => by
            rw [hc'.2 (by have := this.1; omega), this.2 (by omega)]⟩
        | exc h'' v'' n w'' f'' e'' hn hc' =>
          refine .exc _ _ (n + 1) w'' (f'.trans f'') (by rw [e'', e']; simp) (by simp; omega) ?_
          have hs := AssignOut_size (n := (view h' v').length) w'' e'' (by simp)
          rw [view_length w'] at hs
          have := (hcap _ (.inl ho)).1
          simp only at this
          exact ⟨Nat.le_trans this.1 hc'.1, fun hle => by
            rw [hc'.2 (by have := this.1; omega), this.2 (by omega)]⟩
      | exc h' hm hnx hsz =>
        rw [Act.bind_exc ho]
        refine .exc _ _ 0 ?_ ?_ ?_ (by simp) (CapRel.refl _)
        · rcases w with h0 | ⟨p, b, e1, e2, e3⟩
          · exact .inl h0
          · exact .inr ⟨p, b, e1, by rw [hm, e2], e3⟩
        · exact ⟨by omega, by intro q hq; rw [hm] at hq; rw [hnx]; exact hb q hq, fun q _ _ => by rw [hm],
            fun q hq => by
              rw [hm] at hq
              by_cases e : some q = v.elements
              · exact .inl e
              · exact .inr ⟨hq, e⟩, .inl rfl⟩
        · simp [view, hm]

theorem clear_eq (h : Heap α) (v : Vec) : clear (h, v) = .ok (h, { v with size := 0 }) () := by
  simp [clear, Act.bind_apply, getThis, setThis]

theorem wf_clear {h : Heap α} {v : Vec} (w : WF h v) : WF h { v with size := 0 } := by
  rcases w with ⟨e1, e2, e3⟩ | ⟨p, b, e1, e2, e3, e4, e5, e6⟩
  · exact .inl ⟨e1, e2, rfl⟩
  · exact .inr ⟨p, b, e1, e2, e3, Nat.zero_le _, e5, e6⟩

theorem view_clear (h : Heap α) (v : Vec) : view h { v with size := 0 } = [] := by
  simp only [view]; split <;> simp

theorem assign_spec {h : Heap α} {v : Vec} {rs : List (Ref α)} {cs : List (Option α)} (w : WF h v) (hb : Bnd h)
    (s : StableL h v rs cs) : AssignOut h v [] cs (assign rs (h, v)) := by
  simp only [assign]
  rw [Act.bind_ok (clear_eq h v)]
  have hf : Frame h v h { v with size := 0 } := size_frame hb rfl
  have := assignLoop_spec rs cs h _ (wf_clear w) hb (s.frame hb hf)
  rw [view_clear] at this
  generalize assignLoop rs (h, { v with size := 0 }) = o at this
  cases this with
  | ok h' v' w' f' e' hc => exact .ok _ _ w' (hf.trans f') e' hc
  | exc h' v' n w' f' e' hn hc => exact .exc _ _ n w' (hf.trans f') e' hn hc

theorem stableL_ext (h : Heap α) (v : Vec) (l : List α) : StableL h v (l.map Ref.ext) (l.map some) := by
  induction l with
  | nil => exact .nil
  | cons a l ih => exact .cons rfl ih

theorem stableL_range' {h : Heap α} {v : Vec} {p : Nat} {b : List (Option α)} (hm : h.mem p = some b)
    (hne : some p ≠ v.elements) : ∀ (n lo : Nat), lo + n ≤ b.length →
    StableL h v ((List.range' lo n).map (Ref.cell p)) ((b.drop lo).take n) := by
  intro n
  induction n with
  | zero => intro lo _; simpa using StableL.nil
  | succ n ih =>
    intro lo hlo
    have hl : lo < b.length := by omega
    rw [List.range'_succ, List.map_cons, List.drop_eq_getElem_cons hl, List.take_succ_cons]
    refine .cons ⟨b, hm, hl, ?_, hne⟩ (ih (lo + 1) (by omega))
    simp [List.getElem?_eq_getElem hl]

/-- `assign` from a range of the own block never reallocates and copies in place. -/
theorem assignLoop_self {v : Vec} {p : Nat} (hp : v.elements = some p) (hcap : v.capacity < 2 ^ 63) (lo : Nat) :
    ∀ (n k : Nat) (h : Heap α) (b : List (Option α)), h.mem p = some b → b.length = v.capacity →
      lo + k + n ≤ v.capacity →
      ∃ b', assignLoop ((List.range' (lo + k) n).map (Ref.cell p)) (h, { v with size := k }) =
          .ok ({ h with mem := setMem h.mem p (some b') }, { v with size := k + n }) () ∧ b'.length = b.length ∧
        b'.take (k + n) = b.take k ++ (b.drop (lo + k)).take n := by
  intro n
  induction n with
  | zero =>
    intro k h b hm hl hc
    refine ⟨b, ?_, rfl, by simp⟩
    have : setMem h.mem p (some b) = h.mem := by
      funext q; by_cases hq : q = p <;> simp [setMem, hq, hm]
    simp [assignLoop, Act.pure_apply, this]
  | succ n ih =>
    intro k h b hm hl hc
    have hr : ∀ u : Vec, deref (Ref.cell p (lo + k)) (h, u) = .ok (h, u) (b.getD (lo + k) none) := fun u => by
      simp only [deref]; exact load_ok hm (by omega)
    rw [List.range'_succ, List.map_cons]
    simp only [assignLoop]
    rw [Act.bind_ok (pushBack_fits (v := { v with size := k }) hp hm hl (by simp only; omega) hcap hr)]
    obtain ⟨b', h1, h2, h3⟩ := ih (k + 1) { h with mem := setMem h.mem p (some (b.set k (b.getD (lo + k) none))) }
      (b.set k (b.getD (lo + k) none)) (by simp) (by simpa using hl) (by omega)
    refine ⟨b', ?_, by simpa using h2, ?_⟩
    · have : lo + k + 1 = lo + (k + 1) := by omega
      rw [this, h1, setMem_setMem]
      have : k + 1 + n = k + (n + 1) := by omega
      rw [this]
    · have e : k + (n + 1) = k + 1 + n := by omega
      have hlt : lo + k < b.length := by omega
      rw [e, h3, List.take_succ_eq_append_getElem (by simp; omega), List.take_set_of_le (Nat.le_refl _),
        List.drop_set_of_lt (by omega), List.drop_eq_getElem_cons hlt, List.take_succ_cons]
      have : lo + (k + 1) = lo + k + 1 := by omega
      simp [this, List.getElem?_eq_getElem hlt]

theorem assign_self {h : Heap α} {v : Vec} {lo hi : Nat} (w : WF h v) (hb : Bnd h) (h1 : lo ≤ hi) (h2 : hi ≤ v.size) :
    ∃ h' v', assign (subRange v lo hi) (h, v) = .ok (h', v') () ∧ WF h' v' ∧
      Frame h v h' v' ∧ view h' v' = ((view h v).take hi).drop lo ∧ v'.elements = v.elements ∧ v'.capacity = v.capacity := by
  rcases w with ⟨e1, e2, e3⟩ | ⟨p, b, e1, e2, e3, e4, e5, e6⟩
  · refine ⟨h, { v with size := 0 }, ?_, .inl ⟨e1, e2, rfl⟩, size_frame hb rfl, ?_, rfl, rfl⟩
    · simp only [e1, assign, subRange]
      rw [Act.bind_ok (clear_eq h v)]
      simp [assignLoop, Act.pure_apply, e1]
    · simp [view, e1]
  · obtain ⟨b', f1, f2, f3⟩ := assignLoop_self e1 e6 lo (hi - lo) 0 h b e2 e3 (by omega)
    refine ⟨_, { v with size := 0 + (hi - lo) }, ?_, .inr ⟨p, b', e1, setMem_same _ _ _, ?_, ?_, e5, e6⟩, set_frame hb e1 e2 rfl, ?_, rfl, rfl⟩
    · simp only [e1, assign, subRange, range]
      rw [Act.bind_ok (clear_eq h v)]
      simpa [e1] using f1
    · rw [f2, e3]
    · simp only; omega
    · simp only [view, e1, setMem_same, Option.getD_some, e2]
      simp only [Nat.zero_add, List.take_zero, List.nil_append, Nat.add_zero] at f3
      simp only [Nat.zero_add]
      rw [f3, List.take_take, List.drop_take, Nat.min_eq_left h2]

end Nanostl.Vector

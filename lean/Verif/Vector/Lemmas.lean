import Verif.Vector.Model

/-! Helper lemmas about single vector methods. -/

namespace Nanostl.Vector

variable {α : Type}

/-- What a client sees of a vector: its first `size` cells. -/
def view (h : Heap α) (v : Vec) : List (Option α) :=
  match v.elements with
  | none => []
  | some p => ((h.mem p).getD []).take v.size

/-- Every live block lies below the next fresh address. -/
def Bnd (h : Heap α) : Prop := ∀ q, h.mem q ≠ none → q < h.next

/-- Representation invariant of one vector. -/
def WF (h : Heap α) (v : Vec) : Prop :=
  (v.elements = none ∧ v.capacity = 0 ∧ v.size = 0) ∨
  ∃ p b, v.elements = some p ∧ h.mem p = some b ∧ b.length = v.capacity ∧ v.size ≤ v.capacity ∧
    0 < v.capacity ∧ v.capacity < 2 ^ 63

/-- What an operation on `v` may do to the heap. -/
structure Frame (h : Heap α) (v : Vec) (h' : Heap α) (v' : Vec) : Prop where
  next_le : h.next ≤ h'.next
  bnd : Bnd h'
  keep : ∀ q, some q ≠ v.elements → q < h.next → h'.mem q = h.mem q
  own : ∀ q, h'.mem q ≠ none → some q = v'.elements ∨ (h.mem q ≠ none ∧ some q ≠ v.elements)
  newptr : v'.elements = v.elements ∨ ∃ p, v'.elements = some p ∧ h.next ≤ p

theorem Frame.refl {h : Heap α} {v : Vec} (hb : Bnd h) : Frame h v h v where
  next_le := Nat.le_refl _
  bnd := hb
  keep := fun _ _ _ => rfl
  own := fun q hq => by
    by_cases e : some q = v.elements
    · exact .inl e
    · exact .inr ⟨hq, e⟩
  newptr := .inl rfl

theorem Frame.trans {h h' h'' : Heap α} {v v' v'' : Vec} (f : Frame h v h' v') (g : Frame h' v' h'' v'') :
    Frame h v h'' v'' where
  next_le := Nat.le_trans f.next_le g.next_le
  bnd := g.bnd
  keep := fun q hq hl => by
    have h1 := f.keep q hq hl
    rw [← h1]
    apply g.keep q _ (Nat.lt_of_lt_of_le hl f.next_le)
    rcases f.newptr with e | ⟨p, e, hp⟩
    · rwa [e]
    · rw [e]; intro c; cases c; omega
  own := fun q hq => by
    rcases g.own q hq with e | ⟨h1, h2⟩
    · exact .inl e
    · rcases f.own q h1 with e | h3
      · exact absurd e h2
      · exact .inr h3
  newptr := by
    rcases g.newptr with e | ⟨p, e, hp⟩
    · rw [e]; exact f.newptr
    · exact .inr ⟨p, e, Nat.le_trans f.next_le hp⟩

@[simp] theorem setMem_same (m : Nat → Option (List (Option α))) (p b) : setMem m p b p = b := by simp [setMem]
theorem setMem_other (m : Nat → Option (List (Option α))) {p q : Nat} (b) (hq : q ≠ p) : setMem m p b q = m q := by
  simp [setMem, hq]

theorem setMem_setMem (m : Nat → Option (List (Option α))) (p b c) : setMem (setMem m p b) p c = setMem m p c := by
  funext q; by_cases hq : q = p <;> simp [setMem, hq]

theorem load_ok {h : Heap α} {v : Vec} {p i : Nat} {b} (hm : h.mem p = some b) (hi : i < b.length) :
    load (some p) i (h, v) = .ok (h, v) (b.getD i none) := by simp [load, hm, hi]

theorem store_ok {h : Heap α} {v : Vec} {p i : Nat} {b} (c : Option α) (hm : h.mem p = some b) (hi : i < b.length) :
    store (some p) i c (h, v) = .ok ({ h with mem := setMem h.mem p (some (b.set i c)) }, v) () := by
  simp [store, hm, hi]

theorem copyLoop_ok (src dst : Nat) (hne : src ≠ dst) (bs : List (Option α)) (v : Vec) :
    ∀ (n i : Nat) (h : Heap α) (bd : List (Option α)), h.mem src = some bs → h.mem dst = some bd →
      i + n ≤ bs.length → i + n ≤ bd.length →
      copyLoop (some dst) (some src) n i (h, v) =
        .ok ({ h with mem := setMem h.mem dst (some (bd.take i ++ (bs.drop i).take n ++ bd.drop (i + n))) }, v) () := by
  intro n
  induction n with
  | zero =>
    intro i h bd hs hd hl1 hl2
    have : setMem h.mem dst (some bd) = h.mem := by
      funext q; by_cases hq : q = dst <;> simp [setMem, hq, hd]
    simp [copyLoop, Act.pure_apply, this]
  | succ n ih =>
    intro i h bd hs hd hl1 hl2
    have hi : i < bs.length := by omega
    have hi' : i < bd.length := by omega
    simp only [copyLoop]
    rw [Act.bind_ok (load_ok hs hi), Act.bind_ok (store_ok _ hd hi')]
    rw [ih (i + 1) _ (bd.set i (bs.getD i none)) (by simp [setMem, hne, hs]) (by simp) (by omega) (by simp; omega)]
    simp only [setMem_setMem]
    congr 5
    rw [List.take_succ_eq_append_getElem (by simp; omega), List.take_set_of_le (Nat.le_refl i),
      List.drop_set_of_lt (by omega)]
    rw [List.drop_eq_getElem_cons hi, List.take_succ_cons]
    have e1 : i + 1 + n = i + (n + 1) := by omega
    simp [e1, List.getElem?_eq_getElem hi]

theorem resize_zero (s : St α) : resize 0 s = .ok s () := by
  simp [resize, Act.pure_apply]

theorem resize_fits {h : Heap α} {v : Vec} {n : Nat} (h1 : 1 ≤ n) (h2 : n ≤ v.capacity) :
    resize n (h, v) = .ok (h, { v with size := n }) () := by
  have a : ¬ n < 1 := by omega
  have b : ¬ n > v.capacity := by omega
  simp [resize, a, b, getThis, setThis, Act.bind_apply]

theorem recommended_nowrap {h : Heap α} {v : Vec} (w : WF h v) : recommendedSize v = 2 * v.capacity := by
  unfold recommendedSize word
  rcases w with ⟨_, h2, _⟩ | ⟨_, _, _, _, _, _, _, h2⟩
  · simp [h2]
  · omega

theorem wf_size_le {h : Heap α} {v : Vec} (w : WF h v) : v.size ≤ v.capacity := by
  rcases w with ⟨_, h2, h3⟩ | ⟨_, _, _, _, _, h2, _, _⟩ <;> omega

theorem wf_cap_lt {h : Heap α} {v : Vec} (w : WF h v) : v.capacity < 2 ^ 63 := by
  rcases w with ⟨_, h2, h3⟩ | ⟨_, _, _, _, _, h2, _, h4⟩ <;> omega

theorem view_length {h : Heap α} {v : Vec} (w : WF h v) : (view h v).length = v.size := by
  rcases w with ⟨h1, h2, h3⟩ | ⟨p, b, h1, h2, h3, h4, _, _⟩
  · simp [view, h1, h3]
  · simp [view, h1, h2]; omega

/-- Capacity chosen by a reallocating `resize n`. -/
def grown (v : Vec) (n : Nat) : Nat := max n (2 * v.capacity)

/-- Heap after a reallocating `resize n`. -/
def grownHeap (h : Heap α) (v : Vec) (n : Nat) : Heap α :=
  { h with
    mem := fun q => if q = h.next then some (view h v ++ List.replicate (grown v n - v.size) h.fresh)
      else if some q = v.elements then none else h.mem q
    next := h.next + 1
    calls := h.calls + 1 }

/-- Heap after a successful allocation. -/
def allocHeap (h : Heap α) (n : Nat) : Heap α :=
  { h with
    mem := setMem h.mem h.next (some (List.replicate n h.fresh))
    next := h.next + 1
    calls := h.calls + 1 }

theorem resize_grow {h : Heap α} {v : Vec} {n : Nat} (w : WF h v) (hb : Bnd h) (h2 : v.capacity < n) :
    resize n (h, v) =
      if 2 ^ 63 ≤ grown v n || h.fails h.calls (grown v n) then .exc ({ h with calls := h.calls + 1 }, v)
      else .ok (grownHeap h v n, { elements := some h.next, capacity := grown v n, size := n }) () := by
  have a : ¬ n < 1 := by omega
  have hn : (if n > recommendedSize v then n else recommendedSize v) = grown v n := by
    rw [recommended_nowrap w]; unfold grown; split <;> omega
  simp only [resize, a, if_false]
  rw [Act.bind_ok (show getThis (h, v) = .ok (h, v) v from rfl)]
  simp only [h2, gt_iff_lt, if_true, hn]
  have g1 : ¬ grown v n < 1 := by unfold grown; omega
  by_cases hf : (2 ^ 63 ≤ grown v n || h.fails h.calls (grown v n)) = true
  · rw [if_pos hf]
    apply Act.bind_exc
    simp only [allocate, g1, if_false, if_pos hf]
  · rw [if_neg hf]
    have ha : allocate (grown v n) (h, v) = .ok (allocHeap h (grown v n), v) (some h.next) := by
      simp only [allocHeap]
      simp only [allocate, g1, if_false, if_neg hf]
    rw [Act.bind_ok ha]
    rcases w with ⟨e1, e2, e3⟩ | ⟨p, b, e1, e2, e3, e4, e5, e6⟩
    · simp only [e1, e3, copyLoop]
      rw [Act.bind_ok (Act.pure_apply _ _)]
      simp only [Act.bind_apply, deallocate, setThis, getThis]
      congr 2
      simp only [grownHeap, e1, e3, view]
      congr 1
    · have hpn : p ≠ h.next := by
        have := hb p (by simp [e2]); omega
      rw [e1, Act.bind_ok (copyLoop_ok p h.next hpn b v v.size 0 _ (List.replicate (grown v n) h.fresh)
        (by simp [allocHeap, setMem, hpn, e2]) (by simp [allocHeap]) (by omega) (by simp; unfold grown; omega))]
      simp only [Act.bind_apply, deallocate, setThis, getThis, setMem_setMem, allocHeap]
      simp only [setMem_other _ _ hpn, e2]
      congr 2
      simp only [grownHeap, e1, e2, view]
      congr 1
      funext q
      by_cases hq : q = h.next
      · have : h.next ≠ p := fun c => hpn c.symm
        simp [setMem, hq, this]
      · by_cases hq' : q = p <;> simp [setMem, hq, hq', hpn]

theorem grown_wf {h : Heap α} {v : Vec} {n : Nat} (w : WF h v) (h2 : v.capacity < n) (hs : grown v n < 2 ^ 63) :
    WF (grownHeap h v n) { elements := some h.next, capacity := grown v n, size := n } := by
  refine .inr ⟨h.next, _, rfl, by simp [grownHeap]; rfl, ?_, ?_, ?_, hs⟩
  · have := view_length w
    have := wf_size_le w
    simp [view_length w]; unfold grown; omega
  · simp only [grown]; omega
  · simp only [grown]; omega

theorem grown_view {h : Heap α} {v : Vec} {n : Nat} (w : WF h v) (h2 : v.capacity < n) :
    view (grownHeap h v n) { elements := some h.next, capacity := grown v n, size := n } =
      view h v ++ List.replicate (n - v.size) h.fresh := by
  have := view_length w
  have := wf_size_le w
  simp only [view, grownHeap, if_true, Option.getD_some]
  rw [List.take_append, List.take_of_length_le (by change (view h v).length ≤ n; omega), List.take_replicate]
  congr 2
  change min (n - (view h v).length) _ = _
  unfold grown
  omega

theorem grown_frame {h : Heap α} {v : Vec} {n : Nat} (hb : Bnd h) :
    Frame h v (grownHeap h v n) { elements := some h.next, capacity := grown v n, size := n } where
  next_le := by simp [grownHeap]
  bnd := by
    intro q hq
    simp only [grownHeap] at hq ⊢
    by_cases e : q = h.next
    · omega
    · by_cases e' : some q = v.elements
      · simp [e, e'] at hq
      · simp only [e, e', if_false] at hq
        have := hb q hq; omega
  keep := by
    intro q hq hl
    have : q ≠ h.next := by omega
    simp [grownHeap, this, hq]
  own := by
    intro q hq
    simp only [grownHeap] at hq
    by_cases e : q = h.next
    · left; simp [e]
    · by_cases e' : some q = v.elements
      · simp [e, e'] at hq
      · right
        simp only [e, e', if_false] at hq
        exact ⟨hq, e'⟩
  newptr := .inr ⟨h.next, rfl, Nat.le_refl _⟩

/-- Changing only cells of the own block. -/
theorem set_frame {h : Heap α} {v v' : Vec} {p : Nat} {b b' : List (Option α)} (hb : Bnd h) (hp : v.elements = some p)
    (hm : h.mem p = some b) (hv : v'.elements = v.elements) :
    Frame h v { h with mem := setMem h.mem p (some b') } v' where
  next_le := Nat.le_refl _
  bnd := by
    intro q hq
    by_cases e : q = p
    · subst e; exact hb q (by simp [hm])
    · rw [show ({ h with mem := setMem h.mem p (some b') } : Heap α).mem q = h.mem q from setMem_other _ _ e] at hq
      exact hb q hq
  keep := by
    intro q hq _
    refine setMem_other _ _ ?_
    rintro rfl; exact hq hp.symm
  own := by
    intro q hq
    by_cases e : q = p
    · left; rw [hv, hp, e]
    · right
      rw [show ({ h with mem := setMem h.mem p (some b') } : Heap α).mem q = h.mem q from setMem_other _ _ e] at hq
      exact ⟨hq, by rw [hp]; simpa using e⟩
  newptr := .inl hv

/-- Changing only the size. -/
theorem size_frame {h : Heap α} {v v' : Vec} (hb : Bnd h) (hv : v'.elements = v.elements) : Frame h v h v' where
  next_le := Nat.le_refl _
  bnd := hb
  keep := fun _ _ _ => rfl
  own := fun q hq => by
    by_cases e : some q = v.elements
    · exact .inl (e.trans hv.symm)
    · exact .inr ⟨hq, e⟩
  newptr := .inl hv

theorem calls_frame {h : Heap α} {v : Vec} {n : Nat} (hb : Bnd h) : Frame h v { h with calls := n } v where
  next_le := Nat.le_refl _
  bnd := hb
  keep := fun _ _ _ => rfl
  own := fun q hq => by
    by_cases e : some q = v.elements
    · exact .inl e
    · exact .inr ⟨hq, e⟩
  newptr := .inl rfl

/-- What `resize n`, `n ≥ 1`, may do. -/
inductive ResizeOut (h : Heap α) (v : Vec) (n : Nat) : Out (St α) Unit → Prop
  | ok (h' v') (f : List (Option α)) : WF h' v' → Frame h v h' v' → v'.size = n →
      view h' v' = (view h v).take n ++ f → v.capacity ≤ v'.capacity →
      (n ≤ v.capacity → v'.elements = v.elements ∧ v'.capacity = v.capacity) → ResizeOut h v n (.ok (h', v') ())
  | exc (h') : h'.mem = h.mem → h'.next = h.next → ResizeOut h v n (.exc (h', v))

theorem resize_spec {h : Heap α} {v : Vec} {n : Nat} (w : WF h v) (hb : Bnd h) (h1 : 1 ≤ n) :
    ResizeOut h v n (resize n (h, v)) := by
  by_cases hc : n ≤ v.capacity
  · rw [resize_fits h1 hc]
    rcases w with ⟨e1, e2, e3⟩ | ⟨p, b, e1, e2, e3, e4, e5, e6⟩
    · omega
    · refine .ok _ _ ((b.drop v.size).take (n - v.size)) (.inr ⟨p, b, e1, e2, e3, hc, e5, e6⟩)
        (size_frame hb rfl) rfl ?_ (Nat.le_refl _) (fun _ => ⟨rfl, rfl⟩)
      simp only [view, e1, e2, Option.getD_some, List.take_take]
      by_cases hn : n ≤ v.size
      · have : n - v.size = 0 := by omega
        simp [Nat.min_eq_left hn, this]
      · rw [Nat.min_eq_right (by omega)]
        rw [← List.take_add]; congr 1; omega
  · rw [resize_grow w hb (by omega)]
    split
    · exact .exc _ rfl rfl
    · rename_i hf
      have hs : grown v n < 2 ^ 63 := by
        simp only [Bool.or_eq_true, decide_eq_true_eq, not_or] at hf; omega
      refine .ok _ _ (List.replicate (n - v.size) h.fresh) (grown_wf w (by omega) hs) (grown_frame hb) rfl ?_ ?_
        (fun hle => absurd hle hc)
      · rw [grown_view w (by omega)]
        have := view_length w
        have := wf_size_le w
        rw [List.take_of_length_le (by omega)]
      · simp only [grown]; omega

/-- `push_back` without reallocation. -/
theorem pushBack_fits {h : Heap α} {v : Vec} {p : Nat} {b : List (Option α)} {r : Ref α} {c : Option α}
    (hp : v.elements = some p) (hm : h.mem p = some b) (hl : b.length = v.capacity) (hs : v.size < v.capacity)
    (hc : v.capacity < 2 ^ 63)
    (hr : ∀ u : Vec, deref r (h, u) = .ok (h, u) c) :
    pushBack r (h, v) = .ok ({ h with mem := setMem h.mem p (some (b.set v.size c)) }, { v with size := v.size + 1 }) () := by
  have e1 : (v.size + 1) % word = v.size + 1 := by unfold word; omega
  have e2 : (v.size + 1 + word - 1) % word = v.size := by unfold word; omega
  simp only [pushBack]
  rw [Act.bind_ok (show getThis (h, v) = .ok (h, v) v from rfl), e1, Act.bind_ok (resize_fits (by omega) (by omega)),
    Act.bind_ok (show getThis (h, { v with size := v.size + 1 }) = .ok (h, { v with size := v.size + 1 }) _ from rfl),
    Act.bind_ok (hr _)]
  simp only [e2, hp]
  rw [store_ok c hm (by omega)]

/-- What `push_back` may do. -/
inductive PushOut (h : Heap α) (v : Vec) (c : Option α) : Out (St α) Unit → Prop
  | ok (h' v') : WF h' v' → Frame h v h' v' → view h' v' = view h v ++ [c] → v.capacity ≤ v'.capacity →
      (v.size < v.capacity → v'.elements = v.elements ∧ v'.capacity = v.capacity) → PushOut h v c (.ok (h', v') ())
  | exc (h') : h'.mem = h.mem → h'.next = h.next → v.size = v.capacity → PushOut h v c (.exc (h', v))

/-- The reference passed to `push_back` denotes `c`, and not by an element that reallocation would free. -/
def RefVal (h : Heap α) (v : Vec) (r : Ref α) (c : Option α) : Prop :=
  match r with
  | .ext a => c = some a
  | .cell p i => ∃ b, h.mem p = some b ∧ i < b.length ∧ c = b.getD i none ∧ (some p ≠ v.elements ∨ v.size < v.capacity)

theorem RefVal.deref {h h' : Heap α} {v : Vec} {r : Ref α} {c : Option α} (hr : RefVal h v r c)
    (hm : ∀ p b, h.mem p = some b → some p ≠ v.elements ∨ v.size < v.capacity → h'.mem p = some b) (u : Vec) :
    deref r (h', u) = .ok (h', u) c := by
  cases r with
  | ext a => simp only [RefVal] at hr; subst hr; rfl
  | cell p i =>
    obtain ⟨b, h1, h2, h3, h4⟩ := hr
    simp only [Nanostl.Vector.deref]
    rw [load_ok (hm p b h1 h4) h2, h3]

theorem pushBack_spec {h : Heap α} {v : Vec} {r : Ref α} {c : Option α} (w : WF h v) (hb : Bnd h) (hr : RefVal h v r c) :
    PushOut h v c (pushBack r (h, v)) := by
  have hsz := wf_size_le w
  have hcp := wf_cap_lt w
  have hvl := view_length w
  by_cases hs : v.size < v.capacity
  · rcases w with ⟨e1, e2, e3⟩ | ⟨p, b, e1, e2, e3, e4, e5, e6⟩
    · omega
    · rw [pushBack_fits e1 e2 e3 hs e6 (hr.deref (fun _ _ h _ => h))]
      refine .ok _ _ (.inr ⟨p, b.set v.size c, e1, by simp, by simp [e3], by simp only; omega, e5, e6⟩)
        (set_frame hb e1 e2 rfl) ?_ (Nat.le_refl _) (fun _ => ⟨rfl, rfl⟩)
      simp only [view, e1, setMem_same, Option.getD_some, e2]
      rw [List.take_succ_eq_append_getElem (by simp; omega), List.take_set_of_le (Nat.le_refl _)]
      simp
  · have hsc : v.size = v.capacity := by omega
    have e1 : (v.size + 1) % word = v.size + 1 := by unfold word; omega
    simp only [pushBack]
    rw [Act.bind_ok (show getThis (h, v) = .ok (h, v) v from rfl), e1]
    have hg := resize_grow (n := v.size + 1) w hb (by omega)
    split at hg
    · rw [Act.bind_exc hg]
      exact .exc _ rfl rfl hsc
    · rename_i hf
      have hs : grown v (v.size + 1) < 2 ^ 63 := by
        simp only [Bool.or_eq_true, decide_eq_true_eq, not_or] at hf; omega
      have e2 : (v.size + 1 + word - 1) % word = v.size := by unfold word; omega
      rw [Act.bind_ok hg]
      rw [Act.bind_ok (show getThis (grownHeap h v (v.size + 1), _) = .ok (grownHeap h v (v.size + 1), _) _ from rfl)]
      have hfr := grown_frame (n := v.size + 1) (v := v) hb
      rw [Act.bind_ok (hr.deref (h' := grownHeap h v (v.size + 1)) ?_ _)]
      · simp only [e2]
        have hmem : (grownHeap h v (v.size + 1)).mem h.next =
            some (view h v ++ List.replicate (grown v (v.size + 1) - v.size) h.fresh) := by simp [grownHeap]
        have hg1 : 1 ≤ grown v (v.size + 1) - v.size := by unfold grown; omega
        rw [store_ok c hmem (by simp; omega)]
        have hwf := grown_wf w (show v.capacity < v.size + 1 by omega) hs
        refine .ok _ _ (.inr ⟨h.next, _, rfl, setMem_same _ _ _, ?_, ?_, ?_, hs⟩)
          (hfr.trans (set_frame hfr.bnd rfl hmem rfl)) ?_ ?_ (fun hlt => absurd hlt (by omega))
        · simp [hvl]; unfold grown; omega
        · simp only [grown]; omega
        · simp only [grown]; omega
        · simp only [view, setMem_same, Option.getD_some]
          change List.take (v.size + 1) ((view h v ++ _).set v.size c) = view h v ++ [c]
          rw [List.set_append_right _ _ (by omega), hvl, Nat.sub_self]
          obtain ⟨k, hk⟩ : ∃ k, grown v (v.size + 1) - v.size = k + 1 := ⟨grown v (v.size + 1) - v.size - 1, by omega⟩
          rw [hk, List.replicate_succ, List.set_cons_zero, ← hvl, List.take_length_add_append]
          simp
        · simp only [grown]; omega
      · intro p b hpb hpv
        have hne : some p ≠ v.elements := by
          rcases hpv with h | h
          · exact h
          · omega
        rw [hfr.keep p hne (hb p (by simp [hpb]))]; exact hpb

theorem popBack_eq {h : Heap α} {v : Vec} (hs : 1 ≤ v.size) (hc : v.size < 2 ^ 63) :
    popBack (h, v) = .ok (h, { v with size := v.size - 1 }) () := by
  have e : (v.size + word - 1) % word = v.size - 1 := by unfold word; omega
  simp [popBack, getThis, setThis, Act.bind_apply, e]

theorem eraseLoop_ok {v : Vec} {p : Nat} (hp : v.elements = some p) :
    ∀ (fuel pos : Nat) (h : Heap α) (b : List (Option α)), h.mem p = some b → v.size ≤ b.length → pos < v.size →
      v.size ≤ pos + fuel →
      eraseLoop fuel pos (h, v) =
        .ok ({ h with mem := setMem h.mem p (some (b.take pos ++ (b.take v.size).drop (pos + 1) ++ b.drop (v.size - 1))) }, v)
          (v.size - 1) := by
  intro fuel
  induction fuel with
  | zero => intro pos h b hm hs hpos hf; omega
  | succ fuel ih =>
    intro pos h b hm hs hpos hf
    simp only [eraseLoop]
    rw [Act.bind_ok (show getThis (h, v) = .ok (h, v) v from rfl)]
    by_cases hlast : pos + 1 = v.size
    · have : pos = v.size - 1 := by omega
      subst this
      have hb : List.take (v.size - 1) b ++ List.drop (v.size - 1 + 1) (List.take v.size b) ++ List.drop (v.size - 1) b = b := by
        have : List.drop (v.size - 1 + 1) (List.take v.size b) = [] := by
          apply List.drop_of_length_le; simp; omega
        rw [this]; simp
      rw [if_neg (by simpa using hlast), Act.pure_apply, hb]
      have : setMem h.mem p (some b) = h.mem := by
        funext q; by_cases hq : q = p <;> simp [setMem, hq, hm]
      rw [this]
    · rw [if_pos hlast, hp, Act.bind_ok (load_ok hm (by omega)), Act.bind_ok (store_ok _ hm (by omega))]
      rw [ih (pos + 1) _ (b.set pos (b.getD (pos + 1) none)) (by simp) (by simp; omega) (by omega) (by omega)]
      simp only [setMem_setMem]
      congr 5
      · rw [List.take_succ_eq_append_getElem (by simp; omega), List.take_set_of_le (Nat.le_refl pos), List.take_set,
          List.drop_set_of_lt (by omega)]
        rw [List.drop_eq_getElem_cons (show pos + 1 < (List.take v.size b).length by simp; omega)]
        have hlt : pos + 1 < b.length := by omega
        simp [List.getElem?_eq_getElem hlt]
        rw [List.drop_set_of_lt (by omega)]

theorem erase_ok {h : Heap α} {v : Vec} {k : Nat} (w : WF h v) (hb : Bnd h) (hk : k < v.size) :
    ∃ h', erase k (h, v) = .ok (h', { v with size := v.size - 1 }) (v.size - 1) ∧
      WF h' { v with size := v.size - 1 } ∧ Frame h v h' { v with size := v.size - 1 } ∧
      view h' { v with size := v.size - 1 } = (view h v).eraseIdx k := by
  have hcp := wf_cap_lt w
  have hsc := wf_size_le w
  have e : (v.size + word - 1) % word = v.size - 1 := by unfold word; omega
  rcases w with ⟨e1, e2, e3⟩ | ⟨p, b, e1, e2, e3, e4, e5, e6⟩
  · omega
  · refine ⟨{ h with mem := setMem h.mem p (some (b.take k ++ (b.take v.size).drop (k + 1) ++ b.drop (v.size - 1))) },
      ?_, ?_, ?_, ?_⟩
    rotate_left
    · refine .inr ⟨p, _, e1, setMem_same _ _ _, ?_, ?_, e5, e6⟩
      · simp; omega
      · simp only; omega
    · exact set_frame hb e1 e2 rfl
    · simp only [view, e1, setMem_same, Option.getD_some, e2]
      rw [List.eraseIdx_eq_take_drop_succ]
      rw [List.take_append, List.take_of_length_le (by simp; omega)]
      have : v.size - 1 - (List.take k b ++ List.drop (k + 1) (List.take v.size b)).length = 0 := by simp; omega
      rw [this, List.take_take, Nat.min_eq_left (by omega)]
      simp
    · simp only [erase]
      rw [Act.bind_ok (show getThis (h, v) = .ok (h, v) v from rfl),
        Act.bind_ok (eraseLoop_ok e1 _ k h b e2 (by omega) hk (by omega))]
      simp only [Act.bind_apply, getThis, setThis, Act.pure_apply, e]

theorem write_ok {h : Heap α} {v : Vec} {k : Nat} (a : α) (w : WF h v) (hb : Bnd h) (hk : k < v.size) :
    ∃ h', write k a (h, v) = .ok (h', v) () ∧ WF h' v ∧ Frame h v h' v ∧ view h' v = (view h v).set k (some a) := by
  have hsc := wf_size_le w
  rcases w with ⟨e1, e2, e3⟩ | ⟨p, b, e1, e2, e3, e4, e5, e6⟩
  · omega
  · refine ⟨{ h with mem := setMem h.mem p (some (b.set k (some a))) }, ?_, ?_, ?_, ?_⟩
    rotate_left
    · exact .inr ⟨p, b.set k (some a), e1, setMem_same _ _ _, by simp [e3], e4, e5, e6⟩
    · exact set_frame hb e1 e2 rfl
    · simp only [view, e1, setMem_same, Option.getD_some, e2, List.take_set]
    · simp only [write]
      rw [Act.bind_ok (show getThis (h, v) = .ok (h, v) v from rfl), e1, store_ok _ e2 (by omega)]

theorem dtor_ok {h : Heap α} {v : Vec} (w : WF h v) :
    dtor (h, v) = .ok ({ h with mem := fun q => if some q = v.elements then none else h.mem q }, v) () := by
  rcases w with ⟨e1, e2, e3⟩ | ⟨p, b, e1, e2, e3, e4, e5, e6⟩
  · simp [dtor, Act.bind_apply, getThis, e1, Act.pure_apply]
  · simp only [dtor, Act.bind_apply, getThis, e1, deallocate, e2]
    congr 3
    funext q
    simp [setMem]

end Nanostl.Vector

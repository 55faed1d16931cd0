import Verif.Vector.Assign
import Verif.Vector.Spec

/-! Invariant of a client program over several vectors, and its preservation. -/

namespace Nanostl.Vector

open Spec (Abs upd Pre Post Exc)

variable {α : Type}

/-- What the client sees of a world. -/
def abs (w : World α) : Abs α := fun i => (w.vec i).map (view w.heap)

/-- Each live vector is well formed; vectors do not share storage; every live block has a live owner or was leaked
by a throwing copy constructor. -/
structure Inv (w : World α) : Prop where
  bnd : Bnd w.heap
  wf : ∀ i v, w.vec i = some v → WF w.heap v
  inj : ∀ i j u v p, w.vec i = some u → w.vec j = some v → u.elements = some p → v.elements = some p → i = j
  owned : ∀ p, w.heap.mem p ≠ none → (∃ i v, w.vec i = some v ∧ v.elements = some p) ∨ p ∈ w.leaked
  sep : ∀ i v p, w.vec i = some v → v.elements = some p → p ∉ w.leaked
  leak : ∀ p, p ∈ w.leaked → w.heap.mem p ≠ none

theorem wf_live {h : Heap α} {v : Vec} {p : Nat} (w : WF h v) (hp : v.elements = some p) : h.mem p ≠ none := by
  rcases w with ⟨e, _⟩ | ⟨q, b, e1, e2, _⟩
  · simp [hp] at e
  · rw [hp] at e1; cases e1; simp [e2]

theorem wf_of_mem {h h' : Heap α} {v : Vec} (w : WF h v) (hm : ∀ p, v.elements = some p → h'.mem p = h.mem p) : WF h' v := by
  rcases w with h0 | ⟨p, b, e1, e2, e3⟩
  · exact .inl h0
  · exact .inr ⟨p, b, e1, by rw [hm p e1, e2], e3⟩

theorem view_of_mem {h h' : Heap α} {v : Vec} (hm : ∀ p, v.elements = some p → h'.mem p = h.mem p) : view h' v = view h v := by
  unfold view
  cases e : v.elements with
  | none => rfl
  | some p => simp [hm p e]

/-- An operation on vector `i` alone that respects the frame keeps the invariant and the other vectors. -/
theorem Inv.update {w : World α} (I : Inv w) {i : Nat} {v v' : Vec} {h' : Heap α} (hv : w.vec i = some v)
    (w' : WF h' v') (f : Frame w.heap v h' v') :
    Inv { w with heap := h', vec := setVec w.vec i (some v') } ∧
      abs { w with heap := h', vec := setVec w.vec i (some v') } = upd (abs w) i (some (view h' v')) := by
  have keep : ∀ j u, j ≠ i → w.vec j = some u → ∀ p, u.elements = some p → h'.mem p = w.heap.mem p := by
    intro j u hj hu p hp
    apply f.keep
    · intro c; exact hj (I.inj j i u v p hu hv hp c.symm)
    · exact I.bnd p (wf_live (I.wf j u hu) hp)
  have clash : ∀ j u p, j ≠ i → w.vec j = some u → u.elements = some p → v'.elements = some p → False := by
    intro j u p hj hu hp hp'
    rcases f.newptr with e | ⟨q, e, hq⟩
    · exact hj (I.inj j i u v p hu hv hp (e ▸ hp'))
    · rw [hp'] at e; cases e
      have := I.bnd p (wf_live (I.wf j u hu) hp); omega
  constructor
  · constructor
    · exact f.bnd
    · intro j u hu
      simp only [setVec] at hu
      split at hu
      · cases hu; exact w'
      · rename_i hj; exact wf_of_mem (I.wf j u hu) (keep j u hj hu)
    · intro j k u x p hu hx hp hq
      simp only [setVec] at hu hx
      split at hu <;> split at hx
      · omega
      · cases hu; rename_i _ hk; exact (clash k x p hk hx hq hp).elim
      · cases hx; rename_i hj _; exact (clash j u p hj hu hp hq).elim
      · exact I.inj j k u x p hu hx hp hq
    · intro p hp
      rcases f.own p hp with e | ⟨e1, e2⟩
      · exact .inl ⟨i, v', by simp [setVec], e.symm⟩
      · rcases I.owned p e1 with ⟨j, u, hu, hpu⟩ | hl
        · refine .inl ⟨j, u, ?_, hpu⟩
          have : j ≠ i := by
            rintro rfl; rw [hv] at hu; cases hu; exact e2 hpu.symm
          simp [setVec, this, hu]
        · exact .inr hl
    · intro j u p hu hp hl
      simp only [setVec] at hu
      split at hu
      · cases hu
        rcases f.newptr with e | ⟨q, e, hq⟩
        · exact I.sep i v p hv (e ▸ hp) hl
        · rw [hp] at e; cases e
          have := I.bnd p (I.leak p hl); omega
      · exact I.sep j u p hu hp hl
    · intro p hl
      have h1 := I.leak p hl
      simp only
      rw [f.keep p (fun c => I.sep i v p hv c.symm hl) (I.bnd p h1)]
      exact h1
  · funext j
    simp only [abs, upd, setVec]
    by_cases hj : j = i
    · simp [hj]
    · simp only [hj, if_false]
      cases hu : w.vec j with
      | none => rfl
      | some u => simp [view_of_mem (keep j u hj hu)]

theorem abs_some {w : World α} {i : Nat} {l : List (Option α)} (h : abs w i = some l) :
    ∃ v, w.vec i = some v ∧ view w.heap v = l := by
  simp only [abs, Option.map_eq_some_iff] at h
  exact h

theorem abs_none {w : World α} {i : Nat} (h : abs w i = none) : w.vec i = none := by
  simpa [abs] using h

theorem abs_of_vec {w : World α} {i : Nat} {v : Vec} (h : w.vec i = some v) : abs w i = some (view w.heap v) := by
  simp [abs, h]

theorem upd_self {A : Abs α} {i : Nat} {l} (h : A i = l) : upd A i l = A := by
  funext j; by_cases hj : j = i <;> simp [upd, hj, h]

/-- Outcome of one operation: no undefined behaviour, invariant kept, effect as specified. -/
def StepOK (w : World α) (c : Cmd α) : Prop :=
  ∃ w' t, step w c = some (w', t) ∧ Inv w' ∧ (t = false → Post (abs w) c (abs w') ∧ w'.leaked = w.leaked) ∧
    (t = true → Exc (abs w) c (abs w') ∧ (w'.leaked = w.leaked ∨ ∃ i j, c = .copy i j))

theorem exc_update {w : World α} (I : Inv w) {i : Nat} {v : Vec} {h' : Heap α} (hv : w.vec i = some v)
    (hm : h'.mem = w.heap.mem) (hn : h'.next = w.heap.next) :
    Inv { w with heap := h', vec := setVec w.vec i (some v) } ∧
      abs { w with heap := h', vec := setVec w.vec i (some v) } = abs w := by
  have f : Frame w.heap v h' v :=
    ⟨by omega, by intro q hq; rw [hm] at hq; rw [hn]; exact I.bnd q hq, fun q _ _ => by rw [hm],
      fun q hq => by
        rw [hm] at hq
        by_cases e : some q = v.elements
        · exact .inl e
        · exact .inr ⟨hq, e⟩, .inl rfl⟩
  have := I.update hv (wf_of_mem (I.wf i v hv) (fun p _ => by rw [hm])) f
  refine ⟨this.1, this.2.trans ?_⟩
  apply upd_self
  rw [abs_of_vec hv]
  congr 1
  exact (view_of_mem (fun p _ => by rw [hm])).symm

theorem step_push_ref {w : World α} (I : Inv w) {i : Nat} {v : Vec} {r : Ref α} {c : Option α} (hv : w.vec i = some v)
    (hr : RefVal w.heap v r c) :
    ∃ w' t, onVec w i (fun _ => pushBack r) = some (w', t) ∧ Inv w' ∧ w'.leaked = w.leaked ∧
      (t = false → abs w' = upd (abs w) i (some (view w.heap v ++ [c]))) ∧ (t = true → abs w' = abs w) := by
  have hp := pushBack_spec (I.wf i v hv) I.bnd hr
  simp only [onVec, hv]
  generalize pushBack r (w.heap, v) = o at hp
  cases hp with
  | ok h' v' w' f e _ _ =>
    have := I.update hv w' f
    exact ⟨_, false, rfl, this.1, rfl, fun _ => by rw [this.2, e], by simp⟩
  | exc h' hm hn _ =>
    have := exc_update I hv hm hn
    exact ⟨_, true, rfl, this.1, rfl, by simp, fun _ => this.2⟩

theorem step_assign {w : World α} (I : Inv w) {i : Nat} {v : Vec} {rs : List (Ref α)} {cs : List (Option α)}
    (hv : w.vec i = some v) (hs : StableL w.heap v rs cs) :
    ∃ w' t, onVec w i (fun _ => assign rs) = some (w', t) ∧ Inv w' ∧ w'.leaked = w.leaked ∧
      (t = false → abs w' = upd (abs w) i (some cs)) ∧
      (t = true → ∃ n, n < cs.length ∧ abs w' = upd (abs w) i (some (cs.take n))) := by
  have hp := assign_spec (I.wf i v hv) I.bnd hs
  simp only [onVec, hv]
  generalize assign rs (w.heap, v) = o at hp
  cases hp with
  | ok h' v' w' f e _ =>
    have := I.update hv w' f
    exact ⟨_, false, rfl, this.1, rfl, fun _ => by rw [this.2, e]; rfl, by simp⟩
  | exc h' v' n w' f e hn _ =>
    have := I.update hv w' f
    exact ⟨_, true, rfl, this.1, rfl, by simp, fun _ => ⟨n, hn, by rw [this.2, e]; rfl⟩⟩

theorem wholeRange_eq (v : Vec) : (wholeRange v : List (Ref α)) = subRange v 0 v.size := rfl

/-- References obtained from another vector's iterators. -/
theorem stable_other {w : World α} (I : Inv w) {i j : Nat} {v u : Vec} {lo hi : Nat} (hij : i ≠ j) (hv : w.vec i = some v)
    (hu : w.vec j = some u) (h1 : lo ≤ hi) (h2 : hi ≤ (view w.heap u).length) :
    StableL w.heap v (subRange u lo hi) (((view w.heap u).take hi).drop lo) := by
  have wu := I.wf j u hu
  have hl := view_length wu
  rcases wu with ⟨e1, e2, e3⟩ | ⟨p, b, e1, e2, e3, e4, e5, e6⟩
  · simp only [e1, view, subRange]; simpa using StableL.nil
  · have hne : some p ≠ v.elements := fun c => hij (I.inj i j v u p hv hu c.symm e1)
    have := stableL_range' e2 hne (hi - lo) lo (by omega)
    simp only [e1, subRange, range, view, e2, Option.getD_some]
    rw [List.take_take, Nat.min_eq_left (by omega), List.drop_take]
    exact this

theorem step_ok {w : World α} (I : Inv w) (c : Cmd α) (hpre : Pre (abs w) c) : StepOK w c := by
  cases c with
  | new i =>
    have hi := abs_none hpre
    refine ⟨_, false, by simp only [step, hi]; rfl, ?_, ?_, by simp⟩
    · constructor
      · exact I.bnd
      · intro j u hu
        simp only [setVec] at hu
        split at hu
        · cases hu; exact .inl ⟨rfl, rfl, rfl⟩
        · exact I.wf j u hu
      · intro j k u x p hu hx hp hq
        simp only [setVec] at hu hx
        split at hu <;> split at hx
        · omega
        · cases hu; simp [init] at hp
        · cases hx; simp [init] at hq
        · exact I.inj j k u x p hu hx hp hq
      · intro p hp
        rcases I.owned p hp with ⟨j, u, hu, hpu⟩ | hl
        · refine .inl ⟨j, u, ?_, hpu⟩
          have : j ≠ i := by rintro rfl; simp [hi] at hu
          simp [setVec, this, hu]
        · exact .inr hl
      · intro j u p hu hp
        simp only [setVec] at hu
        split at hu
        · cases hu; simp [init] at hp
        · exact I.sep j u p hu hp
      · exact I.leak
    · intro _
      refine ⟨?_, rfl⟩
      simp only [Post]
      funext j
      simp only [abs, upd, setVec]
      by_cases hj : j = i <;> simp [hj, view, init]
  | copy i j =>
    obtain ⟨hi, l, hl⟩ := hpre
    have hi := abs_none hi
    obtain ⟨u, hu, hul⟩ := abs_some hl
    have hij : i ≠ j := by rintro rfl; simp [hi] at hu
    -- the world with an empty vector `i`
    have I0 : Inv { w with vec := setVec w.vec i (some init) } := by
      constructor
      · exact I.bnd
      · intro j u hu
        simp only [setVec] at hu
        split at hu
        · cases hu; exact .inl ⟨rfl, rfl, rfl⟩
        · exact I.wf j u hu
      · intro j k u x p hu hx hp hq
        simp only [setVec] at hu hx
        split at hu <;> split at hx
        · omega
        · cases hu; simp [init] at hp
        · cases hx; simp [init] at hq
        · exact I.inj j k u x p hu hx hp hq
      · intro p hp
        rcases I.owned p hp with ⟨j, u, hu, hpu⟩ | hl
        · refine .inl ⟨j, u, ?_, hpu⟩
          have : j ≠ i := by rintro rfl; simp [hi] at hu
          simp [setVec, this, hu]
        · exact .inr hl
      · intro j u p hu hp
        simp only [setVec] at hu
        split at hu
        · cases hu; simp [init] at hp
        · exact I.sep j u p hu hp
      · exact I.leak
    have hv0 : ({ w with vec := setVec w.vec i (some init) } : World α).vec i = some init := by simp [setVec]
    have hu0 : ({ w with vec := setVec w.vec i (some init) } : World α).vec j = some u := by
      simp [setVec, Ne.symm hij, hu]
    have hlen := view_length (I.wf j u hu)
    have hst := stable_other (lo := 0) (hi := u.size) I0 hij hv0 hu0 (Nat.zero_le _) (by simp only; omega)
    have hcs : List.drop 0 (List.take u.size (view w.heap u)) = l := by
      rw [List.drop_zero, List.take_of_length_le (by omega), hul]
    have hcs' : List.drop 0 (List.take u.size (view ({ w with vec := setVec w.vec i (some init) } : World α).heap u)) = l := hcs
    rw [hcs'] at hst
    have hp := assign_spec (I0.wf i init hv0) I0.bnd hst
    rw [← wholeRange_eq] at hp
    have hcc : copyCtor u (w.heap, init) = assign (wholeRange u) (w.heap, init) := by
      simp only [copyCtor]
      rw [Act.bind_ok (show setThis init (w.heap, init) = .ok (w.heap, init) () from rfl)]
    have hp : AssignOut w.heap init [] l (assign (wholeRange u) (w.heap, init)) := hp
    unfold StepOK
    generalize ho : assign (wholeRange u) (w.heap, init) = o at hp
    have hset : ∀ x : Option Vec, setVec (setVec w.vec i (some init)) i x = setVec w.vec i x := by
      intro x; funext k; by_cases hk : k = i <;> simp [setVec, hk]
    cases hp with
    | ok h' v' w' f e _ =>
      have := I0.update hv0 w' f
      simp only [hset] at this
      refine ⟨_, false, by simp only [step, hi, hu, hcc, ho], this.1, ?_, by simp⟩
      intro _
      refine ⟨?_, rfl⟩
      simp only [Post, this.2, hl, e, List.nil_append]
      funext k
      by_cases hk : k = i <;> simp [upd, hk, abs, setVec]
    | exc h' v' n w' f e hn _ =>
      have U := I0.update hv0 w' f
      simp only [hset] at U
      refine ⟨_, true, by simp only [step, hi, hu, hcc, ho]; rfl, ?_, by simp, ?_⟩
      · constructor
        · exact U.1.bnd
        · intro k x hx
          have hx : w.vec k = some x := hx
          have hk : k ≠ i := by rintro rfl; simp [hi] at hx
          exact U.1.wf k x (by simp [setVec, hk, hx])
        · exact fun j k u x p hu hx hp hq => I.inj j k u x p hu hx hp hq
        · intro p hp
          rcases U.1.owned p hp with ⟨k, x, hx, hpx⟩ | hl'
          · simp only [setVec] at hx
            split at hx
            · cases hx; right; simp [hpx]
            · exact .inl ⟨k, x, hx, hpx⟩
          · exact .inr (List.mem_append_right _ hl')
        · intro k x p hx hp hmem
          have hx : w.vec k = some x := hx
          have hk : k ≠ i := by rintro rfl; simp [hi] at hx
          simp only [List.mem_append, Option.mem_toList] at hmem
          rcases hmem with hmem | hmem
          · exact hk (U.1.inj k i x v' p (by simp [setVec, hk, hx]) (by simp [setVec]) hp hmem)
          · exact I.sep k x p hx hp hmem
        · intro p hmem
          simp only [List.mem_append, Option.mem_toList] at hmem
          rcases hmem with hmem | hmem
          · exact wf_live w' hmem
          · exact U.1.leak p hmem
      · intro _
        refine ⟨?_, .inr ⟨i, j, rfl⟩⟩
        simp only [Exc]
        funext k
        have := congrFun U.2 k
        simp only [abs, upd, setVec] at this ⊢
        by_cases hk : k = i
        · simp [hk, hi]
        · simpa [hk] using this
  | del i =>
    obtain ⟨l, hl⟩ := hpre
    obtain ⟨v, hv, hvl⟩ := abs_some hl
    have wv := I.wf i v hv
    have other : ∀ j u, j ≠ i → w.vec j = some u → ∀ p, u.elements = some p → ¬ (some p = v.elements) := by
      intro j u hj hu p hp c
      exact hj (I.inj j i u v p hu hv hp c.symm)
    refine ⟨_, false, by simp only [step, hv, dtor_ok wv]; rfl, ?_, ?_, by simp⟩
    · constructor
      · intro q hq
        simp only at hq
        split at hq
        · exact absurd rfl hq
        · exact I.bnd q hq
      · intro j u hu
        simp only [setVec] at hu
        split at hu
        · cases hu
        · rename_i hj
          refine wf_of_mem (I.wf j u hu) ?_
          intro p hp
          simp [other j u hj hu p hp]
      · intro j k u x p hu hx hp hq
        simp only [setVec] at hu hx
        split at hu
        · cases hu
        · split at hx
          · cases hx
          · exact I.inj j k u x p hu hx hp hq
      · intro p hp
        simp only at hp
        split at hp
        · exact absurd rfl hp
        · rename_i hpv
          rcases I.owned p hp with ⟨j, u, hu, hpu⟩ | hl'
          · refine .inl ⟨j, u, ?_, hpu⟩
            have : j ≠ i := by
              rintro rfl; rw [hv] at hu; cases hu; exact hpv hpu.symm
            simp [setVec, this, hu]
          · exact .inr hl'
      · intro j u p hu hp
        simp only [setVec] at hu
        split at hu
        · cases hu
        · exact I.sep j u p hu hp
      · intro p hp
        have : ¬ some p = v.elements := fun c => I.sep i v p hv c.symm hp
        simp only [this, if_false]
        exact I.leak p hp
    · intro _
      refine ⟨?_, rfl⟩
      simp only [Post]
      funext j
      simp only [abs, upd, setVec]
      by_cases hj : j = i
      · simp [hj]
      · simp only [hj, if_false]
        cases hu : w.vec j with
        | none => rfl
        | some u =>
          simp only [Option.map_some, Option.some.injEq]
          exact view_of_mem (fun p hp => by simp [other j u hj hu p hp])
  | push i a =>
    obtain ⟨l, hl⟩ := hpre
    obtain ⟨v, hv, hvl⟩ := abs_some hl
    obtain ⟨w', t, h1, h2, h3, h4, h5⟩ := step_push_ref I (r := .ext a) (c := some a) hv rfl
    refine ⟨w', t, h1, h2, fun ht => ⟨⟨l, hl, ?_⟩, h3⟩, fun ht => ⟨h5 ht, .inl h3⟩⟩
    rw [h4 ht, hvl]
  | pushElem i j k =>
    obtain ⟨hij, ⟨l, hl⟩, m, hm, hk⟩ := hpre
    obtain ⟨v, hv, hvl⟩ := abs_some hl
    obtain ⟨u, hu, hum⟩ := abs_some hm
    have wu := I.wf j u hu
    have hlen := view_length wu
    rcases wu with ⟨e1, e2, e3⟩ | ⟨p, b, e1, e2, e3, e4, e5, e6⟩
    · rw [hum, e3] at hlen; omega
    · have hne : some p ≠ v.elements := fun c => hij (I.inj i j v u p hv hu c.symm e1)
      have hkb : k < b.length := by rw [hum] at hlen; omega
      obtain ⟨w', t, h1, h2, h3, h4, h5⟩ := step_push_ref I (r := .cell p k) (c := b.getD k none) hv
        ⟨b, e2, hkb, rfl, .inl hne⟩
      refine ⟨w', t, by simp only [step, hu, e1]; exact h1, h2,
        fun ht => ⟨⟨l, m, b.getD k none, hl, hm, ?_, by rw [h4 ht, hvl]⟩, h3⟩, fun ht => ⟨h5 ht, .inl h3⟩⟩
      rw [← hum]
      have : k < u.size := by rw [hum] at hlen; omega
      simp [view, e1, e2, this, hkb]
  | pop i =>
    obtain ⟨l, hl, hne⟩ := hpre
    obtain ⟨v, hv, hvl⟩ := abs_some hl
    have wv := I.wf i v hv
    have hlen := view_length wv
    have hs : 1 ≤ v.size := by
      rw [hvl] at hlen
      have : 0 < l.length := List.length_pos_iff.mpr hne
      omega
    have h1 := wf_size_le wv
    have h2 := wf_cap_lt wv
    have wf' : WF w.heap { v with size := v.size - 1 } := by
      rcases wv with ⟨e1, e2, e3⟩ | ⟨p, b, e1, e2, e3, e4, e5, e6⟩
      · omega
      · exact .inr ⟨p, b, e1, e2, e3, by simp only; omega, e5, e6⟩
    have U := I.update hv wf' (size_frame I.bnd rfl)
    refine ⟨_, false, by simp only [step, onVec, hv, popBack_eq hs (by omega)], U.1, ?_, by simp⟩
    intro _
    refine ⟨⟨l, hl, ?_⟩, rfl⟩
    rw [U.2, ← hvl]
    congr 2
    rcases wv with ⟨e1, e2, e3⟩ | ⟨p, b, e1, e2, e3, e4, e5, e6⟩
    · omega
    · simp only [view, e1, e2, Option.getD_some, List.dropLast_eq_take, List.take_take, List.length_take]
      congr 1; omega
  | write i k a =>
    obtain ⟨l, hl, hk⟩ := hpre
    obtain ⟨v, hv, hvl⟩ := abs_some hl
    have hlen := view_length (I.wf i v hv)
    obtain ⟨h', h1, h2, h3, h4⟩ := write_ok a (I.wf i v hv) I.bnd (k := k) (by rw [hvl] at hlen; omega)
    have U := I.update hv h2 h3
    refine ⟨_, false, by simp only [step, onVec, hv, h1], U.1, ?_, by simp⟩
    intro _
    exact ⟨⟨l, hl, by rw [U.2, h4, hvl]⟩, rfl⟩
  | erase i k =>
    obtain ⟨l, hl, hk⟩ := hpre
    obtain ⟨v, hv, hvl⟩ := abs_some hl
    have hlen := view_length (I.wf i v hv)
    obtain ⟨h', h1, h2, h3, h4⟩ := erase_ok (I.wf i v hv) I.bnd (k := k) (by rw [hvl] at hlen; omega)
    have U := I.update hv h2 h3
    refine ⟨_, false, by simp only [step, onVec, hv, h1], U.1, ?_, by simp⟩
    intro _
    exact ⟨⟨l, hl, by rw [U.2, h4, hvl]⟩, rfl⟩
  | resize i n =>
    obtain ⟨⟨l, hl⟩, hn, _⟩ := hpre
    obtain ⟨v, hv, hvl⟩ := abs_some hl
    have hp := resize_spec (I.wf i v hv) I.bnd hn
    simp only [StepOK, step, onVec, hv]
    generalize resize n (w.heap, v) = o at hp
    cases hp with
    | ok h' v' f w' fr hs e _ _ =>
      have U := I.update hv w' fr
      refine ⟨_, false, rfl, U.1, ?_, by simp⟩
      intro _
      have hlen := view_length w'
      rw [e, hvl] at hlen
      exact ⟨⟨l, f, hl, by rw [hlen, hs], by rw [U.2, e, hvl]⟩, rfl⟩
    | exc h' hm hnx =>
      have U := exc_update I hv hm hnx
      exact ⟨_, true, rfl, U.1, by simp, fun _ => ⟨U.2, .inl rfl⟩⟩
  | clear i =>
    obtain ⟨l, hl⟩ := hpre
    obtain ⟨v, hv, hvl⟩ := abs_some hl
    have U := I.update hv (wf_clear (I.wf i v hv)) (size_frame I.bnd rfl)
    refine ⟨_, false, by simp only [step, onVec, hv, clear_eq], U.1, ?_, by simp⟩
    intro _
    refine ⟨?_, rfl⟩
    simp only [Post]
    rw [U.2, view_clear]
  | assignVals i xs =>
    obtain ⟨l, hl⟩ := hpre
    obtain ⟨v, hv, hvl⟩ := abs_some hl
    obtain ⟨w', t, h1, h2, h3, h4, h5⟩ := step_assign I hv (stableL_ext w.heap v xs)
    refine ⟨w', t, h1, h2, fun ht => ⟨h4 ht, h3⟩, fun ht => ⟨?_, .inl h3⟩⟩
    obtain ⟨n, hn, e⟩ := h5 ht
    exact ⟨n, by simpa using hn, e⟩
  | assignFrom i j lo hi =>
    obtain ⟨⟨l, hl⟩, m, hm, h1, h2⟩ := hpre
    obtain ⟨v, hv, hvl⟩ := abs_some hl
    obtain ⟨u, hu, hum⟩ := abs_some hm
    by_cases hij : i = j
    · subst hij
      rw [hv] at hu; cases hu
      have hlen := view_length (I.wf i v hv)
      obtain ⟨h', v', f1, f2, f3, f4, _, _⟩ := assign_self (I.wf i v hv) I.bnd h1 (by rw [hum] at hlen; omega)
      have U := I.update hv f2 f3
      refine ⟨_, false, by simp only [step, onVec, hv, f1], U.1, ?_, by simp⟩
      intro _
      exact ⟨⟨m, hm, by rw [U.2, f4, hum]⟩, rfl⟩
    · have hst := stable_other (lo := lo) (hi := hi) I hij hv hu h1 (by rw [hum]; exact h2)
      obtain ⟨w', t, g1, g2, g3, g4, g5⟩ := step_assign I hv hst
      refine ⟨w', t, by simp only [step, hu]; exact g1, g2, fun ht => ⟨⟨m, hm, by rw [g4 ht, hum]⟩, g3⟩, fun ht => ⟨?_, .inl g3⟩⟩
      obtain ⟨n, hn, e⟩ := g5 ht
      rw [hum] at hn e
      refine ⟨hij, m, n, hm, ?_, e⟩
      simp at hn; omega
  | opAssign i j =>
    obtain ⟨⟨l, hl⟩, m, hm⟩ := hpre
    obtain ⟨v, hv, hvl⟩ := abs_some hl
    obtain ⟨u, hu, hum⟩ := abs_some hm
    by_cases hij : i = j
    · subst hij
      have U := I.update hv (I.wf i v hv) (Frame.refl I.bnd)
      refine ⟨_, false, by simp only [step, onVec, hv, if_true, Act.pure_apply], U.1, ?_, by simp⟩
      intro _
      refine ⟨?_, rfl⟩
      simp only [Post]
      rw [U.2, hl, hvl]
    · have hst := stable_other (lo := 0) (hi := u.size) I hij hv hu (Nat.zero_le _)
        (by rw [view_length (I.wf j u hu)]; exact Nat.le_refl _)
      have hcs : List.drop 0 (List.take u.size (view w.heap u)) = m := by
        rw [List.drop_zero, List.take_of_length_le (by rw [view_length (I.wf j u hu)]; exact Nat.le_refl _), hum]
      rw [hcs, ← wholeRange_eq] at hst
      obtain ⟨w', t, g1, g2, g3, g4, g5⟩ := step_assign I hv hst
      refine ⟨w', t, by simp only [step, hu, hij, if_false]; exact g1, g2, fun ht => ⟨?_, g3⟩, fun ht => ⟨?_, .inl g3⟩⟩
      · simp only [Post]; rw [g4 ht, hm]
      · obtain ⟨n, hn, e⟩ := g5 ht
        exact ⟨hij, m, n, hm, hn, e⟩
  | swap i j =>
    obtain ⟨⟨l, hl⟩, m, hm⟩ := hpre
    obtain ⟨v, hv, hvl⟩ := abs_some hl
    obtain ⟨u, hu, hum⟩ := abs_some hm
    refine ⟨_, false, by simp only [step, hv, hu]; rfl, ?_, ?_, by simp⟩
    · constructor
      · exact I.bnd
      · intro k x hx
        simp only [setVec] at hx
        split at hx
        · cases hx; exact I.wf i v hv
        · split at hx
          · cases hx; exact I.wf j u hu
          · exact I.wf k x hx
      · intro k k' x y p hx hy hp hq
        simp only [setVec] at hx hy
        have A := I.inj
        split at hx <;> split at hy
        · omega
        · cases hx; split at hy
          · cases hy
            have := A i j _ _ p hv hu hp hq; omega
          · have := A i k' _ _ p hv hy hp hq; omega
        · cases hy; split at hx
          · cases hx
            have := A i j _ _ p hv hu hq hp; omega
          · have := A i k _ _ p hv hx hq hp; omega
        · split at hx <;> split at hy
          · omega
          · cases hx
            have := A j k' _ _ p hu hy hp hq; omega
          · cases hy
            have := A j k _ _ p hu hx hq hp; omega
          · exact A k k' x y p hx hy hp hq
      · intro p hp
        rcases I.owned p hp with ⟨k, x, hx, hpx⟩ | hl'
        · left
          by_cases hki : k = i
          · subst hki; rw [hv] at hx; cases hx
            exact ⟨j, v, by simp [setVec], hpx⟩
          · by_cases hkj : k = j
            · subst hkj; rw [hu] at hx; cases hx
              exact ⟨i, u, by simp [setVec, Ne.symm hki], hpx⟩
            · exact ⟨k, x, by simp [setVec, hki, hkj, hx], hpx⟩
        · exact .inr hl'
      · intro k x p hx hp
        simp only [setVec] at hx
        split at hx
        · cases hx; exact I.sep i v p hv hp
        · split at hx
          · cases hx; exact I.sep j u p hu hp
          · exact I.sep k x p hx hp
      · exact I.leak
    · intro _
      refine ⟨?_, rfl⟩
      simp only [Post]
      funext k
      simp only [abs, upd, setVec, hv, hu]
      by_cases hkj : k = j
      · simp [hkj]
      · by_cases hki : k = i
        · subst hki; simp [hkj]
        · simp [hkj, hki]

end Nanostl.Vector

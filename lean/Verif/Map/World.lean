import Verif.Map.Refine
import Verif.Map.Spec

/-! Invariant of client programs over maps. -/

namespace Nanostl.Map

open Tree Spec

variable {K V : Type} [LinearOrder K]

/-- The forest `T` describes the maps of `w`. -/
structure WInv (w : World K V) (T : Nat → Option (Tree K V)) : Prop where
  root : ∀ i, w.root i = (T i).map ptr
  rep : ∀ i t, T i = some t → Rep w.m.mem t
  nodup : ∀ i t, T i = some t → t.addrs.Nodup
  bst : ∀ i t, T i = some t → t.Bst
  heap : ∀ i t, T i = some t → t.IsHeap
  lt : ∀ i t, T i = some t → ∀ a ∈ t.addrs, a < w.m.next
  sep : ∀ i j t u, T i = some t → T j = some u → i ≠ j → ∀ a ∈ t.addrs, a ∉ u.addrs
  owned : ∀ a, w.m.mem a ≠ none → ∃ i t, T i = some t ∧ a ∈ t.addrs

def absT (t : Tree K V) : K → Option V := fun k => (look t k).map (·.val)

def absF (T : Nat → Option (Tree K V)) : Abs K V := fun i => (T i).map absT

def updT (T : Nat → Option (Tree K V)) (i : Nat) (x : Option (Tree K V)) : Nat → Option (Tree K V) :=
  fun j => if j = i then x else T j

theorem absF_updT (T : Nat → Option (Tree K V)) (i : Nat) (x : Option (Tree K V)) :
    absF (updT T i x) = upd (absF T) i (x.map absT) := by
  funext j
  simp only [absF, updT, upd]
  split <;> rfl

theorem look_ins {x : Ent K V} {t : Tree K V} (hb : t.Bst) (h : look t x.key = none) (k : K) :
    look (ins x t) k = if k = x.key then some x else look t k := by
  have hp := ins_perm h
  have hb' := ins_bst hb h
  split
  · rename_i hk
    subst hk
    exact look_of_mem hb' (hp.mem_iff.mpr (by simp))
  · rename_i hk
    cases hl : look t k with
    | some e =>
      obtain ⟨h1, h2⟩ := look_mem hl
      subst h2
      exact look_of_mem hb' (hp.mem_iff.mpr (by simp [h1]))
    | none =>
      cases hl' : look (ins x t) k with
      | none => rfl
      | some e =>
        obtain ⟨h1, h2⟩ := look_mem hl'
        rcases List.mem_cons.mp (hp.mem_iff.mp h1) with rfl | h1
        · exact absurd h2.symm hk
        · rw [← h2, look_of_mem hb h1] at hl; cases hl

theorem setv_bst {k : K} {v : V} {t : Tree K V} (hb : t.Bst) : (setv k v t).Bst := by
  unfold Bst
  rw [setv_ents hb, List.pairwise_map]
  refine List.Pairwise.imp ?_ hb
  intro a b hab
  split <;> split <;> exact hab

theorem look_setv {k : K} {v : V} {t : Tree K V} (hb : t.Bst) {e : Ent K V} (h : look t k = some e) (k' : K) :
    look (setv k v t) k' = if k' = k then some { e with val := v } else look t k' := by
  have hb' := setv_bst (k := k) (v := v) hb
  obtain ⟨m1, m2⟩ := look_mem h
  have hm : ∀ x, x ∈ (setv k v t).ents ↔ ∃ y ∈ t.ents, x = if y.key = k then { y with val := v } else y := by
    intro x; rw [setv_ents hb, List.mem_map]; simp only [eq_comm]
  split
  · rename_i hk
    subst hk
    have := look_of_mem hb' ((hm { e with val := v }).mpr ⟨e, m1, by simp [m2]⟩)
    simpa [m2] using this
  · rename_i hk
    cases hl : look t k' with
    | some x =>
      obtain ⟨h1, h2⟩ := look_mem hl
      subst h2
      exact look_of_mem hb' ((hm x).mpr ⟨x, h1, by simp [hk]⟩)
    | none =>
      cases hl' : look (setv k v t) k' with
      | none => rfl
      | some x =>
        obtain ⟨h1, h2⟩ := look_mem hl'
        obtain ⟨y, y1, y2⟩ := (hm x).mp h1
        by_cases hy : y.key = k
        · rw [if_pos hy] at y2; subst y2; simp at h2; exact absurd (h2.symm.trans hy) hk
        · rw [if_neg hy] at y2; subst y2; rw [← h2, look_of_mem hb y1] at hl; cases hl

theorem WInv.of_root {w : World K V} {T : Nat → Option (Tree K V)} (S : WInv w T) {i : Nat} {r : Option Nat}
    (h : w.root i = some r) : ∃ t, T i = some t ∧ r = t.ptr := by
  rw [S.root i] at h
  cases hT : T i with
  | none => simp [hT] at h
  | some t => simp [hT] at h; exact ⟨t, rfl, h.symm⟩

/-- Replacing one map's tree. -/
theorem WInv.update {w w' : World K V} {T : Nat → Option (Tree K V)} (S : WInv w T) {i : Nat} {t t' : Tree K V}
    (hT : T i = some t) (hroot : w'.root = setRoot w.root i (some t'.ptr)) (hrep : Rep w'.m.mem t') (hn : t'.addrs.Nodup)
    (hb : t'.Bst) (hh : t'.IsHeap) (hle : w.m.next ≤ w'.m.next) (hlt : ∀ a ∈ t'.addrs, a < w'.m.next)
    (hnew : ∀ a ∈ t'.addrs, a ∈ t.addrs ∨ w.m.next ≤ a) (hold : ∀ a ∈ t.addrs, a ∈ t'.addrs)
    (hfr : ∀ q, q ∉ t'.addrs → w'.m.mem q = w.m.mem q) : WInv w' (updT T i (some t')) := by
  have other : ∀ {j u}, j ≠ i → T j = some u → ∀ a ∈ u.addrs, a ∉ t'.addrs := by
    intro j u hj hu a ha hc
    rcases hnew a hc with h | h
    · exact S.sep i j t u hT hu (Ne.symm hj) a h ha
    · exact absurd (S.lt j u hu a ha) (by omega)
  constructor
  · intro j
    rw [hroot]
    simp only [setRoot, updT]
    split
    · rfl
    · exact S.root j
  all_goals try
    intro j u hu
    simp only [updT] at hu
    split at hu
  · cases hu; exact hrep
  · rename_i hj
    refine (S.rep j u hu).frame fun q hq => hfr q (other hj hu q hq)
  · cases hu; exact hn
  · exact S.nodup j u hu
  · cases hu; exact hb
  · exact S.bst j u hu
  · cases hu; exact hh
  · exact S.heap j u hu
  · cases hu; exact hlt
  · exact fun a ha => Nat.lt_of_lt_of_le (S.lt j u hu a ha) hle
  · intro j l u x hu hx hjl a ha
    simp only [updT] at hu hx
    split at hu <;> split at hx
    · rename_i h1 h2; exact absurd (h1.trans h2.symm) hjl
    · cases hu
      rename_i h1 h2
      exact fun hc => other h2 hx a hc ha
    · cases hx
      rename_i h1 h2
      exact other h1 hu a ha
    · exact S.sep j l u x hu hx hjl a ha
  · intro a ha
    by_cases hc : a ∈ t'.addrs
    · exact ⟨i, t', by simp [updT], hc⟩
    · rw [hfr a hc] at ha
      obtain ⟨j, u, hu, hau⟩ := S.owned a ha
      refine ⟨j, u, ?_, hau⟩
      have : j ≠ i := by
        rintro rfl
        rw [hT] at hu; cases hu
        exact hc (hold a hau)
      simp [updT, this, hu]

theorem WInv.alloc_fail {w : World K V} {T : Nat → Option (Tree K V)} (S : WInv w T) :
    WInv { w with m := { w.m with calls := w.m.calls + 1 } } T :=
  ⟨S.root, S.rep, S.nodup, S.bst, S.heap, S.lt, S.sep, S.owned⟩

theorem WInv.depth {w : World K V} {T : Nat → Option (Tree K V)} (S : WInv w T) {i : Nat} {t : Tree K V} (h : T i = some t) :
    t.depth < fuel w.m := depth_lt_of_bound (S.nodup i t h) (S.lt i t h)

/-- The three outcomes of `insert`. -/
theorem insert_ok {w : World K V} {T : Nat → Option (Tree K V)} (S : WInv w T) {i : Nat} {t : Tree K V} (hT : T i = some t)
    (k : K) (v : V) :
    (∀ e, look t k = some e → insert w i t.ptr k v = .ok w (e.addr, false)) ∧
    (look t k = none → (insert w i t.ptr k v = .exc { w with m := { w.m with calls := w.m.calls + 1 } }) ∨
      ∃ w', insert w i t.ptr k v = .ok w' (w.m.next, true) ∧
        WInv w' (updT T i (some (ins ⟨k, w.m.next, v, w.m.rand w.m.drawn⟩ t))) ∧
        w'.m.rand = w.m.rand ∧ w'.m.drawn = w.m.drawn + 1) := by
  obtain ⟨h1, h2, h3⟩ := insertP_ok k v t (fuel w.m) w.m (S.rep i t hT) (S.nodup i t hT) (S.heap i t hT) (S.lt i t hT) (S.depth hT)
  refine ⟨?_, ?_⟩
  · intro e he
    simp only [insert, h1 e he]
    congr 1
    have : setRoot w.root i (some t.ptr) = w.root := by
      funext j
      simp only [setRoot]
      split
      · rename_i hj; rw [hj, S.root i, hT]; rfl
      · rfl
    rw [this]
  · intro hl
    cases hf : w.m.fails w.m.calls with
    | true => left; simp only [insert, h2 hl hf]
    | false =>
      right
      obtain ⟨s', g1, g2⟩ := h3 hl hf
      refine ⟨_, by simp only [insert, g1]; rfl, ?_, g2.rand, g2.drawn⟩
      have hperm := ins_perm (x := ⟨k, w.m.next, v, w.m.rand w.m.drawn⟩) hl
      have haddr : ∀ q, q ∈ (ins ⟨k, w.m.next, v, w.m.rand w.m.drawn⟩ t).addrs ↔ q = w.m.next ∨ q ∈ t.addrs := by
        intro q
        have := (hperm.map (·.addr)).mem_iff (a := q)
        simpa [addrs] using this
      have hnn : w.m.next ∉ t.addrs := fun h => absurd (S.lt i t hT _ h) (Nat.lt_irrefl _)
      refine S.update hT rfl g2.rep ?_ (ins_bst (S.bst i t hT) hl) (ins_heap hl (S.heap i t hT)).1 ?_ ?_ ?_ ?_ ?_
      · have h := (hperm.map (·.addr)).nodup_iff
        simp only [addrs]
        rw [h, List.map_cons, List.nodup_cons]
        exact ⟨hnn, S.nodup i t hT⟩
      · simp only [g2.next]; omega
      · intro a ha
        simp only [g2.next]
        rcases (haddr a).mp ha with h | h
        · omega
        · have := S.lt i t hT a h; omega
      · intro a ha
        rcases (haddr a).mp ha with h | h
        · right; omega
        · exact .inl h
      · intro a ha; exact (haddr a).mpr (.inr ha)
      · intro q hq
        exact g2.frame q (fun h => hq ((haddr q).mpr (.inr h))) (fun h => hq ((haddr q).mpr (.inl h)))

theorem set_ok {w : World K V} {T : Nat → Option (Tree K V)} (S : WInv w T) {i : Nat} {t : Tree K V} (hT : T i = some t)
    {k : K} {e : Ent K V} (he : look t k = some e) (v : V) :
    ∃ m, modify (some e.addr) (fun n => { n with val := v }) w.m = .ok m () ∧ WInv { w with m } (updT T i (some (setv k v t))) ∧
      m.rand = w.m.rand ∧ m.drawn = w.m.drawn := by
  have hr := S.rep i t hT
  have hn := S.nodup i t hT
  obtain ⟨hm1, hm2⟩ := look_mem he
  have hnode : ∃ n, w.m.mem e.addr = some n := by
    clear hT he hn
    induction t with
    | leaf => simp [ents] at hm1
    | node x l r ihl ihr =>
      simp only [ents, List.mem_append, List.mem_cons] at hm1
      rcases hm1 with h | rfl | h
      · exact ihl hr.2.1 h
      · exact ⟨_, hr.1⟩
      · exact ihr hr.2.2 h
  obtain ⟨n, hn'⟩ := hnode
  refine ⟨_, modify_ok _ hn', ?_, rfl, rfl⟩
  have hb := S.bst i t hT
  have ha : (setv k v t).addrs = t.addrs := setv_addrs hb
  refine S.update hT ?_ (setv_rep hr hn he hn') (by rw [ha]; exact hn) (setv_bst hb) (setv_heap hb (S.heap i t hT)) (Nat.le_refl _)
    ?_ ?_ ?_ ?_
  · funext j
    simp only [setRoot]
    split
    · rename_i hj; rw [hj, S.root i, hT, setv_ptr]; rfl
    · rfl
  · rw [ha]; exact S.lt i t hT
  · rw [ha]; exact fun a h => .inl h
  · rw [ha]; exact fun a h => h
  · intro q hq
    rw [ha] at hq
    simp only
    exact setMem_ne _ (ne_of_mem_of_not_mem (List.mem_map_of_mem hm1) hq).symm

omit [LinearOrder K] in
theorem rep_node {m : Nat → Option (Node K V)} : ∀ {t : Tree K V}, Rep m t → ∀ {e}, e ∈ t.ents →
    ∃ n, m e.addr = some n ∧ n.key = e.key ∧ n.val = e.val ∧ n.pri = e.pri
  | leaf, _, _, h => by simp [ents] at h
  | node x l r, hr, e, h => by
    simp only [ents, List.mem_append, List.mem_cons] at h
    rcases h with h | rfl | h
    · exact rep_node hr.2.1 h
    · exact ⟨_, hr.1, rfl, rfl, rfl⟩
    · exact rep_node hr.2.2 h

/-- Every node's priority is one of the values drawn so far, and different nodes have different draws. -/
def Drawn (m : Mem K V) (T : Nat → Option (Tree K V)) : Prop :=
  ∃ d : Nat → Nat, (∀ i t, T i = some t → ∀ e ∈ t.ents, d e.addr < m.drawn ∧ e.pri = m.rand (d e.addr)) ∧
    ∀ i t, T i = some t → ∀ e ∈ t.ents, ∀ j u, T j = some u → ∀ f ∈ u.ents, d e.addr = d f.addr → e.addr = f.addr

theorem step_ok {w : World K V} {T : Nat → Option (Tree K V)} (S : WInv w T) (dflt : V) (c : Cmd K V)
    (hp : Pre (absF T) c) : ∃ w' r T', step dflt w c = some (w', r) ∧ WInv w' T' ∧ Post dflt (absF T) c r (absF T') ∧
      (Drawn w.m T → Drawn w'.m T') ∧ w'.m.rand = w.m.rand := by
  have same : ∀ {i t}, T i = some t → updT T i (some t) = T := by
    intro i t h; funext j; simp only [updT]; split
    · rename_i hj; rw [hj, h]
    · rfl
  have drawn_ins : ∀ {i t k v} {w' : World K V}, T i = some t → look t k = none → w'.m.rand = w.m.rand → w'.m.drawn = w.m.drawn + 1 →
      Drawn w.m T → Drawn w'.m (updT T i (some (ins ⟨k, w.m.next, v, w.m.rand w.m.drawn⟩ t))) := by
    intro i t k v w' hT hl hrand hdr ⟨d, d1, d2⟩
    have hperm := ins_perm (x := ⟨k, w.m.next, v, w.m.rand w.m.drawn⟩) hl
    have cases_mem : ∀ j u, updT T i (some (ins ⟨k, w.m.next, v, w.m.rand w.m.drawn⟩ t)) j = some u → ∀ e ∈ u.ents,
        (e = ⟨k, w.m.next, v, w.m.rand w.m.drawn⟩) ∨ ∃ u', T j = some u' ∧ e ∈ u'.ents := by
      intro j u hu e he
      simp only [updT] at hu
      split at hu
      · rename_i hj
        cases hu
        rcases List.mem_cons.mp (hperm.mem_iff.mp he) with h | h
        · exact .inl h
        · exact .inr ⟨t, by rw [hj]; exact hT, h⟩
      · exact .inr ⟨u, hu, he⟩
    have lt_next : ∀ {j u e}, T j = some u → e ∈ u.ents → e.addr < w.m.next := fun hu he =>
      S.lt _ _ hu _ (List.mem_map_of_mem he)
    refine ⟨fun a => if a = w.m.next then w.m.drawn else d a, ?_, ?_⟩
    · intro j u hu e he
      rw [hdr, hrand]
      rcases cases_mem j u hu e he with rfl | ⟨u', h1, h2⟩
      · simp
      · have hlt := lt_next h1 h2
        have := d1 j u' h1 e h2
        simp only [if_neg (Nat.ne_of_lt hlt)]
        exact ⟨by omega, this.2⟩
    · intro j u hu e he j' u' hu' f hf heq
      rcases cases_mem j u hu e he with rfl | ⟨x, h1, h2⟩ <;> rcases cases_mem j' u' hu' f hf with rfl | ⟨y, h3, h4⟩
      · rfl
      · have hlt := lt_next h3 h4
        have := d1 j' y h3 f h4
        simp only [if_true, if_neg (Nat.ne_of_lt hlt)] at heq
        omega
      · have hlt := lt_next h1 h2
        have := d1 j x h1 e h2
        simp only [if_true, if_neg (Nat.ne_of_lt hlt)] at heq
        omega
      · have l1 := lt_next h1 h2
        have l2 := lt_next h3 h4
        simp only [if_neg (Nat.ne_of_lt l1), if_neg (Nat.ne_of_lt l2)] at heq
        exact d2 j x h1 e h2 j' y h3 f h4 heq
  have drawn_set : ∀ {T : Nat → Option (Tree K V)} {i t k v} {m m' : Mem K V}, T i = some t → t.Bst → m'.rand = m.rand →
      m'.drawn = m.drawn → Drawn m T → Drawn m' (updT T i (some (setv k v t))) := by
    intro T i t k v m m' hT hb hrand hdr ⟨d, d1, d2⟩
    have cases_mem : ∀ j u, updT T i (some (setv k v t)) j = some u → ∀ e ∈ u.ents,
        ∃ u' e', T j = some u' ∧ e' ∈ u'.ents ∧ e'.addr = e.addr ∧ e'.pri = e.pri := by
      intro j u hu e he
      simp only [updT] at hu
      split at hu
      · rename_i hj
        cases hu
        rw [setv_ents hb, List.mem_map] at he
        obtain ⟨y, hy, rfl⟩ := he
        exact ⟨t, y, by rw [hj]; exact hT, hy, by split <;> rfl, by split <;> rfl⟩
      · exact ⟨u, e, hu, he, rfl, rfl⟩
    refine ⟨d, ?_, ?_⟩
    · intro j u hu e he
      obtain ⟨u', e', h1, h2, h3, h4⟩ := cases_mem j u hu e he
      rw [← h3, ← h4, hdr, hrand]
      exact d1 j u' h1 e' h2
    · intro j u hu e he j' u' hu' f hf heq
      obtain ⟨x, e', h1, h2, h3, _⟩ := cases_mem j u hu e he
      obtain ⟨y, f', g1, g2, g3, _⟩ := cases_mem j' u' hu' f hf
      rw [← h3, ← g3] at heq ⊢
      exact d2 j x h1 e' h2 j' y g1 f' g2 heq
  have live : ∀ {i}, absF T i ≠ none → ∃ t, T i = some t ∧ absF T i = some (absT t) := by
    intro i h
    cases hT : T i with
    | none => simp [absF, hT] at h
    | some t => exact ⟨t, rfl, by simp [absF, hT]⟩
  cases c with
  | new i =>
    have hn : T i = none := by
      cases hT : T i with
      | none => rfl
      | some t => simp [Pre, absF, hT] at hp
    have hroot : w.root i = none := by rw [S.root i, hn]; rfl
    refine ⟨{ w with root := setRoot w.root i (some none) }, .done, updT T i (some .leaf), by simp only [step, hroot], ?_, ⟨rfl, by rw [absF_updT]; rfl⟩, ?_, rfl⟩
    · constructor
      · intro j
        simp only [setRoot, updT]
        split
        · rfl
        · exact S.root j
      all_goals try
        intro j u hu
        simp only [updT] at hu
        split at hu
      · cases hu; trivial
      · exact S.rep j u hu
      · cases hu; simp [addrs, ents]
      · exact S.nodup j u hu
      · cases hu; simp [Bst, ents]
      · exact S.bst j u hu
      · cases hu; trivial
      · exact S.heap j u hu
      · cases hu; simp [addrs, ents]
      · exact S.lt j u hu
      · intro j l u x hu hx hjl a ha
        simp only [updT] at hu hx
        split at hu
        · cases hu; simp [addrs, ents] at ha
        · split at hx
          · cases hx; simp [addrs, ents]
          · exact S.sep j l u x hu hx hjl a ha
      · intro a ha
        obtain ⟨j, u, hu, hau⟩ := S.owned a ha
        refine ⟨j, u, ?_, hau⟩
        have : j ≠ i := by rintro rfl; rw [hn] at hu; cases hu
        simp [updT, this, hu]
    · rintro ⟨d, d1, d2⟩
      refine ⟨d, ?_, ?_⟩
      · intro j u hu e he
        simp only [updT] at hu
        split at hu
        · cases hu; simp [ents] at he
        · exact d1 j u hu e he
      · intro j u hu e he j' u' hu' f hf
        simp only [updT] at hu hu'
        split at hu
        · cases hu; simp [ents] at he
        · split at hu'
          · cases hu'; simp [ents] at hf
          · exact d2 j u hu e he j' u' hu' f hf
  | insert i k v =>
    obtain ⟨t, hT, hA⟩ := live hp
    obtain ⟨h1, h2⟩ := insert_ok S hT k v
    have hroot : w.root i = some t.ptr := by rw [S.root i, hT]; rfl
    cases hl : look t k with
    | some e =>
      refine ⟨w, _, T, by simp only [step, hroot, h1 e hl]; rfl, S, ⟨_, hA, ?_⟩, fun h => h, rfl⟩
      simp [absT, hl]
    | none =>
      rcases h2 hl with h3 | ⟨w', h3, S', hr, hd⟩
      · refine ⟨_, _, T, by simp only [step, hroot, h3]; rfl, S.alloc_fail, ⟨_, hA, ?_⟩, fun ⟨d, a, b⟩ => ⟨d, a, b⟩, rfl⟩
        simp [absT, hl]
      · refine ⟨_, _, _, by simp only [step, hroot, h3]; rfl, S', ⟨_, hA, ?_⟩, drawn_ins hT hl hr hd, hr⟩
        simp only [absT, hl, Option.map_none]
        right
        refine ⟨trivial, ?_⟩
        rw [absF_updT]
        congr 1
        simp only [Option.map_some, Option.some.injEq]
        funext k'
        simp only [absT, put]
        rw [look_ins (S.bst i t hT) hl]
        split <;> rfl
  | set i k v =>
    obtain ⟨t, hT, hA⟩ := live hp
    obtain ⟨h1, h2⟩ := insert_ok S hT k dflt
    have hroot : w.root i = some t.ptr := by rw [S.root i, hT]; rfl
    have key : ∀ {t' : Tree K V} {e : Ent K V}, look t' k = some e → t'.Bst → absT (setv k v t') = put (absT t') k v := by
      intro t' e he hb
      funext k'
      simp only [absT, put]
      rw [look_setv hb he]
      split <;> rfl
    cases hl : look t k with
    | some e =>
      obtain ⟨m, g1, g2, g3, g4⟩ := set_ok S hT hl v
      refine ⟨_, _, _, by simp only [step, hroot, h1 e hl, g1], g2, ⟨_, hA, .inr ⟨rfl, ?_⟩⟩,
        drawn_set hT (S.bst i t hT) g3 g4, g3⟩
      rw [absF_updT, Option.map_some, key hl (S.bst i t hT)]
    | none =>
      rcases h2 hl with h3 | ⟨w', h3, S', hr, hd⟩
      · refine ⟨_, _, T, by simp only [step, hroot, h3], S.alloc_fail, ⟨_, hA, .inl ⟨rfl, ?_, rfl⟩⟩, fun ⟨d, a, b⟩ => ⟨d, a, b⟩, rfl⟩
        simp [absT, hl]
      · have hT' : updT T i (some (ins ⟨k, w.m.next, dflt, w.m.rand w.m.drawn⟩ t)) i =
            some (ins ⟨k, w.m.next, dflt, w.m.rand w.m.drawn⟩ t) := by simp [updT]
        have hl' : look (ins ⟨k, w.m.next, dflt, w.m.rand w.m.drawn⟩ t) k = some ⟨k, w.m.next, dflt, w.m.rand w.m.drawn⟩ := by
          rw [look_ins (S.bst i t hT) hl]; simp
        obtain ⟨m, g1, g2, g3, g4⟩ := set_ok S' hT' hl' v
        refine ⟨_, _, _, by simp only [step, hroot, h3, g1], g2, ⟨_, hA, .inr ⟨rfl, ?_⟩⟩,
          fun h => drawn_set hT' (S'.bst i _ hT') g3 g4 (drawn_ins hT hl hr hd h), g3.trans hr⟩
        rw [absF_updT, Option.map_some, key hl' (S'.bst i _ hT'), absF_updT, Option.map_some]
        funext j
        simp only [upd]
        split
        · congr 1
          funext k'
          simp only [absT, put]
          rw [look_ins (S.bst i t hT) hl]
          split <;> rfl
        · rfl
  | get i k =>
    obtain ⟨t, hT, hA⟩ := live hp
    obtain ⟨h1, h2⟩ := insert_ok S hT k dflt
    have hroot : w.root i = some t.ptr := by rw [S.root i, hT]; rfl
    cases hl : look t k with
    | some e =>
      obtain ⟨n, n1, n2, n3, _⟩ := rep_node (S.rep i t hT) (look_mem hl).1
      refine ⟨w, _, T, by simp only [step, hroot, h1 e hl, deref_ok n1]; rfl, S, ⟨_, hA, ?_⟩, fun h => h, rfl⟩
      simp [absT, hl, n3]
    | none =>
      rcases h2 hl with h3 | ⟨w', h3, S', hr, hd⟩
      · refine ⟨_, _, T, by simp only [step, hroot, h3]; rfl, S.alloc_fail, ⟨_, hA, ?_⟩, fun ⟨d, a, b⟩ => ⟨d, a, b⟩, rfl⟩
        simp [absT, hl]
      · have hT' : updT T i (some (ins ⟨k, w.m.next, dflt, w.m.rand w.m.drawn⟩ t)) i =
            some (ins ⟨k, w.m.next, dflt, w.m.rand w.m.drawn⟩ t) := by simp [updT]
        have hl' : look (ins ⟨k, w.m.next, dflt, w.m.rand w.m.drawn⟩ t) k = some ⟨k, w.m.next, dflt, w.m.rand w.m.drawn⟩ := by
          rw [look_ins (S.bst i t hT) hl]; simp
        obtain ⟨n, n1, n2, n3, _⟩ := rep_node (S'.rep i _ hT') (look_mem hl').1
        refine ⟨_, _, _, by simp only [step, hroot, h3, deref_ok n1]; rfl, S', ⟨_, hA, ?_⟩, drawn_ins hT hl hr hd, hr⟩
        simp only [absT, hl, Option.map_none]
        right
        refine ⟨by rw [n3], ?_⟩
        rw [absF_updT]
        congr 1
        simp only [Option.map_some, Option.some.injEq]
        funext k'
        simp only [absT, put]
        rw [look_ins (S.bst i t hT) hl]
        split <;> rfl
  | copy i j => exact absurd hp (by simp [Pre])
  | del i =>
    obtain ⟨t, hT, hA⟩ := live hp
    have hroot : w.root i = some t.ptr := by rw [S.root i, hT]; rfl
    have hd := deleteP_ok t (fuel w.m) w.m (S.rep i t hT) (S.nodup i t hT) (S.depth hT)
    refine ⟨{ m := { w.m with mem := fun q => if q ∈ t.addrs then none else w.m.mem q }, root := setRoot w.root i none }, .done,
      updT T i none, by simp only [step, hroot, hd], ?_, ⟨rfl, by rw [absF_updT]; rfl⟩, ?_, rfl⟩
    · constructor
      · intro j
        simp only [setRoot, updT]
        split
        · rfl
        · exact S.root j
      all_goals try
        intro j u hu
        simp only [updT] at hu
        split at hu
        · cases hu
      · rename_i hj
        refine (S.rep j u hu).frame fun q hq => ?_
        simp only
        rw [if_neg (S.sep j i u t hu hT hj q hq)]
      · exact S.nodup j u hu
      · exact S.bst j u hu
      · exact S.heap j u hu
      · exact S.lt j u hu
      · intro j l u x hu hx hjl a ha
        simp only [updT] at hu hx
        split at hu
        · cases hu
        · split at hx
          · cases hx
          · exact S.sep j l u x hu hx hjl a ha
      · intro a ha
        simp only at ha
        split at ha
        · exact absurd rfl ha
        · rename_i hat
          obtain ⟨j, u, hu, hau⟩ := S.owned a ha
          refine ⟨j, u, ?_, hau⟩
          have : j ≠ i := by rintro rfl; rw [hT] at hu; cases hu; exact hat hau
          simp [updT, this, hu]
    · rintro ⟨d, d1, d2⟩
      refine ⟨d, ?_, ?_⟩
      · intro j u hu e he
        simp only [updT] at hu
        split at hu
        · cases hu
        · exact d1 j u hu e he
      · intro j u hu e he j' u' hu' f hf
        simp only [updT] at hu hu'
        split at hu
        · cases hu
        · split at hu'
          · cases hu'
          · exact d2 j u hu e he j' u' hu' f hf

end Nanostl.Map

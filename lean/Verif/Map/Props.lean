import Verif.Map.Runs

/-!
Property theorems C19-C25. `Spec.lean` says what a program of map operations may observe; `Legal` programs use a map only between its
construction and destruction and copy none. `fails` is any allocator behaviour, `rand` any stream of priorities.
-/

namespace Nanostl.Map

open Tree Spec

variable {K V : Type} [LinearOrder K]

/-- C19. Every legal program runs without undefined behaviour, its results and effects are those of finite maps, and afterwards `find`
gives for every key of every map the stored value, or the end if the key is absent. -/
theorem c19_finite_map (dflt : V) (fails : Nat → Bool) (rand : Nat → Nat) (cs : List (Cmd K V)) (hl : Legal (fun _ => false) cs) :
    ∃ w rs A, run dflt (World.start fails rand) cs = some (w, rs) ∧ Run dflt (fun _ => none) cs rs A ∧
      (∀ i, (w.root i = none ↔ A i = none)) ∧
      ∀ i r f, w.root i = some r → A i = some f → ∀ k, match f k with
        | none => findP (fuel w.m) r k w.m = .ok w.m none
        | some v => ∃ a n, findP (fuel w.m) r k w.m = .ok w.m (some a) ∧ w.m.mem a = some n ∧ n.key = k ∧ n.val = v := by
  obtain ⟨w, rs, T, h, S, hr, _, _⟩ := run_start dflt fails rand cs hl
  refine ⟨w, rs, absF T, h, hr, ?_, ?_⟩
  · intro i; rw [S.root i]; simp [absF]
  · intro i r f hroot hA k
    obtain ⟨t, hT, rfl⟩ := S.of_root hroot
    have : f = absT t := by simpa [absF, hT] using hA.symm
    subst this
    have hf := findP_ok k t (fuel w.m) w.m (S.rep i t hT) (S.depth hT)
    cases hlk : look t k with
    | none => simp only [absT, hlk, Option.map_none] at hf ⊢; exact hf
    | some e =>
      simp only [absT, hlk, Option.map_some] at hf ⊢
      obtain ⟨m1, m2⟩ := look_mem hlk
      obtain ⟨n, n1, n2, n3, _⟩ := rep_node (S.rep i t hT) m1
      exact ⟨_, n, hf, n1, n2.trans m2, n3⟩

/-- C20. In every reachable state a map's nodes form a tree in which keys strictly increase along the in-order walk and priorities do
not decrease from parent to child. -/
theorem c20_structure (dflt : V) (fails : Nat → Bool) (rand : Nat → Nat) (cs : List (Cmd K V)) (hl : Legal (fun _ => false) cs)
    {w : World K V} {rs : List (Res V)} (hrun : run dflt (World.start fails rand) cs = some (w, rs)) {i : Nat} {r : Option Nat}
    (hr : w.root i = some r) :
    ∃ t : Tree K V, Rep w.m.mem t ∧ t.ptr = r ∧ t.ents.Pairwise (fun x y => x.key < y.key) ∧ t.IsHeap ∧ t.addrs.Nodup := by
  obtain ⟨w', rs', T, h, S, _⟩ := run_start dflt fails rand cs hl
  rw [hrun] at h; cases h
  obtain ⟨t, hT, rfl⟩ := S.of_root hr
  exact ⟨t, S.rep i t hT, rfl, S.bst i t hT, S.heap i t hT, S.nodup i t hT⟩

/-- C20. The shape is determined by keys and priorities: two maps, reached by any programs with any priority streams, with the same
(key, priority) pairs have the same shape, provided the priorities in one of them are pairwise distinct. -/
theorem c20_shape (dflt : V) (fails fails' : Nat → Bool) (rand rand' : Nat → Nat) (cs cs' : List (Cmd K V))
    (hl : Legal (fun _ => false) cs) (hl' : Legal (fun _ => false) cs') {w w' : World K V} {rs rs' : List (Res V)}
    (hrun : run dflt (World.start fails rand) cs = some (w, rs)) (hrun' : run dflt (World.start fails' rand') cs' = some (w', rs'))
    {i i' : Nat} {t t' : Tree K V} (hr : w.root i = some t.ptr) (hr' : w'.root i' = some t'.ptr) (ht : Rep w.m.mem t)
    (ht' : Rep w'.m.mem t') (hd : ∀ e ∈ t.ents, ∀ f ∈ t.ents, e.pri = f.pri → e.key = f.key)
    (hs : ∀ k p, (∃ e ∈ t.ents, e.key = k ∧ e.pri = p) ↔ (∃ e ∈ t'.ents, e.key = k ∧ e.pri = p)) : Shape t t' := by
  have uniq : ∀ {m : Nat → Option (Node K V)} {t u : Tree K V}, Rep m t → Rep m u → t.ptr = u.ptr → t = u := by
    intro m t
    induction t with
    | leaf =>
      intro u _ _ h
      cases u with
      | leaf => rfl
      | node e l r => simp [ptr] at h
    | node e l r ihl ihr =>
      intro u h1 h2 h
      cases u with
      | leaf => simp [ptr] at h
      | node f l' r' =>
        have ha : e.addr = f.addr := by simpa [ptr] using h
        have hn := h1.1
        rw [ha, h2.1, Option.some.injEq, Node.mk.injEq] at hn
        obtain ⟨q1, q2, q3, q4, q5⟩ := hn
        have : e = f := by cases e; cases f; simp_all
        subst this
        rw [ihl h1.2.1 h2.2.1 q4.symm, ihr h1.2.2 h2.2.2 q5.symm]
  obtain ⟨u, u1, u2, u3, u4, _⟩ := c20_structure dflt fails rand cs hl hrun hr
  obtain ⟨u', u1', u2', u3', u4', _⟩ := c20_structure dflt fails' rand' cs' hl' hrun' hr'
  rw [uniq u1 ht u2] at u3 u4
  rw [uniq u1' ht' u2'] at u3' u4'
  exact shape_unique t t' u3 u3' u4 u4' hd fun x => hs x.1 x.2

/-- C20/C25. With the real generator and fewer than 2^32 nodes ever created, the priorities in a map are pairwise distinct. -/
theorem c20_distinct (dflt : V) (fails : Nat → Bool) (cs : List (Cmd K V)) (hl : Legal (fun _ => false) cs) {w : World K V}
    {rs : List (Res V)} (hrun : run dflt (World.start fails prioStream) cs = some (w, rs)) (hn : w.m.drawn < 2 ^ 32) {i : Nat}
    {r : Option Nat} (hr : w.root i = some r) :
    ∃ t : Tree K V, Rep w.m.mem t ∧ t.ptr = r ∧ ∀ e ∈ t.ents, ∀ f ∈ t.ents, e.pri = f.pri → e.key = f.key := by
  obtain ⟨w', rs', T, h, S, _, ⟨d, d1, d2⟩, hrand⟩ := run_start dflt fails prioStream cs hl
  rw [hrun] at h; cases h
  obtain ⟨t, hT, rfl⟩ := S.of_root hr
  refine ⟨t, S.rep i t hT, rfl, ?_⟩
  intro e he f hf hp
  obtain ⟨a1, a2⟩ := d1 i t hT e he
  obtain ⟨b1, b2⟩ := d1 i t hT f hf
  rw [a2, b2, hrand] at hp
  have hdd : d e.addr = d f.addr := by
    rcases Nat.lt_trichotomy (d e.addr) (d f.addr) with h | h | h
    · exact absurd hp (Prio.stream_inj h (by omega))
    · exact h
    · exact absurd hp.symm (Prio.stream_inj h (by omega))
  have haddr := d2 i t hT e he i t hT f hf hdd
  obtain ⟨n, n1, n2, _⟩ := rep_node (S.rep i t hT) he
  obtain ⟨m, m1, m2, _⟩ := rep_node (S.rep i t hT) hf
  rw [haddr, m1] at n1
  cases n1
  rw [← n2, m2]

/-- What a map stores, in ascending order of keys: `es` lists exactly its nodes. -/
def Contents (w : World K V) (r : Option Nat) (es : List (Ent K V)) : Prop :=
  es.Pairwise (fun x y => x.key < y.key) ∧
  (∀ e ∈ es, ∃ n, w.m.mem e.addr = some n ∧ n.key = e.key ∧ n.val = e.val) ∧
  ∀ k a, findP (fuel w.m) r k w.m = .ok w.m (some a) ↔ ∃ e ∈ es, e.key = k ∧ e.addr = a

theorem WInv.contents {w : World K V} {T : Nat → Option (Tree K V)} (S : WInv w T) {i : Nat} {t : Tree K V} (hT : T i = some t) :
    Contents w t.ptr t.ents := by
  refine ⟨S.bst i t hT, fun e he => ?_, fun k a => ?_⟩
  · obtain ⟨n, n1, n2, n3, _⟩ := rep_node (S.rep i t hT) he
    exact ⟨n, n1, n2, n3⟩
  · rw [findP_ok k t (fuel w.m) w.m (S.rep i t hT) (S.depth hT)]
    constructor
    · intro h
      simp only [Out.ok.injEq, true_and, Option.map_eq_some_iff] at h
      obtain ⟨e, h1, h2⟩ := h
      obtain ⟨m1, m2⟩ := look_mem h1
      exact ⟨e, m1, m2, h2⟩
    · rintro ⟨e, he, rfl, rfl⟩
      rw [look_of_mem (S.bst i t hT) he]; rfl

theorem contents_unique {w : World K V} {r : Option Nat} {es fs : List (Ent K V)} (h : Contents w r es) (h' : Contents w r fs) :
    es.map (fun e => (e.key, e.addr, e.val)) = fs.map (fun e => (e.key, e.addr, e.val)) := by
  have sub : ∀ {es fs : List (Ent K V)}, Contents w r es → Contents w r fs → ∀ x ∈ es.map (fun e => (e.key, e.addr, e.val)),
      x ∈ fs.map (fun e => (e.key, e.addr, e.val)) := by
    intro es fs h h' x hx
    obtain ⟨e, he, rfl⟩ := List.mem_map.mp hx
    obtain ⟨f, hf, f1, f2⟩ := (h'.2.2 e.key e.addr).mp ((h.2.2 e.key e.addr).mpr ⟨e, he, rfl, rfl⟩)
    obtain ⟨n, n1, _, n3⟩ := h.2.1 e he
    obtain ⟨m, m1, _, m3⟩ := h'.2.1 f hf
    rw [f2, n1] at m1
    cases m1
    exact List.mem_map.mpr ⟨f, hf, by rw [f1, f2, ← m3, n3]⟩
  have srt : ∀ {es : List (Ent K V)}, Contents w r es →
      (es.map (fun e => (e.key, e.addr, e.val))).Pairwise (fun x y => x.1 < y.1) := by
    intro es h; rw [List.pairwise_map]; exact h.1
  have nd : ∀ {es : List (Ent K V)}, Contents w r es → (es.map (fun e => (e.key, e.addr, e.val))).Nodup := by
    intro es h
    exact (srt h).imp fun hxy he => by rw [he] at hxy; exact lt_irrefl _ hxy
  have hp : (es.map (fun e => (e.key, e.addr, e.val))).Perm (fs.map (fun e => (e.key, e.addr, e.val))) :=
    (List.perm_ext_iff_of_nodup (nd h) (nd h')).mpr fun x => ⟨sub h h' x, sub h' h x⟩
  exact hp.eq_of_pairwise (fun a b _ _ h1 h2 => absurd (lt_trans h1 h2) (lt_irrefl _)) (srt h) (srt h')

/-- Every map in a reachable state has contents; with `contents_unique` they are determined by `find`. -/
theorem contents_exist (dflt : V) (fails : Nat → Bool) (rand : Nat → Nat) (cs : List (Cmd K V)) (hl : Legal (fun _ => false) cs)
    {w : World K V} {rs : List (Res V)} (hrun : run dflt (World.start fails rand) cs = some (w, rs)) {i : Nat} {r : Option Nat}
    (hr : w.root i = some r) : ∃ es, Contents w r es := by
  obtain ⟨w', rs', T, h, S, _⟩ := run_start dflt fails rand cs hl
  rw [hrun] at h; cases h
  obtain ⟨t, hT, rfl⟩ := S.of_root hr
  exact ⟨_, S.contents hT⟩

/-- C21. In every reachable map with contents `es`: `upper_bound(k)` is the first element whose key exceeds `k`, or the end; `++` moves
from each element to the next, and from the last to the end; the loop `for (; it != end; ++it)` from element `j` visits exactly
the elements from `j` on, each once, in ascending order, and ends. -/
theorem c21_upper_bound_incr (dflt : V) (fails : Nat → Bool) (rand : Nat → Nat) (cs : List (Cmd K V)) (hl : Legal (fun _ => false) cs)
    {w : World K V} {rs : List (Res V)} (hrun : run dflt (World.start fails rand) cs = some (w, rs)) {i : Nat} {r : Option Nat}
    (hr : w.root i = some r) {es : List (Ent K V)} (hes : Contents w r es) :
    (∀ k, upperP (fuel w.m) r k w.m = .ok w.m ((es.find? fun e => decide (k < e.key)).map (·.addr))) ∧
    (∀ j e, es[j]? = some e → incr r (some e.addr) w.m = .ok w.m ((es[j + 1]?).map (·.addr))) ∧
    ∀ j e f, es[j]? = some e → es.length < f →
      walk r f (some e.addr) w.m = .ok w.m ((es.drop j).map fun e => (e.key, e.val)) := by
  obtain ⟨w', rs', T, h, S, _⟩ := run_start dflt fails rand cs hl
  rw [hrun] at h; cases h
  obtain ⟨t, hT, rfl⟩ := S.of_root hr
  have hu := contents_unique (S.contents hT) hes
  have hlen : t.ents.length = es.length := by simpa using congrArg List.length hu
  have hget : ∀ j : Nat, (t.ents[j]?).map (fun e => (e.key, e.addr, e.val)) = (es[j]?).map (fun e => (e.key, e.addr, e.val)) := by
    intro j; rw [← List.getElem?_map, ← List.getElem?_map, hu]
  have haddr : ∀ j : Nat, (t.ents[j]?).map (·.addr) = (es[j]?).map (·.addr) := by
    intro j
    have := congrArg (Option.map fun x => x.2.1) (hget j)
    simpa [Option.map_map, Function.comp_def] using this
  have hidx : ∀ (j : Nat) (e : Ent K V), es[j]? = some e → ∃ e' : Ent K V, t.ents[j]? = some e' ∧ e'.addr = e.addr := by
    intro j e he
    have := haddr j
    rw [he] at this
    simpa using this
  refine ⟨?_, ?_, ?_⟩
  · intro k
    rw [upperP_ok _ t _ _ (S.rep i t hT) (S.depth hT), ub_eq (S.bst i t hT)]
    congr 1
    have h1 : ∀ l : List (Ent K V), (l.find? fun e => decide (k < e.key)).map (·.addr) =
        ((l.map fun e => (e.key, e.addr, e.val)).find? fun x => decide (k < x.1)).map (·.2.1) := by
      intro l
      rw [List.find?_map, Option.map_map]; rfl
    rw [h1, h1, hu]
  · intro j e he
    obtain ⟨e', h1, h2⟩ := hidx j e he
    rw [← h2, incr_ok S hT h1, haddr]
  · intro j e f he hf
    obtain ⟨e', h1, h2⟩ := hidx j e he
    have := walk_ok S hT _ j f rfl (by omega)
    rw [h1] at this
    rw [← h2]
    refine this.trans ?_
    congr 1
    have := congrArg (fun l : List (K × Nat × V) => (l.drop j).map fun x => (x.1, x.2.2)) hu
    simpa [← List.map_drop, List.map_map, Function.comp_def] using this

/-- C22, as far as it holds: from `begin()` the loop visits exactly the keys not below the key at the root, in ascending order.
Missing: the keys below the root's; see `c22_false`. -/
theorem c22_begin_partial (dflt : V) (fails : Nat → Bool) (rand : Nat → Nat) (cs : List (Cmd K V)) (hl : Legal (fun _ => false) cs)
    {w : World K V} {rs : List (Res V)} (hrun : run dflt (World.start fails rand) cs = some (w, rs)) {i : Nat} {r : Option Nat}
    (hr : w.root i = some r) {es : List (Ent K V)} (hes : Contents w r es) {f : Nat} (hf : es.length < f) :
    (r = none ∧ es = [] ∧ walk r f (begin r) w.m = .ok w.m []) ∨
    ∃ a n, r = some a ∧ w.m.mem a = some n ∧
      walk r f (begin r) w.m = .ok w.m ((es.filter fun e => decide (n.key ≤ e.key)).map fun e => (e.key, e.val)) := by
  obtain ⟨w', rs', T, h, S, _⟩ := run_start dflt fails rand cs hl
  rw [hrun] at h; cases h
  obtain ⟨t, hT, rfl⟩ := S.of_root hr
  have hu := contents_unique (S.contents hT) hes
  have hlen : t.ents.length = es.length := by simpa using congrArg List.length hu
  cases t with
  | leaf =>
    left
    refine ⟨rfl, by simpa [ents] using hu, ?_⟩
    obtain ⟨f, rfl⟩ : ∃ g, f = g + 1 := ⟨f - 1, by omega⟩
    rfl
  | node e l r =>
    right
    obtain ⟨h1, h2⟩ := root_index (S.bst i _ hT)
    refine ⟨e.addr, _, rfl, (S.rep i _ hT).1, ?_⟩
    have := walk_ok S hT _ l.ents.length f rfl (by omega)
    rw [h1, h2] at this
    refine this.trans ?_
    congr 1
    have := congrArg (fun l : List (K × Nat × V) => (l.filter fun x => decide (e.key ≤ x.1)).map fun x => (x.1, x.2.2)) hu
    simp only [List.filter_map, List.map_map, Function.comp_def] at this
    exact this

/-- Executable check for `c22_false`: what the loop from `begin()` visits and what `find` gives. -/
def obsBegin (dflt : V) (w : World K V) (cs : List (Cmd K V)) (i : Nat) (k : K) : Option (List (K × V) × Option Nat) :=
  match run dflt w cs with
  | none => none
  | some (w, _) => match w.root i with
    | none => none
    | some r => match walk r (fuel w.m) (begin r) w.m with
      | .ok _ l => match findP (fuel w.m) r k w.m with
        | .ok _ p => some (l, p)
        | _ => none
      | _ => none

theorem obsBegin_some {dflt : V} {w : World K V} {cs : List (Cmd K V)} {i : Nat} {k : K} {l : List (K × V)} {p : Option Nat}
    (h : obsBegin dflt w cs i k = some (l, p)) : ∃ w' rs r s s', run dflt w cs = some (w', rs) ∧ w'.root i = some r ∧
      walk r (fuel w'.m) (begin r) w'.m = .ok s l ∧ findP (fuel w'.m) r k w'.m = .ok s' p := by
  unfold obsBegin at h
  split at h
  · cases h
  · rename_i w' rs h1
    split at h
    · cases h
    · rename_i r h2
      split at h
      · rename_i s l' h3
        split at h
        · rename_i s' p' h4
          cases h
          exact ⟨w', rs, r, s, s', h1, h2, h3, h4⟩
        · cases h
      · cases h

/-- C22 is false: with the real generator, inserting 2 and then 1 leaves 2 at the root, and the loop from `begin()` misses the key 1. -/
theorem c22_false : ∃ (cs : List (Cmd Nat Nat)) (w : World Nat Nat) (rs : List (Res Nat)) (r : Option Nat) (s s' : Mem Nat Nat) (a : Nat),
    Legal (fun _ => false) cs ∧ run 0 (World.start (fun _ => false) prioStream) cs = some (w, rs) ∧ w.root 0 = some r ∧
    walk r (fuel w.m) (begin r) w.m = .ok s [(2, 0)] ∧ findP (fuel w.m) r 1 w.m = .ok s' (some a) := by
  have D : obsBegin 0 (World.start (fun _ => false) prioStream) [.new 0, .insert 0 2 0, .insert 0 1 0] 0 1 =
      some ([(2, 0)], some 1) := by decide +kernel
  obtain ⟨w, rs, r, s, s', h1, h2, h3, h4⟩ := obsBegin_some D
  exact ⟨_, w, rs, r, s, s', 1, by simp [Legal], h1, h2, h3, h4⟩

/-- C23, as far as it holds: comparing two iterators of one map with `==` is defined, and true exactly if they are the same, when both
or neither are the end. Reachable maps have contents by `contents_exist`. Missing: exactly one of them is the end; see `c23_false`. -/
theorem c23_iter_eq_partial [DecidableEq V] {w : World K V} {r : Option Nat} {es : List (Ent K V)} (hes : Contents w r es) :
    iterEq none none w.m = .ok w.m true ∧
    ∀ e ∈ es, ∀ f ∈ es, iterEq (some e.addr) (some f.addr) w.m = .ok w.m (decide (e.addr = f.addr)) := by
  refine ⟨rfl, ?_⟩
  intro e he f hf
  obtain ⟨n, n1, n2, n3⟩ := hes.2.1 e he
  obtain ⟨m, m1, m2, m3⟩ := hes.2.1 f hf
  unfold iterEq
  simp only [reduceCtorEq, and_self, if_false]
  rw [Act.bind_ok (deref_ok m1), Act.bind_ok (deref_ok n1), Act.pure_apply]
  congr 1
  rw [decide_eq_decide]
  constructor
  · intro hk
    have h1 := (hes.2.2 e.key e.addr).mpr ⟨e, he, rfl, rfl⟩
    have h2 := (hes.2.2 e.key f.addr).mpr ⟨f, hf, by rw [← m2, ← n2]; exact hk.1, rfl⟩
    rw [h1] at h2
    simpa using h2
  · intro ha
    rw [ha, m1] at n1
    cases n1
    exact ⟨rfl, rfl⟩

/-- C23 is false: `==` between the end and any other iterator dereferences a null pointer, in every state. -/
theorem c23_false [DecidableEq V] (s : Mem K V) (a : Nat) :
    iterEq (some a) none s = .ub ∧ (s.mem a ≠ none → iterEq none (some a) s = .ub) := by
  constructor
  · rfl
  · intro h
    obtain ⟨n, hn⟩ := Option.ne_none_iff_exists'.mp h
    unfold iterEq
    simp only [reduceCtorEq, false_and, if_false]
    rw [Act.bind_ok (deref_ok hn)]
    rfl

/-- C24, as far as it holds: programs that copy no map never run into undefined behaviour such as a double free; destroying a map
releases every node of it; and when all maps are destroyed no memory is left. Missing: copying; see `c24_copy_false`. -/
theorem c24_owns_nodes_partial (dflt : V) (fails : Nat → Bool) (rand : Nat → Nat) (cs : List (Cmd K V))
    (hl : Legal (fun _ => false) cs) : ∃ w rs, run dflt (World.start fails rand) cs = some (w, rs) ∧
      ((∀ i, w.root i = none) → ∀ a, w.m.mem a = none) ∧
      ∀ i r es, w.root i = some r → Contents w r es → ∃ w', step dflt w (.del i) = some (w', .done) ∧
        ∀ a, w'.m.mem a = if a ∈ es.map (·.addr) then none else w.m.mem a := by
  obtain ⟨w, rs, T, h, S, _⟩ := run_start dflt fails rand cs hl
  refine ⟨w, rs, h, ?_, ?_⟩
  · intro hn a
    cases ha : w.m.mem a with
    | none => rfl
    | some n =>
      obtain ⟨i, t, hT, _⟩ := S.owned a (by rw [ha]; simp)
      have := hn i
      rw [S.root i, hT] at this
      cases this
  · intro i r es hr hes
    obtain ⟨t, hT, rfl⟩ := S.of_root hr
    have hd := deleteP_ok t (fuel w.m) w.m (S.rep i t hT) (S.nodup i t hT) (S.depth hT)
    refine ⟨_, by simp only [step, hr, hd]; rfl, ?_⟩
    intro a
    have hu := contents_unique (S.contents hT) hes
    have : t.addrs = es.map (·.addr) := by
      have := congrArg (List.map fun x : K × Nat × V => x.2.1) hu
      simpa [addrs, Function.comp_def] using this
    rw [← this]

/-- C24 is false for copies: the implicit copy constructor shares the nodes, so copying any non-empty map and destroying both
deletes a node twice. -/
theorem c24_copy_false (dflt : V) (fails : Nat → Bool) (rand : Nat → Nat) (cs : List (Cmd K V)) (hl : Legal (fun _ => false) cs)
    {w : World K V} {rs : List (Res V)} (hrun : run dflt (World.start fails rand) cs = some (w, rs)) {i j a : Nat}
    (hi : w.root i = some (some a)) (hj : w.root j = none) :
    (∃ w' rs', run dflt w [.copy j i, .del i] = some (w', rs')) ∧ run dflt w [.copy j i, .del i, .del j] = none := by
  obtain ⟨w', rs', T, h, S, _⟩ := run_start dflt fails rand cs hl
  rw [hrun] at h; cases h
  obtain ⟨t, hT, ht⟩ := S.of_root hi
  have hij : i ≠ j := by rintro rfl; rw [hi] at hj; cases hj
  have hd := deleteP_ok t (fuel w.m) w.m (S.rep i t hT) (S.nodup i t hT) (S.depth hT)
  rw [← ht] at hd
  have hmem : a ∈ t.addrs := by
    cases t with
    | leaf => cases ht
    | node e l r => cases ht; simp [addrs, ents]
  constructor
  · exact ⟨_, _, by simp only [run, step, hi, hj, setRoot, if_neg hij, hd]; rfl⟩
  · simp only [run, step, hi, hj, setRoot, if_neg hij, hd, if_neg hij.symm, if_true]
    simp only [deleteP, fuel]
    have : ∀ (f : Nat) (s : Mem K V), s.mem a = none → deleteP (f + 1) (some a) s = .ub := by
      intro f s hs
      simp only [deleteP]
      rw [Act.bind_ub (by simp only [deref, hs])]
    have h2 := this w.m.next { w.m with mem := fun q => if q ∈ t.addrs then none else w.m.mem q } (by simp [hmem])
    simp only [deleteP] at h2
    rw [h2]

/-- C25. The priority generator never yields 0, does not repeat a value within 2^32 - 1 consecutive calls, and yields every non-zero
32-bit value. -/
theorem c25_priority_source : (∀ i, 0 < prioStream i ∧ prioStream i < 2 ^ 32) ∧
    (∀ i j, i < j → j < i + (2 ^ 32 - 1) → prioStream i ≠ prioStream j) ∧
    ∀ n x, 0 < x → x < 2 ^ 32 → ∃ i, n ≤ i ∧ i < n + (2 ^ 32 - 1) ∧ prioStream i = x := by
  refine ⟨Prio.stream_pos, fun i j h1 h2 => Prio.stream_inj h1 (by omega), ?_⟩
  intro n x h0 h
  obtain ⟨i, hi, rfl⟩ := Prio.stream_surj h0 h
  -- shift by whole periods into the window
  have hper : ∀ q, prioStream (i + q * (2 ^ 32 - 1)) = prioStream i := by
    intro q
    unfold prioStream
    rw [Prio.seed_periodic (i + q * (2 ^ 32 - 1) + 1), Prio.seed_periodic (i + 1)]
    rw [show i + q * (2 ^ 32 - 1) + 1 = (i + 1) + (2 ^ 32 - 1) * q by omega, Nat.add_mul_mod_self_left]
  by_cases hc : n % (2 ^ 32 - 1) ≤ i
  · exact ⟨i + n / (2 ^ 32 - 1) * (2 ^ 32 - 1), by omega, by omega, hper _⟩
  · exact ⟨i + (n / (2 ^ 32 - 1) + 1) * (2 ^ 32 - 1), by omega, by omega, hper _⟩

/-! ### The hypotheses are satisfiable -/

/-- A program with two maps, overwriting, default insertion and destruction of one map. -/
def demo : List (Cmd Nat Nat) :=
  [.new 0, .insert 0 5 50, .insert 0 3 30, .new 1, .set 1 7 70, .set 0 3 31, .get 0 9, .insert 0 5 51, .get 0 3, .del 1]

example : Legal (fun _ => false) demo := by simp [demo, Legal]

/-- It runs with a failing allocation in the middle as well, and the map still has nodes afterwards. -/
example : (run 0 (World.start (fun n => n == 1) prioStream) demo).map (·.2) =
    some [.done, .inserted true, .threw, .done, .done, .done, .value 0, .inserted false, .value 31, .done] := by decide +kernel

example : (run 0 (World.start (fun _ => false) prioStream) demo).map (fun x => (x.1.root 0, x.1.root 1, x.1.m.drawn)) =
    some (some (some 0), none, 4) := by decide +kernel

end Nanostl.Map

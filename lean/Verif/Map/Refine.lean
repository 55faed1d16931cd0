import Verif.Map.Tree

/-! The pointer algorithms compute the tree functions. -/

namespace Nanostl.Map

open Tree

variable {K V : Type}

theorem deref_ok {s : Mem K V} {a : Nat} {n : Node K V} (h : s.mem a = some n) : deref (some a) s = .ok s n := by
  simp [deref, h]

theorem modify_ok {s : Mem K V} {a : Nat} {n : Node K V} (f : Node K V → Node K V) (h : s.mem a = some n) :
    modify (some a) f s = .ok { s with mem := setMem s.mem a (some (f n)) } () := by
  simp [modify, h]

theorem setMem_same (m : Nat → Option (Node K V)) (a : Nat) (x) : setMem m a x a = x := by simp [setMem]

theorem setMem_ne {m : Nat → Option (Node K V)} {a q : Nat} (x) (h : q ≠ a) : setMem m a x q = m q := by simp [setMem, h]

theorem rotate_ok {s : Mem K V} {a c : Nat} {n m : Node K V} {b : Bool} (h1 : s.mem a = some n) (h2 : n.ch (!b) = some c)
    (h3 : s.mem c = some m) (hac : c ≠ a) :
    rotate (some a) b s = .ok { s with mem := setMem (setMem s.mem a (some (n.setCh (!b) (m.ch b)))) c (some (m.setCh b (some a))) }
      (some c) := by
  unfold rotate
  rw [Act.bind_ok (deref_ok h1)]
  simp only [h2]
  rw [Act.bind_ok (deref_ok h3), Act.bind_ok (modify_ok _ h1),
    Act.bind_ok (modify_ok (n := m) _ (by simp only; rw [setMem_ne _ hac]; exact h3))]
  rfl

variable [LinearOrder K]

/-- What `__insert` does after the recursive call. -/
def finish (a : Nat) (b : Bool) (p : Option Nat × Nat × Bool) : Act (Mem K V) (Option Nat × Nat × Bool) := do
  modify (some a) (·.setCh b p.1)
  let n ← deref (some a)
  let m ← deref (n.ch b)
  if n.pri > m.pri then
    let t ← rotate (some a) (!b)
    pure (t, p.2)
  else pure (some a, p.2)

theorem insertP_step {f a : Nat} {k : K} {v : V} {s : Mem K V} {n : Node K V} (h : s.mem a = some n) (hk : k ≠ n.key) :
    insertP (f + 1) (some a) k v s = (insertP f (n.ch (decide (k > n.key))) k v >>= finish a (decide (k > n.key))) s := by
  rw [insertP, Act.bind_ok (deref_ok h)]
  simp only [hk, if_false]
  rfl

omit [LinearOrder K] in
theorem setCh_ch (n : Node K V) (b : Bool) (c : Option Nat) : (n.setCh b c).ch b = c := by
  cases b <;> rfl

omit [LinearOrder K] in
theorem setCh_pri (n : Node K V) (b : Bool) (c : Option Nat) : (n.setCh b c).pri = n.pri := by
  cases b <;> rfl

omit [LinearOrder K] in
theorem setCh_setCh (n : Node K V) (b : Bool) (c d : Option Nat) : (n.setCh b c).setCh b d = n.setCh b d := by
  cases b <;> rfl

omit [LinearOrder K] in
theorem setMem_setMem (m : Nat → Option (Node K V)) (a : Nat) (x y) : setMem (setMem m a x) a y = setMem m a y := by
  funext q; simp only [setMem]; split <;> rfl

omit [LinearOrder K] in
theorem finish_ok {s : Mem K V} {a c : Nat} {b : Bool} {n m : Node K V} {x : Nat × Bool} (h1 : s.mem a = some n)
    (h2 : s.mem c = some m) (hac : c ≠ a) :
    finish a b (some c, x) s = if n.pri > m.pri then
        .ok { s with mem := setMem (setMem s.mem a (some (n.setCh b (m.ch (!b))))) c (some (m.setCh (!b) (some a))) } (some c, x)
      else .ok { s with mem := setMem s.mem a (some (n.setCh b (some c))) } (some a, x) := by
  unfold finish
  rw [Act.bind_ok (modify_ok _ h1)]
  simp only
  rw [Act.bind_ok (deref_ok (n := n.setCh b (some c)) (setMem_same _ _ _)), setCh_ch,
    Act.bind_ok (deref_ok (n := m) (by simp only; rw [setMem_ne _ hac, h2])), setCh_pri]
  split
  · have h3 := rotate_ok (s := { s with mem := setMem s.mem a (some (n.setCh b (some c))) }) (a := a) (c := c) (b := !b)
      (n := n.setCh b (some c)) (m := m) (setMem_same _ _ _) (by rw [Bool.not_not, setCh_ch])
      (by simp only; rw [setMem_ne _ hac, h2]) hac
    rw [Act.bind_ok h3, Bool.not_not, setCh_setCh]
    simp only [setMem_setMem]
    rfl
  · rfl

/-- Memory after a successful insertion. -/
structure Inserted (s s' : Mem K V) (t t' : Tree K V) : Prop where
  rep : Rep s'.mem t'
  frame : ∀ q, q ∉ t.addrs → q ≠ s.next → s'.mem q = s.mem q
  next : s'.next = s.next + 1
  calls : s'.calls = s.calls + 1
  drawn : s'.drawn = s.drawn + 1
  fails : s'.fails = s.fails
  rand : s'.rand = s.rand

theorem ins_node (x : Ent K V) (t : Tree K V) : ∃ e l r, ins x t = node e l r := by
  cases t with
  | leaf => exact ⟨_, _, _, rfl⟩
  | node e l r =>
    simp only [ins]
    split
    · exact ⟨_, _, _, rfl⟩
    · split
      · cases ins x r <;> simp only [balR]
        · exact ⟨_, _, _, rfl⟩
        · split <;> exact ⟨_, _, _, rfl⟩
      · cases ins x l <;> simp only [balL]
        · exact ⟨_, _, _, rfl⟩
        · split <;> exact ⟨_, _, _, rfl⟩

theorem insertP_ok (k : K) (v : V) : ∀ (t : Tree K V) (f : Nat) (s : Mem K V), Rep s.mem t → t.addrs.Nodup → t.IsHeap →
    (∀ a ∈ t.addrs, a < s.next) → t.depth < f →
    (∀ e, look t k = some e → insertP f t.ptr k v s = .ok s (t.ptr, e.addr, false)) ∧
    (look t k = none → s.fails s.calls = true → insertP f t.ptr k v s = .exc { s with calls := s.calls + 1 }) ∧
    (look t k = none → s.fails s.calls = false →
      ∃ s', insertP f t.ptr k v s = .ok s' ((ins ⟨k, s.next, v, s.rand s.drawn⟩ t).ptr, s.next, true) ∧
        Inserted s s' t (ins ⟨k, s.next, v, s.rand s.drawn⟩ t)) := by
  intro t
  induction t with
  | leaf =>
    intro f s _ _ _ _ hf
    obtain ⟨f, rfl⟩ : ∃ g, f = g + 1 := ⟨f - 1, by omega⟩
    simp only [look, ptr, insertP]
    refine ⟨by simp, ?_, ?_⟩
    · intro _ h
      refine Act.bind_exc ?_
      simp [newNode, h]
    · intro _ h
      refine ⟨_, Act.bind_ok (by simp only [newNode, h]; rfl), ?_⟩
      refine ⟨⟨by simp [setMem, ptr], trivial, trivial⟩, ?_, rfl, rfl, rfl, rfl, rfl⟩
      intro q _ hq
      exact setMem_ne _ hq
  | node e l r ihl ihr =>
    intro f s hr hn hh hlt hf
    obtain ⟨f, rfl⟩ : ∃ g, f = g + 1 := ⟨f - 1, by omega⟩
    obtain ⟨r1, r2, r3⟩ := hr
    obtain ⟨q1, q2, q3, q4⟩ := hh
    have hmem : ∀ q, q ∈ (node e l r).addrs ↔ q ∈ l.addrs ∨ q = e.addr ∨ q ∈ r.addrs := by
      intro q; simp [addrs, ents]
    have hn' := hn
    simp only [addrs, ents, List.map_append, List.map_cons, List.nodup_append, List.nodup_cons, List.mem_cons] at hn'
    obtain ⟨n1, ⟨n2, n3⟩, n4⟩ := hn'
    simp only [depth] at hf
    have hea : e.addr < s.next := hlt _ ((hmem _).mpr (.inr (.inl rfl)))
    simp only [look]
    by_cases hk : k = e.key
    · rw [if_pos hk]
      refine ⟨?_, by simp, by simp⟩
      intro x hx
      cases hx
      simp only [ptr, insertP]
      rw [Act.bind_ok (deref_ok r1)]
      simp only [hk, if_true]
      rfl
    rw [if_neg hk]
    have h0 := insertP_step (f := f) (v := v) r1 hk
    by_cases hg : k > e.key
    · rw [if_pos hg]
      simp only [hg, decide_true, Node.ch, if_true] at h0
      obtain ⟨i1, i2, i3⟩ := ihr f s r3 n3 q4 (fun a ha => hlt a ((hmem a).mpr (.inr (.inr ha)))) (by omega)
      refine ⟨?_, ?_, ?_⟩
      · intro x hx
        rw [ptr, h0, Act.bind_ok (i1 x hx)]
        cases r with
        | leaf => simp [look] at hx
        | node y yl yr =>
          obtain ⟨y1, _, _⟩ := r3
          have hya : y.addr ≠ e.addr := fun h => n2 (by rw [← h]; simp [ents])
          have hyp := q2 y (by simp [ents])
          simp only [ptr]
          rw [finish_ok r1 y1 hya, if_neg (by simp only; omega)]
          congr 1
          have : setMem s.mem e.addr (some ((⟨e.key, e.val, e.pri, l.ptr, some y.addr⟩ : Node K V).setCh true (some y.addr))) = s.mem := by
            funext q; simp only [setMem]; split
            · rename_i hq; rw [hq, r1]; rfl
            · rfl
          simp only [ptr] at *
          rw [this]
      · intro hl hfl
        rw [ptr, h0, Act.bind_exc (i2 hl hfl)]
      · intro hl hfl
        obtain ⟨s1, g1, g2⟩ := i3 hl hfl
        have hperm := ins_perm (x := ⟨k, s.next, v, s.rand s.drawn⟩) hl
        have haddr : ∀ q, q ∈ (ins ⟨k, s.next, v, s.rand s.drawn⟩ r).addrs ↔ q = s.next ∨ q ∈ r.addrs := by
          intro q
          have := (hperm.map (·.addr)).mem_iff (a := q)
          simpa [addrs] using this
        simp only [ins, hk, if_false, hg, if_true]
        obtain ⟨y, yl, yr, hy⟩ := ins_node ⟨k, s.next, v, s.rand s.drawn⟩ r
        have hnd : (ins ⟨k, s.next, v, s.rand s.drawn⟩ r).addrs.Nodup := by
          have h := (hperm.map (·.addr)).nodup_iff
          simp only [addrs]
          rw [h, List.map_cons, List.nodup_cons]
          refine ⟨?_, n3⟩
          intro hc
          exact absurd (hlt s.next ((hmem _).mpr (.inr (.inr hc)))) (Nat.lt_irrefl _)
        rw [hy] at g1 g2 haddr hnd ⊢
        rw [show (node y yl yr).ptr = some y.addr from rfl] at g1
        have g3 := g2.rep
        obtain ⟨y1, y2, y3⟩ := g3
        have hne : ∀ q, q ∈ (node y yl yr).addrs → q ≠ e.addr := by
          intro q hq h
          subst h
          rcases (haddr _).mp hq with h | h
          · omega
          · exact n2 h
        have hya := hne y.addr (by simp [addrs, ents])
        have a1 : s1.mem e.addr = some ⟨e.key, e.val, e.pri, l.ptr, r.ptr⟩ := by
          rw [g2.frame _ n2 (by omega), r1]
        have al : ∀ q ∈ l.addrs, s1.mem q = s.mem q := fun q hq =>
          g2.frame q (fun h => n4 q hq q (.inr h) rfl) (fun h => by
            have := hlt q ((hmem q).mpr (.inl hq)); omega)
        have ynl : y.addr ∉ l.addrs := fun h => by
          rcases (haddr y.addr).mp (by simp [addrs, ents]) with h1 | h1
          · have := hlt _ ((hmem _).mpr (.inl h)); omega
          · exact n4 _ h _ (.inr h1) rfl
        have enl : e.addr ∉ l.addrs := fun h => n4 _ h _ (.inl rfl) rfl
        simp only [addrs, ents, List.map_append, List.map_cons, List.nodup_append, List.nodup_cons, List.mem_cons] at hnd
        obtain ⟨m1, ⟨m2, m3⟩, m4⟩ := hnd
        rw [ptr, h0, Act.bind_ok g1, finish_ok a1 y1 hya]
        simp only [balR]
        split
        · refine ⟨_, rfl, ⟨?_, ?_, ?_⟩, ?_, g2.next, g2.calls, g2.drawn, g2.fails, g2.rand⟩
          · simp [setMem_same, Node.setCh, ptr]
          · refine ⟨?_, ?_, ?_⟩
            · simp only; rw [setMem_ne _ (Ne.symm hya), setMem_same]; simp [Node.setCh, Node.ch]
            · refine r2.frame fun q hq => ?_
              simp only
              rw [setMem_ne _ (ne_of_mem_of_not_mem hq ynl), setMem_ne _ (ne_of_mem_of_not_mem hq enl), al q hq]
            · refine y2.frame fun q hq => ?_
              simp only
              rw [setMem_ne _ (m4 q hq y.addr (.inl rfl)), setMem_ne _ (hne q (by simp [addrs, ents]; exact .inl (by simpa [addrs] using hq)))]
          · refine y3.frame fun q hq => ?_
            simp only
            rw [setMem_ne _ (ne_of_mem_of_not_mem hq m2), setMem_ne _ (hne q (by simp [addrs, ents]; exact .inr (.inr (by simpa [addrs] using hq))))]
          · intro q hq hqn
            have h2 : q ∉ (node y yl yr).addrs := fun h => by
              rcases (haddr q).mp h with h | h
              · exact hqn h
              · exact hq ((hmem q).mpr (.inr (.inr h)))
            simp only
            rw [setMem_ne _ (fun h => h2 (by rw [h]; simp [addrs, ents])),
              setMem_ne _ (fun h => hq ((hmem q).mpr (.inr (.inl h)))), g2.frame q (fun h => hq ((hmem q).mpr (.inr (.inr h)))) hqn]
        · refine ⟨_, rfl, ⟨?_, ?_, ?_⟩, ?_, g2.next, g2.calls, g2.drawn, g2.fails, g2.rand⟩
          · simp [setMem_same, Node.setCh, ptr]
          · refine r2.frame fun q hq => ?_
            simp only
            rw [setMem_ne _ (ne_of_mem_of_not_mem hq enl), al q hq]
          · refine g2.rep.frame fun q hq => ?_
            simp only
            rw [setMem_ne _ (hne q hq)]
          · intro q hq hqn
            simp only
            rw [setMem_ne _ (fun h => hq ((hmem q).mpr (.inr (.inl h)))), g2.frame q (fun h => hq ((hmem q).mpr (.inr (.inr h)))) hqn]
    · rw [if_neg hg]
      simp only [hg, decide_false, Node.ch, Bool.false_eq_true, if_false] at h0
      obtain ⟨i1, i2, i3⟩ := ihl f s r2 n1 q3 (fun a ha => hlt a ((hmem a).mpr (.inl ha))) (by omega)
      have enl : e.addr ∉ l.addrs := fun h => n4 _ h _ (.inl rfl) rfl
      refine ⟨?_, ?_, ?_⟩
      · intro x hx
        rw [ptr, h0, Act.bind_ok (i1 x hx)]
        cases l with
        | leaf => simp [look] at hx
        | node y yl yr =>
          obtain ⟨y1, _, _⟩ := r2
          have hya : y.addr ≠ e.addr := fun h => enl (by rw [← h]; simp [addrs, ents])
          have hyp := q1 y (by simp [ents])
          simp only [ptr]
          rw [finish_ok r1 y1 hya, if_neg (by simp only; omega)]
          congr 1
          have : setMem s.mem e.addr (some ((⟨e.key, e.val, e.pri, some y.addr, r.ptr⟩ : Node K V).setCh false (some y.addr))) = s.mem := by
            funext q; simp only [setMem]; split
            · rename_i hq; rw [hq, r1]; rfl
            · rfl
          simp only [ptr] at *
          rw [this]
      · intro hl hfl
        rw [ptr, h0, Act.bind_exc (i2 hl hfl)]
      · intro hl hfl
        obtain ⟨s1, g1, g2⟩ := i3 hl hfl
        have hperm := ins_perm (x := ⟨k, s.next, v, s.rand s.drawn⟩) hl
        have haddr : ∀ q, q ∈ (ins ⟨k, s.next, v, s.rand s.drawn⟩ l).addrs ↔ q = s.next ∨ q ∈ l.addrs := by
          intro q
          have := (hperm.map (·.addr)).mem_iff (a := q)
          simpa [addrs] using this
        simp only [ins, hk, if_false, hg]
        obtain ⟨y, yl, yr, hy⟩ := ins_node ⟨k, s.next, v, s.rand s.drawn⟩ l
        have hnd : (ins ⟨k, s.next, v, s.rand s.drawn⟩ l).addrs.Nodup := by
          have h := (hperm.map (·.addr)).nodup_iff
          simp only [addrs]
          rw [h, List.map_cons, List.nodup_cons]
          refine ⟨?_, n1⟩
          intro hc
          exact absurd (hlt s.next ((hmem _).mpr (.inl hc))) (Nat.lt_irrefl _)
        rw [hy] at g1 g2 haddr hnd ⊢
        rw [show (node y yl yr).ptr = some y.addr from rfl] at g1
        have g3 := g2.rep
        obtain ⟨y1, y2, y3⟩ := g3
        have hne : ∀ q, q ∈ (node y yl yr).addrs → q ≠ e.addr := by
          intro q hq h
          subst h
          rcases (haddr _).mp hq with h | h
          · omega
          · exact enl h
        have hya := hne y.addr (by simp [addrs, ents])
        have a1 : s1.mem e.addr = some ⟨e.key, e.val, e.pri, l.ptr, r.ptr⟩ := by
          rw [g2.frame _ enl (by omega), r1]
        have ar : ∀ q ∈ r.addrs, s1.mem q = s.mem q := fun q hq =>
          g2.frame q (fun h => n4 q h q (.inr hq) rfl) (fun h => by
            have := hlt q ((hmem q).mpr (.inr (.inr hq))); omega)
        have ynr : y.addr ∉ r.addrs := fun h => by
          rcases (haddr y.addr).mp (by simp [addrs, ents]) with h1 | h1
          · have := hlt _ ((hmem _).mpr (.inr (.inr h))); omega
          · exact n4 _ h1 _ (.inr h) rfl
        simp only [addrs, ents, List.map_append, List.map_cons, List.nodup_append, List.nodup_cons, List.mem_cons] at hnd
        obtain ⟨m1, ⟨m2, m3⟩, m4⟩ := hnd
        rw [ptr, h0, Act.bind_ok g1, finish_ok a1 y1 hya]
        simp only [balL]
        split
        · refine ⟨_, rfl, ⟨?_, ?_, ?_⟩, ?_, g2.next, g2.calls, g2.drawn, g2.fails, g2.rand⟩
          · simp [setMem_same, Node.setCh, ptr]
          · refine y2.frame fun q hq => ?_
            simp only
            rw [setMem_ne _ (m4 q hq y.addr (.inl rfl)), setMem_ne _ (hne q (by simp [addrs, ents]; exact .inl (by simpa [addrs] using hq)))]
          · refine ⟨?_, ?_, ?_⟩
            · simp only; rw [setMem_ne _ (Ne.symm hya), setMem_same]; simp [Node.setCh, Node.ch]
            · refine y3.frame fun q hq => ?_
              simp only
              rw [setMem_ne _ (ne_of_mem_of_not_mem hq m2), setMem_ne _ (hne q (by simp [addrs, ents]; exact .inr (.inr (by simpa [addrs] using hq))))]
            · refine r3.frame fun q hq => ?_
              simp only
              rw [setMem_ne _ (ne_of_mem_of_not_mem hq ynr), setMem_ne _ (ne_of_mem_of_not_mem hq n2), ar q hq]
          · intro q hq hqn
            have h2 : q ∉ (node y yl yr).addrs := fun h => by
              rcases (haddr q).mp h with h | h
              · exact hqn h
              · exact hq ((hmem q).mpr (.inl h))
            simp only
            rw [setMem_ne _ (fun h => h2 (by rw [h]; simp [addrs, ents])),
              setMem_ne _ (fun h => hq ((hmem q).mpr (.inr (.inl h)))), g2.frame q (fun h => hq ((hmem q).mpr (.inl h))) hqn]
        · refine ⟨_, rfl, ⟨?_, ?_, ?_⟩, ?_, g2.next, g2.calls, g2.drawn, g2.fails, g2.rand⟩
          · simp [setMem_same, Node.setCh, ptr]
          · refine g2.rep.frame fun q hq => ?_
            simp only
            rw [setMem_ne _ (hne q hq)]
          · refine r3.frame fun q hq => ?_
            simp only
            rw [setMem_ne _ (ne_of_mem_of_not_mem hq n2), ar q hq]
          · intro q hq hqn
            simp only
            rw [setMem_ne _ (fun h => hq ((hmem q).mpr (.inr (.inl h)))), g2.frame q (fun h => hq ((hmem q).mpr (.inl h))) hqn]

theorem findP_ok (k : K) : ∀ (t : Tree K V) (f : Nat) (s : Mem K V), Rep s.mem t → t.depth < f →
    findP f t.ptr k s = .ok s ((look t k).map (·.addr)) := by
  intro t
  induction t with
  | leaf =>
    intro f s _ hf
    obtain ⟨f, rfl⟩ : ∃ g, f = g + 1 := ⟨f - 1, by omega⟩
    rfl
  | node e l r ihl ihr =>
    intro f s hr hf
    obtain ⟨f, rfl⟩ : ∃ g, f = g + 1 := ⟨f - 1, by omega⟩
    obtain ⟨r1, r2, r3⟩ := hr
    simp only [depth] at hf
    simp only [ptr, findP, look]
    rw [Act.bind_ok (deref_ok r1)]
    by_cases hk : k = e.key
    · simp only [hk, if_true]; rfl
    · by_cases hg : k > e.key
      · simp only [hk, if_false, hg, decide_true, Node.ch, if_true]
        exact ihr f s r3 (by omega)
      · simp only [hk, if_false, hg, decide_false, Node.ch, Bool.false_eq_true]
        exact ihl f s r2 (by omega)

theorem upperP_ok (k : K) : ∀ (t : Tree K V) (f : Nat) (s : Mem K V), Rep s.mem t → t.depth < f →
    upperP f t.ptr k s = .ok s ((ub t k).map (·.addr)) := by
  intro t
  induction t with
  | leaf =>
    intro f s _ hf
    obtain ⟨f, rfl⟩ : ∃ g, f = g + 1 := ⟨f - 1, by omega⟩
    rfl
  | node e l r ihl ihr =>
    intro f s hr hf
    obtain ⟨f, rfl⟩ : ∃ g, f = g + 1 := ⟨f - 1, by omega⟩
    obtain ⟨r1, r2, r3⟩ := hr
    simp only [depth] at hf
    simp only [ptr, upperP, ub]
    rw [Act.bind_ok (deref_ok r1)]
    by_cases hk : k < e.key
    · simp only [hk, if_true]
      rw [Act.bind_ok (ihl f s r2 (by omega))]
      cases ub l k <;> rfl
    · simp only [hk, if_false]
      exact ihr f s r3 (by omega)

omit [LinearOrder K] in
theorem deleteP_ok : ∀ (t : Tree K V) (f : Nat) (s : Mem K V), Rep s.mem t → t.addrs.Nodup → t.depth < f →
    deleteP f t.ptr s = .ok { s with mem := fun q => if q ∈ t.addrs then none else s.mem q } () := by
  intro t
  induction t with
  | leaf =>
    intro f s _ _ hf
    obtain ⟨f, rfl⟩ : ∃ g, f = g + 1 := ⟨f - 1, by omega⟩
    simp only [ptr, deleteP, addrs, ents, List.map_nil, List.not_mem_nil, if_false]
    rfl
  | node e l r ihl ihr =>
    intro f s hr hn hf
    obtain ⟨f, rfl⟩ : ∃ g, f = g + 1 := ⟨f - 1, by omega⟩
    obtain ⟨r1, r2, r3⟩ := hr
    simp only [depth] at hf
    simp only [addrs, ents, List.map_append, List.map_cons, List.nodup_append, List.nodup_cons, List.mem_cons] at hn
    obtain ⟨n1, ⟨n2, n3⟩, n4⟩ := hn
    have enl : e.addr ∉ l.addrs := fun h => n4 _ h _ (.inl rfl) rfl
    simp only [ptr, deleteP]
    rw [Act.bind_ok (deref_ok r1), Act.bind_ok (ihl f s r2 n1 (by omega)),
      Act.bind_ok (deref_ok (n := ⟨e.key, e.val, e.pri, l.ptr, r.ptr⟩) (by simp only [enl, if_false, r1])),
      Act.bind_ok (ihr f _ (r3.frame fun q hq => by
        have : q ∉ l.addrs := fun h => n4 q h q (.inr hq) rfl
        simp only [this, if_false]) n3 (by omega))]
    have ner : e.addr ∉ r.addrs := n2
    simp only [freeNode, enl, ner, if_false, r1]
    congr 2
    funext q
    simp only [setMem, addrs, ents, List.map_append, List.map_cons, List.mem_append, List.mem_cons]
    by_cases h1 : q = e.addr
    · simp [h1]
    · by_cases h2 : q ∈ List.map (fun x => x.addr) r.ents <;> by_cases h3 : q ∈ List.map (fun x => x.addr) l.ents <;> simp [h1, h2, h3]

end Nanostl.Map

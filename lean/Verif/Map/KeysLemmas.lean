import Verif.Map.Keys
import Verif.Map.World

/-! Helper lemmas for C130. -/

namespace Nanostl.Map.Keys

open Tree

variable {K V : Type}

/-- Search. -/
def lookK (C : Cls K V) : Tree K V → K → Option (Ent K V)
  | leaf, _ => none
  | node e l r, k => if C.eq k e.key then some e else if C.gt k e.key then lookK C r k else lookK C l k

/-- Insertion. -/
def insK (C : Cls K V) (x : Ent K V) : Tree K V → Tree K V
  | leaf => node x leaf leaf
  | node e l r => if C.eq x.key e.key then node e l r else if C.gt x.key e.key then balR e l (insK C x r) else balL e r (insK C x l)

/-- The first entry behind a key. -/
def upK (C : Cls K V) : Tree K V → K → Option (Ent K V)
  | leaf, _ => none
  | node e l r, k => if C.lt k e.key then some ((upK C l k).getD e) else upK C r k

variable {C : Cls K V}

theorem lookK_mem {t : Tree K V} {k : K} {e : Ent K V} (h : lookK C t k = some e) : e ∈ t.ents ∧ C.eq k e.key = true := by
  induction t with
  | leaf => simp [lookK] at h
  | node x l r ihl ihr =>
    simp only [lookK] at h
    simp only [ents, List.mem_append, List.mem_cons]
    split at h
    · rename_i hk; cases h; exact ⟨.inr (.inl rfl), hk⟩
    · split at h
      · exact ⟨.inr (.inr (ihr h).1), (ihr h).2⟩
      · exact ⟨.inl (ihl h).1, (ihl h).2⟩

theorem insK_perm {x : Ent K V} {t : Tree K V} (h : lookK C t x.key = none) : (insK C x t).ents.Perm (x :: t.ents) := by
  induction t with
  | leaf => exact List.Perm.refl _
  | node e l r ihl ihr =>
    simp only [lookK] at h
    simp only [insK]
    split at h
    · cases h
    · rename_i hk
      rw [if_neg hk]
      split at h <;> rename_i hg
      · rw [if_pos hg, ents_balR, ents]
        refine ((List.Perm.append_left _ (List.Perm.cons _ (ihr h)))).trans ?_
        refine (List.Perm.append_left _ (List.Perm.swap _ _ _)).trans ?_
        exact List.perm_middle
      · rw [if_neg hg, ents_balL, ents]
        exact (ihl h).append_right _

theorem insK_heap {x : Ent K V} {t : Tree K V} (h : lookK C t x.key = none) (hh : t.IsHeap) : (insK C x t).IsHeap ∧
    ∀ m, (∀ y ∈ t.ents, m ≤ y.pri) → ∃ e l r, insK C x t = node e l r ∧ (∀ y ∈ l.ents, m ≤ y.pri) ∧ (∀ y ∈ r.ents, m ≤ y.pri) := by
  induction t with
  | leaf => simp [insK, IsHeap, ents]
  | node e l r ihl ihr =>
    obtain ⟨q1, q2, q3, q4⟩ := hh
    simp only [lookK] at h
    simp only [insK]
    split at h
    · cases h
    · rename_i hk
      rw [if_neg hk]
      split at h <;> rename_i hg
      · rw [if_pos hg]
        obtain ⟨i1, i2⟩ := ihr h q4
        obtain ⟨s, sl, sr, e1, e2, e3⟩ := i2 e.pri q2
        have hall := fun y => (insK_perm h).mem_iff (a := y)
        rw [e1] at i1 hall ⊢
        obtain ⟨j1, j2, j3, j4⟩ := i1
        simp only [balR]
        split <;> rename_i hp
        · refine ⟨⟨?_, j2, ⟨q1, e2, q3, j3⟩, j4⟩, ?_⟩
          · intro y hy
            simp only [ents, List.mem_append, List.mem_cons] at hy
            rcases hy with hy | rfl | hy
            · have := q1 y hy; omega
            · omega
            · exact j1 y hy
          · intro m hm
            refine ⟨_, _, _, rfl, ?_, ?_⟩
            · intro y hy
              simp only [ents, List.mem_append, List.mem_cons] at hy hm
              rcases hy with hy | rfl | hy
              · exact hm y (.inl hy)
              · exact hm y (.inr (.inl rfl))
              · have := e2 y hy; have := hm e (.inr (.inl rfl)); omega
            · intro y hy
              have := e3 y hy
              have := hm e (by simp [ents])
              omega
        · refine ⟨⟨q1, ?_, q3, ⟨j1, j2, j3, j4⟩⟩, ?_⟩
          · intro y hy
            simp only [ents, List.mem_append, List.mem_cons] at hy
            rcases hy with hy | rfl | hy
            · have := e2 y hy; omega
            · omega
            · have := e3 y hy; omega
          · intro m hm
            have he := hm e (by simp [ents])
            refine ⟨_, _, _, rfl, fun y hy => hm y (by simp [ents, hy]), ?_⟩
            intro y hy
            simp only [ents, List.mem_append, List.mem_cons] at hy
            rcases hy with hy | rfl | hy
            · have := e2 y hy; omega
            · omega
            · have := e3 y hy; omega
      · rw [if_neg hg]
        obtain ⟨i1, i2⟩ := ihl h q3
        obtain ⟨s, sl, sr, e1, e2, e3⟩ := i2 e.pri q1
        rw [e1] at i1 ⊢
        obtain ⟨j1, j2, j3, j4⟩ := i1
        simp only [balL]
        split <;> rename_i hp
        · refine ⟨⟨j1, ?_, j3, ⟨e3, q2, j4, q4⟩⟩, ?_⟩
          · intro y hy
            simp only [ents, List.mem_append, List.mem_cons] at hy
            rcases hy with hy | rfl | hy
            · exact j2 y hy
            · omega
            · have := q2 y hy; omega
          · intro m hm
            have he := hm e (by simp [ents])
            refine ⟨_, _, _, rfl, ?_, ?_⟩
            · intro y hy
              have := e2 y hy
              omega
            · intro y hy
              simp only [ents, List.mem_append, List.mem_cons] at hy hm
              rcases hy with hy | rfl | hy
              · have := e3 y hy; omega
              · exact he
              · exact hm y (.inr (.inr hy))
        · refine ⟨⟨?_, q2, ⟨j1, j2, j3, j4⟩, q4⟩, ?_⟩
          · intro y hy
            simp only [ents, List.mem_append, List.mem_cons] at hy
            rcases hy with hy | rfl | hy
            · have := e2 y hy; omega
            · omega
            · have := e3 y hy; omega
          · intro m hm
            have he := hm e (by simp [ents])
            refine ⟨_, _, _, rfl, ?_, fun y hy => hm y (by simp [ents, hy])⟩
            intro y hy
            simp only [ents, List.mem_append, List.mem_cons] at hy
            rcases hy with hy | rfl | hy
            · have := e2 y hy; omega
            · omega
            · have := e3 y hy; omega

theorem insK_node (x : Ent K V) (t : Tree K V) : ∃ e l r, insK C x t = node e l r := by
  cases t with
  | leaf => exact ⟨_, _, _, rfl⟩
  | node e l r =>
    simp only [insK]
    split
    · exact ⟨_, _, _, rfl⟩
    · split
      · cases insK C x r <;> simp only [balR]
        · exact ⟨_, _, _, rfl⟩
        · split <;> exact ⟨_, _, _, rfl⟩
      · cases insK C x l <;> simp only [balL]
        · exact ⟨_, _, _, rfl⟩
        · split <;> exact ⟨_, _, _, rfl⟩

/-- Only the counter of events has changed. -/
def Quiet (s s' : Mem K V) : Prop := ∃ c, s' = { s with calls := c }

theorem Quiet.refl (s : Mem K V) : Quiet s s := ⟨s.calls, rfl⟩

theorem tick_spec (s : Mem K V) : tick s = .ok { s with calls := s.calls + 1 } () ∨ tick s = .exc { s with calls := s.calls + 1 } := by
  simp only [tick]
  split
  · exact .inr rfl
  · exact .inl rfl

/-- Memory after a successful insertion. -/
structure InsertedK (s s' : Mem K V) (t t' : Tree K V) : Prop where
  rep : Rep s'.mem t'
  frame : ∀ q, q ∉ t.addrs → q ≠ s.next → s'.mem q = s.mem q
  next : s'.next = s.next + 1
  drawn : s'.drawn = s.drawn + 1
  fails : s'.fails = s.fails
  rand : s'.rand = s.rand

theorem insertK_step (f a : Nat) (k : K) (v : V) (s : Mem K V) {n : Node K V} (h : s.mem a = some n) :
    (∃ s', insertK C (f + 1) (some a) k v s = .exc s' ∧ Quiet s s') ∨
    (C.eq k n.key = true ∧ ∃ s', insertK C (f + 1) (some a) k v s = .ok s' (some a, a, false) ∧ Quiet s s') ∨
    (C.eq k n.key = false ∧ insertK C (f + 1) (some a) k v s = (insertK C f (n.ch (C.gt k n.key)) k v >>= finish a (C.gt k n.key)) { s with calls := s.calls + 1 + 1 + 1 }) := by
  simp only [insertK]
  rcases tick_spec s with e1 | e1 <;> [skip; exact .inl ⟨_, Act.bind_exc e1, _, rfl⟩]
  rw [Act.bind_ok e1, Act.bind_ok (deref_ok (s := { s with calls := s.calls + 1 }) h)]
  rcases tick_spec { s with calls := s.calls + 1 } with e2 | e2 <;> [skip; exact .inl ⟨_, Act.bind_exc e2, _, rfl⟩]
  rw [Act.bind_ok e2]
  cases hk : C.eq k n.key with
  | true => exact .inr (.inl ⟨rfl, _, rfl, _, rfl⟩)
  | false =>
    simp only [Bool.false_eq_true, if_false]
    rcases tick_spec { s with calls := s.calls + 1 + 1 } with e3 | e3 <;> [skip; exact .inl ⟨_, Act.bind_exc e3, _, rfl⟩]
    rw [Act.bind_ok e3]
    exact .inr (.inr ⟨trivial, rfl⟩)

theorem insertK_ok (k : K) (v : V) : ∀ (t : Tree K V) (f : Nat) (s : Mem K V), Rep s.mem t → t.addrs.Nodup → t.IsHeap →
    (∀ a ∈ t.addrs, a < s.next) → t.depth < f →
    (∃ s', insertK C f t.ptr k v s = .exc s' ∧ Quiet s s') ∨
    (∃ e s', lookK C t k = some e ∧ insertK C f t.ptr k v s = .ok s' (t.ptr, e.addr, false) ∧ Quiet s s') ∨
    (lookK C t k = none ∧ ∃ s', insertK C f t.ptr k v s = .ok s' ((insK C ⟨k, s.next, v, s.rand s.drawn⟩ t).ptr, s.next, true) ∧
        InsertedK s s' t (insK C ⟨k, s.next, v, s.rand s.drawn⟩ t)) := by
  intro t
  induction t with
  | leaf =>
    intro f s _ _ _ _ hf
    obtain ⟨f, rfl⟩ : ∃ g, f = g + 1 := ⟨f - 1, by omega⟩
    simp only [lookK, ptr, insertK]
    rcases tick_spec s with e | e
    · rw [Act.bind_ok e]
      cases h : s.fails (s.calls + 1) with
      | true => exact .inl ⟨_, Act.bind_exc (by simp [newNode, h]), s.calls + 1 + 1, rfl⟩
      | false =>
        refine .inr (.inr ⟨trivial, _, Act.bind_ok (by simp only [newNode, h]; rfl), ?_⟩)
        refine ⟨⟨by simp [setMem, ptr], trivial, trivial⟩, ?_, rfl, rfl, rfl, rfl⟩
        intro q _ hq
        exact setMem_ne _ hq
    · rw [Act.bind_exc e]
      exact .inl ⟨_, rfl, _, rfl⟩
  | node e l r ihl ihr =>
    intro f s hr hn hh hlt hf
    obtain ⟨f, rfl⟩ : ∃ g, f = g + 1 := ⟨f - 1, by omega⟩
    obtain ⟨r1, r2, r3⟩ := hr
    obtain ⟨q1, q2, q3, q4⟩ := hh
    have hmem : ∀ q, q ∈ (node e l r).addrs ↔ q ∈ l.addrs ∨ q = e.addr ∨ q ∈ r.addrs := by
      intro q; simp [addrs, ents]
    have hn' := hn
    simp only [addrs, ents, List.map_append, List.map_cons, List.nodup_append, List.nodup_cons, List.mem_cons] at hn'
    obtain ⟨n1, ⟨n2, n3⟩, n4⟩ := hn'
    simp only [depth] at hf
    have hea : e.addr < s.next := hlt _ ((hmem _).mpr (.inr (.inl rfl)))
    have enl : e.addr ∉ l.addrs := fun h => n4 _ h _ (.inl rfl) rfl
    rw [show (node e l r).ptr = some e.addr from rfl]
    simp only [lookK]
    rcases insertK_step (C := C) f e.addr k v s r1 with h | ⟨hk, s', h, hq⟩ | ⟨hk, h⟩
    · exact .inl h
    · rw [if_pos hk]
      exact .inr (.inl ⟨e, s', rfl, h, hq⟩)
    simp only at hk h
    rw [if_neg (by simp [hk]), h]
    by_cases hg : C.gt k e.key = true
    · rw [if_pos hg]
      simp only [hg, Node.ch, if_true]
      rcases ihr f { s with calls := s.calls + 1 + 1 + 1 } r3 n3 q4 (fun a ha => hlt a ((hmem a).mpr (.inr (.inr ha)))) (by omega) with
        ⟨s1, g1, c, rfl⟩ | ⟨x, s1, hx, g1, c, rfl⟩ | ⟨hl, s1, g1, g2⟩
      · exact .inl ⟨_, Act.bind_exc g1, c, rfl⟩
      · refine .inr (.inl ⟨x, { s with calls := c }, hx, ?_, c, rfl⟩)
        rw [Act.bind_ok g1]
        cases r with
        | leaf => simp [lookK] at hx
        | node y yl yr =>
          obtain ⟨y1, _, _⟩ := r3
          have hya : y.addr ≠ e.addr := fun h => n2 (by rw [← h]; simp [ents])
          have hyp := q2 y (by simp [ents])
          simp only [ptr]
          rw [finish_ok (s := { s with calls := c }) r1 y1 hya, if_neg (by simp only; omega)]
          congr 1
          have : setMem s.mem e.addr (some ((⟨e.key, e.val, e.pri, l.ptr, some y.addr⟩ : Node K V).setCh true (some y.addr))) = s.mem := by
            funext q; simp only [setMem]; split
            · rename_i hq; rw [hq, r1]; rfl
            · rfl
          simp only [ptr] at *
          rw [this]
      · refine .inr (.inr ⟨hl, ?_⟩)
        simp only at g1
        replace g2 : InsertedK s s1 r (insK C ⟨k, s.next, v, s.rand s.drawn⟩ r) := ⟨g2.rep, g2.frame, g2.next, g2.drawn, g2.fails, g2.rand⟩
        have hperm := insK_perm (C := C) (x := ⟨k, s.next, v, s.rand s.drawn⟩) hl
        have haddr : ∀ q, q ∈ (insK C ⟨k, s.next, v, s.rand s.drawn⟩ r).addrs ↔ q = s.next ∨ q ∈ r.addrs := by
          intro q
          have := (hperm.map (·.addr)).mem_iff (a := q)
          simpa [addrs] using this
        simp only [insK, hk, hg, if_true]
        obtain ⟨y, yl, yr, hy⟩ := insK_node (C := C) ⟨k, s.next, v, s.rand s.drawn⟩ r
        have hnd : (insK C ⟨k, s.next, v, s.rand s.drawn⟩ r).addrs.Nodup := by
          have h := (hperm.map (·.addr)).nodup_iff
          simp only [addrs]
          rw [h, List.map_cons, List.nodup_cons]
          refine ⟨?_, n3⟩
          intro hc
          exact absurd (hlt s.next ((hmem _).mpr (.inr (.inr hc)))) (Nat.lt_irrefl _)
        rw [hy] at g1 g2 haddr hnd ⊢
        rw [show (node y yl yr).ptr = some y.addr from rfl] at g1
        have g3 := g2.rep
        obtain ⟨y1, y2, y3⟩ := g3
        have hne : ∀ q, q ∈ (node y yl yr).addrs → q ≠ e.addr := by
          intro q hq h
          subst h
          rcases (haddr _).mp hq with h | h
          · omega
          · exact n2 h
        have hya := hne y.addr (by simp [addrs, ents])
        have a1 : s1.mem e.addr = some ⟨e.key, e.val, e.pri, l.ptr, r.ptr⟩ := by
          rw [g2.frame _ n2 (by omega), r1]
        have al : ∀ q ∈ l.addrs, s1.mem q = s.mem q := fun q hq =>
          g2.frame q (fun h => n4 q hq q (.inr h) rfl) (fun h => by
            have := hlt q ((hmem q).mpr (.inl hq)); omega)
        have ynl : y.addr ∉ l.addrs := fun h => by
          rcases (haddr y.addr).mp (by simp [addrs, ents]) with h1 | h1
          · have := hlt _ ((hmem _).mpr (.inl h)); omega
          · exact n4 _ h _ (.inr h1) rfl
        have enl : e.addr ∉ l.addrs := fun h => n4 _ h _ (.inl rfl) rfl
        simp only [addrs, ents, List.map_append, List.map_cons, List.nodup_append, List.nodup_cons, List.mem_cons] at hnd
        obtain ⟨m1, ⟨m2, m3⟩, m4⟩ := hnd
        rw [Act.bind_ok g1, finish_ok a1 y1 hya]
        simp only [balR]
        split
        · refine ⟨_, rfl, ⟨?_, ?_, ?_⟩, ?_, g2.next, g2.drawn, g2.fails, g2.rand⟩
          · simp [setMem_same, Node.setCh, ptr]
          · refine ⟨?_, ?_, ?_⟩
            · simp only; rw [setMem_ne _ (Ne.symm hya), setMem_same]; simp [Node.setCh, Node.ch]
            · refine r2.frame fun q hq => ?_
              simp only
              rw [setMem_ne _ (ne_of_mem_of_not_mem hq ynl), setMem_ne _ (ne_of_mem_of_not_mem hq enl), al q hq]
            · refine y2.frame fun q hq => ?_
              simp only
              rw [setMem_ne _ (m4 q hq y.addr (.inl rfl)), setMem_ne _ (hne q (by simp [addrs, ents]; exact .inl (by simpa [addrs] using hq)))]
          · refine y3.frame fun q hq => ?_
            simp only
            rw [setMem_ne _ (ne_of_mem_of_not_mem hq m2), setMem_ne _ (hne q (by simp [addrs, ents]; exact .inr (.inr (by simpa [addrs] using hq))))]
          · intro q hq hqn
            have h2 : q ∉ (node y yl yr).addrs := fun h => by
              rcases (haddr q).mp h with h | h
              · exact hqn h
              · exact hq ((hmem q).mpr (.inr (.inr h)))
            simp only
            rw [setMem_ne _ (fun h => h2 (by rw [h]; simp [addrs, ents])),
              setMem_ne _ (fun h => hq ((hmem q).mpr (.inr (.inl h)))), g2.frame q (fun h => hq ((hmem q).mpr (.inr (.inr h)))) hqn]
        · refine ⟨_, rfl, ⟨?_, ?_, ?_⟩, ?_, g2.next, g2.drawn, g2.fails, g2.rand⟩
          · simp [setMem_same, Node.setCh, ptr]
          · refine r2.frame fun q hq => ?_
            simp only
            rw [setMem_ne _ (ne_of_mem_of_not_mem hq enl), al q hq]
          · refine g2.rep.frame fun q hq => ?_
            simp only
            rw [setMem_ne _ (hne q hq)]
          · intro q hq hqn
            simp only
            rw [setMem_ne _ (fun h => hq ((hmem q).mpr (.inr (.inl h)))), g2.frame q (fun h => hq ((hmem q).mpr (.inr (.inr h)))) hqn]
    · rw [if_neg hg]
      simp only [hg, Node.ch, Bool.false_eq_true, if_false]
      rcases ihl f { s with calls := s.calls + 1 + 1 + 1 } r2 n1 q3 (fun a ha => hlt a ((hmem a).mpr (.inl ha))) (by omega) with
        ⟨s1, g1, c, rfl⟩ | ⟨x, s1, hx, g1, c, rfl⟩ | ⟨hl, s1, g1, g2⟩
      · exact .inl ⟨_, Act.bind_exc g1, c, rfl⟩
      · refine .inr (.inl ⟨x, { s with calls := c }, hx, ?_, c, rfl⟩)
        rw [Act.bind_ok g1]
        cases l with
        | leaf => simp [lookK] at hx
        | node y yl yr =>
          obtain ⟨y1, _, _⟩ := r2
          have hya : y.addr ≠ e.addr := fun h => enl (by rw [← h]; simp [addrs, ents])
          have hyp := q1 y (by simp [ents])
          simp only [ptr]
          rw [finish_ok (s := { s with calls := c }) r1 y1 hya, if_neg (by simp only; omega)]
          congr 1
          have : setMem s.mem e.addr (some ((⟨e.key, e.val, e.pri, some y.addr, r.ptr⟩ : Node K V).setCh false (some y.addr))) = s.mem := by
            funext q; simp only [setMem]; split
            · rename_i hq; rw [hq, r1]; rfl
            · rfl
          simp only [ptr] at *
          rw [this]
      · refine .inr (.inr ⟨hl, ?_⟩)
        simp only at g1
        replace g2 : InsertedK s s1 l (insK C ⟨k, s.next, v, s.rand s.drawn⟩ l) := ⟨g2.rep, g2.frame, g2.next, g2.drawn, g2.fails, g2.rand⟩
        have hperm := insK_perm (C := C) (x := ⟨k, s.next, v, s.rand s.drawn⟩) hl
        have haddr : ∀ q, q ∈ (insK C ⟨k, s.next, v, s.rand s.drawn⟩ l).addrs ↔ q = s.next ∨ q ∈ l.addrs := by
          intro q
          have := (hperm.map (·.addr)).mem_iff (a := q)
          simpa [addrs] using this
        simp only [insK, hk, hg]
        obtain ⟨y, yl, yr, hy⟩ := insK_node (C := C) ⟨k, s.next, v, s.rand s.drawn⟩ l
        have hnd : (insK C ⟨k, s.next, v, s.rand s.drawn⟩ l).addrs.Nodup := by
          have h := (hperm.map (·.addr)).nodup_iff
          simp only [addrs]
          rw [h, List.map_cons, List.nodup_cons]
          refine ⟨?_, n1⟩
          intro hc
          exact absurd (hlt s.next ((hmem _).mpr (.inl hc))) (Nat.lt_irrefl _)
        rw [hy] at g1 g2 haddr hnd ⊢
        rw [show (node y yl yr).ptr = some y.addr from rfl] at g1
        have g3 := g2.rep
        obtain ⟨y1, y2, y3⟩ := g3
        have hne : ∀ q, q ∈ (node y yl yr).addrs → q ≠ e.addr := by
          intro q hq h
          subst h
          rcases (haddr _).mp hq with h | h
          · omega
          · exact enl h
        have hya := hne y.addr (by simp [addrs, ents])
        have a1 : s1.mem e.addr = some ⟨e.key, e.val, e.pri, l.ptr, r.ptr⟩ := by
          rw [g2.frame _ enl (by omega), r1]
        have ar : ∀ q ∈ r.addrs, s1.mem q = s.mem q := fun q hq =>
          g2.frame q (fun h => n4 q h q (.inr hq) rfl) (fun h => by
            have := hlt q ((hmem q).mpr (.inr (.inr hq))); omega)
        have ynr : y.addr ∉ r.addrs := fun h => by
          rcases (haddr y.addr).mp (by simp [addrs, ents]) with h1 | h1
          · have := hlt _ ((hmem _).mpr (.inr (.inr h))); omega
          · exact n4 _ h1 _ (.inr h) rfl
        simp only [addrs, ents, List.map_append, List.map_cons, List.nodup_append, List.nodup_cons, List.mem_cons] at hnd
        obtain ⟨m1, ⟨m2, m3⟩, m4⟩ := hnd
        rw [Act.bind_ok g1, finish_ok a1 y1 hya]
        simp only [balL]
        split
        · refine ⟨_, rfl, ⟨?_, ?_, ?_⟩, ?_, g2.next, g2.drawn, g2.fails, g2.rand⟩
          · simp [setMem_same, Node.setCh, ptr]
          · refine y2.frame fun q hq => ?_
            simp only
            rw [setMem_ne _ (m4 q hq y.addr (.inl rfl)), setMem_ne _ (hne q (by simp [addrs, ents]; exact .inl (by simpa [addrs] using hq)))]
          · refine ⟨?_, ?_, ?_⟩
            · simp only; rw [setMem_ne _ (Ne.symm hya), setMem_same]; simp [Node.setCh, Node.ch]
            · refine y3.frame fun q hq => ?_
              simp only
              rw [setMem_ne _ (ne_of_mem_of_not_mem hq m2), setMem_ne _ (hne q (by simp [addrs, ents]; exact .inr (.inr (by simpa [addrs] using hq))))]
            · refine r3.frame fun q hq => ?_
              simp only
              rw [setMem_ne _ (ne_of_mem_of_not_mem hq ynr), setMem_ne _ (ne_of_mem_of_not_mem hq n2), ar q hq]
          · intro q hq hqn
            have h2 : q ∉ (node y yl yr).addrs := fun h => by
              rcases (haddr q).mp h with h | h
              · exact hqn h
              · exact hq ((hmem q).mpr (.inl h))
            simp only
            rw [setMem_ne _ (fun h => h2 (by rw [h]; simp [addrs, ents])),
              setMem_ne _ (fun h => hq ((hmem q).mpr (.inr (.inl h)))), g2.frame q (fun h => hq ((hmem q).mpr (.inl h))) hqn]
        · refine ⟨_, rfl, ⟨?_, ?_, ?_⟩, ?_, g2.next, g2.drawn, g2.fails, g2.rand⟩
          · simp [setMem_same, Node.setCh, ptr]
          · refine g2.rep.frame fun q hq => ?_
            simp only
            rw [setMem_ne _ (hne q hq)]
          · refine r3.frame fun q hq => ?_
            simp only
            rw [setMem_ne _ (ne_of_mem_of_not_mem hq n2), ar q hq]
          · intro q hq hqn
            simp only
            rw [setMem_ne _ (fun h => hq ((hmem q).mpr (.inr (.inl h)))), g2.frame q (fun h => hq ((hmem q).mpr (.inl h))) hqn]

theorem findK_ok (k : K) : ∀ (t : Tree K V) (f : Nat) (s : Mem K V), Rep s.mem t → t.depth < f →
    (∃ s', findK C f t.ptr k s = .exc s' ∧ Quiet s s') ∨ ∃ s', findK C f t.ptr k s = .ok s' ((lookK C t k).map (·.addr)) ∧ Quiet s s' := by
  intro t
  induction t with
  | leaf =>
    intro f s _ hf
    obtain ⟨f, rfl⟩ : ∃ g, f = g + 1 := ⟨f - 1, by omega⟩
    exact .inr ⟨s, rfl, .refl s⟩
  | node e l r ihl ihr =>
    intro f s hr hf
    obtain ⟨f, rfl⟩ : ∃ g, f = g + 1 := ⟨f - 1, by omega⟩
    obtain ⟨r1, r2, r3⟩ := hr
    simp only [depth] at hf
    rw [show (node e l r).ptr = some e.addr from rfl]
    simp only [findK, lookK]
    rw [Act.bind_ok (deref_ok r1)]
    rcases tick_spec s with e1 | e1 <;> [skip; exact .inl ⟨_, Act.bind_exc e1, _, rfl⟩]
    rw [Act.bind_ok e1]
    simp only
    by_cases hk : C.eq k e.key = true
    · rw [if_pos hk, if_pos hk]; exact .inr ⟨_, rfl, _, rfl⟩
    rw [if_neg hk, if_neg hk]
    rcases tick_spec { s with calls := s.calls + 1 } with e2 | e2 <;> [skip; exact .inl ⟨_, Act.bind_exc e2, _, rfl⟩]
    rw [Act.bind_ok e2]
    by_cases hg : C.gt k e.key = true
    · simp only [hg, Node.ch, if_true]
      rcases ihr f { s with calls := s.calls + 1 + 1 } r3 (by omega) with ⟨u, h, c, rfl⟩ | ⟨u, h, c, rfl⟩
      · exact .inl ⟨_, h, c, rfl⟩
      · exact .inr ⟨_, h, c, rfl⟩
    · simp only [hg, Node.ch, Bool.false_eq_true, if_false]
      rcases ihl f { s with calls := s.calls + 1 + 1 } r2 (by omega) with ⟨u, h, c, rfl⟩ | ⟨u, h, c, rfl⟩
      · exact .inl ⟨_, h, c, rfl⟩
      · exact .inr ⟨_, h, c, rfl⟩

theorem upperK_ok (k : K) : ∀ (t : Tree K V) (f : Nat) (s : Mem K V), Rep s.mem t → t.depth < f →
    (∃ s', upperK C f t.ptr k s = .exc s' ∧ Quiet s s') ∨ ∃ s', upperK C f t.ptr k s = .ok s' ((upK C t k).map (·.addr)) ∧ Quiet s s' := by
  intro t
  induction t with
  | leaf =>
    intro f s _ hf
    obtain ⟨f, rfl⟩ : ∃ g, f = g + 1 := ⟨f - 1, by omega⟩
    exact .inr ⟨s, rfl, .refl s⟩
  | node e l r ihl ihr =>
    intro f s hr hf
    obtain ⟨f, rfl⟩ : ∃ g, f = g + 1 := ⟨f - 1, by omega⟩
    obtain ⟨r1, r2, r3⟩ := hr
    simp only [depth] at hf
    rw [show (node e l r).ptr = some e.addr from rfl]
    simp only [upperK, upK]
    rw [Act.bind_ok (deref_ok r1)]
    rcases tick_spec s with e1 | e1 <;> [skip; exact .inl ⟨_, Act.bind_exc e1, _, rfl⟩]
    rw [Act.bind_ok e1]
    simp only
    by_cases hk : C.lt k e.key = true
    · rw [if_pos hk, if_pos hk]
      rcases ihl f { s with calls := s.calls + 1 } r2 (by omega) with ⟨u, h, c, rfl⟩ | ⟨u, h, c, rfl⟩
      · exact .inl ⟨_, Act.bind_exc h, c, rfl⟩
      · refine .inr ⟨{ s with calls := c }, ?_, c, rfl⟩
        rw [Act.bind_ok h]
        cases upK C l k <;> rfl
    · rw [if_neg hk, if_neg hk]
      rcases ihr f { s with calls := s.calls + 1 } r3 (by omega) with ⟨u, h, c, rfl⟩ | ⟨u, h, c, rfl⟩
      · exact .inl ⟨_, h, c, rfl⟩
      · exact .inr ⟨_, h, c, rfl⟩

/-! The map. -/

/-- The memory holds the tree and nothing else. -/
structure Inv (s : St K V) (t : Tree K V) : Prop where
  root : s.root = t.ptr
  rep : Rep s.m.mem t
  nodup : t.addrs.Nodup
  heap : t.IsHeap
  lt : ∀ a ∈ t.addrs, a < s.m.next
  owned : ∀ a, s.m.mem a ≠ none → a ∈ t.addrs

theorem Inv.depth {s : St K V} {t : Tree K V} (I : Inv s t) : t.depth < fuel s.m := depth_lt_of_bound I.nodup I.lt

/-- Only the counter of events has changed. -/
def Still (s s' : St K V) : Prop := ∃ c, s' = { s with m := { s.m with calls := c } }

theorem Inv.still {s s' : St K V} {t : Tree K V} (I : Inv s t) (h : Still s s') : Inv s' t := by
  obtain ⟨c, rfl⟩ := h
  exact ⟨I.root, I.rep, I.nodup, I.heap, I.lt, I.owned⟩

theorem Still.trans {s s' s'' : St K V} (h : Still s s') (h' : Still s' s'') : Still s s'' := by
  obtain ⟨c, rfl⟩ := h
  obtain ⟨d, rfl⟩ := h'
  exact ⟨d, rfl⟩

/-- Another value in the node at `a`. -/
def setAt (a : Nat) (v : V) : Tree K V → Tree K V
  | leaf => leaf
  | node e l r => node (if e.addr = a then { e with val := v } else e) (setAt a v l) (setAt a v r)

theorem setAt_ents (a : Nat) (v : V) (t : Tree K V) : (setAt a v t).ents = t.ents.map fun e => if e.addr = a then { e with val := v } else e := by
  induction t with
  | leaf => rfl
  | node e l r ihl ihr => simp only [setAt, ents, ihl, ihr, List.map_append, List.map_cons]

theorem setAt_addrs (a : Nat) (v : V) (t : Tree K V) : (setAt a v t).addrs = t.addrs := by
  simp only [addrs, setAt_ents, List.map_map]
  apply List.map_congr_left
  intro e _
  simp only [Function.comp]
  split <;> rfl

theorem setAt_ptr (a : Nat) (v : V) (t : Tree K V) : (setAt a v t).ptr = t.ptr := by
  cases t with
  | leaf => rfl
  | node e l r => simp only [setAt, ptr]; split <;> rfl

theorem setAt_heap {a : Nat} {v : V} {t : Tree K V} (h : t.IsHeap) : (setAt a v t).IsHeap := by
  induction t with
  | leaf => exact h
  | node e l r ihl ihr =>
    obtain ⟨h1, h2, h3, h4⟩ := h
    have pe : ∀ x : Ent K V, (if x.addr = a then { x with val := v } else x).pri = x.pri := fun x => by split <;> rfl
    refine ⟨fun x hx => ?_, fun x hx => ?_, ihl h3, ihr h4⟩
    · rw [setAt_ents] at hx
      obtain ⟨y, hy, rfl⟩ := List.mem_map.mp hx
      rw [pe, pe]; exact h1 y hy
    · rw [setAt_ents] at hx
      obtain ⟨y, hy, rfl⟩ := List.mem_map.mp hx
      rw [pe, pe]; exact h2 y hy

theorem setAt_rep {a : Nat} {v : V} {m : Nat → Option (Node K V)} {n : Node K V} (hn : m a = some n) : ∀ {t : Tree K V}, Rep m t → Rep (setMem m a (some { n with val := v })) (setAt a v t)
  | leaf, _ => trivial
  | node e l r, h => by
    obtain ⟨h1, h2, h3⟩ := h
    refine ⟨?_, setAt_rep hn h2, setAt_rep hn h3⟩
    by_cases he : e.addr = a
    · simp only [he, if_true, setMem, setAt_ptr]
      rw [he, hn] at h1
      cases h1
      rfl
    · simp only [he, if_false, setMem, setAt_ptr, h1]

theorem Inv.setAt {s : St K V} {t : Tree K V} (I : Inv s t) {a : Nat} {n : Node K V} (hn : s.m.mem a = some n) (v : V) (c : Nat) :
    Inv { s with m := { s.m with calls := c, mem := setMem s.m.mem a (some { n with val := v }) } } (setAt a v t) := by
  refine ⟨by rw [setAt_ptr]; exact I.root, setAt_rep hn I.rep, by rw [setAt_addrs]; exact I.nodup, setAt_heap I.heap, by rw [setAt_addrs]; exact I.lt, fun q hq => ?_⟩
  rw [setAt_addrs]
  by_cases h : q = a
  · subst h; exact I.owned q (by simp [hn])
  · exact I.owned q (by simpa [setMem, h] using hq)

theorem insert_spec {s : St K V} {t : Tree K V} (I : Inv s t) (k : K) (v : V) :
    (∃ s', insert C k v s = .exc s' ∧ Still s s') ∨
    (∃ e s', lookK C t k = some e ∧ insert C k v s = .ok s' (e.addr, false) ∧ Still s s') ∨
    (lookK C t k = none ∧ ∃ s' x, x.key = k ∧ x.val = v ∧ x.addr = s.m.next ∧ insert C k v s = .ok s' (x.addr, true) ∧ Inv s' (insK C x t)) := by
  simp only [insert, I.root]
  rcases insertK_ok (C := C) k v t (fuel s.m) s.m I.rep I.nodup I.heap I.lt I.depth with ⟨u, e, c, rfl⟩ | ⟨x, u, hx, e, c, rfl⟩ | ⟨hl, u, e, g⟩ <;> rw [e]
  · exact .inl ⟨_, rfl, c, by rw [← I.root]⟩
  · exact .inr (.inl ⟨x, _, hx, rfl, c, by rw [← I.root]⟩)
  · refine .inr (.inr ⟨hl, _, ⟨k, s.m.next, v, s.m.rand s.m.drawn⟩, rfl, rfl, rfl, rfl, ?_⟩)
    have hp := insK_perm (C := C) (x := ⟨k, s.m.next, v, s.m.rand s.m.drawn⟩) hl
    have ha : ∀ q, q ∈ (insK C ⟨k, s.m.next, v, s.m.rand s.m.drawn⟩ t).addrs ↔ q = s.m.next ∨ q ∈ t.addrs := by
      intro q
      have := (hp.map (·.addr)).mem_iff (a := q)
      simpa [addrs] using this
    refine ⟨rfl, g.rep, ?_, (insK_heap hl I.heap).1, fun q hq => ?_, fun q hq => ?_⟩
    · have h := (hp.map (·.addr)).nodup_iff
      simp only [addrs]
      rw [h, List.map_cons, List.nodup_cons]
      exact ⟨fun hc => absurd (I.lt _ hc) (Nat.lt_irrefl _), I.nodup⟩
    · simp only [g.next]
      rcases (ha q).mp hq with h | h
      · omega
      · have := I.lt q h; omega
    · rw [ha]
      by_cases h1 : q = s.m.next
      · exact .inl h1
      · by_cases h2 : q ∈ t.addrs
        · exact .inr h2
        · exact .inr (I.owned q (by rw [← g.frame q h2 h1]; exact hq))

theorem find_spec {s : St K V} {t : Tree K V} (I : Inv s t) (k : K) :
    (∃ s', find C k s = .exc s' ∧ Still s s') ∨ ∃ s', find C k s = .ok s' ((lookK C t k).map (·.addr)) ∧ Still s s' := by
  simp only [find, keep, I.root]
  rcases findK_ok (C := C) k t (fuel s.m) s.m I.rep I.depth with ⟨u, e, c, rfl⟩ | ⟨u, e, c, rfl⟩ <;> rw [e]
  · exact .inl ⟨_, rfl, c, by rw [← I.root]⟩
  · exact .inr ⟨_, rfl, c, by rw [← I.root]⟩

theorem upper_spec {s : St K V} {t : Tree K V} (I : Inv s t) (k : K) :
    (∃ s', upper C k s = .exc s' ∧ Still s s') ∨ ∃ s', upper C k s = .ok s' ((upK C t k).map (·.addr)) ∧ Still s s' := by
  simp only [upper, keep, I.root]
  rcases upperK_ok (C := C) k t (fuel s.m) s.m I.rep I.depth with ⟨u, e, c, rfl⟩ | ⟨u, e, c, rfl⟩ <;> rw [e]
  · exact .inl ⟨_, rfl, c, by rw [← I.root]⟩
  · exact .inr ⟨_, rfl, c, by rw [← I.root]⟩

theorem index_spec {s : St K V} {t : Tree K V} (I : Inv s t) (k : K) :
    (∃ s', index C k s = .exc s' ∧ Still s s') ∨
    (∃ e s', lookK C t k = some e ∧ index C k s = .ok s' e.addr ∧ Still s s') ∨
    (lookK C t k = none ∧ ∃ s' x, x.key = k ∧ x.val = C.dflt ∧ index C k s = .ok s' x.addr ∧ Inv s' (insK C x t)) := by
  simp only [index]
  have ht : (keep (fun _ => tick) : Act (St K V) Unit) s = .ok { s with m := { s.m with calls := s.m.calls + 1 } } () ∨
      (keep (fun _ => tick) : Act (St K V) Unit) s = .exc { s with m := { s.m with calls := s.m.calls + 1 } } := by
    simp only [keep]
    rcases tick_spec s.m with e | e <;> rw [e]
    · exact .inl rfl
    · exact .inr rfl
  rcases ht with e | e <;> [skip; exact .inl ⟨_, Act.bind_exc e, _, rfl⟩]
  rw [Act.bind_ok e]
  have S : Still s { s with m := { s.m with calls := s.m.calls + 1 } } := ⟨_, rfl⟩
  rcases insert_spec (C := C) (I.still S) k C.dflt with ⟨u, e, S'⟩ | ⟨x, u, hx, e, S'⟩ | ⟨hl, u, x, h1, h2, -, e, J⟩
  · exact .inl ⟨u, Act.bind_exc e, S.trans S'⟩
  · exact .inr (.inl ⟨x, u, hx, Act.bind_ok e, S.trans S'⟩)
  · exact .inr (.inr ⟨hl, u, x, h1, h2, Act.bind_ok e, J⟩)

/-- The node of an entry. -/
theorem Inv.node {s : St K V} {t : Tree K V} (I : Inv s t) {e : Ent K V} (h : e ∈ t.ents) : ∃ n, s.m.mem e.addr = some n ∧ n.val = e.val ∧ n.key = e.key := by
  have key : ∀ {t : Tree K V}, Rep s.m.mem t → e ∈ t.ents → ∃ n, s.m.mem e.addr = some n ∧ n.val = e.val ∧ n.key = e.key := by
    intro t
    induction t with
    | leaf => intro _ h; cases h
    | node x l r ihl ihr =>
      intro hr h
      simp only [ents, List.mem_append, List.mem_cons] at h
      rcases h with h | rfl | h
      · exact ihl hr.2.1 h
      · exact ⟨_, hr.1, rfl, rfl⟩
      · exact ihr hr.2.2 h
  exact key I.rep h

theorem insK_mem {x : Ent K V} {t : Tree K V} (h : lookK C t x.key = none) : x ∈ (insK C x t).ents := (insK_perm h).mem_iff.mpr (by simp)

theorem value_spec {s : St K V} {t : Tree K V} (I : Inv s t) {e : Ent K V} (h : e ∈ t.ents) : valueOf e.addr s = .ok s e.val := by
  obtain ⟨n, h1, h2, -⟩ := I.node h
  simp [valueOf, keep, h1, h2]

theorem assign_spec {s : St K V} {t : Tree K V} (I : Inv s t) {e : Ent K V} (h : e ∈ t.ents) (v : V) :
    (∃ s', assignTo C e.addr v s = .ok s' () ∧ Inv s' (setAt e.addr v t)) ∨ ∃ s' z, assignTo C e.addr v s = .exc s' ∧ Inv s' (setAt e.addr z t) := by
  obtain ⟨n, h1, h2, -⟩ := I.node h
  simp only [assignTo, keep, h1]
  cases hf : s.m.fails s.m.calls with
  | true => exact .inr ⟨_, C.wreck n.val v, rfl, I.setAt h1 _ _⟩
  | false => exact .inl ⟨_, rfl, I.setAt h1 _ _⟩

/-- The commands. -/
theorem exec_spec {s : St K V} {t : Tree K V} (I : Inv s t) (c : Cmd K V) :
    (∃ s', exec C c s = .exc s' ∧ Still s s') ∨
    match c with
    | .insert k v => (∃ e s', lookK C t k = some e ∧ exec C c s = .ok s' (.inserted false) ∧ Still s s') ∨
      (lookK C t k = none ∧ ∃ s' x, x.key = k ∧ x.val = v ∧ exec C c s = .ok s' (.inserted true) ∧ Inv s' (insK C x t))
    | .get k => (∃ e s', lookK C t k = some e ∧ exec C c s = .ok s' (.value e.val) ∧ Still s s') ∨
      (lookK C t k = none ∧ ∃ s' x, x.key = k ∧ x.val = C.dflt ∧ exec C c s = .ok s' (.value C.dflt) ∧ Inv s' (insK C x t))
    | .find k => (∃ e s', lookK C t k = some e ∧ exec C c s = .ok s' (.value e.val) ∧ Still s s') ∨
      (lookK C t k = none ∧ ∃ s', exec C c s = .ok s' .absent ∧ Still s s')
    | .set k v => ∃ e u, ((lookK C t k = some e ∧ u = t) ∨ (lookK C t k = none ∧ e.key = k ∧ u = insK C e t)) ∧
      ((∃ s', exec C c s = .ok s' .done ∧ Inv s' (setAt e.addr v u)) ∨ ∃ s' z, exec C c s = .exc s' ∧ Inv s' (setAt e.addr z u)) := by
  cases c with
  | insert k v =>
    simp only [exec]
    rcases insert_spec (C := C) I k v with ⟨u, e, S⟩ | ⟨x, u, hx, e, S⟩ | ⟨hl, u, x, h1, h2, -, e, J⟩
    · exact .inl ⟨u, Act.bind_exc e, S⟩
    · exact .inr (.inl ⟨x, u, hx, Act.bind_ok e, S⟩)
    · exact .inr (.inr ⟨hl, u, x, h1, h2, Act.bind_ok e, J⟩)
  | get k =>
    simp only [exec]
    rcases index_spec (C := C) I k with ⟨u, e, S⟩ | ⟨x, u, hx, e, S⟩ | ⟨hl, u, x, h1, h2, e, J⟩
    · exact .inl ⟨u, Act.bind_exc e, S⟩
    · refine .inr (.inl ⟨x, u, hx, ?_, S⟩)
      rw [Act.bind_ok e, Act.bind_ok (value_spec (I.still S) (lookK_mem hx).1)]; rfl
    · refine .inr (.inr ⟨hl, u, x, h1, h2, ?_, J⟩)
      subst h1
      rw [Act.bind_ok e, Act.bind_ok (value_spec J (insK_mem hl)), h2]; rfl
  | find k =>
    simp only [exec]
    rcases find_spec (C := C) I k with ⟨u, e, S⟩ | ⟨u, e, S⟩
    · exact .inl ⟨u, Act.bind_exc e, S⟩
    · rw [Act.bind_ok e]
      cases hl : lookK C t k with
      | none => exact .inr (.inr ⟨rfl, u, rfl, S⟩)
      | some x =>
        refine .inr (.inl ⟨x, u, rfl, ?_, S⟩)
        exact Act.bind_ok (value_spec (I.still S) (lookK_mem hl).1)
  | set k v =>
    simp only [exec]
    rcases index_spec (C := C) I k with ⟨u, e, S⟩ | ⟨x, u, hx, e, S⟩ | ⟨hl, u, x, h1, h2, e, J⟩
    · exact .inl ⟨u, Act.bind_exc e, S⟩
    · refine .inr ⟨x, t, .inl ⟨hx, rfl⟩, ?_⟩
      rw [Act.bind_ok e]
      rcases assign_spec (C := C) (I.still S) (lookK_mem hx).1 v with ⟨w, e', J⟩ | ⟨w, z, e', J⟩
      · exact .inl ⟨w, Act.bind_ok e', J⟩
      · exact .inr ⟨w, z, Act.bind_exc e', J⟩
    · refine .inr ⟨x, insK C x t, .inr ⟨hl, h1, rfl⟩, ?_⟩
      rw [Act.bind_ok e]
      subst h1
      rcases assign_spec (C := C) J (insK_mem hl) v with ⟨w, e', J⟩ | ⟨w, z, e', J⟩
      · exact .inl ⟨w, Act.bind_ok e', J⟩
      · exact .inr ⟨w, z, Act.bind_exc e', J⟩

/-- After a command there is a tree again. -/
theorem exec_inv {s : St K V} {t : Tree K V} (I : Inv s t) (c : Cmd K V) : (∃ s' r t', exec C c s = .ok s' r ∧ Inv s' t') ∨ ∃ s' t', exec C c s = .exc s' ∧ Inv s' t' := by
  have h := exec_spec (C := C) I c
  rcases h with ⟨u, e, S⟩ | h
  · exact .inr ⟨u, t, e, I.still S⟩
  cases c with
  | insert k v =>
    rcases h with ⟨x, u, hx, e, S⟩ | ⟨hl, u, x, h1, h2, e, J⟩
    · exact .inl ⟨u, _, t, e, I.still S⟩
    · exact .inl ⟨u, _, _, e, J⟩
  | get k =>
    rcases h with ⟨x, u, hx, e, S⟩ | ⟨hl, u, x, h1, h2, e, J⟩
    · exact .inl ⟨u, _, t, e, I.still S⟩
    · exact .inl ⟨u, _, _, e, J⟩
  | find k =>
    rcases h with ⟨x, u, hx, e, S⟩ | ⟨hl, u, e, S⟩
    · exact .inl ⟨u, _, t, e, I.still S⟩
    · exact .inl ⟨u, _, t, e, I.still S⟩
  | set k v =>
    obtain ⟨x, u, -, h⟩ := h
    rcases h with ⟨w, e, J⟩ | ⟨w, z, e, J⟩
    · exact .inl ⟨w, _, _, e, J⟩
    · exact .inr ⟨w, _, e, J⟩

theorem inv_init (fails : Nat → Bool) (rand : Nat → Nat) : Inv (init fails rand : St K V) leaf :=
  ⟨rfl, trivial, by simp [addrs, ents], trivial, fun _ h => (by cases h), fun _ h => (h rfl).elim⟩

theorem dtor_spec {s : St K V} {t : Tree K V} (I : Inv s t) : ∃ s', dtor s = .ok s' () ∧ ∀ q, s'.m.mem q = none := by
  have h := deleteP_ok t (fuel s.m) s.m I.rep I.nodup I.depth
  refine ⟨⟨{ s.m with mem := fun q => if q ∈ t.addrs then none else s.m.mem q }, t.ptr⟩, by simp only [dtor, keep, I.root, h], fun q => ?_⟩
  simp only
  split
  · rfl
  · rename_i hq
    exact Classical.byContradiction fun h => hq (I.owned q h)

/-! Keys with an order. -/

variable {Q : Type} [LinearOrder Q]

/-- The tree with the ranks of the keys. -/
def rankT (r : K → Q) : Tree K V → Tree Q V
  | leaf => leaf
  | node e a b => node ⟨r e.key, e.addr, e.val, e.pri⟩ (rankT r a) (rankT r b)

def rankE (r : K → Q) (e : Ent K V) : Ent Q V := ⟨r e.key, e.addr, e.val, e.pri⟩

omit [LinearOrder Q] in
theorem rankT_ents (r : K → Q) (t : Tree K V) : (rankT r t).ents = t.ents.map (rankE r) := by
  induction t with
  | leaf => rfl
  | node e a b iha ihb => simp only [rankT, ents, iha, ihb, List.map_append, List.map_cons]; rfl

theorem rankT_look {r : K → Q} {k : K} : ∀ {t : Tree K V}, (∀ e ∈ t.ents, C.eq k e.key = decide (r k = r e.key) ∧ C.gt k e.key = decide (r k > r e.key)) →
    look (rankT r t) (r k) = (lookK C t k).map (rankE r)
  | leaf, _ => rfl
  | node e a b, h => by
    have he := h e (by simp [ents])
    simp only [rankT, look, lookK, he.1, he.2, decide_eq_true_eq]
    have h1 := rankT_look (t := a) (k := k) (r := r) fun x hx => h x (by simp [ents, hx])
    have h2 := rankT_look (t := b) (k := k) (r := r) fun x hx => h x (by simp [ents, hx])
    split
    · rfl
    · split
      · exact h2
      · exact h1

theorem rankT_ins {r : K → Q} {x : Ent K V} : ∀ {t : Tree K V}, (∀ e ∈ t.ents, C.eq x.key e.key = decide (r x.key = r e.key) ∧ C.gt x.key e.key = decide (r x.key > r e.key)) →
    rankT r (insK C x t) = ins (rankE r x) (rankT r t)
  | leaf, _ => rfl
  | node e a b, h => by
    have he := h e (by simp [ents])
    have h1 := rankT_ins (t := a) (x := x) (r := r) fun y hy => h y (by simp [ents, hy])
    have h2 := rankT_ins (t := b) (x := x) (r := r) fun y hy => h y (by simp [ents, hy])
    have bR : ∀ u : Tree K V, rankT r (balR e a u) = balR (rankE r e) (rankT r a) (rankT r u) := fun u => by
      cases u with
      | leaf => rfl
      | node s sl sr => by_cases hp : e.pri > s.pri <;> simp [balR, rankT, rankE, hp]
    have bL : ∀ u : Tree K V, rankT r (balL e b u) = balL (rankE r e) (rankT r b) (rankT r u) := fun u => by
      cases u with
      | leaf => rfl
      | node s sl sr => by_cases hp : e.pri > s.pri <;> simp [balL, rankT, rankE, hp]
    simp only [rankT, ins, insK, he.1, he.2, decide_eq_true_eq, rankE]
    split
    · rfl
    · split
      · rw [bR, h2]; rfl
      · rw [bL, h1]; rfl

/-- The map as a function of ranks. -/
def fn (r : K → Q) (t : Tree K V) : Q → Option V := fun q => (look (rankT r t) q).map (·.val)

theorem fn_set {r : K → Q} {t : Tree K V} (hb : (rankT r t).Bst) (hn : t.addrs.Nodup) {e : Ent K V} (he : e ∈ t.ents) (v : V) :
    (rankT r (setAt e.addr v t)).Bst ∧ fn r (setAt e.addr v t) = fun q => if q = r e.key then some v else fn r t q := by
  have en : (rankT r (setAt e.addr v t)).ents = (rankT r t).ents.map fun x => if x.addr = e.addr then { x with val := v } else x := by
    rw [rankT_ents, setAt_ents, rankT_ents, List.map_map, List.map_map]
    apply List.map_congr_left
    intro x _
    simp only [Function.comp, rankE]
    by_cases hx : x.addr = e.addr
    · simp [hx]
    · simp [hx]
  have hb' : (rankT r (setAt e.addr v t)).Bst := by
    have hk : ∀ x : Ent Q V, (if x.addr = e.addr then { x with val := v } else x).key = x.key := fun x => by split <;> rfl
    rw [Bst, en, List.pairwise_map]
    simp only [hk]
    exact hb
  refine ⟨hb', ?_⟩
  have me : rankE r e ∈ (rankT r t).ents := by rw [rankT_ents]; exact List.mem_map_of_mem he
  funext q
  simp only [fn]
  split
  · rename_i hq
    subst hq
    have : (⟨r e.key, e.addr, v, e.pri⟩ : Ent Q V) ∈ (rankT r (setAt e.addr v t)).ents := by
      rw [en]
      exact List.mem_map.mpr ⟨_, me, by simp [rankE]⟩
    have h := look_of_mem hb' this
    simp only at h
    rw [h]; rfl
  · rename_i hq
    cases hl : look (rankT r t) q with
    | some x =>
      obtain ⟨h1, h2⟩ := look_mem hl
      subst h2
      have hx : x.addr ≠ e.addr := by
        intro ha
        rw [rankT_ents] at h1
        obtain ⟨y, hy, rfl⟩ := List.mem_map.mp h1
        have hye : y = e := List.inj_on_of_nodup_map hn hy he ha
        subst hye
        exact hq rfl
      have : x ∈ (rankT r (setAt e.addr v t)).ents := by
        rw [en]
        exact List.mem_map.mpr ⟨x, h1, by simp [hx]⟩
      rw [look_of_mem hb' this]
    | none =>
      cases hl' : look (rankT r (setAt e.addr v t)) q with
      | none => rfl
      | some x =>
        obtain ⟨h1, h2⟩ := look_mem hl'
        rw [en] at h1
        obtain ⟨y, hy, rfl⟩ := List.mem_map.mp h1
        have hk : (if y.addr = e.addr then { y with val := v } else y).key = y.key := by split <;> rfl
        rw [hk] at h2
        rw [← h2, look_of_mem hb hy] at hl; cases hl

/-- What the search for the next key finds. -/
theorem upK_spec {r : K → Q} {k : K} : ∀ {t : Tree K V}, (rankT r t).Bst → (∀ e ∈ t.ents, C.lt k e.key = decide (r k < r e.key)) →
    match upK C t k with
    | none => ∀ e ∈ t.ents, ¬ r k < r e.key
    | some x => x ∈ t.ents ∧ r k < r x.key ∧ ∀ e ∈ t.ents, r k < r e.key → r x.key ≤ r e.key
  | leaf, _, _ => fun _ h => (by cases h)
  | node e a b, hb, ho => by
    obtain ⟨b1, b2, b3, b4⟩ := bst_node.mp hb
    have la : ∀ x ∈ a.ents, r x.key < r e.key := fun x hx => b3 (rankE r x) (by rw [rankT_ents]; exact List.mem_map_of_mem hx)
    have lb : ∀ x ∈ b.ents, r e.key < r x.key := fun x hx => b4 (rankE r x) (by rw [rankT_ents]; exact List.mem_map_of_mem hx)
    have iha := upK_spec (t := a) (k := k) b1 fun x hx => ho x (by simp [ents, hx])
    have ihb := upK_spec (t := b) (k := k) b2 fun x hx => ho x (by simp [ents, hx])
    have he := ho e (by simp [ents])
    simp only [upK, he, decide_eq_true_eq, ents, List.mem_append, List.mem_cons]
    by_cases hk : r k < r e.key
    · rw [if_pos hk]
      cases hu : upK C a k with
      | none =>
        rw [hu] at iha
        refine ⟨.inr (.inl rfl), hk, ?_⟩
        rintro x (hx | rfl | hx) hlt
        · exact (iha x hx hlt).elim
        · exact le_refl _
        · exact le_of_lt (lb x hx)
      | some y =>
        rw [hu] at iha
        obtain ⟨i1, i2, i3⟩ := iha
        refine ⟨.inl i1, i2, ?_⟩
        rintro x (hx | rfl | hx) hlt
        · exact i3 x hx hlt
        · exact le_of_lt (la y i1)
        · exact le_of_lt (lt_trans (la y i1) (lb x hx))
    · rw [if_neg hk]
      cases hu : upK C b k with
      | none =>
        rw [hu] at ihb
        rintro x (hx | rfl | hx)
        · exact fun h => hk (lt_trans h (la x hx))
        · exact hk
        · exact ihb x hx
      | some y =>
        rw [hu] at ihb
        obtain ⟨i1, i2, i3⟩ := ihb
        refine ⟨.inr (.inr i1), i2, ?_⟩
        rintro x (hx | rfl | hx) hlt
        · exact (hk (lt_trans hlt (la x hx))).elim
        · exact (hk hlt).elim
        · exact i3 x hx hlt

end Nanostl.Map.Keys

import Verif.Map.Model
import Mathlib.Data.List.Nodup
import Mathlib.Data.List.Perm.Subperm

/-! Trees as mathematical objects, and the correspondence of the pointer structure with them. -/

namespace Nanostl.Map

/-- What a node stores: key, address, value, priority. -/
structure Ent (K V : Type) where
  key : K
  addr : Nat
  val : V
  pri : Nat
  deriving DecidableEq

inductive Tree (K V : Type) where
  | leaf
  | node (e : Ent K V) (l r : Tree K V)

namespace Tree

variable {K V : Type}

def ptr : Tree K V → Option Nat
  | leaf => none
  | node e _ _ => some e.addr

/-- In-order walk. -/
def ents : Tree K V → List (Ent K V)
  | leaf => []
  | node e l r => ents l ++ e :: ents r

def addrs (t : Tree K V) : List Nat := t.ents.map (·.addr)

def depth : Tree K V → Nat
  | leaf => 0
  | node _ l r => max (depth l) (depth r) + 1

/-- The memory holds the tree. -/
def Rep (m : Nat → Option (Node K V)) : Tree K V → Prop
  | leaf => True
  | node e l r => m e.addr = some ⟨e.key, e.val, e.pri, l.ptr, r.ptr⟩ ∧ Rep m l ∧ Rep m r

theorem Rep.frame {m m' : Nat → Option (Node K V)} : ∀ {t : Tree K V}, Rep m t → (∀ q ∈ t.addrs, m' q = m q) → Rep m' t
  | leaf, _, _ => trivial
  | node e l r, h, f => by
    simp only [addrs, ents, List.map_append, List.map_cons, List.mem_append, List.mem_cons] at f
    exact ⟨by rw [f _ (.inr (.inl rfl))]; exact h.1, h.2.1.frame (fun q hq => f q (.inl hq)),
      h.2.2.frame (fun q hq => f q (.inr (.inr hq)))⟩

theorem depth_le (t : Tree K V) : t.depth ≤ t.ents.length := by
  induction t with
  | leaf => simp [depth]
  | node e l r ihl ihr => simp only [depth, ents, List.length_append, List.length_cons]; omega

theorem depth_lt_of_bound {t : Tree K V} {n : Nat} (hn : t.addrs.Nodup) (hb : ∀ a ∈ t.addrs, a < n) : t.depth < n + 1 := by
  have h1 := t.depth_le
  have h2 : t.addrs.length ≤ (List.range n).length :=
    (List.subperm_of_subset hn (fun a ha => List.mem_range.mpr (hb a ha))).length_le
  simp [addrs] at h2
  omega

/-- Priorities never decrease from parent to child. -/
def IsHeap : Tree K V → Prop
  | leaf => True
  | node e l r => (∀ x ∈ l.ents, e.pri ≤ x.pri) ∧ (∀ x ∈ r.ents, e.pri ≤ x.pri) ∧ IsHeap l ∧ IsHeap r

variable [LinearOrder K]

/-- Keys strictly increase along the in-order walk. -/
def Bst (t : Tree K V) : Prop := t.ents.Pairwise (fun x y => x.key < y.key)

theorem bst_node {e : Ent K V} {l r : Tree K V} : (node e l r).Bst ↔
    l.Bst ∧ r.Bst ∧ (∀ x ∈ l.ents, x.key < e.key) ∧ (∀ x ∈ r.ents, e.key < x.key) := by
  simp only [Bst, ents, List.pairwise_append, List.pairwise_cons, List.mem_cons]
  constructor
  · rintro ⟨h1, ⟨h2, h3⟩, h4⟩
    exact ⟨h1, h3, fun x hx => h4 x hx e (.inl rfl), h2⟩
  · rintro ⟨h1, h2, h3, h4⟩
    refine ⟨h1, ⟨h4, h2⟩, ?_⟩
    rintro x hx y (rfl | hy)
    · exact h3 x hx
    · exact lt_trans (h3 x hx) (h4 y hy)

/-- Search. -/
def look : Tree K V → K → Option (Ent K V)
  | leaf, _ => none
  | node e l r, k => if k = e.key then some e else if k > e.key then look r k else look l k

theorem look_mem {t : Tree K V} {k : K} {e : Ent K V} (h : look t k = some e) : e ∈ t.ents ∧ e.key = k := by
  induction t with
  | leaf => simp [look] at h
  | node x l r ihl ihr =>
    simp only [look] at h
    simp only [ents, List.mem_append, List.mem_cons]
    split at h
    · rename_i hk; cases h; exact ⟨.inr (.inl rfl), hk.symm⟩
    · split at h
      · exact ⟨.inr (.inr (ihr h).1), (ihr h).2⟩
      · exact ⟨.inl (ihl h).1, (ihl h).2⟩

theorem look_of_mem {t : Tree K V} (hb : t.Bst) {e : Ent K V} (h : e ∈ t.ents) : look t e.key = some e := by
  induction t with
  | leaf => simp [ents] at h
  | node x l r ihl ihr =>
    obtain ⟨b1, b2, b3, b4⟩ := bst_node.mp hb
    simp only [ents, List.mem_append, List.mem_cons] at h
    simp only [look]
    rcases h with h | rfl | h
    · have := b3 e h
      rw [if_neg (ne_of_lt this), if_neg (not_lt_of_gt this), ihl b1 h]
    · simp
    · have := b4 e h
      rw [if_neg (ne_of_gt this), if_pos this, ihr b2 h]

/-- Rotation upwards of the right (left) child when its priority is smaller. -/
def balR (e : Ent K V) (l : Tree K V) : Tree K V → Tree K V
  | leaf => node e l leaf
  | node s sl sr => if e.pri > s.pri then node s (node e l sl) sr else node e l (node s sl sr)

def balL (e : Ent K V) (r : Tree K V) : Tree K V → Tree K V
  | leaf => node e leaf r
  | node s sl sr => if e.pri > s.pri then node s sl (node e sr r) else node e (node s sl sr) r

/-- Insertion with address `a` and priority `p` for the new node. -/
def ins (x : Ent K V) : Tree K V → Tree K V
  | leaf => node x leaf leaf
  | node e l r => if x.key = e.key then node e l r else if x.key > e.key then balR e l (ins x r) else balL e r (ins x l)

omit [LinearOrder K] in
theorem ents_balR (e : Ent K V) (l r : Tree K V) : (balR e l r).ents = l.ents ++ e :: r.ents := by
  cases r with
  | leaf => rfl
  | node s sl sr => simp only [balR]; split <;> simp [ents]

omit [LinearOrder K] in
theorem ents_balL (e : Ent K V) (r l : Tree K V) : (balL e r l).ents = l.ents ++ e :: r.ents := by
  cases l with
  | leaf => rfl
  | node s sl sr => simp only [balL]; split <;> simp [ents]

theorem ins_perm {x : Ent K V} {t : Tree K V} (h : look t x.key = none) : (ins x t).ents.Perm (x :: t.ents) := by
  induction t with
  | leaf => exact List.Perm.refl _
  | node e l r ihl ihr =>
    simp only [look] at h
    simp only [ins]
    split at h
    · cases h
    · rename_i hk
      rw [if_neg hk]
      split at h <;> rename_i hg
      · rw [if_pos hg, ents_balR, ents]
        refine ((List.Perm.append_left _ (List.Perm.cons _ (ihr h)))).trans ?_
        refine (List.Perm.append_left _ (List.Perm.swap _ _ _)).trans ?_
        exact List.perm_middle
      · rw [if_neg hg, ents_balL, ents]
        exact (ihl h).append_right _

theorem ins_same {x e : Ent K V} {t : Tree K V} (hb : t.Bst) (h : look t x.key = some e) : (ins x t).ents = t.ents := by
  induction t with
  | leaf => simp [look] at h
  | node y l r ihl ihr =>
    obtain ⟨b1, b2, _, _⟩ := bst_node.mp hb
    simp only [look] at h
    simp only [ins]
    split at h
    · rename_i hk; rw [if_pos hk]
    · rename_i hk
      rw [if_neg hk]
      split at h <;> rename_i hg
      · rw [if_pos hg, ents_balR, ihr b2 h, ents]
      · rw [if_neg hg, ents_balL, ihl b1 h, ents]

theorem ins_bst {x : Ent K V} {t : Tree K V} (hb : t.Bst) (h : look t x.key = none) : (ins x t).Bst := by
  induction t with
  | leaf => simp [Bst, ins, ents]
  | node e l r ihl ihr =>
    obtain ⟨b1, b2, b3, b4⟩ := bst_node.mp hb
    simp only [look] at h
    simp only [ins]
    split at h
    · cases h
    · rename_i hk
      rw [if_neg hk]
      split at h <;> rename_i hg
      · rw [if_pos hg]
        have : (node e l (ins x r)).Bst := bst_node.mpr ⟨b1, ihr b2 h, b3, fun y hy => by
          rcases List.mem_cons.mp ((ins_perm h).mem_iff.mp hy) with rfl | hy
          · exact hg
          · exact b4 y hy⟩
        simpa [Bst, ents_balR, ents] using this
      · rw [if_neg hg]
        have : (node e (ins x l) r).Bst := bst_node.mpr ⟨ihl b1 h, b2, fun y hy => by
          rcases List.mem_cons.mp ((ins_perm h).mem_iff.mp hy) with rfl | hy
          · exact lt_of_le_of_ne (not_lt.mp hg) hk
          · exact b3 y hy, b4⟩
        simpa [Bst, ents_balL, ents] using this

theorem ins_heap {x : Ent K V} {t : Tree K V} (h : look t x.key = none) (hh : t.IsHeap) : (ins x t).IsHeap ∧
    ∀ m, (∀ y ∈ t.ents, m ≤ y.pri) → ∃ e l r, ins x t = node e l r ∧ (∀ y ∈ l.ents, m ≤ y.pri) ∧ (∀ y ∈ r.ents, m ≤ y.pri) := by
  induction t with
  | leaf => simp [ins, IsHeap, ents]
  | node e l r ihl ihr =>
    obtain ⟨q1, q2, q3, q4⟩ := hh
    simp only [look] at h
    simp only [ins]
    split at h
    · cases h
    · rename_i hk
      rw [if_neg hk]
      split at h <;> rename_i hg
      · rw [if_pos hg]
        obtain ⟨i1, i2⟩ := ihr h q4
        obtain ⟨s, sl, sr, e1, e2, e3⟩ := i2 e.pri q2
        have hall := fun y => (ins_perm h).mem_iff (a := y)
        rw [e1] at i1 hall ⊢
        obtain ⟨j1, j2, j3, j4⟩ := i1
        simp only [balR]
        split <;> rename_i hp
        · refine ⟨⟨?_, j2, ⟨q1, e2, q3, j3⟩, j4⟩, ?_⟩
          · intro y hy
            simp only [ents, List.mem_append, List.mem_cons] at hy
            rcases hy with hy | rfl | hy
            · have := q1 y hy; omega
            · omega
            · exact j1 y hy
          · intro m hm
            refine ⟨_, _, _, rfl, ?_, ?_⟩
            · intro y hy
              simp only [ents, List.mem_append, List.mem_cons] at hy hm
              rcases hy with hy | rfl | hy
              · exact hm y (.inl hy)
              · exact hm y (.inr (.inl rfl))
              · have := e2 y hy; have := hm e (.inr (.inl rfl)); omega
            · intro y hy
              have := e3 y hy
              have := hm e (by simp [ents])
              omega
        · refine ⟨⟨q1, ?_, q3, ⟨j1, j2, j3, j4⟩⟩, ?_⟩
          · intro y hy
            simp only [ents, List.mem_append, List.mem_cons] at hy
            rcases hy with hy | rfl | hy
            · have := e2 y hy; omega
            · omega
            · have := e3 y hy; omega
          · intro m hm
            have he := hm e (by simp [ents])
            refine ⟨_, _, _, rfl, fun y hy => hm y (by simp [ents, hy]), ?_⟩
            intro y hy
            simp only [ents, List.mem_append, List.mem_cons] at hy
            rcases hy with hy | rfl | hy
            · have := e2 y hy; omega
            · omega
            · have := e3 y hy; omega
      · rw [if_neg hg]
        obtain ⟨i1, i2⟩ := ihl h q3
        obtain ⟨s, sl, sr, e1, e2, e3⟩ := i2 e.pri q1
        rw [e1] at i1 ⊢
        obtain ⟨j1, j2, j3, j4⟩ := i1
        simp only [balL]
        split <;> rename_i hp
        · refine ⟨⟨j1, ?_, j3, ⟨e3, q2, j4, q4⟩⟩, ?_⟩
          · intro y hy
            simp only [ents, List.mem_append, List.mem_cons] at hy
            rcases hy with hy | rfl | hy
            · exact j2 y hy
            · omega
            · have := q2 y hy; omega
          · intro m hm
            have he := hm e (by simp [ents])
            refine ⟨_, _, _, rfl, ?_, ?_⟩
            · intro y hy
              have := e2 y hy
              omega
            · intro y hy
              simp only [ents, List.mem_append, List.mem_cons] at hy hm
              rcases hy with hy | rfl | hy
              · have := e3 y hy; omega
              · exact he
              · exact hm y (.inr (.inr hy))
        · refine ⟨⟨?_, q2, ⟨j1, j2, j3, j4⟩, q4⟩, ?_⟩
          · intro y hy
            simp only [ents, List.mem_append, List.mem_cons] at hy
            rcases hy with hy | rfl | hy
            · have := e2 y hy; omega
            · omega
            · have := e3 y hy; omega
          · intro m hm
            have he := hm e (by simp [ents])
            refine ⟨_, _, _, rfl, ?_, fun y hy => hm y (by simp [ents, hy])⟩
            intro y hy
            simp only [ents, List.mem_append, List.mem_cons] at hy
            rcases hy with hy | rfl | hy
            · have := e2 y hy; omega
            · omega
            · have := e3 y hy; omega

/-- Replacing the value of a key. -/
def setv (k : K) (v : V) : Tree K V → Tree K V
  | leaf => leaf
  | node e l r => if k = e.key then node { e with val := v } l r else if k > e.key then node e l (setv k v r)
    else node e (setv k v l) r

theorem setv_ents {k : K} {v : V} {t : Tree K V} (hb : t.Bst) :
    (setv k v t).ents = t.ents.map (fun e => if e.key = k then { e with val := v } else e) := by
  have key : ∀ (l : List (Ent K V)), (∀ x ∈ l, x.key ≠ k) → l.map (fun e => if e.key = k then { e with val := v } else e) = l := by
    intro l hl
    conv_rhs => rw [← List.map_id l]
    apply List.map_congr_left
    intro x hx
    simp [hl x hx]
  induction t with
  | leaf => rfl
  | node e l r ihl ihr =>
    obtain ⟨b1, b2, b3, b4⟩ := bst_node.mp hb
    simp only [setv]
    split
    · rename_i hk
      subst hk
      simp only [ents, List.map_append, List.map_cons, if_true]
      rw [key _ (fun x hx => ne_of_lt (b3 x hx)), key _ (fun x hx => ne_of_gt (b4 x hx))]
    · rename_i hk
      split
      · rename_i hg
        simp only [ents, List.map_append, List.map_cons, ihr b2, if_neg (Ne.symm hk)]
        rw [key l.ents (fun x hx => ne_of_lt (lt_trans (b3 x hx) hg))]
      · rename_i hg
        have hlt : k < e.key := lt_of_le_of_ne (not_lt.mp hg) hk
        simp only [ents, List.map_append, List.map_cons, ihl b1, if_neg (Ne.symm hk)]
        rw [key r.ents (fun x hx => ne_of_gt (lt_trans hlt (b4 x hx)))]

theorem setv_ptr {k : K} {v : V} {t : Tree K V} : (setv k v t).ptr = t.ptr := by
  cases t with
  | leaf => rfl
  | node e l r => simp only [setv]; split; · rfl
                  split <;> rfl

theorem setv_addrs {k : K} {v : V} {t : Tree K V} (hb : t.Bst) : (setv k v t).addrs = t.addrs := by
  simp only [addrs, setv_ents hb, List.map_map]
  apply List.map_congr_left
  intro e _
  simp only [Function.comp]
  split <;> rfl

theorem setv_rep {k : K} {v : V} {t : Tree K V} {m : Nat → Option (Node K V)} {e : Ent K V} (hr : Rep m t) (hn : t.addrs.Nodup)
    (h : look t k = some e) {n : Node K V} (hm : m e.addr = some n) :
    Rep (setMem m e.addr (some { n with val := v })) (setv k v t) := by
  induction t with
  | leaf => simp [look] at h
  | node x l r ihl ihr =>
    obtain ⟨r1, r2, r3⟩ := hr
    simp only [addrs, ents, List.map_append, List.map_cons, List.nodup_append, List.nodup_cons, List.mem_cons] at hn
    obtain ⟨n1, ⟨n2, n3⟩, n4⟩ := hn
    simp only [look] at h
    simp only [setv]
    split at h
    · rename_i hk
      cases h
      rw [if_pos hk]
      rw [r1] at hm
      cases hm
      refine ⟨by simp [setMem], r2.frame fun q hq => ?_, r3.frame fun q hq => ?_⟩
      · simp [setMem, n4 q hq e.addr (.inl rfl)]
      · have : q ≠ e.addr := fun h => n2 (h ▸ hq)
        simp [setMem, this]
    · rename_i hk
      rw [if_neg hk]
      split at h <;> rename_i hg
      · rw [if_pos hg]
        have hmem : e.addr ∈ r.addrs := List.mem_map_of_mem (look_mem h).1
        refine ⟨?_, r2.frame fun q hq => ?_, ihr r3 n3 h⟩
        · have : x.addr ≠ e.addr := fun h => n2 (h ▸ hmem)
          simp [setMem, this, r1, setv_ptr]
        · have := n4 q hq e.addr (.inr hmem)
          simp [setMem, this]
      · rw [if_neg hg]
        have hmem : e.addr ∈ l.addrs := List.mem_map_of_mem (look_mem h).1
        refine ⟨?_, ihl r2 n1 h, r3.frame fun q hq => ?_⟩
        · have := n4 e.addr hmem x.addr (.inl rfl)
          simp [setMem, Ne.symm this, r1, setv_ptr]
        · have := n4 e.addr hmem q (.inr hq)
          simp [setMem, Ne.symm this]

theorem setv_heap {k : K} {v : V} {t : Tree K V} (hb : t.Bst) (h : t.IsHeap) : (setv k v t).IsHeap := by
  have pris : ∀ {t : Tree K V}, t.Bst → ∀ {m : Nat}, (∀ x ∈ t.ents, m ≤ x.pri) → ∀ x ∈ (setv k v t).ents, m ≤ x.pri := by
    intro t hb m hm x hx
    rw [setv_ents hb, List.mem_map] at hx
    obtain ⟨y, hy, rfl⟩ := hx
    have := hm y hy
    split <;> exact this
  induction t with
  | leaf => trivial
  | node e l r ihl ihr =>
    obtain ⟨q1, q2, q3, q4⟩ := h
    obtain ⟨b1, b2, _, _⟩ := bst_node.mp hb
    simp only [setv]
    split
    · exact ⟨q1, q2, q3, q4⟩
    · split
      · exact ⟨q1, pris b2 q2, q3, ihr b2 q4⟩
      · exact ⟨pris b1 q1, q2, ihl b1 q3, q4⟩

/-- Least entry with key greater than `k`. -/
def ub : Tree K V → K → Option (Ent K V)
  | leaf, _ => none
  | node e l r, k => if k < e.key then (match ub l k with
    | some s => some s
    | none => some e) else ub r k

theorem ub_eq {t : Tree K V} (hb : t.Bst) (k : K) : ub t k = t.ents.find? (fun e => decide (k < e.key)) := by
  induction t with
  | leaf => rfl
  | node e l r ihl ihr =>
    obtain ⟨b1, b2, b3, b4⟩ := bst_node.mp hb
    simp only [ub, ents, List.find?_append, List.find?_cons]
    split
    · rename_i hk
      rw [ihl b1]
      simp only [hk, decide_true]
      cases List.find? (fun e => decide (k < e.key)) l.ents <;> rfl
    · rename_i hk
      simp only [hk, decide_false]
      have : List.find? (fun e => decide (k < e.key)) l.ents = none := by
        rw [List.find?_eq_none]
        intro x hx
        simp only [decide_eq_true_eq, not_lt]
        exact le_trans (le_of_lt (b3 x hx)) (not_lt.mp hk)
      rw [this, ihr b2]; rfl

/-- A treap is determined by its keys and priorities. -/
inductive Shape : Tree K V → Tree K V → Prop
  | leaf : Shape leaf leaf
  | node {e f : Ent K V} {l r l' r' : Tree K V} : e.key = f.key → e.pri = f.pri → Shape l l' → Shape r r' →
      Shape (node e l r) (node f l' r')

def keyPri (t : Tree K V) (x : K × Nat) : Prop := ∃ e ∈ t.ents, e.key = x.1 ∧ e.pri = x.2

theorem shape_unique : ∀ (t u : Tree K V), t.Bst → u.Bst → t.IsHeap → u.IsHeap →
    (∀ e ∈ t.ents, ∀ f ∈ t.ents, e.pri = f.pri → e.key = f.key) → (∀ x, keyPri t x ↔ keyPri u x) → Shape t u := by
  intro t
  induction t with
  | leaf =>
    intro u _ _ _ _ _ h
    cases u with
    | leaf => exact .leaf
    | node f l r =>
      obtain ⟨e, he, _⟩ := (h (f.key, f.pri)).mpr ⟨f, by simp [ents], rfl, rfl⟩
      simp [ents] at he
  | node e l r ihl ihr =>
    intro u hb hb' hh hh' hd h
    cases u with
    | leaf =>
      obtain ⟨f, hf, _⟩ := (h (e.key, e.pri)).mp ⟨e, by simp [ents], rfl, rfl⟩
      simp [ents] at hf
    | node f l' r' =>
      have heap_min : ∀ {e : Ent K V} {l r : Tree K V}, (node e l r).IsHeap → ∀ x ∈ (node e l r).ents, e.pri ≤ x.pri := by
        intro e l r hh x hx
        simp only [ents, List.mem_append, List.mem_cons] at hx
        rcases hx with hx | rfl | hx
        · exact hh.1 x hx
        · exact Nat.le_refl _
        · exact hh.2.1 x hx
      obtain ⟨f', hf', k1, k2⟩ := (h (e.key, e.pri)).mp ⟨e, by simp [ents], rfl, rfl⟩
      obtain ⟨e', he', k3, k4⟩ := (h (f.key, f.pri)).mpr ⟨f, by simp [ents], rfl, rfl⟩
      have m1 := heap_min hh e' he'
      have m2 := heap_min hh' f' hf'
      simp only at k1 k2 k3 k4
      have hp : e.pri = f.pri := by omega
      have hk : e.key = f.key := by
        rw [← k3]
        exact hd e (by simp [ents]) e' he' (by omega)
      obtain ⟨b1, b2, b3, b4⟩ := bst_node.mp hb
      obtain ⟨c1, c2, c3, c4⟩ := bst_node.mp hb'
      refine .node hk hp (ihl l' b1 c1 hh.2.2.1 hh'.2.2.1 ?_ ?_) (ihr r' b2 c2 hh.2.2.2 hh'.2.2.2 ?_ ?_)
      · intro a ha b hb; exact hd a (by simp [ents, ha]) b (by simp [ents, hb])
      · rintro ⟨k, p⟩
        constructor
        · rintro ⟨a, ha, rfl, rfl⟩
          obtain ⟨b, hb, z1, z2⟩ := (h (a.key, a.pri)).mp ⟨a, by simp [ents, ha], rfl, rfl⟩
          simp only [ents, List.mem_append, List.mem_cons] at hb
          have hlt := b3 a ha
          rcases hb with hb | rfl | hb
          · exact ⟨b, hb, z1, z2⟩
          · simp only at z1
            rw [hk, z1] at hlt; exact absurd hlt (lt_irrefl _)
          · have := c4 b hb
            simp only at z1
            rw [hk] at hlt; rw [z1] at this; exact absurd (lt_trans hlt this) (lt_irrefl _)
        · rintro ⟨a, ha, rfl, rfl⟩
          obtain ⟨b, hb, z1, z2⟩ := (h (a.key, a.pri)).mpr ⟨a, by simp [ents, ha], rfl, rfl⟩
          simp only [ents, List.mem_append, List.mem_cons] at hb
          have hlt := c3 a ha
          rcases hb with hb | rfl | hb
          · exact ⟨b, hb, z1, z2⟩
          · simp only at z1
            rw [← hk, z1] at hlt; exact absurd hlt (lt_irrefl _)
          · have := b4 b hb
            simp only at z1
            rw [← hk] at hlt; rw [z1] at this; exact absurd (lt_trans hlt this) (lt_irrefl _)
      · intro a ha b hb; exact hd a (by simp [ents, ha]) b (by simp [ents, hb])
      · rintro ⟨k, p⟩
        constructor
        · rintro ⟨a, ha, rfl, rfl⟩
          obtain ⟨b, hb, z1, z2⟩ := (h (a.key, a.pri)).mp ⟨a, by simp [ents, ha], rfl, rfl⟩
          simp only [ents, List.mem_append, List.mem_cons] at hb
          have hlt := b4 a ha
          rcases hb with hb | rfl | hb
          · have := c3 b hb
            simp only at z1
            rw [hk] at hlt; rw [z1] at this; exact absurd (lt_trans hlt this) (lt_irrefl _)
          · simp only at z1
            rw [hk, z1] at hlt; exact absurd hlt (lt_irrefl _)
          · exact ⟨b, hb, z1, z2⟩
        · rintro ⟨a, ha, rfl, rfl⟩
          obtain ⟨b, hb, z1, z2⟩ := (h (a.key, a.pri)).mpr ⟨a, by simp [ents, ha], rfl, rfl⟩
          simp only [ents, List.mem_append, List.mem_cons] at hb
          have hlt := c4 a ha
          rcases hb with hb | rfl | hb
          · have := b3 b hb
            simp only at z1
            rw [← hk] at hlt; rw [z1] at this; exact absurd (lt_trans hlt this) (lt_irrefl _)
          · simp only at z1
            rw [← hk, z1] at hlt; exact absurd hlt (lt_irrefl _)
          · exact ⟨b, hb, z1, z2⟩

end Tree

end Nanostl.Map

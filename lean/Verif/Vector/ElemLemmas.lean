import Verif.Vector.Elem
import Mathlib.Data.List.Basic

/-! Helper lemmas for C129. -/

namespace Nanostl.Vector.Elem

variable {α : Type} {E : Env α}

/-- How many objects a block holds. -/
def len : Option (List α) → Nat
  | none => 0
  | some b => b.length

/-- How many objects live in the blocks below `n`. -/
def total (mem : Nat → Option (List α)) : Nat → Nat
  | 0 => 0
  | n + 1 => total mem n + len (mem n)

theorem total_congr {m m' : Nat → Option (List α)} : ∀ {n : Nat}, (∀ q, q < n → len (m' q) = len (m q)) → total m' n = total m n
  | 0, _ => rfl
  | n + 1, h => by simp only [total]; rw [total_congr fun q hq => h q (by omega), h n (by omega)]

theorem total_set {m m' : Nat → Option (List α)} {p : Nat} : ∀ {n : Nat}, p < n → (∀ q, q ≠ p → m' q = m q) → total m' n + len (m p) = total m n + len (m' p)
  | 0, h, _ => by omega
  | n + 1, h, e => by
    simp only [total]
    by_cases hp : p = n
    · subst hp
      rw [total_congr (m := m) (m' := m') fun q hq => by rw [e q (by omega)]]
      omega
    · have := total_set (n := n) (by omega) e
      rw [e n (by omega)]; omega

/-- The storage of the vector. -/
def St.cells (s : St α) : List α := ((s.elements.bind s.mem).getD [])

/-- The elements of the vector. -/
def St.contents (s : St α) : List α := s.cells.take s.size

/-- The vector is sound, and each object is accounted for. -/
structure Inv (s : St α) : Prop where
  bnd : ∀ q, s.mem q ≠ none → q < s.next
  own : ∀ p, s.elements = some p → s.mem p ≠ none
  cap : s.capacity = s.cells.length
  sz : s.size ≤ s.capacity
  count : s.made = s.gone + total s.mem s.next

/-- Every block is the vector's. -/
def Tight (s : St α) : Prop := ∀ q, s.mem q ≠ none → s.elements = some q

/-- Something throws. -/
def Bad (E : Env α) : Prop := ∃ k, E.badNew k = true ∨ E.badSet k = true

theorem build_spec : ∀ (n d : Nat) (s : St α), build E n d s = .ok { s with news := s.news + n, made := s.made + n } () ∨
    ∃ a j, build E n d s = .exc { s with news := a, made := s.made + j, gone := s.gone + (d + j) } ∧ Bad E
  | 0, d, s => .inl rfl
  | n + 1, d, s => by
    simp only [build]
    split
    · rename_i h; exact .inr ⟨s.news + 1, 0, rfl, s.news, .inl h⟩
    · rcases build_spec n (d + 1) { s with news := s.news + 1, made := s.made + 1 } with h | ⟨a, j, h, b⟩
      · refine .inl (h.trans ?_)
        simp only [Out.ok.injEq, and_true]
        congr 1 <;> omega
      · refine .inr ⟨a, j + 1, h.trans ?_, b⟩
        simp only [Out.exc.injEq]
        congr 1 <;> omega

theorem allocate_spec (n : Nat) (hn : 1 ≤ n) (s : St α) :
    (∃ a, allocate E n s = .ok { s.setMem s.next (some (List.replicate n E.dflt)) with next := s.next + 1, news := a, made := s.made + n } (some s.next)) ∨
    ∃ a j, allocate E n s = .exc { s with news := a, made := s.made + j, gone := s.gone + j } ∧ Bad E := by
  simp only [allocate, show ¬ n < 1 by omega, if_false]
  by_cases h : E.badNew s.news = true
  · exact .inr ⟨s.news + 1, 0, by simp [Act.bind_apply, reserve, h], _, .inl h⟩
  · simp only [Act.bind_apply, reserve, h]
    simp only [Bool.false_eq_true, if_false]
    rcases build_spec (E := E) n 0 { s with news := s.news + 1 } with h | ⟨a, j, h, b⟩ <;> rw [h]
    · exact .inl ⟨_, rfl⟩
    · exact .inr ⟨a, j, by simp, b⟩

theorem set_spec {s : St α} {q i : Nat} {b : List α} (hb : s.mem q = some b) (hi : i < b.length) (a : α) :
    (E.badSet s.sets = false ∧ set E (some q) i a s = .ok { s.setMem q (some (b.set i a)) with sets := s.sets + 1 } ()) ∨
    E.badSet s.sets = true ∧ ∃ z, set E (some q) i a s = .exc { s.setMem q (some (b.set i z)) with sets := s.sets + 1 } := by
  have hg : b[i]? = some b[i] := List.getElem?_eq_getElem hi
  cases h : E.badSet s.sets with
  | true => exact .inr ⟨rfl, E.wreck s.sets b[i] a, by simp [set, hb, hg, h]⟩
  | false => exact .inl ⟨rfl, by simp [set, hb, hg, h]⟩

theorem get_spec {s : St α} {q i : Nat} {b : List α} (hb : s.mem q = some b) (hi : i < b.length) : get (some q) i s = .ok s b[i] := by
  have hg : b[i]? = some b[i] := List.getElem?_eq_getElem hi
  simp [get, hb, hg]

theorem setMem_setMem (s : St α) (p : Nat) (b b' : Option (List α)) : (s.setMem p b).setMem p b' = s.setMem p b' := by
  simp only [St.setMem]
  congr 1
  funext q
  split <;> rfl

theorem copy_spec {d c : Nat} (hdc : c ≠ d) {bs : List α} : ∀ (n i : Nat) (s : St α) (bd : List α), s.mem c = some bs → s.mem d = some bd → i + n ≤ bs.length → i + n ≤ bd.length →
    (∃ r k, copyLoop E (some d) (some c) n i s = .ok { s.setMem d (some r) with sets := k } () ∧ ∀ j : Nat, r[j]? = if i ≤ j ∧ j < i + n then bs[j]? else bd[j]?) ∨
    ∃ r k, copyLoop E (some d) (some c) n i s = .exc { s.setMem d (some r) with sets := k } ∧ r.length = bd.length ∧ ∃ m, E.badSet m = true
  | 0, i, s, bd, hs, hd, h1, h2 => by
    refine .inl ⟨bd, s.sets, ?_, fun j => by rw [if_neg (by omega)]⟩
    simp only [copyLoop, Act.pure_apply, Out.ok.injEq, and_true]
    cases s
    simp only [St.setMem] at *
    congr 1
    funext q
    split
    · rename_i h; rw [h, hd]
    · rfl
  | n + 1, i, s, bd, hs, hd, h1, h2 => by
    simp only [copyLoop]
    rw [Act.bind_ok (get_spec hs (by omega : i < bs.length))]
    rcases set_spec (E := E) hd (by omega : i < bd.length) bs[i] with ⟨_, e⟩ | ⟨b, z, e⟩
    · rw [Act.bind_ok e]
      rcases copy_spec (bs := bs) hdc n (i + 1) { s.setMem d (some (bd.set i bs[i])) with sets := s.sets + 1 } (bd.set i bs[i]) (by simp [St.setMem, hdc, hs]) (by simp [St.setMem])
          (by omega) (by simp only [List.length_set]; omega) with ⟨r, k, e, hr⟩ | ⟨r, k, e, hr⟩
      · refine .inl ⟨r, k, ?_, fun j => ?_⟩
        · rw [e]
          simp only [Out.ok.injEq, and_true]
          simp only [St.setMem]
          congr 1
          funext q; split <;> rfl
        · rw [hr j, List.getElem?_set]
          by_cases hj : i = j
          · subst hj
            simp only [show ¬ (i + 1 ≤ i ∧ i < i + 1 + n) by omega, show i ≤ i ∧ i < i + (n + 1) by omega, if_true, if_false]
            simp [show i < bd.length by omega]
          · simp only [hj, if_false]
            by_cases h : i + 1 ≤ j ∧ j < i + 1 + n
            · rw [if_pos h, if_pos (by omega)]
            · rw [if_neg h, if_neg (by omega)]
      · refine .inr ⟨r, k, ?_, by simpa using hr.1, hr.2⟩
        rw [e]
        simp only [Out.exc.injEq]
        simp only [St.setMem]
        congr 1
        funext q; split <;> rfl
    · rw [Act.bind_exc e]
      exact .inr ⟨_, _, rfl, by simp, _, b⟩

theorem Inv.block {s : St α} (I : Inv s) {p : Nat} (h : s.elements = some p) : s.mem p = some s.cells := by
  have := I.own p h
  cases e : s.mem p with
  | none => exact (this e).elim
  | some b => simp [St.cells, h, e]

theorem Inv.empty {s : St α} (I : Inv s) (h : s.elements = none) : s.cells = [] ∧ s.capacity = 0 ∧ s.size = 0 := by
  have c : s.cells = [] := by simp [St.cells, h]
  have hc := I.cap
  have := I.sz
  rw [c, List.length_nil] at hc
  exact ⟨c, by omega, by omega⟩

theorem contents_length {s : St α} (I : Inv s) : s.contents.length = s.size := by
  have := I.cap
  have := I.sz
  simp only [St.contents, List.length_take]; omega

theorem grow_spec {s : St α} (I : Inv s) (n count : Nat) (hn : 1 ≤ n) (hs : s.size ≤ n) :
    (∃ a k, grow E n count s s = .ok ⟨fun q => if q = s.next then some (s.contents ++ List.replicate (n - s.size) E.dflt) else if s.elements = some q then none else s.mem q, s.next + 1, a, k,
      s.made + n, s.gone + s.capacity, some s.next, n, count⟩ ()) ∨
    (∃ a j, grow E n count s s = .exc { s with news := a, made := s.made + j, gone := s.gone + j } ∧ Bad E) ∨
    ∃ a k r, r.length = n ∧ (∃ i, E.badSet i = true) ∧ grow E n count s s = .exc { s.setMem s.next (some r) with next := s.next + 1, news := a, sets := k, made := s.made + n } := by
  simp only [grow]
  rcases allocate_spec (E := E) n hn s with ⟨a, e⟩ | ⟨a, j, e, b⟩
  · rw [Act.bind_ok e]
    cases he : s.elements with
    | none =>
      obtain ⟨ce, c0, s0⟩ := I.empty he
      refine .inl ⟨a, s.sets, ?_⟩
      rw [s0, c0]
      simp only [copyLoop, Act.bind_apply, Act.pure_apply, deallocate, setThis, St.setMem, Out.ok.injEq, and_true, Nat.add_zero, Nat.sub_zero]
      simp [St.contents, ce]
    | some p =>
      have bp := I.block he
      have pn : p < s.next := I.bnd p (by simp [bp])
      have cl := I.cap
      have sz := I.sz
      rcases copy_spec (E := E) (c := p) (d := s.next) (by omega) (bs := s.cells) s.size 0
          { s.setMem s.next (some (List.replicate n E.dflt)) with next := s.next + 1, news := a, made := s.made + n } (List.replicate n E.dflt)
          (by simp [St.setMem, show p ≠ s.next by omega, bp]) (by simp [St.setMem]) (by omega) (by simp; omega) with ⟨r, k, e, hr⟩ | ⟨r, k, e, hr, hm⟩
      · left
        refine ⟨a, k, ?_⟩
        have hr' : r = s.contents ++ List.replicate (n - s.size) E.dflt := by
          apply List.ext_getElem?
          intro j
          rw [hr j]
          by_cases hj : j < s.size
          · rw [if_pos (by omega), List.getElem?_append_left (by rw [contents_length I]; exact hj)]
            simp [St.contents, hj]
          · rw [if_neg (by omega), List.getElem?_append_right (by rw [contents_length I]; omega), contents_length I, List.getElem?_replicate, List.getElem?_replicate]
            by_cases hj' : j < n
            · rw [if_pos hj', if_pos (by omega)]
            · rw [if_neg hj', if_neg (by omega)]
        rw [Act.bind_ok e, hr']
        simp only [Act.bind_apply, deallocate, setThis, St.setMem, show p ≠ s.next by omega, if_false, bp, Out.ok.injEq, and_true]
        rw [← cl]
        congr 1
        funext q
        by_cases h1 : q = s.next
        · simp [h1, show s.next ≠ p by omega]
        · by_cases h2 : q = p
          · simp [h2, show p ≠ s.next by omega]
          · have h3 : p ≠ q := fun k => h2 k.symm
            simp [h1, h2, h3]
      · right; right
        refine ⟨a, k, r, by simpa using hr, hm, ?_⟩
        rw [Act.bind_exc e]
        simp only [Out.exc.injEq, St.setMem]
        congr 1
        funext q
        split <;> rfl
  · rw [Act.bind_exc e]
    exact .inr (.inl ⟨a, j, rfl, b⟩)

/-! What the commands leave. -/

/-- The vector is as before. -/
def Same (s s' : St α) : Prop := s'.elements = s.elements ∧ s'.capacity = s.capacity ∧ s'.size = s.size ∧ s'.cells = s.cells

theorem Same.contents {s s' : St α} (h : Same s s') : s'.contents = s.contents := by
  simp only [St.contents, h.2.2.1, h.2.2.2]

/-- Sound again, and no block is lost unless an assignment can throw. -/
def Good (E : Env α) (s s' : St α) : Prop := Inv s' ∧ ((∀ k, E.badSet k = false) → Tight s → Tight s')

theorem Good.refl {s : St α} (I : Inv s) : Good E s s := ⟨I, fun _ h => h⟩

theorem Good.trans {s s' s'' : St α} (h : Good E s s') (h' : Good E s' s'') : Good E s s'' := ⟨h'.1, fun k t => h'.2 k (h.2 k t)⟩

/-- A smaller size. -/
theorem good_size {s : St α} (I : Inv s) {n : Nat} (h : n ≤ s.capacity) : Good E s { s with size := n } :=
  ⟨⟨I.bnd, I.own, I.cap, h, I.count⟩, fun _ h => h⟩

theorem resize_spec {s : St α} (I : Inv s) (n : Nat) (h1 : 1 ≤ n) :
    (∃ s', resize E n s = .ok s' () ∧ Good E s s' ∧ s'.size = n ∧
      s'.cells = (if n ≤ s.capacity then s.cells else s.contents ++ List.replicate (s'.capacity - s.size) E.dflt)) ∨
    ∃ s', resize E n s = .exc s' ∧ Good E s s' ∧ Same s s' ∧ s.capacity < n ∧ Bad E := by
  have sz := I.sz
  by_cases h : n ≤ s.capacity
  · exact .inl ⟨{ s with size := n }, by simp [resize, show ¬ n < 1 by omega, show ¬ s.capacity < n by omega], good_size I h, rfl, by rw [if_pos h]; rfl⟩
  · set m := if n > 2 * s.capacity then n else 2 * s.capacity with hm
    have mn : n ≤ m := by rw [hm]; split <;> omega
    have e0 : resize E n s = grow E m n s s := by simp [resize, show ¬ n < 1 by omega, show s.capacity < n by omega, hm]
    rw [e0]
    rcases grow_spec (E := E) I m n (by omega) (by omega) with ⟨a, k, e⟩ | ⟨a, j, e, b⟩ | ⟨a, k, r, hr, bad, e⟩
    · refine .inl ⟨_, e, ⟨?_, ?_⟩, rfl, ?_⟩
      · have cl : (s.contents ++ List.replicate (m - s.size) E.dflt).length = m := by
          rw [List.length_append, contents_length I, List.length_replicate]; omega
        refine ⟨fun q hq => ?_, fun p hp => ?_, ?_, ?_, ?_⟩
        · simp only at hq ⊢
          split at hq
          · omega
          · split at hq
            · exact (hq rfl).elim
            · have := I.bnd q hq; omega
        · simp only [Option.some.injEq] at hp
          subst hp; simp
        · simp only [St.cells, Option.bind_some, if_true, Option.getD_some]; exact cl.symm
        · exact mn
        · simp only [total, if_true, len]
          rw [cl, I.count]
          have key : total (fun q => if q = s.next then some (s.contents ++ List.replicate (m - s.size) E.dflt) else if s.elements = some q then none else s.mem q) s.next + s.capacity = total s.mem s.next := by
            cases he : s.elements with
            | none =>
              rw [(I.empty he).2.1]
              exact total_congr fun q hq => by simp [show q ≠ s.next by omega]
            | some p =>
              have bp := I.block he
              have pn : p < s.next := I.bnd p (by simp [bp])
              have := total_set (m := s.mem) (m' := fun q => if p = q then none else s.mem q) pn (fun q hq => by simp [Ne.symm hq])
              simp only [bp, len, if_true] at this
              rw [I.cap, ← Nat.add_zero (total s.mem s.next), ← this]
              congr 1
              exact total_congr fun q hq => by simp [show q ≠ s.next by omega]
          omega
      · intro _ ht q hq
        simp only at hq ⊢
        split at hq
        · rename_i h; rw [h]
        · split at hq
          · exact (hq rfl).elim
          · rename_i h; exact (h (ht q hq)).elim
      · simp [h, St.cells]
    · refine .inr ⟨_, e, ⟨⟨I.bnd, I.own, I.cap, I.sz, ?_⟩, fun _ h => h⟩, ⟨rfl, rfl, rfl, rfl⟩, by omega, b⟩
      have := I.count
      simp only; omega
    · have nn : ∀ p, s.elements = some p → p ≠ s.next := fun p hp => by
        have := I.bnd p (I.own p hp); omega
      have ce : ({ s.setMem s.next (some r) with next := s.next + 1, news := a, sets := k, made := s.made + m } : St α).cells = s.cells := by
        simp only [St.cells, St.setMem]
        cases he : s.elements with
        | none => rfl
        | some p => simp [nn p he]
      refine .inr ⟨_, e, ⟨⟨fun q hq => ?_, fun p hp => ?_, ?_, I.sz, ?_⟩, fun h => ?_⟩, ⟨rfl, rfl, rfl, ce⟩, by omega, bad.imp fun _ h => .inr h⟩
      · simp only [St.setMem] at hq ⊢
        split at hq
        · omega
        · have := I.bnd q hq; omega
      · simp only [St.setMem] at hp ⊢
        rw [if_neg (nn p hp)]; exact I.own p hp
      · rw [ce]; exact I.cap
      · simp only [St.setMem, total, if_true, len, hr]
        rw [total_congr (m := s.mem) fun q hq => by simp [show q ≠ s.next by omega], I.count]
        omega
      · obtain ⟨i, hi⟩ := bad
        rw [h i] at hi; cases hi

/-- An element assigned. -/
theorem set_good {s : St α} (I : Inv s) {i : Nat} (hi : i < s.capacity) (a : α) :
    (∃ s', set E s.elements i a s = .ok s' () ∧ Good E s s' ∧ s'.elements = s.elements ∧ s'.capacity = s.capacity ∧ s'.size = s.size ∧ s'.cells = s.cells.set i a ∧ s'.gone = s.gone ∧ s'.made = s.made) ∨
    ∃ s' z, set E s.elements i a s = .exc s' ∧ Good E s s' ∧ s'.elements = s.elements ∧ s'.capacity = s.capacity ∧ s'.size = s.size ∧ s'.cells = s.cells.set i z ∧ ∃ k, E.badSet k = true := by
  cases he : s.elements with
  | none => have := (I.empty he).2.1; omega
  | some p =>
    have bp := I.block he
    have pn : p < s.next := I.bnd p (by simp [bp])
    have key : ∀ z, Good E s { s.setMem p (some (s.cells.set i z)) with sets := s.sets + 1 } ∧ ({ s.setMem p (some (s.cells.set i z)) with sets := s.sets + 1 } : St α).cells = s.cells.set i z := by
      intro z
      have ce : ({ s.setMem p (some (s.cells.set i z)) with sets := s.sets + 1 } : St α).cells = s.cells.set i z := by simp [St.cells, St.setMem, he]
      refine ⟨⟨⟨fun q hq => ?_, fun q hq => ?_, ?_, I.sz, ?_⟩, fun _ ht q hq => ?_⟩, ce⟩
      · simp only [St.setMem] at hq ⊢
        split at hq
        · omega
        · exact I.bnd q hq
      · simp only [St.setMem] at hq ⊢
        split
        · simp
        · exact I.own q hq
      · rw [ce, List.length_set]; exact I.cap
      · simp only [St.setMem]
        rw [I.count]
        congr 1
        refine (total_congr fun q _ => ?_).symm
        by_cases h : q = p
        · subst h; simp [bp, len]
        · simp [h]
      · simp only [St.setMem] at hq ⊢
        split at hq
        · rename_i h; rw [h]; exact he
        · exact ht q hq
    rcases set_spec (E := E) bp (by rw [← I.cap]; exact hi) a with ⟨_, e⟩ | ⟨b, z, e⟩
    · exact .inl ⟨_, e, (key a).1, he, rfl, rfl, (key a).2, rfl, rfl⟩
    · exact .inr ⟨_, z, e, (key z).1, he, rfl, rfl, (key z).2, _, b⟩

theorem push_spec {s : St α} (I : Inv s) (a : α) :
    (∃ s', pushBack E a s = .ok s' () ∧ Good E s s' ∧ s'.contents = s.contents ++ [a]) ∨
    ∃ s', pushBack E a s = .exc s' ∧ Good E s s' ∧ ((Same s s' ∧ s.capacity < s.size + 1 ∧ Bad E) ∨ (∃ z, s'.contents = s.contents ++ [z]) ∧ ∃ k, E.badSet k = true) := by
  simp only [pushBack]
  have sz := I.sz
  rcases resize_spec (E := E) I (s.size + 1) (by omega) with ⟨u, e, G, su, cu⟩ | ⟨u, e, G, S, h⟩
  · have e' : oneMore E s = .ok u () := e
    rw [Act.bind_ok e']
    have J := G.1
    have szu := J.sz
    have cap := J.cap
    -- what is before the new place is as it was
    have pre : ∀ z, (u.cells.set (u.size - 1) z).take u.size = s.contents ++ [z] := by
      intro z
      have tk : u.cells.take s.size = s.contents := by
        rw [cu]
        split
        · rfl
        · rw [List.take_append_of_le_length (Nat.le_of_eq (contents_length I).symm), List.take_of_length_le (Nat.le_of_eq (contents_length I))]
      rw [su]
      simp only [Nat.add_sub_cancel]
      rw [List.take_add_one, List.take_set_of_le (by omega), tk, List.getElem?_set_self (by omega)]
      rfl
    rcases set_good (E := E) J (show u.size - 1 < u.capacity by omega) a with ⟨w, e, G', -, -, sw, cw, -⟩ | ⟨w, z, e, G', -, -, sw, cw, bad⟩
    · exact .inl ⟨w, e, G.trans G', by simp only [St.contents, sw, cw]; exact pre a⟩
    · exact .inr ⟨w, e, G.trans G', .inr ⟨⟨z, by simp only [St.contents, sw, cw]; exact pre z⟩, bad⟩⟩
  · have e' : oneMore E s = .exc u := e
    rw [Act.bind_exc e']
    exact .inr ⟨u, rfl, G, .inl ⟨S, h⟩⟩

theorem assign_spec : ∀ (l : List α) {s : St α}, Inv s →
    (∃ s', assignLoop E l s = .ok s' () ∧ Good E s s' ∧ s'.contents = s.contents ++ l) ∨
    ∃ s' m z, assignLoop E l s = .exc s' ∧ Good E s s' ∧ m < l.length ∧ s'.contents = s.contents ++ l.take m ++ z ∧ z.length ≤ 1 ∧ ((∀ k, E.badSet k = false) → z = []) ∧ Bad E
  | [], s, I => .inl ⟨s, rfl, .refl I, by simp⟩
  | a :: l, s, I => by
    simp only [assignLoop]
    rcases push_spec (E := E) I a with ⟨u, e, G, cu⟩ | ⟨u, e, G, h⟩
    · rw [Act.bind_ok e]
      rcases assign_spec l G.1 with ⟨w, e, G', cw⟩ | ⟨w, m, z, e, G', hm, cw, hz⟩
      · exact .inl ⟨w, e, G.trans G', by rw [cw, cu]; simp⟩
      · exact .inr ⟨w, m + 1, z, e, G.trans G', by simpa using hm, by rw [cw, cu]; simp, hz⟩
    · rw [Act.bind_exc e]
      rcases h with ⟨S, _, b⟩ | ⟨⟨z, hz⟩, k, bad⟩
      · exact .inr ⟨u, 0, [], rfl, G, by simp, by simp [S.contents], by simp, by simp, b⟩
      · exact .inr ⟨u, 0, [z], rfl, G, by simp, by simp [hz], by simp, fun h => (by rw [h k] at bad; cases bad), k, .inr bad⟩

theorem shift_spec {s : St α} (I : Inv s) {i : Nat} (hi : i + 1 < s.size) :
    (∃ s', shift E s.elements i s = .ok s' () ∧ Good E s s' ∧ s'.elements = s.elements ∧ s'.capacity = s.capacity ∧ s'.size = s.size ∧
      (∀ j : Nat, s'.cells[j]? = if j = i then s.cells[i + 1]? else s.cells[j]?) ∧ s'.gone = s.gone ∧ s'.made = s.made) ∨
    ∃ s' z, shift E s.elements i s = .exc s' ∧ Good E s s' ∧ s'.elements = s.elements ∧ s'.capacity = s.capacity ∧ s'.size = s.size ∧
      (∀ j : Nat, s'.cells[j]? = if j = i then some z else s.cells[j]?) ∧ ∃ k, E.badSet k = true := by
  simp only [shift]
  have sz := I.sz
  have cap := I.cap
  have hg : get s.elements (i + 1) s = .ok s s.cells[i + 1] := by
    cases he : s.elements with
    | none => have := (I.empty he).2.1; omega
    | some p => exact get_spec (I.block he) (by omega)
  rw [Act.bind_ok hg]
  have pt : ∀ (z : α) (j : Nat), (s.cells.set i z)[j]? = if j = i then some z else s.cells[j]? := by
    intro z j
    rw [List.getElem?_set]
    by_cases h : i = j
    · subst h; simp only [if_true]; rw [if_pos (by omega)]
    · rw [if_neg h, if_neg (fun k => h k.symm)]
  rcases set_good (E := E) I (show i < s.capacity by omega) s.cells[i + 1] with ⟨w, e, G, a, b, c, d, f⟩ | ⟨w, z, e, G, a, b, c, d, f⟩
  · refine .inl ⟨w, e, G, a, b, c, fun j => ?_, f⟩
    rw [d, pt, List.getElem?_eq_getElem (show i + 1 < s.cells.length by omega)]
  · exact .inr ⟨w, z, e, G, a, b, c, fun j => by rw [d, pt], f⟩

theorem erase_spec : ∀ (fuel i : Nat) {s : St α}, Inv s → i < s.size → s.size < fuel + i + 1 →
    (∃ s', eraseLoop E fuel i s = .ok s' () ∧ Good E s s' ∧ s'.elements = s.elements ∧ s'.capacity = s.capacity ∧ s'.size = s.size ∧
      (∀ j : Nat, s'.cells[j]? = if i ≤ j ∧ j + 1 < s.size then s.cells[j + 1]? else s.cells[j]?) ∧ s'.gone = s.gone ∧ s'.made = s.made) ∨
    ∃ s' z q, eraseLoop E fuel i s = .exc s' ∧ Good E s s' ∧ s'.elements = s.elements ∧ s'.capacity = s.capacity ∧ s'.size = s.size ∧ i ≤ q ∧ q + 1 < s.size ∧
      (∀ j : Nat, s'.cells[j]? = if i ≤ j ∧ j < q then s.cells[j + 1]? else if j = q then some z else s.cells[j]?) ∧ ∃ k, E.badSet k = true
  | 0, i, s, I, h, hf => by omega
  | fuel + 1, i, s, I, h, hf => by
    simp only [eraseLoop]
    by_cases hi : i + 1 = s.size
    · rw [if_pos hi]
      exact .inl ⟨s, rfl, .refl I, rfl, rfl, rfl, fun j => by rw [if_neg (by omega)], rfl, rfl⟩
    · rw [if_neg hi]
      rcases shift_spec (E := E) I (show i + 1 < s.size by omega) with ⟨u, e, G, a, b, c, d, f⟩ | ⟨u, z, e, G, a, b, c, d, f⟩
      · rw [e]
        simp only
        rcases erase_spec fuel (i + 1) G.1 (by omega) (by omega) with ⟨w, e', G', a', b', c', d', f'⟩ | ⟨w, z, q, e', G', a', b', c', hq, hq', d', f'⟩
        · refine .inl ⟨w, e', G.trans G', a'.trans a, b'.trans b, c'.trans c, fun j => ?_, f'.1.trans f.1, f'.2.trans f.2⟩
          rw [d' j, c]
          by_cases h1 : j = i
          · rw [if_neg (by omega), d j, if_pos h1, if_pos (by omega), h1]
          · by_cases h2 : i + 1 ≤ j ∧ j + 1 < s.size
            · rw [if_pos h2, d (j + 1), if_neg (by omega), if_pos (by omega)]
            · rw [if_neg h2, d j, if_neg h1, if_neg (by omega)]
        · refine .inr ⟨w, z, q, e', G.trans G', a'.trans a, b'.trans b, c'.trans c, by omega, by omega, fun j => ?_, f'⟩
          rw [d' j]
          by_cases h1 : j = i
          · rw [if_neg (by omega), if_neg (by omega), d j, if_pos h1, if_pos (by omega), h1]
          · by_cases h2 : i + 1 ≤ j ∧ j < q
            · rw [if_pos h2, d (j + 1), if_neg (by omega), if_pos (by omega)]
            · rw [if_neg h2, if_neg (c := i ≤ j ∧ j < q) (by omega), d j, if_neg h1]
      · rw [e]
        exact .inr ⟨u, z, i, rfl, G, a, b, c, Nat.le_refl _, by omega, fun j => by rw [d j, if_neg (c := i ≤ j ∧ j < i) (by omega)], f⟩

end Nanostl.Vector.Elem

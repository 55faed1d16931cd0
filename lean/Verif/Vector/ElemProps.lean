import Verif.Vector.ElemLemmas

/-! C129: a vector of objects of a class: what is built, what is destroyed, and what is left when the class throws. -/

namespace Nanostl.Vector.Elem

variable {α : Type}

/-! ### The specification -/

/-- What a command asks of the elements. -/
def Pre : Cmd α → List α → Prop
  | .pop, l => l ≠ []
  | .erase i, l => i < l.length
  | .write i _, l => i < l.length
  | _, _ => True

/-- The elements before and after a command that returns. -/
def Returns : Cmd α → List α → List α → Prop
  | .push a, l, l' => l' = l ++ [a]
  | .pop, l, l' => l' = l.dropLast
  | .erase i, l, l' => l' = l.eraseIdx i
  | .resize 0, l, l' => l' = l
  | .resize n, l, l' => l'.length = n ∧ l'.take l.length = l.take n
  | .clear, _, l' => l' = []
  | .write i a, l, l' => l' = l.set i a
  | .assign m, _, l' => l' = m

/-- The elements before and after a command that throws. -/
def Throws : Cmd α → List α → List α → Prop
  | .push _, l, l' => l' = l ∨ ∃ z, l' = l ++ [z]
  | .pop, _, _ => False
  | .erase i, l, l' => ∃ q z, i ≤ q ∧ q + 1 < l.length ∧ l' = (l.eraseIdx i).take q ++ z :: l.drop (q + 1)
  | .resize _, l, l' => l' = l
  | .clear, _, _ => False
  | .write i _, l, l' => ∃ z, l' = l.set i z
  | .assign m, _, l' => ∃ k z, k < m.length ∧ l' = m.take k ++ z ∧ z.length ≤ 1

/-- The states of a vector on which commands were called, whether they returned or threw. -/
inductive Reach (E : Env α) : St α → Prop
  | init : Reach E init
  | ok {s s' : St α} (c : Cmd α) : Reach E s → Pre c s.contents → exec E c s = .ok s' () → Reach E s'
  | exc {s s' : St α} (c : Cmd α) : Reach E s → Pre c s.contents → exec E c s = .exc s' → Reach E s'

/-- How many objects live. -/
def St.alive (s : St α) : Nat := total s.mem s.next

/-! ### What the commands do -/

theorem dropLast_take {s : St α} (I : Inv s) : s.cells.take (s.size - 1) = s.contents.dropLast := by
  have := I.cap
  have := I.sz
  rw [St.contents, List.dropLast_eq_take, List.length_take, List.take_take]
  congr 1
  omega

theorem exec_spec {E : Env α} {s : St α} (I : Inv s) (c : Cmd α) (p : Pre c s.contents) :
    (∃ s', exec E c s = .ok s' () ∧ Good E s s' ∧ Returns c s.contents s'.contents) ∨
    ∃ s', exec E c s = .exc s' ∧ Good E s s' ∧ Throws c s.contents s'.contents ∧ Bad E := by
  have sz := I.sz
  have cap := I.cap
  have cl := contents_length I
  cases c with
  | push a =>
    rcases push_spec (E := E) I a with ⟨u, e, G, h⟩ | ⟨u, e, G, h⟩
    · exact .inl ⟨u, e, G, h⟩
    · rcases h with ⟨S, _, b⟩ | ⟨⟨z, hz⟩, k, b⟩
      · exact .inr ⟨u, e, G, .inl S.contents, b⟩
      · exact .inr ⟨u, e, G, .inr ⟨z, hz⟩, k, .inr b⟩
  | pop =>
    have h0 : s.size ≠ 0 := fun h => p (List.length_eq_zero_iff.mp (cl.trans h))
    exact .inl ⟨{ s with size := s.size - 1 }, by simp [exec, popBack, h0], good_size I (by omega), dropLast_take I⟩
  | erase i =>
    have hi : i < s.size := cl ▸ p
    simp only [exec, erase]
    rcases erase_spec (E := E) (s.capacity + 1) i I hi (by omega) with ⟨u, e, G, -, a, b, h, -⟩ | ⟨u, z, q, e, G, -, a, b, h1, h2, h, k, bad⟩
    · rw [e]
      refine .inl ⟨_, rfl, G.trans (good_size G.1 (by omega)), ?_⟩
      show ({ u with size := u.size - 1 } : St α).contents = s.contents.eraseIdx i
      apply List.ext_getElem?
      intro j
      show (u.cells.take (u.size - 1))[j]? = _
      rw [List.getElem?_eraseIdx, List.getElem?_take, b, h j]
      simp only [St.contents, List.getElem?_take]
      by_cases c1 : j < s.size - 1
      · rw [if_pos c1]
        by_cases c2 : j < i
        · rw [if_neg (by omega), if_pos c2, if_pos (by omega)]
        · rw [if_pos (by omega), if_neg c2, if_pos (by omega)]
      · rw [if_neg c1, if_neg (by omega), if_neg (by omega)]
    · rw [e]
      refine .inr ⟨u, rfl, G, ⟨q, z, h1, by omega, ?_⟩, k, .inr bad⟩
      have el : ((s.contents.eraseIdx i).take q).length = q := by
        rw [List.length_take, List.length_eraseIdx, if_pos (by omega)]; omega
      apply List.ext_getElem?
      intro j
      show (u.cells.take u.size)[j]? = _
      rw [List.getElem?_take, b, h j]
      by_cases c1 : j < q
      · rw [List.getElem?_append_left (by omega), List.getElem?_take, if_pos c1, List.getElem?_eraseIdx, if_pos (by omega)]
        simp only [St.contents, List.getElem?_take]
        by_cases c2 : j < i
        · rw [if_neg (by omega), if_neg (by omega), if_pos c2, if_pos (by omega)]
        · rw [if_pos (by omega), if_neg c2, if_pos (by omega)]
      · rw [List.getElem?_append_right (by omega), el]
        by_cases c2 : j = q
        · subst c2
          rw [if_pos (by omega), if_neg (by omega), if_pos rfl]; simp
        · obtain ⟨d, hd⟩ : ∃ d, j - q = d + 1 := ⟨j - q - 1, by omega⟩
          rw [hd, List.getElem?_cons_succ, List.getElem?_drop, if_neg (c := i ≤ j ∧ j < q) (by omega), if_neg c2, show q + 1 + d = j by omega, St.contents, List.getElem?_take]
  | resize n =>
    match n with
    | 0 => exact .inl ⟨s, rfl, .refl I, rfl⟩
    | n + 1 =>
      rcases resize_spec (E := E) I (n + 1) (by omega) with ⟨u, e, G, su, cu⟩ | ⟨u, e, G, S, -, b⟩
      · refine .inl ⟨u, e, G, (contents_length G.1).trans su, ?_⟩
        rw [cl, St.contents, su, cu]
        split
        · rw [List.take_take, St.contents, List.take_take, Nat.min_comm]
        · rename_i h
          rw [List.take_take, Nat.min_eq_left (by omega), List.take_append_of_le_length (by omega), List.take_of_length_le (by omega), List.take_of_length_le (by omega)]
      · exact .inr ⟨u, e, G, S.contents, b⟩
  | clear => exact .inl ⟨{ s with size := 0 }, rfl, good_size I (by omega), by simp [Returns, St.contents]⟩
  | write i a =>
    have hi : i < s.size := cl ▸ p
    rcases set_good (E := E) I (show i < s.capacity by omega) a with ⟨w, e, G, -, -, c, d, -⟩ | ⟨w, z, e, G, -, -, c, d, k, b⟩
    · exact .inl ⟨w, e, G, by simp only [Returns, St.contents, c, d, List.take_set]⟩
    · exact .inr ⟨w, e, G, ⟨z, by simp only [St.contents, c, d, List.take_set]⟩, k, .inr b⟩
  | assign l =>
    have G0 : Good E s { s with size := 0 } := good_size I (by omega)
    have e0 : clear s = .ok { s with size := 0 } () := rfl
    simp only [exec, assign]
    rw [Act.bind_ok e0]
    have c0 : ({ s with size := 0 } : St α).contents = [] := by simp [St.contents]
    rcases assign_spec (E := E) l G0.1 with ⟨u, e, G, h⟩ | ⟨u, m, z, e, G, hm, h, hz, -, b⟩
    · exact .inl ⟨u, e, G0.trans G, by rw [h, c0]; rfl⟩
    · exact .inr ⟨u, e, G0.trans G, ⟨m, z, hm, by rw [h, c0]; rfl, hz⟩, b⟩

theorem inv_init : Inv (init : St α) := ⟨fun _ h => (h rfl).elim, fun _ h => (by cases h), rfl, Nat.le_refl _, rfl⟩

theorem reach_inv {E : Env α} {s : St α} (r : Reach E s) : Inv s ∧ ((∀ k, E.badSet k = false) → Tight s) := by
  induction r with
  | init => exact ⟨inv_init, fun _ q h => (h rfl).elim⟩
  | ok c _ p e ih =>
    rcases exec_spec (E := E) ih.1 c p with ⟨u, e', G, -⟩ | ⟨u, e', -⟩ <;> rw [e'] at e <;> cases e
    exact ⟨G.1, fun h => G.2 h (ih.2 h)⟩
  | exc c _ p e ih =>
    rcases exec_spec (E := E) ih.1 c p with ⟨u, e', -⟩ | ⟨u, e', G, -⟩ <;> rw [e'] at e <;> cases e
    exact ⟨G.1, fun h => G.2 h (ih.2 h)⟩

theorem dtor_spec {s : St α} (I : Inv s) : ∃ s', dtor s = .ok s' () ∧ s'.made = s.made ∧ s'.gone = s.gone + s.capacity ∧ ∀ q, s'.mem q = if s.elements = some q then none else s.mem q := by
  cases he : s.elements with
  | none => exact ⟨s, by simp [dtor, he], rfl, by rw [(I.empty he).2.1]; rfl, fun q => by simp⟩
  | some p =>
    have bp := I.block he
    refine ⟨{ s.setMem p none with gone := s.gone + s.cells.length }, by simp [dtor, he, deallocate, bp], rfl, by rw [I.cap], fun q => ?_⟩
    simp only [St.setMem, Option.some.injEq]
    by_cases h : q = p
    · simp [h]
    · simp [h, show p ≠ q from fun k => h k.symm]

/-! ### The property -/

/-- **C129.** Whatever throws and whenever: no command on a vector whose earlier commands returned or threw touches an object that does not live, nor does the destructor. -/
theorem c129_safe {E : Env α} {s : St α} (r : Reach E s) : dtor s ≠ .ub ∧ ∀ c, Pre c s.contents → exec E c s ≠ .ub := by
  obtain ⟨I, -⟩ := reach_inv r
  refine ⟨fun h => ?_, fun c p h => ?_⟩
  · obtain ⟨u, e, -⟩ := dtor_spec I
    rw [h] at e; cases e
  · rcases exec_spec (E := E) I c p with ⟨u, e, -⟩ | ⟨u, e, -⟩ <;> rw [h] at e <;> cases e

/-- **C129.** The elements after a command that returned. -/
theorem c129_returns {E : Env α} {s s' : St α} (r : Reach E s) {c : Cmd α} (p : Pre c s.contents) (e : exec E c s = .ok s' ()) : Returns c s.contents s'.contents := by
  rcases exec_spec (E := E) (reach_inv r).1 c p with ⟨u, e', -, h⟩ | ⟨u, e', -⟩ <;> rw [e'] at e <;> cases e
  exact h

/-- **C129.** The elements after a command that threw; and it throws only if something threw. -/
theorem c129_throws {E : Env α} {s s' : St α} (r : Reach E s) {c : Cmd α} (p : Pre c s.contents) (e : exec E c s = .exc s') :
    Throws c s.contents s'.contents ∧ ∃ k, E.badNew k = true ∨ E.badSet k = true := by
  rcases exec_spec (E := E) (reach_inv r).1 c p with ⟨u, e', -⟩ | ⟨u, e', -, h⟩ <;> rw [e'] at e <;> cases e
  exact h

/-- **C129, as far as it holds.** If `operator=` never throws, an exception from any command but `assign` leaves the elements as they were. Missing: the case that it throws
(`c129_strong_false`), and `assign` (`c129_assign_false`). -/
theorem c129_strong_partial {E : Env α} {s s' : St α} (r : Reach E s) (q : ∀ k, E.badSet k = false) {c : Cmd α} (p : Pre c s.contents) (hc : ∀ l, c ≠ .assign l)
    (e : exec E c s = .exc s') : s'.contents = s.contents := by
  have I := (reach_inv r).1
  cases c with
  | push a =>
    rcases push_spec (E := E) I a with ⟨u, e', -⟩ | ⟨u, e', -, h⟩ <;> rw [exec, e'] at e <;> cases e
    rcases h with ⟨S, -⟩ | ⟨-, k, b⟩
    · exact S.contents
    · rw [q k] at b; cases b
  | pop => exact (c129_throws r p e).1.elim
  | erase i =>
    have hi : i < s.size := contents_length I ▸ p
    have := I.sz
    rcases erase_spec (E := E) (s.capacity + 1) i I hi (by omega) with ⟨u, e', -⟩ | ⟨u, z, k, e', -, -, -, -, -, -, -, m, b⟩
    · simp only [exec, erase, e'] at e; cases e
    · rw [q m] at b; cases b
  | resize n => exact (c129_throws r p e).1
  | clear => exact (c129_throws r p e).1.elim
  | write i a =>
    have hi : i < s.size := contents_length I ▸ p
    have := I.sz
    rcases set_good (E := E) I (show i < s.capacity by omega) a with ⟨w, e', -⟩ | ⟨w, z, e', -, -, -, -, -, m, b⟩
    · simp only [exec, write, e'] at e; cases e
    · rw [q m] at b; cases b
  | assign l => exact (hc l rfl).elim

/-- **C129.** At every moment between commands the objects built are those destroyed and those alive, and in the block of the vector as many live as its capacity says. -/
theorem c129_count {E : Env α} {s : St α} (r : Reach E s) : s.made = s.gone + s.alive ∧ s.cells.length = s.capacity ∧ s.size ≤ s.capacity :=
  ⟨(reach_inv r).1.count, (reach_inv r).1.cap.symm, (reach_inv r).1.sz⟩

/-- **C129, as far as it holds.** If `operator=` never throws, `capacity()` objects live, whatever else threw, and the destructor destroys the last of them. Missing: the case that it throws
(`c129_leak_false`), and the copy constructor (`c129_copy_false`). -/
theorem c129_end_partial {E : Env α} {s : St α} (r : Reach E s) (q : ∀ k, E.badSet k = false) :
    s.made = s.gone + s.capacity ∧ ∃ s', dtor s = .ok s' () ∧ s'.made = s'.gone ∧ ∀ p, s'.mem p = none := by
  obtain ⟨I, t⟩ := reach_inv r
  have key : total s.mem s.next = s.capacity := by
    cases he : s.elements with
    | none =>
      rw [(I.empty he).2.1]
      have h0 : ∀ q, s.mem q = none := fun p => Classical.byContradiction fun h => by
        have := t q p h
        rw [he] at this; cases this
      have : ∀ n, total s.mem n = 0 := fun n => by
        induction n with
        | zero => rfl
        | succ n ih => simp only [total, ih, h0 n, len]
      exact this _
    | some p =>
      have bp := I.block he
      have pn : p < s.next := I.bnd p (by simp [bp])
      have := total_set (m := s.mem) (m' := fun _ => none) pn (fun k hk => Classical.byContradiction fun h => by
        have := t q k (fun h' => h h'.symm)
        rw [he] at this
        exact hk (Option.some.inj this).symm)
      have z : ∀ n, total (fun _ => (none : Option (List α))) n = 0 := fun n => by
        induction n with
        | zero => rfl
        | succ n ih => simp only [total, ih, len]
      rw [z, bp] at this
      simp only [len] at this
      rw [I.cap]; omega
  have c := I.count
  obtain ⟨u, e, m, g, f⟩ := dtor_spec I
  refine ⟨by omega, u, e, by omega, fun p => ?_⟩
  rw [f p]
  by_cases h : s.elements = some p
  · rw [if_pos h]
  · rw [if_neg h]
    exact Classical.byContradiction fun h' => h (t q p h')

/-- **C129, not so.** Elements taken out are not destroyed: `pop_back`, `erase` and `clear` destroy nothing and build nothing, on any vector. -/
theorem c129_removed_false {E : Env α} {s s' : St α} (r : Reach E s) {c : Cmd α} (p : Pre c s.contents) (hc : c = .pop ∨ c = .clear ∨ ∃ i, c = .erase i)
    (e : exec E c s = .ok s' ()) : s'.gone = s.gone ∧ s'.made = s.made ∧ s'.capacity = s.capacity := by
  have I := (reach_inv r).1
  rcases hc with rfl | rfl | ⟨i, rfl⟩
  · simp only [exec, popBack] at e
    split at e <;> cases e
    exact ⟨rfl, rfl, rfl⟩
  · cases e
    exact ⟨rfl, rfl, rfl⟩
  · have hi : i < s.size := contents_length I ▸ p
    have := I.sz
    rcases erase_spec (E := E) (s.capacity + 1) i I hi (by omega) with ⟨u, e', -, -, a, -, -, b⟩ | ⟨u, z, q, e', -⟩ <;> simp only [exec, erase, e'] at e <;> cases e
    exact ⟨b.1, b.2, a⟩

/-- **C129, as far as it holds.** The elements `resize` adds: `T()` if it takes a new block; missing: otherwise they are whatever lies in the block (`c129_fresh_false`). -/
theorem c129_fresh_partial {E : Env α} {s s' : St α} (r : Reach E s) {n : Nat} (hn : s.capacity < n) (e : exec E (.resize n) s = .ok s' ()) :
    s'.contents = s.contents ++ List.replicate (n - s.size) E.dflt := by
  have I := (reach_inv r).1
  have sz := I.sz
  rcases resize_spec (E := E) I n (by omega) with ⟨u, e', G, su, cu⟩ | ⟨u, e', -⟩ <;> rw [exec, e'] at e <;> cases e
  have h1 := G.1.sz
  rw [St.contents, su, cu, if_neg (by omega), List.take_append, contents_length I, List.take_of_length_le (by rw [contents_length I]; omega), List.take_replicate]
  congr 2
  omega

/-- **C129, not so.** An element taken out comes back: `clear` and `resize(1)` on a vector whose first element is `a` make it an element again. -/
theorem c129_fresh_false {E : Env α} {s : St α} (r : Reach E s) {a : α} (h : s.contents.head? = some a) :
    ∃ u w, exec E .clear s = .ok u () ∧ u.contents = [] ∧ exec E (.resize 1) u = .ok w () ∧ w.contents = [a] := by
  have I := (reach_inv r).1
  have sz := I.sz
  have cap := I.cap
  have cl := contents_length I
  have h0 : s.size ≠ 0 := fun k => by
    rw [List.length_eq_zero_iff.mp (cl.trans k)] at h; cases h
  refine ⟨{ s with size := 0 }, { s with size := 1 }, rfl, by simp [St.contents], ?_, ?_⟩
  · simp only [exec, resize, show ¬ (1 < 1) by omega, if_false, show ¬ (1 > s.capacity) by omega]
  · show s.cells.take 1 = [a]
    rw [St.contents, List.head?_take, if_neg h0] at h
    cases hc : s.cells with
    | nil => rw [hc] at h; cases h
    | cons b l => rw [hc] at h; cases h; rfl

/-! ### Where it does not hold -/

/-- Nothing throws but the `k`-th `operator=`, which leaves a 9. -/
def setBad (k : Nat) : Env Nat := ⟨0, fun _ => false, fun j => j == k, fun _ _ _ => 9⟩

/-- Nothing throws but the `k`-th allocation or `T()`. -/
def newBad (k : Nat) : Env Nat := ⟨0, fun j => j == k, fun _ => false, fun _ _ _ => 9⟩

instance (c : Cmd Nat) (l : List Nat) : Decidable (Pre c l) := by cases c <;> simp only [Pre] <;> infer_instance

/-- The state after commands that all return. -/
def play (E : Env Nat) : List (Cmd Nat) → St Nat → Option (St Nat)
  | [], s => some s
  | c :: cs, s => if Pre c s.contents then (match exec E c s with | .ok s _ => play E cs s | _ => none) else none

theorem play_reach {E : Env Nat} : ∀ {cs : List (Cmd Nat)} {s s' : St Nat}, Reach E s → play E cs s = some s' → Reach E s'
  | [], s, s', r, h => by cases h; exact r
  | c :: cs, s, s', r, h => by
    simp only [play] at h
    split at h
    · rename_i p
      cases e : exec E c s with
      | ok u _ => rw [e] at h; exact play_reach (.ok c r p e) h
      | exc u => rw [e] at h; cases h
      | ub => rw [e] at h; cases h
    · cases h

/-- Commands that return and one that throws. -/
def shown (E : Env Nat) (cs : List (Cmd Nat)) (c : Cmd Nat) (P : St Nat → St Nat → Bool) : Bool :=
  match play E cs init with
  | none => false
  | some s => match exec E c s with
    | .exc s' => P s s'
    | _ => false

theorem shown_spec {E : Env Nat} {cs : List (Cmd Nat)} {c : Cmd Nat} {P : St Nat → St Nat → Bool} (h : shown E cs c P = true) :
    ∃ s s', Reach E s ∧ exec E c s = .exc s' ∧ P s s' = true := by
  simp only [shown] at h
  cases e : play E cs init with
  | none => rw [e] at h; cases h
  | some s =>
    rw [e] at h
    simp only at h
    cases e' : exec E c s with
    | exc u => rw [e'] at h; exact ⟨s, u, play_reach .init e, e', h⟩
    | ok u _ => rw [e'] at h; cases h
    | ub => rw [e'] at h; cases h

/-- **C129, not so.** `push_back` that throws in `operator=` leaves one element more, of whatever value `operator=` left. -/
theorem c129_strong_false : ∃ (E : Env Nat) (s s' : St Nat), Reach E s ∧ exec E (.push 7) s = .exc s' ∧ s.contents = [5, 6] ∧ s'.contents = [5, 6, 9] := by
  obtain ⟨s, s', r, e, h⟩ := shown_spec (E := setBad 5) (cs := [.push 5, .push 6]) (c := .push 7) (P := fun s s' => s.contents == [5, 6] && s'.contents == [5, 6, 9]) (by decide +kernel)
  simp only [Bool.and_eq_true, beq_iff_eq] at h
  exact ⟨_, s, s', r, e, h.1, h.2⟩

/-- **C129, not so.** `erase` that throws has lost an element. -/
theorem c129_erase_false : ∃ (E : Env Nat) (s s' : St Nat), Reach E s ∧ exec E (.erase 0) s = .exc s' ∧ s.contents = [5, 6, 7] ∧ s'.contents = [6, 9, 7] := by
  obtain ⟨s, s', r, e, h⟩ := shown_spec (E := setBad 7) (cs := [.push 5, .push 6, .push 7]) (c := .erase 0) (P := fun s s' => s.contents == [5, 6, 7] && s'.contents == [6, 9, 7])
    (by decide +kernel)
  simp only [Bool.and_eq_true, beq_iff_eq] at h
  exact ⟨_, s, s', r, e, h.1, h.2⟩

/-- **C129, not so.** `assign`, and so `operator=` from another vector, that throws has lost all elements, also if only memory is short. -/
theorem c129_assign_false : ∃ (E : Env Nat) (s s' : St Nat), (∀ k, E.badSet k = false) ∧ Reach E s ∧ exec E (.assign [6, 7]) s = .exc s' ∧ s.contents = [5] ∧ s'.contents = [6] := by
  obtain ⟨s, s', r, e, h⟩ := shown_spec (E := newBad 2) (cs := [.push 5]) (c := .assign [6, 7]) (P := fun s s' => s.contents == [5] && s'.contents == [6]) (by decide +kernel)
  simp only [Bool.and_eq_true, beq_iff_eq] at h
  exact ⟨_, s, s', fun _ => rfl, r, e, h.1, h.2⟩

/-- **C129, not so.** `operator=` that throws while `push_back` moves the elements to a new block: the objects of that block live on after the vector. -/
theorem c129_leak_false : ∃ (E : Env Nat) (s s' u : St Nat), Reach E s ∧ exec E (.push 7) s = .exc s' ∧ s'.contents = s.contents ∧ dtor s' = .ok u () ∧ u.made = u.gone + 4 := by
  obtain ⟨s, s', r, e, h⟩ := shown_spec (E := setBad 3) (cs := [.push 5, .push 6]) (c := .push 7) (P := fun s s' => s'.contents == s.contents && s'.made == s'.gone + s'.capacity + 4)
    (by decide +kernel)
  simp only [Bool.and_eq_true, beq_iff_eq] at h
  obtain ⟨u, e', m, g, -⟩ := dtor_spec (reach_inv (.exc (.push 7) r trivial e)).1
  exact ⟨_, s, s', u, r, e, h.1, e', by omega⟩

/-- **C129, not so.** A copy constructor that throws because memory is short leaves objects that nobody destroys. -/
theorem c129_copy_false : ∃ (E : Env Nat) (s' : St Nat), (∀ k, E.badSet k = false) ∧ copyCtor E [5, 6, 7] init = .exc s' ∧ s'.made = s'.gone + 2 ∧ s'.alive = 2 := by
  have h : (match copyCtor (newBad 5) [5, 6, 7] init with | .exc s' => s'.made == s'.gone + 2 && s'.alive == 2 | _ => false) = true := by decide +kernel
  cases e : copyCtor (newBad 5) [5, 6, 7] init with
  | exc u =>
    rw [e] at h
    simp only [Bool.and_eq_true, beq_iff_eq] at h
    exact ⟨newBad 5, u, fun _ => rfl, e, h.1, h.2⟩
  | ok u _ => rw [e] at h; cases h
  | ub => rw [e] at h; cases h

/-- **C129, as far as it holds.** A copy constructor that returns makes a vector with the elements given, for which all of the above holds. Missing: when it throws
(`c129_copy_false`). -/
theorem c129_copy_partial {E : Env α} {l : List α} : (∃ s', copyCtor E l init = .ok s' () ∧ Reach E s' ∧ s'.contents = l) ∨ ∃ s', copyCtor E l init = .exc s' ∧ ∃ k, E.badNew k = true ∨ E.badSet k = true := by
  have e : copyCtor E l init = exec E (.assign l) init := rfl
  rw [e]
  rcases exec_spec (E := E) inv_init (.assign l) trivial with ⟨u, e', -, h⟩ | ⟨u, e', -, -, b⟩
  · exact .inl ⟨u, e', .ok (.assign l) .init trivial e', h⟩
  · exact .inr ⟨u, e', b⟩

/-! ### The hypotheses can be met -/

/-- A vector that was pushed to, erased from and resized, with the last resize cut short by the constructor of its third object. -/
example : ∃ s s' : St Nat, Reach (newBad 8) s ∧ exec (newBad 8) (.resize 5) s = .exc s' ∧ (s.contents == [6, 6] && s'.contents == [6, 6] && s'.made == s'.gone + 2) = true :=
  shown_spec (cs := [.push 5, .push 6, .erase 0, .resize 2]) (by decide +kernel)

end Nanostl.Vector.Elem

import Verif.Vector.NestLemmas

/-! Helper lemmas for C131: vectors of a class that fulfils `Good` fulfil it too. -/

namespace Nanostl.Vector.Nest

variable {T β : Type}

/-- A vector has the values of its first `size` elements and owns its storage and what all places of it own. -/
def ownVec (O : Owns T β) : Owns T (List β) := fun m c vs F => match c with
  | .val _ => False
  | .vec .none cap size => cap = 0 ∧ size = 0 ∧ vs = [] ∧ F = none
  | .vec (some p) cap size => ∃ cells us fs, Row (fun _ => O) m p cells us fs ∧ cells.length = cap ∧ size ≤ cap ∧ vs = (List.range size).map us ∧ F = whole p cap fs

theorem Row.frame {O : Owns T β} (fr : Framed O) {m m' : Blocks T} {p : Nat} {cells : List (Cell T)} {us : Nat → β} {fs : Nat → Fp}
    (R : Row (fun _ => O) m p cells us fs) (h : ∀ q, whole p cells.length fs q → m' q = m q) : Row (fun _ => O) m' p cells us fs :=
  ⟨by rw [h p (.inl rfl)]; exact R.block, fun i c hc => fr _ _ _ _ _ (R.own i c hc) fun q hq => h q (.inr ⟨i, (List.getElem?_eq_some_iff.mp hc).1, hq⟩), R.disj, R.out, R.rest⟩

theorem Row.live {O : Owns T β} (lv : Lives O) {m : Blocks T} {p : Nat} {cells : List (Cell T)} {us : Nat → β} {fs : Nat → Fp}
    (R : Row (fun _ => O) m p cells us fs) : ∀ q, whole p cells.length fs q → m q ≠ .none := by
  rintro q (rfl | ⟨i, hi, hq⟩)
  · rw [R.block]; simp
  · exact lv _ _ _ _ (R.own i cells[i] (by simp [hi])) q hq

variable {τ : Bool} {E : Ops T} {O : Owns T β} {dflt : β}

theorem ownVec_frame (G : Good τ E O dflt) {m m' : Blocks T} {c : Cell T} {vs : List β} {F : Fp} (h : ownVec O m c vs F) (hm : ∀ q, F q → m' q = m q) : ownVec O m' c vs F := by
  cases c with
  | val a => exact h.elim
  | vec p cap size => cases p with
    | none => exact h
    | some p =>
      obtain ⟨cells, us, fs, R, rfl, h2, h3, rfl⟩ := h
      exact ⟨cells, us, fs, R.frame G.frame hm, rfl, h2, h3, rfl⟩

theorem ownVec_live (G : Good τ E O dflt) {m : Blocks T} {c : Cell T} {vs : List β} {F : Fp} (h : ownVec O m c vs F) : ∀ q, F q → m q ≠ .none := by
  cases c with
  | val a => exact h.elim
  | vec p cap size => cases p with
    | none => obtain ⟨-, -, -, rfl⟩ := h; exact fun q hq => hq.elim
    | some p =>
      obtain ⟨cells, us, fs, R, rfl, h2, h3, rfl⟩ := h
      exact R.live G.live

theorem ownVec_vec {m : Blocks T} {c : Cell T} {vs : List β} {F : Fp} (h : ownVec O m c vs F) : ∃ p cap, c = .vec p cap vs.length ∧ vs.length ≤ cap ∧ (p = .none → cap = 0) := by
  cases c with
  | val a => exact h.elim
  | vec p cap size => cases p with
    | none => obtain ⟨rfl, rfl, rfl, -⟩ := h; exact ⟨.none, 0, rfl, Nat.le_refl _, fun _ => rfl⟩
    | some p =>
      obtain ⟨cells, us, fs, R, rfl, h2, rfl, rfl⟩ := h
      exact ⟨some p, cells.length, by simp, by simpa using h2, fun h => (by cases h)⟩

theorem members_ok {s : Mem T} {l : Loc} {p : Option Nat} {cap size : Nat} (h : cellAt s.blocks l = some (.vec p cap size)) : members l s = .ok s (p, cap, size) := by
  rw [members, Act.bind_ok (read_ok h)]; rfl

/-- A step elsewhere leaves the place as it is. -/
theorem Step.at {b : Bool} {s s' : Mem T} {F F2 : Fp} (h : Step b s s' none F F2) (w : Wf s) {l : Loc} {c : Cell T} (hc : cellAt s.blocks l = some c) (hF : ¬ F l.1) : At b s s' l c F F2 := by
  obtain ⟨k, e, e'⟩ := cellAt_block hc
  refine ⟨⟨h.wf, h.next, h.old, fun q h1 h2 _ => h.same q h1 h2 (fun h => h), h.tidy⟩, ?_⟩
  rw [h.same l.1 (w _ (cellAt_lt hc)) hF (fun h => h), e]
  simp [set_self e']

/-- What stays out of the way of a step. -/
theorem Step.away {b : Bool} {s s' : Mem T} {t F F2 F' : Fp} (h : Step b s s' t F F2) (hlt : ∀ q, F' q → q < s.next) (hd : ∀ q, F q → ¬ F' q) : ∀ q, F2 q → ¬ F' q := by
  intro q h2 h'
  rcases h.old q h2 with h1 | h1
  · exact hd q h1 h'
  · have := hlt q h'; omega

/-! ### The end of a vector -/

theorem delAll_spec (G : Good τ E O dflt) {p : Nat} {cells : List (Cell T)} {us : Nat → β} {fs : Nat → Fp} (hd : ∀ i j q, fs i q → fs j q → i = j) (ho : ∀ i, ¬ fs i p) :
    ∀ (n : Nat) (s : Mem T), Wf s → s.blocks p = some cells → n ≤ cells.length → (∀ i c, i < n → cells[i]? = some c → O s.blocks c (us i) (fs i)) →
    ∃ s', delAll E p n s = .ok s' () ∧ s'.next = s.next ∧ (∀ q, inner n fs q → s'.blocks q = .none) ∧ ∀ q, ¬ inner n fs q → s'.blocks q = s.blocks q
  | 0, s, _, _, _, _ => ⟨s, rfl, rfl, fun q ⟨i, hi, _⟩ => (by omega), fun _ _ => rfl⟩
  | n + 1, s, w, hb, hn, hO => by
    have hl : n < cells.length := by omega
    have h1 : cells[n]? = some cells[n] := by simp [hl]
    obtain ⟨s1, e1, e2, e3, e4⟩ := G.del (l := (p, n)) w ⟨by simp [cellAt, hb, hl], hO n _ (by omega) h1, ho n⟩
    have w1 : Wf s1 := by
      intro q hq
      by_cases hF : fs n q
      · rw [e3 q hF] at hq; exact (hq rfl).elim
      · rw [e4 q hF] at hq; rw [e2]; exact w q hq
    obtain ⟨s2, f1, f2, f3, f4⟩ := delAll_spec G hd ho n s1 w1 (by rw [e4 p (ho n)]; exact hb) (by omega) fun i c hi hc =>
      G.frame _ _ _ _ _ (hO i c (by omega) hc) fun q hq => e4 q fun h => (by have := hd i n q hq h; omega)
    refine ⟨s2, (Act.bind_ok e1).trans f1, by rw [f2, e2], ?_, fun q hq => ?_⟩
    · rintro q ⟨i, hi, hq⟩
      by_cases hin : inner n fs q
      · exact f3 q hin
      · have : i = n := by
          by_cases h : i = n
          · exact h
          · exact (hin ⟨i, by omega, hq⟩).elim
        subst this
        rw [f4 q hin, e3 q hq]
    · rw [f4 q fun ⟨i, hi, h⟩ => hq ⟨i, by omega, h⟩, e4 q fun h => hq ⟨n, by omega, h⟩]

theorem deallocate_spec (G : Good τ E O dflt) {s : Mem T} (w : Wf s) {p : Nat} {cells : List (Cell T)} {us : Nat → β} {fs : Nat → Fp} (R : Row (fun _ => O) s.blocks p cells us fs) :
    ∃ s', deallocate E (some p) s = .ok s' () ∧ s'.next = s.next ∧ (∀ q, whole p cells.length fs q → s'.blocks q = .none) ∧ ∀ q, ¬ whole p cells.length fs q → s'.blocks q = s.blocks q := by
  obtain ⟨s1, e1, e2, e3, e4⟩ := delAll_spec G (us := us) R.disj R.out cells.length s w R.block (Nat.le_refl _) fun i c _ hc => R.own i c hc
  have hp : s1.blocks p = some cells := by rw [e4 p fun ⟨i, _, h⟩ => R.out i h]; exact R.block
  refine ⟨s1.setBlock p .none, ?_, e2, ?_, fun q hq => ?_⟩
  · show (count p >>= fun n => delAll E p n >>= fun _ => free p) s = _
    rw [Act.bind_ok (show count p s = .ok s cells.length by simp [count, R.block]), Act.bind_ok e1]
    simp [free, hp]
  · rintro q (rfl | hq)
    · simp [Mem.setBlock]
    · by_cases h : q = p
      · subst h; simp [Mem.setBlock]
      · simp [Mem.setBlock, h, e3 q hq]
  · have h1 : q ≠ p := fun h => hq (.inl h)
    simp [Mem.setBlock, h1, e4 q fun h => hq (.inr h)]

theorem dtor_spec (G : Good τ E O dflt) {s : Mem T} {l : Loc} {c : Cell T} {vs : List β} {F : Fp} (w : Wf s) (h : Has (ownVec O) s l c vs F) :
    ∃ s', dtor E l s = .ok s' () ∧ s'.next = s.next ∧ (∀ q, F q → s'.blocks q = .none) ∧ ∀ q, ¬ F q → s'.blocks q = s.blocks q := by
  obtain ⟨hc, ho, -⟩ := h
  cases c with
  | val a => exact ho.elim
  | vec p cap size =>
    rw [dtor, Act.bind_ok (members_ok hc)]
    cases p with
    | none => obtain ⟨-, -, -, rfl⟩ := ho; exact ⟨s, rfl, rfl, fun q h => h.elim, fun _ _ => rfl⟩
    | some p =>
      obtain ⟨cells, us, fs, R, rfl, -, -, rfl⟩ := ho
      exact deallocate_spec G w R

/-! ### Growing -/

theorem delAll_free_spec (G : Good τ E O dflt) {s : Mem T} (w : Wf s) {p n : Nat} {cells : List (Cell T)} {us : Nat → β} {fs : Nat → Fp} (R : Row (fun _ => O) s.blocks p cells us fs) (hn : n ≤ cells.length) :
    ∃ s', (do delAll E p n; free p : Act (Mem T) Unit) s = .ok s' () ∧ s'.next = s.next ∧ (∀ q, whole p n fs q → s'.blocks q = .none) ∧ ∀ q, ¬ whole p n fs q → s'.blocks q = s.blocks q := by
  obtain ⟨s1, e1, e2, e3, e4⟩ := delAll_spec G (us := us) R.disj R.out n s w R.block hn fun i c _ hc => R.own i c hc
  have hp : s1.blocks p = some cells := by rw [e4 p fun ⟨i, _, h⟩ => R.out i h]; exact R.block
  refine ⟨s1.setBlock p .none, (Act.bind_ok e1).trans (by simp [free, hp]), e2, ?_, fun q hq => ?_⟩
  · rintro q (rfl | hq)
    · simp [Mem.setBlock]
    · by_cases h : q = p
      · subst h; simp [Mem.setBlock]
      · simp [Mem.setBlock, h, e3 q hq]
  · have h1 : q ≠ p := fun h => hq (.inl h)
    simp [Mem.setBlock, h1, e4 q fun h => hq (.inr h)]

theorem onExc_ok {A U : Act (Mem T) Unit} {s s' : Mem T} (h : A s = .ok s' ()) : onExc A U s = .ok s' () := by simp [onExc, h]

theorem onExc_exc {A U : Act (Mem T) Unit} {s s' s'' : Mem T} (h : A s = .exc s') (h' : U s' = .ok s'' ()) : onExc A U s = .exc s'' := by simp [onExc, h, h']

/-- What the constructors of a block do: all are run, or those that were are undone and the block is gone. -/
theorem initAll_spec (G : Good τ E O dflt) {p : Nat} : ∀ (n i : Nat) (s : Mem T) (cells : List (Cell T)) (us : Nat → β) (fs : Nat → Fp), Wf s → Row (fun _ => O) s.blocks p cells us fs → i + n = cells.length →
    (∀ j, i ≤ j → j < cells.length → cells[j]? = some E.zero ∧ fs j = none) → (∀ j, j < i → us j = dflt) →
    Does (initAll E p n i) s fun b s' => if b then ∃ cells2 us2 fs2, Row (fun _ => O) s'.blocks p cells2 us2 fs2 ∧ cells2.length = cells.length ∧ Step true s s' none (whole p cells.length fs) (whole p cells.length fs2) ∧
        ∀ j, j < cells.length → us2 j = dflt
      else Step true s s' none (whole p cells.length fs) none
  | 0, i, s, cells, us, fs, w, R, hi, _, hu => .ok rfl ⟨cells, us, fs, R, rfl, .refl w _ _, fun j hj => hu j (by omega)⟩
  | n + 1, i, s, cells, us, fs, w, R, hi, hz, hu => by
    have hil : i < cells.length := by omega
    obtain ⟨z1, z2⟩ := hz i (Nat.le_refl _) hil
    have hc : cellAt s.blocks (p, i) = some E.zero := by simp only [cellAt, R.block, Option.bind_some]; exact z1
    rcases G.init w hc with ⟨s1, e, c, v, F, hA, ho, hv⟩ | ⟨s1, e, c, v, F, hA, ho, -⟩ <;> rw [← z2] at hA <;> obtain ⟨R1, S1, -⟩ := R.put (fun _ => G.frame) (fun _ => G.live) w hil hA ho
    · refine .of_eq (B := initAll E p n (i + 1)) (s' := s1) (Act.bind_ok (onExc_ok e)) ?_
      refine (initAll_spec G n (i + 1) s1 _ _ _ S1.wf R1 (by rw [List.length_set]; omega) ?_ ?_).mono ?_
      · intro j h1 h2
        rw [List.length_set] at h2
        rw [List.getElem?_set_ne (by omega), upd_ne (by omega)]
        exact hz j (by omega) h2
      · intro j hj
        by_cases h : j = i
        · subst h; rw [upd_same]; exact hv rfl
        · rw [upd_ne h]; exact hu j (by omega)
      · rintro b s2 h
        rw [List.length_set] at h
        cases b with
        | true =>
          obtain ⟨cells2, us2, fs2, R2, h1, S2, h2⟩ := h
          exact ⟨cells2, us2, fs2, R2, h1, S1.trans S2 fun _ => rfl, h2⟩
        | false => exact S1.trans h fun _ => rfl
    · obtain ⟨s2, f1, f2, f3, f4⟩ := delAll_free_spec G S1.wf (n := i + 1) R1 (by rw [List.length_set]; omega)
      have same : ∀ q, whole p cells.length (upd fs i F) q → whole p (i + 1) (upd fs i F) q := by
        rintro q (rfl | ⟨j, hj, hq⟩)
        · exact .inl rfl
        · by_cases h : j < i + 1
          · exact .inr ⟨j, h, hq⟩
          · rw [upd_ne (by omega), (hz j (by omega) hj).2] at hq; exact hq.elim
      have w2 : Wf s2 := by
        intro q hq
        by_cases hF : whole p (i + 1) (upd fs i F) q
        · exact (hq (f3 q hF)).elim
        · rw [f4 q hF] at hq; rw [f2]; exact S1.wf q hq
      have S2 : Step true s1 s2 none (whole p cells.length (upd fs i F)) none := by
        refine ⟨w2, by omega, fun q h => h.elim, fun q h1 h2 _ => f4 q fun h => h2 ?_, fun _ q hq => .inr ?_⟩
        · rcases h with h | ⟨j, hj, h⟩
          · exact .inl h
          · exact .inr ⟨j, by omega, h⟩
        · have hn : ¬ whole p (i + 1) (upd fs i F) q := fun h => hq (f3 q h)
          rw [f4 q hn] at hq
          exact ⟨hq, fun h => hn (same q h)⟩
      exact .inr ⟨s2, Act.bind_exc (onExc_exc e f1), S1.trans S2 fun _ => rfl⟩

/-- `new T[n]` makes a block of objects, or throws and nothing is left of it. -/
theorem allocate_spec (G : Good τ E O dflt) {s : Mem T} (w : Wf s) {n : Nat} (hn : 0 < n) :
    (∃ s1 cells us fs, allocate E n s = .ok s1 (some s.next) ∧ Wf s1 ∧ s.next < s1.next ∧ Row (fun _ => O) s1.blocks s.next cells us fs ∧ cells.length = n ∧ (∀ j, j < n → us j = dflt) ∧ (∀ q, q < s.next → s1.blocks q = s.blocks q) ∧
      (∀ q, whole s.next n fs q → s.next ≤ q) ∧ ∀ q, s1.blocks q ≠ .none → whole s.next n fs q ∨ s.blocks q ≠ .none) ∨
    ∃ s1, allocate E n s = .exc s1 ∧ Wf s1 ∧ s.next ≤ s1.next ∧ ∀ q, s1.blocks q = s.blocks q := by
  have n1 : ¬ n < 1 := by omega
  by_cases hf : s.fails s.news = true
  · exact .inr ⟨{ s with news := s.news + 1 }, by simp only [allocate, n1, hf, if_false, if_true], w, Nat.le_refl _, fun _ => rfl⟩
  · have e : allocate E n s = (do initAll E s.next n 0; pure (some s.next)) { s.setBlock s.next (some (List.replicate n E.zero)) with next := s.next + 1, news := s.news + 1 } := by simp [allocate, n1, hf]
    generalize hs1 : ({ s.setBlock s.next (some (List.replicate n E.zero)) with next := s.next + 1, news := s.news + 1 } : Mem T) = s1 at e
    have b1 : ∀ q, q ≠ s.next → s1.blocks q = s.blocks q := by intro q hq; subst hs1; simp [Mem.setBlock, hq]
    have b2 : s1.blocks s.next = some (List.replicate n E.zero) := by subst hs1; simp [Mem.setBlock]
    have b3 : s1.next = s.next + 1 := by subst hs1; rfl
    have b0 : s.blocks s.next = .none := by
      cases h : s.blocks s.next with
      | none => rfl
      | some k => have := w s.next (by rw [h]; simp); omega
    have w1 : Wf s1 := by
      intro q hq
      by_cases h : q = s.next
      · omega
      · rw [b1 q h] at hq; have := w q hq; omega
    obtain ⟨raw, hraw⟩ := G.zero
    have R1 : Row (fun _ => O) s1.blocks s.next (List.replicate n E.zero) (fun _ => raw) (fun _ => none) := by
      refine ⟨b2, fun i c hc => ?_, fun _ _ _ h => h.elim, fun _ h => h, fun _ _ => rfl⟩
      rw [List.getElem?_replicate] at hc
      split at hc
      · cases hc; exact hraw _
      · cases hc
    have lo : ∀ {q}, ¬ whole s.next n (fun _ => none) q → q ≠ s.next := fun h e => h (.inl e)
    rcases initAll_spec G n 0 s1 _ _ _ w1 R1 (by simp) (fun j _ hj => ⟨by rw [List.length_replicate] at hj; simp [hj], rfl⟩) (fun j hj => (by omega)) with ⟨s2, e2, cells2, us2, fs2, R2, h1, S2, h2⟩ | ⟨s2, e2, S2⟩
    · rw [List.length_replicate] at h1 S2 h2
      refine .inl ⟨s2, cells2, us2, fs2, by rw [e, Act.bind_ok e2]; rfl, S2.wf, by have := S2.next; omega, R2, h1, h2, fun q hq => ?_, fun q hq => ?_, fun q hq => ?_⟩
      · rw [S2.same q (by omega) ?_ (fun h => h), b1 q (by omega)]
        rintro (h | ⟨_, _, h⟩)
        · omega
        · exact h
      · rcases S2.old q hq with (h | ⟨_, _, h⟩) | h
        · omega
        · exact h.elim
        · omega
      · rcases S2.tidy rfl q hq with h | ⟨h3, h4⟩
        · exact .inl h
        · rw [b1 q (lo h4)] at h3; exact .inr h3
    · simp only [List.length_replicate, Bool.false_eq_true, if_false] at S2
      refine .inr ⟨s2, by rw [e, Act.bind_exc e2], S2.wf, by have := S2.next; omega, fun q => ?_⟩
      by_cases hq : q < s.next
      · rw [S2.same q (by omega) ?_ (fun h => h), b1 q (by omega)]
        rintro (h | ⟨_, _, h⟩)
        · omega
        · exact h
      · have h1 : s.blocks q = .none := by
          cases h : s.blocks q with
          | none => rfl
          | some k => have := w q (by rw [h]; simp); omega
        rw [h1]
        cases h : s2.blocks q with
        | none => rfl
        | some k =>
          rcases S2.tidy rfl q (by rw [h]; simp) with h | ⟨h3, h4⟩
          · exact h.elim
          · rw [b1 q (lo h4), h1] at h3; exact (h3 rfl).elim

theorem copyLoop_spec (G : Good τ E O dflt) {p new : Nat} {cells : List (Cell T)} {us : Nat → β} {fs : Nat → Fp} : ∀ (n i : Nat) (s : Mem T) (cells' : List (Cell T)) (us' : Nat → β) (fs' : Nat → Fp), Wf s →
    Row (fun _ => O) s.blocks new cells' us' fs' → Row (fun _ => O) s.blocks p cells us fs → (∀ q, whole new cells'.length fs' q → ¬ whole p cells.length fs q) → i + n ≤ cells.length → i + n ≤ cells'.length →
    Does (copyLoop E (some new) (some p) n i) s fun b s' => ∃ cells2 us2 fs2, Row (fun _ => O) s'.blocks new cells2 us2 fs2 ∧ cells2.length = cells'.length ∧
      Step b s s' none (whole new cells'.length fs') (whole new cells'.length fs2) ∧ (b = true → ∀ j, us2 j = if i ≤ j ∧ j < i + n then us j else us' j) ∧ (τ = true → b = true)
  | 0, i, s, cells', us', fs', w, R', R, hd, _, _ => .ok rfl ⟨cells', us', fs', R', rfl, .refl w _ _, fun _ j => by rw [if_neg (by omega)], fun _ => rfl⟩
  | n + 1, i, s, cells', us', fs', w, R', R, hd, hi, hi' => by
    have hil : i < cells.length := by omega
    have hil' : i < cells'.length := by omega
    have ap : Apart (new, i) (p, i) (fs' i) (fs i) := by
      refine ⟨fun h => ?_, fun h => hd new (.inl rfl) (.inr ⟨i, hil, h⟩), fun h => hd p (.inr ⟨i, hil', h⟩) (.inl rfl), fun q h h' => hd q (.inr ⟨i, hil', h⟩) (.inr ⟨i, hil, h'⟩)⟩
      have : p = new := congrArg Prod.fst h
      exact hd p (.inl this) (.inl rfl)
    refine (Does.bind (P := Put false O s (new, i) (fs' i) fun b v => (b = true → v = us i) ∧ (τ = true → b = true)) (B := copyLoop E (some new) (some p) n (i + 1)) (G.assign w (R'.has hil') (R.has hil) ap) ?_ ?_)
    · rintro s1 ⟨c, v, F2, hA, ho, hv, -⟩
      obtain ⟨R1, S1, -⟩ := R'.put (fun _ => G.frame) (fun _ => G.live) w hil' hA ho
      have lv := fun q h => w q (R.live G.live q h)
      have aw := S1.away lv hd
      have R2 : Row (fun _ => O) s1.blocks p cells us fs := R.frame G.frame fun q hq => S1.same q (lv q hq) (fun h => hd q h hq) (fun h => h)
      refine (copyLoop_spec G n (i + 1) s1 _ _ _ S1.wf R1 R2 (by rw [List.length_set]; exact aw) (by omega) (by rw [List.length_set]; omega)).mono ?_
      rintro b s2 ⟨cells2, us2, fs2, R3, h1, S2, h2, hτ⟩
      rw [List.length_set] at h1 S2
      refine ⟨cells2, us2, fs2, R3, h1, S1.trans S2 fun _ => rfl, fun e j => ?_, hτ⟩
      rw [h2 e j]
      by_cases hj : j = i
      · subst hj
        rw [if_neg (by omega), if_pos (by omega), upd_same, hv rfl]
      · rw [upd_ne hj]
        congr 1
        apply propext; omega
    · rintro s1 ⟨c, v, F2, hA, ho, -, hτ⟩
      obtain ⟨R1, S1, -⟩ := R'.put (fun _ => G.frame) (fun _ => G.live) w hil' hA ho
      exact ⟨_, _, _, R1, by simp, S1, fun h => (by cases h), hτ⟩

theorem range_map_of {f g : Nat → β} {n : Nat} (h : ∀ i, i < n → f i = g i) : (List.range n).map f = (List.range n).map g :=
  List.map_congr_left fun i hi => h i (List.mem_range.mp hi)

/-- What `resize` with a new block does. -/
theorem grow_spec (G : Good τ E O dflt) {s : Mem T} {l : Loc} {p : Option Nat} {cap size : Nat} {vs : List β} {F : Fp} (w : Wf s) (h : Has (ownVec O) s l (.vec p cap size) vs F) {n k : Nat} (hn : cap < n) (hk : k ≤ n)
    (hs : size ≤ k) : Does (grow E l n k (p, cap, size)) s (Put τ (ownVec O) s l F fun b v => if b then v = vs ++ List.replicate (k - size) dflt else v = vs) := by
  obtain ⟨hc, ho, hout⟩ := h
  have hlt : ∀ q, F q → q < s.next := fun q hq => w q (ownVec_live G ho q hq)
  have hll : l.1 < s.next := w _ (cellAt_lt hc)
  rcases allocate_spec G w (n := n) (by omega) with ⟨s1, cells0, us0, fs0, e, w1, b3, R1, hcl0, hus0, b1, b2, b4⟩ | ⟨s1, e, w1, b3, b1⟩
  rotate_left
  · -- no memory
    refine .inr ⟨_, Act.bind_exc e, .vec p cap size, vs, F, ?_, ownVec_frame G ho fun q _ => b1 q, rfl⟩
    obtain ⟨blk, e1, e2⟩ := cellAt_block hc
    refine ⟨⟨w1, b3, fun _ h => .inl h, fun q _ _ _ => b1 q, fun _ q hq => ?_⟩, by rw [b1, e1]; simp [set_self e2]⟩
    rw [b1 q] at hq
    by_cases hF : F q
    · exact .inl hF
    · exact .inr ⟨hq, hF⟩
  · have ho1 : ownVec O s1.blocks (.vec p cap size) vs F := ownVec_frame G ho fun q hq => b1 q (hlt q hq)
    have hc1 : cellAt s1.blocks l = some (.vec p cap size) := by rw [cellAt, b1 _ hll]; exact hc
    -- the old block, if there is one
    have loop : Does (copyLoop E (some s.next) p size 0) s1 fun b s' => ∃ cells2 us2 fs2, Row (fun _ => O) s'.blocks s.next cells2 us2 fs2 ∧ cells2.length = n ∧
        Step b s1 s' none (whole s.next n fs0) (whole s.next n fs2) ∧ (b = true → (List.range size).map us2 = vs ∧ ∀ j, size ≤ j → j < n → us2 j = dflt) ∧ (τ = true → b = true) := by
      cases p with
      | none =>
        obtain ⟨rfl, rfl, rfl, rfl⟩ := ho
        exact .ok rfl ⟨_, _, _, R1, hcl0, .refl w1 _ _, fun _ => ⟨rfl, fun j _ hj => hus0 j hj⟩, fun _ => rfl⟩
      | some p =>
        obtain ⟨cells, us, fs, R, rfl, h2, rfl, rfl⟩ := ho1
        refine (copyLoop_spec G size 0 s1 _ _ _ w1 R1 R ?_ (by omega) (by omega)).mono ?_
        · intro q h1 hq
          rw [hcl0] at h1
          have := b2 q h1
          have := hlt q hq
          omega
        · rintro b s2 ⟨cells2, us2, fs2, R2, h3, S2, h4, hτ⟩
          rw [hcl0] at h3 S2
          refine ⟨cells2, us2, fs2, R2, h3, S2, fun hb => ⟨range_map_of fun i hi => ?_, fun j hj hjn => ?_⟩, hτ⟩
          · rw [h4 hb i, if_pos (by omega)]
          · rw [h4 hb j, if_neg (by omega)]; exact hus0 j hjn
    have st : ∀ {b s' fs2}, Step b s1 s' none (whole s.next n fs0) (whole s.next n fs2) → (∀ q, q < s.next → s'.blocks q = s.blocks q) ∧ (∀ q, whole s.next n fs2 q → s.next ≤ q) ∧ s.next ≤ s'.next := by
      intro b s' fs2 S
      refine ⟨fun q hq => ?_, fun q hq => ?_, by have := S.next; omega⟩
      · rw [S.same q (by omega) (fun h => (by have := b2 q h; omega)) (fun h => h), b1 q (by omega)]
      · rcases S.old q hq with h | h
        · exact b2 q h
        · omega
    refine .of_eq (B := do copyLoop E (some s.next) p size 0; deallocate E p; write l (.vec (some s.next) n k)) (s' := s1) (Act.bind_ok e) ?_
    refine loop.bind ?_ ?_
    · rintro s2 ⟨cells2, us2, fs2, R2, hcl, S2, hv, -⟩
      obtain ⟨hv1, hv2⟩ := hv rfl
      obtain ⟨k1, k2, k3⟩ := st S2
      have ho2 : ownVec O s2.blocks (.vec p cap size) vs F := ownVec_frame G ho fun q hq => k1 q (hlt q hq)
      have hc2 : cellAt s2.blocks l = some (.vec p cap size) := by rw [cellAt, k1 _ hll]; exact hc
      -- the old block goes
      have de : ∃ s3, deallocate E p s2 = .ok s3 () ∧ s3.next = s2.next ∧ (∀ q, F q → s3.blocks q = .none) ∧ ∀ q, ¬ F q → s3.blocks q = s2.blocks q := by
        cases p with
        | none => obtain ⟨-, -, -, rfl⟩ := ho2; exact ⟨s2, rfl, rfl, fun q h => h.elim, fun _ _ => rfl⟩
        | some p =>
          obtain ⟨cells, us, fs, R, rfl, -, -, rfl⟩ := ho2
          exact deallocate_spec G S2.wf R
      obtain ⟨s3, d1, d2, d3, d4⟩ := de
      have w3 : Wf s3 := by
        intro q hq
        by_cases hF : F q
        · exact (hq (d3 q hF)).elim
        · rw [d4 q hF] at hq; rw [d2]; exact S2.wf q hq
      have hc3 : cellAt s3.blocks l = some (.vec p cap size) := by rw [cellAt, d4 _ hout]; exact hc2
      obtain ⟨s4, e4, A4, g4⟩ := write_spec w3 hc3 (.vec (some s.next) n k) (whole s.next n fs2)
      refine .ok ((Act.bind_ok d1).trans e4) ⟨.vec (some s.next) n k, (List.range k).map us2, whole s.next n fs2, ⟨⟨A4.step.wf, ?_, fun q hq => .inr (k2 q hq), fun q q1 q2 q3 => ?_, fun _ q hq => ?_⟩, ?_⟩, ⟨cells2, us2, fs2, ?_, hcl, hk, rfl, rfl⟩, ?_⟩
      · have := A4.step.next; omega
      · rw [g4 q q3, d4 q q2, k1 q q1]
      · rcases A4.step.tidy rfl q hq with h | ⟨h1, h2⟩
        · exact .inl h
        · have hF : ¬ F q := fun hF => h1 (d3 q hF)
          rw [d4 q hF] at h1
          rcases S2.tidy rfl q h1 with h | ⟨h3, h4⟩
          · exact .inl h
          · rcases b4 q h3 with h | h
            · exact (h4 h).elim
            · exact .inr ⟨h, hF⟩
      · rw [A4.cell, d4 _ hout, k1 _ hll]
      · refine R2.frame G.frame fun q hq => ?_
        rw [hcl] at hq
        have := k2 q hq
        rw [g4 q (by omega), d4 q fun h => (by have := hlt q h; omega)]
      · show (List.range k).map us2 = vs ++ List.replicate (k - size) dflt
        obtain ⟨r, rfl⟩ : ∃ r, k = size + r := ⟨k - size, by omega⟩
        rw [← hv1, List.range_add, List.map_append, Nat.add_sub_cancel_left]
        congr 1
        rw [List.map_map]
        apply List.ext_getElem (by simp)
        intro i h1 h2
        simp only [List.getElem_map, List.getElem_range, Function.comp_apply, List.getElem_replicate]
        simp only [List.length_map, List.length_range] at h1
        exact hv2 _ (by omega) (by omega)
    · rintro s2 ⟨cells2, us2, fs2, R2, hcl, S2, -, hτ⟩
      obtain ⟨k1, k2, k3⟩ := st S2
      obtain ⟨blk, e, e'⟩ := cellAt_block hc
      refine ⟨.vec p cap size, vs, F, ⟨⟨S2.wf, k3, fun _ h => .inl h, fun q q1 _ _ => k1 q q1, fun h => (by cases hτ h)⟩, ?_⟩, ownVec_frame G ho fun q hq => k1 q (hlt q hq), rfl⟩
      rw [k1 _ hll, e]; simp [set_self e']

/-- What `resize` may leave. -/
def Resized (vs : List β) (n : Nat) (v : List β) : Prop := if n = 0 then v = vs else v.length = n ∧ v.take vs.length = vs.take n

/-- Only the size is set. -/
theorem setSize_spec (G : Good τ E O dflt) {s : Mem T} {l : Loc} {p : Option Nat} {cap size : Nat} {vs : List β} {F : Fp} (w : Wf s) (h : Has (ownVec O) s l (.vec p cap size) vs F) {n : Nat} (hn : n ≤ cap) :
    ∃ s', write l (.vec p cap n) s = .ok s' () ∧ Put τ (ownVec O) s l F (fun _ v => v.length = n ∧ v.take vs.length = vs.take n) true s' := by
  obtain ⟨hc, ho, hout⟩ := h
  obtain ⟨s', e, hA, g⟩ := write_spec w hc (.vec p cap n) F
  have ho' := ownVec_frame G ho fun q hq => g q fun h => hout (h ▸ hq)
  cases p with
  | none =>
    obtain ⟨rfl, rfl, rfl, rfl⟩ := ho'
    have : n = 0 := by omega
    subst this
    exact ⟨s', e, _, [], none, hA, ⟨rfl, rfl, rfl, rfl⟩, rfl, rfl⟩
  | some p =>
    obtain ⟨cells, us, fs, R, rfl, h2, rfl, rfl⟩ := ho'
    refine ⟨s', e, _, (List.range n).map us, _, hA, ⟨cells, us, fs, R, rfl, hn, rfl, rfl⟩, by simp, ?_⟩
    rw [← List.map_take, ← List.map_take, List.take_range, List.take_range, List.length_map, List.length_range, Nat.min_comm]

theorem resize_spec (G : Good τ E O dflt) {s : Mem T} {l : Loc} {c : Cell T} {vs : List β} {F : Fp} (w : Wf s) (h : Has (ownVec O) s l c vs F) (n : Nat) :
    Does (resize E l n) s (Put τ (ownVec O) s l F fun b v => if b then Resized vs n v else v = vs) := by
  obtain ⟨p, cap, rfl, hl, -⟩ := ownVec_vec h.own
  rw [resize, Does, Act.bind_ok (members_ok h.cell)]
  show Does (if n < 1 then pure () else if n > cap then grow E l (if n > 2 * cap then n else 2 * cap) n (p, cap, vs.length) else write l (.vec p cap n)) s _
  by_cases h0 : n < 1
  · rw [if_pos h0]
    have : n = 0 := by omega
    exact .ok rfl ⟨_, vs, F, .refl w h.cell F, h.own, by simp [Resized, this]⟩
  · rw [if_neg h0]
    have h0' : n ≠ 0 := by omega
    by_cases hn : n > cap
    · rw [if_pos hn]
      refine (grow_spec G w h (by split <;> omega) (by split <;> omega) (by omega)).mono ?_
      rintro b s' ⟨c', v', F2, hA, ho, hv⟩
      refine ⟨c', v', F2, hA, ho, ?_⟩
      cases b with
      | false => exact hv
      | true =>
        simp only [if_true] at hv ⊢
        subst hv
        rw [Resized, if_neg h0']
        refine ⟨by simp; omega, ?_⟩
        rw [List.take_left, List.take_of_length_le (by omega)]
    · rw [if_neg hn]
      obtain ⟨s', e, c', v', F2, hA, ho, hv⟩ := setSize_spec G w h (n := n) (by omega)
      exact .ok e ⟨c', v', F2, hA, ho, by simp only [if_true]; rw [Resized, if_neg h0']; exact hv⟩

/-! ### Adding and assigning -/

theorem Row.lt (G : Good τ E O dflt) {s : Mem T} (w : Wf s) {p : Nat} {cells : List (Cell T)} {us : Nat → β} {fs : Nat → Fp} (R : Row (fun _ => O) s.blocks p cells us fs) (q : Nat) (h : whole p cells.length fs q) : q < s.next :=
  w q (R.live G.live q h)

/-- An object elsewhere is as before. -/
theorem At.has {b : Bool} {s s' : Mem T} {l l' : Loc} {c c' : Cell T} {F F2 F' : Fp} {γ : Type} {P : Owns T γ} {v' : γ} (hA : At b s s' l c F F2) (w : Wf s) (fr : Framed P) (lv : Lives P) (h : Has P s l' c' v' F') (ap : Apart l l' F F') :
    Has P s' l' c' v' F' ∧ Apart l l' F2 F' := by
  have lt : ∀ q, F' q → q < s.next := fun q hq => w q (lv _ _ _ _ h.own q hq)
  refine ⟨⟨hA.other w h.cell ap.right ap.ne, fr _ _ _ _ _ h.own fun q hq => hA.step.same q (lt q hq) (fun hF => ap.disj q hF hq) ?_, h.out⟩, ap.ne, ap.left, ?_, hA.step.away lt ap.disj⟩
  · rintro rfl; exact ap.left hq
  · intro h2
    rcases hA.step.old _ h2 with h1 | h1
    · exact ap.right h1
    · have := w _ (cellAt_lt h.cell); omega

/-- What `push_back` leaves. -/
def Pushed (vs : List β) (x : β) (b : Bool) (v : List β) : Prop := if b then v = vs ++ [x] else v = vs ∨ ∃ y, v = vs ++ [y]

theorem pushBack_spec (G : Good τ E O dflt) {s : Mem T} {l l' : Loc} {c c' : Cell T} {vs : List β} {x : β} {F F' : Fp} (w : Wf s) (h : Has (ownVec O) s l c vs F) (h' : Has O s l' c' x F') (ap : Apart l l' F F') :
    Does (pushBack E l l') s (Put τ (ownVec O) s l F (Pushed vs x)) := by
  obtain ⟨p, cap, rfl, hl, -⟩ := ownVec_vec h.own
  refine .of_eq (B := do
    resize E l (vs.length + 1)
    let v ← members l
    let d ← elem v.1 (v.2.2 - 1)
    E.assign d l') (s' := s) (Act.bind_ok (members_ok h.cell)) ?_
  refine (resize_spec G w h (vs.length + 1)).bind ?_ ?_
  · rintro s1 ⟨c1, v1, F1, hA, ho, hv⟩
    simp only [if_true, Resized, if_neg (Nat.succ_ne_zero _)] at hv
    obtain ⟨hv1, hv2⟩ := hv
    rw [List.take_of_length_le (show vs.length ≤ vs.length + 1 by omega)] at hv2
    obtain ⟨p1, cap1, rfl, hl1, hp1⟩ := ownVec_vec ho
    have hc1 := hA.get h.cell
    obtain ⟨h1', ap1⟩ := hA.has w G.frame G.live h' ap
    have hout : ¬ F1 l.1 := by
      intro h2
      rcases hA.step.old _ h2 with h1 | h1
      · exact h.out h1
      · have := w _ (cellAt_lt h.cell); omega
    cases p1 with
    | none => have := hp1 rfl; omega
    | some p1 =>
      obtain ⟨cells, us, fs, R, rfl, h2, hus, rfl⟩ := ho
      rw [hv1] at hl1 hus hc1 hA
      have hi : vs.length < cells.length := by omega
      refine .of_eq (B := E.assign (p1, vs.length) l') (s' := s1) (by rw [Act.bind_ok (members_ok hc1)]; rfl) ?_
      have ap2 : Apart (p1, vs.length) l' (fs vs.length) F' := by
        refine ⟨fun e => ap1.right (.inl (congrArg Prod.fst e)), fun h => ap1.disj p1 (.inl rfl) h, fun h => ap1.right (.inr ⟨_, hi, h⟩), fun q h => ap1.disj q (.inr ⟨_, hi, h⟩)⟩
      refine (G.assign hA.step.wf (R.has hi) h1' ap2).mono ?_
      rintro b s2 ⟨c2, v2, F2, hA2, ho2, hv3⟩
      obtain ⟨R2, S2, -⟩ := R.put (fun _ => G.frame) (fun _ => G.live) hA.step.wf hi hA2 ho2
      have key : (List.range (vs.length + 1)).map (upd us vs.length v2) = vs ++ [v2] := by
        rw [List.range_succ, List.map_append]
        congr 1
        · rw [hus, ← List.map_take, List.take_range, Nat.min_eq_left (by omega)] at hv2
          exact (range_map_of fun i hi => upd_ne (by omega)).trans hv2
        · simp [upd_same]
      refine ⟨.vec (some p1) cells.length (vs.length + 1), vs ++ [v2], _, by rw [or_of_imp hv3.2]; rw [Bool.or_false] at S2; exact hA.trans (S2.at hA.step.wf hc1 hout) fun _ => rfl, ⟨_, _, _, R2, by simp, by omega, key.symm, rfl⟩, ?_⟩
      cases b with
      | true => simp only [Pushed, if_true]; rw [hv3.1 rfl]
      | false => exact .inr ⟨v2, rfl⟩
  · rintro s1 ⟨c1, v1, F1, hA, ho, hv⟩
    exact ⟨c1, v1, F1, hA, ho, .inl hv⟩

/-- What adding all of `want` leaves. -/
def Assigned (pre want : List β) (b : Bool) (v : List β) : Prop := if b then v = pre ++ want else ∃ k, v = pre ++ want.take k ∨ ∃ y, v = pre ++ want.take k ++ [y]

theorem assignLoop_spec (G : Good τ E O dflt) (pre : List β) {l : Loc} {p : Nat} {cells : List (Cell T)} {us : Nat → β} {fs : Nat → Fp} : ∀ (n i : Nat) (s : Mem T) (c : Cell T) (F : Fp), Wf s → Has (ownVec O) s l c (pre ++ (List.range i).map us) F →
    Row (fun _ => O) s.blocks p cells us fs → ¬ whole p cells.length fs l.1 → (∀ q, F q → ¬ whole p cells.length fs q) → i + n ≤ cells.length →
    Does (assignLoop E l (some p) n i) s (Put τ (ownVec O) s l F (Assigned pre ((List.range (i + n)).map us)))
  | 0, i, s, c, F, w, h, R, hl, hd, hi => .ok rfl ⟨c, _, F, .refl w h.cell F, h.own, rfl⟩
  | n + 1, i, s, c, F, w, h, R, hl, hd, hi => by
    have hil : i < cells.length := by omega
    have ap : Apart l (p, i) F (fs i) :=
      ⟨fun e => hl (.inl (congrArg Prod.fst e).symm), fun h => hl (.inr ⟨i, hil, h⟩), fun h => hd p h (.inl rfl), fun q h h' => hd q h (.inr ⟨i, hil, h'⟩)⟩
    refine Does.bind (B := assignLoop E l (some p) n (i + 1)) (pushBack_spec G w h (R.has hil) ap) ?_ ?_
    · rintro s1 ⟨c1, v1, F1, hA, ho, hv⟩
      simp only [Pushed, if_true] at hv
      have lt := R.lt G w
      have e : v1 = pre ++ (List.range (i + 1)).map us := by rw [hv, List.range_succ, List.map_append, List.append_assoc]; rfl
      subst e
      have hout : ¬ F1 l.1 := by
        intro h2
        rcases hA.step.old _ h2 with h1 | h1
        · exact h.out h1
        · have := w _ (cellAt_lt h.cell); omega
      have R1 : Row (fun _ => O) s1.blocks p cells us fs := R.frame G.frame fun q hq => hA.step.same q (lt q hq) (fun h => hd q h hq) (by rintro rfl; exact hl hq)
      refine (assignLoop_spec G pre n (i + 1) s1 c1 F1 hA.step.wf ⟨hA.get h.cell, ho, hout⟩ R1 hl (hA.step.away lt hd) (by omega)).mono ?_
      rintro b s2 ⟨c2, v2, F2, hA2, ho2, hv2⟩
      rw [show i + 1 + n = i + (n + 1) by omega] at hv2
      exact ⟨c2, v2, F2, hA.trans hA2 fun _ => rfl, ho2, hv2⟩
    · rintro s1 ⟨c1, v1, F1, hA, ho, hv⟩
      have e : (List.range i).map us = ((List.range (i + (n + 1))).map us).take i := by rw [← List.map_take, List.take_range, Nat.min_eq_left (by omega)]
      refine ⟨c1, v1, F1, hA, ho, i, ?_⟩
      rw [← e]
      exact hv

theorem assign_spec (G : Good τ E O dflt) {s : Mem T} {l l' : Loc} {c c' : Cell T} {vs vs' : List β} {F F' : Fp} (w : Wf s) (h : Has (ownVec O) s l c vs F) (h' : Has (ownVec O) s l' c' vs' F') (ap : Apart l l' F F') :
    Does (assign E l l') s (Put τ (ownVec O) s l F (Assigned [] vs')) := by
  obtain ⟨p, cap, rfl, hl, -⟩ := ownVec_vec h.own
  obtain ⟨p', cap', rfl, hl', -⟩ := ownVec_vec h'.own
  rw [assign, if_neg fun e => ap.ne e.symm]
  obtain ⟨s1, e1, c1, v1, F1, hA, ho, hv1, -⟩ := setSize_spec G w h (n := 0) (Nat.zero_le _)
  have e2 : clear l s = .ok s1 () := by rw [clear, Act.bind_ok (members_ok h.cell)]; exact e1
  have : v1 = [] := List.length_eq_zero_iff.mp hv1
  subst this
  refine .of_eq (B := assignLoop E l p' vs'.length 0) (s' := s1) (by rw [Act.bind_ok (members_ok h'.cell)]; exact Act.bind_ok e2) ?_
  have lv' : Lives (ownVec O) := fun _ _ _ _ h => ownVec_live G h
  have fr' : Framed (ownVec O) := fun _ _ _ _ _ h => ownVec_frame G h
  obtain ⟨h1, ap1⟩ := hA.has w fr' lv' h' ap
  have hout : ¬ F1 l.1 := by
    intro h2
    rcases hA.step.old _ h2 with h1 | h1
    · exact h.out h1
    · have := w _ (cellAt_lt h.cell); omega
  cases p' with
  | none =>
    obtain ⟨-, e, rfl, -⟩ := h1.own
    exact .ok rfl ⟨c1, [], F1, hA, ho, rfl⟩
  | some p' =>
    obtain ⟨cells, us, fs, R, rfl, h3, h4, rfl⟩ := h1.own
    refine (assignLoop_spec G [] vs'.length 0 s1 c1 F1 hA.step.wf ⟨hA.get h.cell, ho, hout⟩ R ap1.left ap1.disj (by omega)).mono ?_
    rintro b s2 ⟨c2, v2, F2, hA2, ho2, hv2⟩
    rw [Nat.zero_add, ← h4] at hv2
    exact ⟨c2, v2, F2, hA.trans hA2 fun _ => rfl, ho2, hv2⟩

/-- Vectors of a class that can be used can be used. -/
theorem good_vector (G : Good τ E O dflt) : Good false (vector E) (ownVec O) [] where
  frame := fun _ _ _ _ _ h => ownVec_frame G h
  live := fun _ _ _ _ h => ownVec_live G h
  zero := ⟨[], fun _ => ⟨rfl, rfl, rfl, rfl⟩⟩
  init := fun w h => .ok rfl ⟨_, [], none, .refl w h none, ⟨rfl, rfl, rfl, rfl⟩, fun _ => rfl⟩
  assign := fun w h h' ap => (assign_spec G w h h' ap).mono fun _ _ h => by
    obtain ⟨c, v, F2, hA, ho, hv⟩ := h.weak
    exact ⟨c, v, F2, hA, ho, fun hb => by rw [hb] at hv; exact hv, fun h => (by cases h)⟩
  del := fun w h => dtor_spec G w h

/-! ### Taking out -/

theorem popBack_spec (G : Good τ E O dflt) {s : Mem T} {l : Loc} {c : Cell T} {vs : List β} {F : Fp} (w : Wf s) (h : Has (ownVec O) s l c vs F) (hn : vs ≠ []) :
    Does (popBack l) s (Put τ (ownVec O) s l F fun b v => b = true ∧ v = vs.dropLast) := by
  obtain ⟨p, cap, rfl, hl, -⟩ := ownVec_vec h.own
  obtain ⟨s1, e1, c1, v1, F1, hA, ho, hv1, hv2⟩ := setSize_spec G w h (n := vs.length - 1) (by omega)
  have : vs.length ≠ 0 := fun e => hn (List.length_eq_zero_iff.mp e)
  refine .ok (by rw [popBack, Act.bind_ok (members_ok h.cell)]; simp only [this, if_false]; exact e1) ⟨c1, v1, F1, hA, ho, rfl, ?_⟩
  rw [List.take_of_length_le (by omega)] at hv2
  rw [hv2, List.dropLast_eq_take]

theorem clear_spec (G : Good τ E O dflt) {s : Mem T} {l : Loc} {c : Cell T} {vs : List β} {F : Fp} (w : Wf s) (h : Has (ownVec O) s l c vs F) :
    Does (clear l) s (Put τ (ownVec O) s l F fun b v => b = true ∧ v = []) := by
  obtain ⟨p, cap, rfl, hl, -⟩ := ownVec_vec h.own
  obtain ⟨s1, e1, c1, v1, F1, hA, ho, hv1, hv2⟩ := setSize_spec G w h (n := 0) (by omega)
  exact .ok (by rw [clear, Act.bind_ok (members_ok h.cell)]; exact e1) ⟨c1, v1, F1, hA, ho, rfl, List.length_eq_zero_iff.mp hv1⟩

theorem shiftLoop_spec (G : Good τ E O dflt) {p : Nat} : ∀ (n i : Nat) (s : Mem T) (cells : List (Cell T)) (us : Nat → β) (fs : Nat → Fp), Wf s → Row (fun _ => O) s.blocks p cells us fs → i + n < cells.length →
    Does (shiftLoop E (some p) n i) s fun b s' => ∃ cells2 us2 fs2, Row (fun _ => O) s'.blocks p cells2 us2 fs2 ∧ cells2.length = cells.length ∧
      Step b s s' none (whole p cells.length fs) (whole p cells.length fs2) ∧ (b = true → ∀ j, us2 j = if i ≤ j ∧ j < i + n then us (j + 1) else us j) ∧ (τ = true → b = true)
  | 0, i, s, cells, us, fs, w, R, hi => .ok rfl ⟨cells, us, fs, R, rfl, .refl w _ _, fun _ j => by rw [if_neg (by omega)], fun _ => rfl⟩
  | n + 1, i, s, cells, us, fs, w, R, hi => by
    have hi1 : i < cells.length := by omega
    have hi2 : i + 1 < cells.length := by omega
    have ap : Apart (p, i) (p, i + 1) (fs i) (fs (i + 1)) :=
      ⟨fun e => (by have := congrArg Prod.snd e; simp at this), R.out _, R.out _, fun q h h' => (by have := R.disj _ _ q h h'; omega)⟩
    refine Does.bind (B := shiftLoop E (some p) n (i + 1)) (G.assign w (R.has hi1) (R.has hi2) ap) ?_ ?_
    · rintro s1 ⟨c, v, F2, hA, ho, hv, -⟩
      obtain ⟨R1, S1, -⟩ := R.put (fun _ => G.frame) (fun _ => G.live) w hi1 hA ho
      refine (shiftLoop_spec G n (i + 1) s1 _ _ _ S1.wf R1 (by rw [List.length_set]; omega)).mono ?_
      rintro b s2 ⟨cells2, us2, fs2, R3, h1, S2, h2, hτ⟩
      rw [List.length_set] at h1 S2
      refine ⟨cells2, us2, fs2, R3, h1, S1.trans S2 fun _ => rfl, fun e j => ?_, hτ⟩
      rw [h2 e j]
      by_cases hj : j = i
      · subst hj
        rw [if_neg (by omega), if_pos (by omega), upd_same, hv rfl]
      · rw [upd_ne hj]
        by_cases hj' : i + 1 ≤ j ∧ j < i + 1 + n
        · rw [if_pos hj', if_pos (by omega), upd_ne (by omega)]
        · rw [if_neg hj', if_neg (by omega)]
    · rintro s1 ⟨c, v, F2, hA, ho, -, hτ⟩
      obtain ⟨R1, S1, -⟩ := R.put (fun _ => G.frame) (fun _ => G.live) w hi1 hA ho
      exact ⟨_, _, _, R1, by simp, S1, fun h => (by cases h), hτ⟩

theorem erase_spec (G : Good τ E O dflt) {s : Mem T} {l : Loc} {c : Cell T} {vs : List β} {F : Fp} (w : Wf s) (h : Has (ownVec O) s l c vs F) {i : Nat} (hi : i < vs.length) :
    Does (erase E l i) s (Put τ (ownVec O) s l F fun b v => if b then v = vs.eraseIdx i else v.length = vs.length) := by
  obtain ⟨p, cap, rfl, hl, hp⟩ := ownVec_vec h.own
  cases p with
  | none => have := hp rfl; omega
  | some p =>
    obtain ⟨cells, us, fs, R, rfl, h2, h3, rfl⟩ := h.own
    refine .of_eq (B := do shiftLoop E (some p) (vs.length - 1 - i) i; write l (.vec (some p) cells.length (vs.length - 1))) (s' := s)
      (by rw [erase, Act.bind_ok (members_ok h.cell)]; simp only [hi, if_true]) ?_
    refine (shiftLoop_spec G (vs.length - 1 - i) i s cells us fs w R (by omega)).bind ?_ ?_
    · rintro s1 ⟨cells2, us2, fs2, R2, hcl, S, hv, -⟩
      have hA := S.at w h.cell h.out
      have hout : ¬ whole p cells.length fs2 l.1 := by
        intro h2
        rcases hA.step.old _ h2 with h1 | h1
        · exact h.out h1
        · have := w _ (cellAt_lt h.cell); omega
      have H1 : Has (ownVec O) s1 l (.vec (some p) cells.length vs.length) ((List.range vs.length).map us2) (whole p cells.length fs2) := ⟨hA.get h.cell, ⟨cells2, us2, fs2, R2, hcl, h2, rfl, rfl⟩, hout⟩
      obtain ⟨s2, e2, c2, v2, F2, hA2, ho2, hv2, hv3⟩ := setSize_spec G hA.step.wf H1 (n := vs.length - 1) (by omega)
      refine .ok e2 ⟨c2, v2, F2, hA.trans hA2 fun _ => rfl, ho2, ?_⟩
      show v2 = vs.eraseIdx i
      rw [List.take_of_length_le (by simp; omega)] at hv3
      rw [hv3]
      apply List.ext_getElem
      · simp [List.length_eraseIdx, hi]
      · intro j h4 h5
        have hj : j < vs.length - 1 := by simp [List.length_eraseIdx, hi] at h5; omega
        have hus : ∀ k (hk : k < vs.length), vs[k] = us k := by
          intro k hk
          have := congrArg (·[k]?) h3
          simp only [List.getElem?_map, List.getElem?_range hk, List.getElem?_eq_getElem hk] at this
          exact Option.some.inj this
        rw [List.getElem_eraseIdx]
        simp only [List.getElem_take, List.getElem_map, List.getElem_range, hv rfl j]
        by_cases hji : j < i
        · rw [dif_pos hji, if_neg (by omega), hus]
        · rw [dif_neg hji, if_pos (by omega), hus]
    · rintro s1 ⟨cells2, us2, fs2, R2, hcl, S, -, hτ⟩
      have hA : At (false || τ) s s1 l (.vec (some p) cells.length vs.length) (whole p cells.length fs) (whole p cells.length fs2) := by rw [or_of_imp hτ]; exact S.at w h.cell h.out
      exact ⟨_, (List.range vs.length).map us2, _, hA, ⟨cells2, us2, fs2, R2, hcl, h2, rfl, rfl⟩, by simp⟩

end Nanostl.Vector.Nest

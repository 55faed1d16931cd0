import Verif.Vector.NestTree

/-! Helper lemmas for C131: `swap` of two vectors anywhere within the variables. -/

namespace Nanostl.Vector.Nest

variable {T : Type}

/-! ### What `swap` does to the memory -/

theorem write_cells {s : Mem T} {l : Loc} {c : Cell T} (h : cellAt s.blocks l = some c) (c' : Cell T) :
    ∃ s', write l c' s = .ok s' () ∧ s'.next = s.next ∧ (∀ x, cellAt s'.blocks x = if x = l then some c' else cellAt s.blocks x) ∧ ∀ q, (s'.blocks q).map List.length = (s.blocks q).map List.length := by
  obtain ⟨b, e, e'⟩ := write_ok h c'
  obtain ⟨b2, e2, e3⟩ := cellAt_block h
  rw [e] at e2; cases e2
  have hl := (List.getElem?_eq_some_iff.mp e3).1
  refine ⟨_, e', rfl, fun x => ?_, fun q => ?_⟩
  · by_cases hx : x = l
    · subst hx; rw [if_pos rfl]; simp [cellAt, Mem.setBlock, hl]
    · rw [if_neg hx]
      by_cases hq : x.1 = l.1
      · have hi : x.2 ≠ l.2 := fun hi => hx (Prod.ext hq hi)
        simp only [cellAt, Mem.setBlock, hq, if_true, e, Option.bind_some]
        rw [List.getElem?_set_ne (Ne.symm hi)]
      · simp [cellAt, Mem.setBlock, hq]
  · by_cases hq : q = l.1
    · subst hq; simp [Mem.setBlock, e]
    · simp [Mem.setBlock, hq]

/-- Two places exchanged. -/
structure Swapped (s s' : Mem T) (l x : Loc) (c d : Cell T) : Prop where
  next : s'.next = s.next
  cells : ∀ y, cellAt s'.blocks y = if y = l then some d else if y = x then some c else cellAt s.blocks y
  len : ∀ q, (s'.blocks q).map List.length = (s.blocks q).map List.length

theorem swap_spec {s : Mem T} {l x : Loc} {p p' : Option Nat} {cap cap' size size' : Nat} (h : cellAt s.blocks l = some (.vec p cap size)) (h' : cellAt s.blocks x = some (.vec p' cap' size')) :
    ∃ s', swap l x s = .ok s' () ∧ Swapped s s' l x (.vec p cap size) (.vec p' cap' size') := by
  by_cases hlx : x = l
  · subst hlx
    rw [h] at h'; cases h'
    obtain ⟨s1, e1, n1, k1, b1⟩ := write_cells h (.vec p cap size)
    have g1 : cellAt s1.blocks x = some (.vec p cap size) := by rw [k1, if_pos rfl]
    obtain ⟨s2, e2, n2, k2, b2⟩ := write_cells g1 (.vec p cap size)
    have g2 : cellAt s2.blocks x = some (.vec p cap size) := by rw [k2, if_pos rfl]
    obtain ⟨s3, e3, n3, k3, b3⟩ := write_cells g2 (.vec p cap size)
    have g3 : cellAt s3.blocks x = some (.vec p cap size) := by rw [k3, if_pos rfl]
    obtain ⟨s4, e4, n4, k4, b4⟩ := write_cells g3 (.vec p cap size)
    have g4 : cellAt s4.blocks x = some (.vec p cap size) := by rw [k4, if_pos rfl]
    obtain ⟨s5, e5, n5, k5, b5⟩ := write_cells g4 (.vec p cap size)
    have g5 : cellAt s5.blocks x = some (.vec p cap size) := by rw [k5, if_pos rfl]
    obtain ⟨s6, e6, n6, k6, b6⟩ := write_cells g5 (.vec p cap size)
    refine ⟨s6, ?_, by omega, fun y => ?_, fun q => by rw [b6, b5, b4, b3, b2, b1]⟩
    · rw [swap, Act.bind_ok (members_ok h), Act.bind_ok (members_ok h), Act.bind_ok e1, Act.bind_ok (members_ok g1), Act.bind_ok e2, Act.bind_ok (members_ok g2), Act.bind_ok (members_ok g2), Act.bind_ok e3,
        Act.bind_ok (members_ok g3), Act.bind_ok e4, Act.bind_ok (members_ok g4), Act.bind_ok (members_ok g4), Act.bind_ok e5, Act.bind_ok (members_ok g5)]
      exact e6
    · rw [k6, k5, k4, k3, k2, k1]; split <;> rfl
  · have hxl : l ≠ x := fun e => hlx e.symm
    obtain ⟨s1, e1, n1, k1, b1⟩ := write_cells h (.vec p' cap size)
    have g1 : cellAt s1.blocks x = some (.vec p' cap' size') := by rw [k1, if_neg hlx, h']
    have f1 : cellAt s1.blocks l = some (.vec p' cap size) := by rw [k1, if_pos rfl]
    obtain ⟨s2, e2, n2, k2, b2⟩ := write_cells g1 (.vec p cap' size')
    have g2 : cellAt s2.blocks x = some (.vec p cap' size') := by rw [k2, if_pos rfl]
    have f2 : cellAt s2.blocks l = some (.vec p' cap size) := by rw [k2, if_neg hxl, f1]
    obtain ⟨s3, e3, n3, k3, b3⟩ := write_cells f2 (.vec p' cap' size)
    have g3 : cellAt s3.blocks x = some (.vec p cap' size') := by rw [k3, if_neg hlx, g2]
    have f3 : cellAt s3.blocks l = some (.vec p' cap' size) := by rw [k3, if_pos rfl]
    obtain ⟨s4, e4, n4, k4, b4⟩ := write_cells g3 (.vec p cap size')
    have g4 : cellAt s4.blocks x = some (.vec p cap size') := by rw [k4, if_pos rfl]
    have f4 : cellAt s4.blocks l = some (.vec p' cap' size) := by rw [k4, if_neg hxl, f3]
    obtain ⟨s5, e5, n5, k5, b5⟩ := write_cells f4 (.vec p' cap' size')
    have g5 : cellAt s5.blocks x = some (.vec p cap size') := by rw [k5, if_neg hlx, g4]
    obtain ⟨s6, e6, n6, k6, b6⟩ := write_cells g5 (.vec p cap size)
    refine ⟨s6, ?_, by omega, fun y => ?_, fun q => by rw [b6, b5, b4, b3, b2, b1]⟩
    · rw [swap, Act.bind_ok (members_ok h), Act.bind_ok (members_ok h'), Act.bind_ok e1, Act.bind_ok (members_ok g1), Act.bind_ok e2, Act.bind_ok (members_ok f2), Act.bind_ok (members_ok g2), Act.bind_ok e3,
        Act.bind_ok (members_ok g3), Act.bind_ok e4, Act.bind_ok (members_ok f4), Act.bind_ok (members_ok g4), Act.bind_ok e5, Act.bind_ok (members_ok g5)]
      exact e6
    · rw [k6, k5, k4, k3, k2, k1]
      by_cases h1 : y = l
      · subst h1; simp [hxl]
      · by_cases h2 : y = x
        · subst h2; simp [h1]
        · simp [h1, h2]

/-- A block that is as before but for new contents of some places. -/
def Same (m m' : Blocks T) (new : Loc → Option (Cell T)) (q : Nat) : Prop := ∃ b b', m q = some b ∧ m' q = some b' ∧ b'.length = b.length ∧ ∀ (i : Nat) (c : Cell T), b[i]? = some c → b'[i]? = some ((new (q, i)).getD c)

theorem Same.eq {m m' : Blocks T} {new : Loc → Option (Cell T)} {q : Nat} (h : Same m m' new q) (hn : ∀ i, new (q, i) = .none) : m' q = m q := by
  obtain ⟨b, b', e, e', hl, hc⟩ := h
  rw [e, e']
  congr 1
  refine List.ext_getElem hl fun i h1 h2 => ?_
  have := hc i b[i] (by simp [h2])
  rw [hn i] at this
  simpa [h1] using this

/-- The new contents after `swap`. -/
def newCells (l x : Loc) (c d : Cell T) : Loc → Option (Cell T) := fun y => if y = l then some d else if y = x then some c else .none

theorem Swapped.same {s s' : Mem T} {l x : Loc} {c d : Cell T} (h : Swapped s s' l x c d) {q : Nat} (hq : s.blocks q ≠ .none) : Same s.blocks s'.blocks (newCells l x c d) q := by
  cases e : s.blocks q with
  | none => exact absurd e hq
  | some b =>
    have hl := h.len q
    rw [e] at hl
    cases e' : s'.blocks q with
    | none => rw [e'] at hl; cases hl
    | some b' =>
      rw [e'] at hl
      refine ⟨b, b', e, e', by simpa using hl, fun i k hk => ?_⟩
      have := h.cells (q, i)
      simp only [cellAt, e, e', Option.bind_some] at this
      rw [this, newCells, hk]
      split
      · rfl
      · split <;> rfl

theorem Swapped.dead {s s' : Mem T} {l x : Loc} {c d : Cell T} (h : Swapped s s' l x c d) {q : Nat} (hq : s'.blocks q ≠ .none) : s.blocks q ≠ .none := by
  intro e
  have hl := h.len q
  rw [e] at hl
  cases e' : s'.blocks q with
  | none => exact hq e'
  | some b' => rw [e'] at hl; cases hl

/-! ### Objects within objects -/

/-- The object at the end of a path from the one in `l`. -/
inductive Hole (m : Blocks T) : Nat → Loc → Cell T → Tree T → Fp → List Nat → Nat → Loc → Cell T → Tree T → Fp → Prop
  | nil {d : Nat} {l : Loc} {c : Cell T} {t : Tree T} {F : Fp} : own d m c t F → cellAt m l = some c → Hole m d l c t F [] d l c t F
  | cons {d : Nat} {l : Loc} {p : Nat} {cells : List (Cell T)} {us : Nat → Tree T} {fs : Nat → Fp} {vs : List (Tree T)} {i : Nat} {ci : Cell T} {is : List Nat} {d1 : Nat} {l1 : Loc} {c1 : Cell T} {t1 : Tree T} {F1 : Fp} :
    cellAt m l = some (.vec (some p) cells.length vs.length) → Row (fun _ => own d) m p cells us fs → vs.length ≤ cells.length → vs = (List.range vs.length).map us → i < vs.length → cells[i]? = some ci →
    Hole m d (p, i) ci (us i) (fs i) is d1 l1 c1 t1 F1 → Hole m (d + 1) l (.vec (some p) cells.length vs.length) (.node vs) (whole p cells.length fs) (i :: is) d1 l1 c1 t1 F1

/-- The two objects at the ends of two paths that part. -/
inductive Hole2 (m : Blocks T) : Nat → Cell T → Tree T → Fp → List Nat → Nat → Loc → Cell T → Tree T → Fp → List Nat → Nat → Loc → Cell T → Tree T → Fp → Prop
  | part {d p : Nat} {cells : List (Cell T)} {us : Nat → Tree T} {fs : Nat → Fp} {vs : List (Tree T)} {i j : Nat} {ci cj : Cell T} {is js : List Nat} {d1 : Nat} {l1 : Loc} {c1 : Cell T} {t1 : Tree T} {F1 : Fp} {d2 : Nat}
    {l2 : Loc} {c2 : Cell T} {t2 : Tree T} {F2 : Fp} :
    Row (fun _ => own d) m p cells us fs → vs.length ≤ cells.length → vs = (List.range vs.length).map us → i < vs.length → cells[i]? = some ci → j < vs.length → cells[j]? = some cj → i ≠ j →
    Hole m d (p, i) ci (us i) (fs i) is d1 l1 c1 t1 F1 → Hole m d (p, j) cj (us j) (fs j) js d2 l2 c2 t2 F2 →
    Hole2 m (d + 1) (.vec (some p) cells.length vs.length) (.node vs) (whole p cells.length fs) (i :: is) d1 l1 c1 t1 F1 (j :: js) d2 l2 c2 t2 F2
  | cons {d p : Nat} {cells : List (Cell T)} {us : Nat → Tree T} {fs : Nat → Fp} {vs : List (Tree T)} {i : Nat} {ci : Cell T} {is js : List Nat} {d1 : Nat} {l1 : Loc} {c1 : Cell T} {t1 : Tree T} {F1 : Fp} {d2 : Nat}
    {l2 : Loc} {c2 : Cell T} {t2 : Tree T} {F2 : Fp} :
    Row (fun _ => own d) m p cells us fs → vs.length ≤ cells.length → vs = (List.range vs.length).map us → i < vs.length → cells[i]? = some ci →
    Hole2 m d ci (us i) (fs i) is d1 l1 c1 t1 F1 js d2 l2 c2 t2 F2 →
    Hole2 m (d + 1) (.vec (some p) cells.length vs.length) (.node vs) (whole p cells.length fs) (i :: is) d1 l1 c1 t1 F1 (i :: js) d2 l2 c2 t2 F2

section
variable {m m' : Blocks T} {d : Nat} {l : Loc} {c : Cell T} {t : Tree T} {F : Fp} {path path' : List Nat} {d1 : Nat} {l1 : Loc} {c1 : Cell T} {t1 : Tree T} {F1 : Fp} {d2 : Nat} {l2 : Loc} {c2 : Cell T} {t2 : Tree T} {F2 : Fp}

theorem Hole.own (H : Hole m d l c t F path d1 l1 c1 t1 F1) : Nest.own d1 m c1 t1 F1 ∧ cellAt m l1 = some c1 := by
  induction H with
  | nil h h' => exact ⟨h, h'⟩
  | cons _ _ _ _ _ _ _ ih => exact ih

theorem Hole.depth (H : Hole m d l c t F path d1 l1 c1 t1 F1) : d = path.length + d1 := by
  induction H with
  | nil _ _ => simp
  | cons _ _ _ _ _ _ _ ih => rw [ih]; simp; omega

theorem Hole.loc {s : Mem T} (H : Hole s.blocks d l c t F path d1 l1 c1 t1 F1) : locOf l path s = .ok s l1 := by
  induction H with
  | nil _ _ => rfl
  | cons h _ _ _ _ _ _ ih => rw [locOf, Act.bind_ok (members_ok h)]; exact ih

theorem idx {cells : List (Cell T)} {i : Nat} {ci : Cell T} (h : cells[i]? = some ci) : i < cells.length := (List.getElem?_eq_some_iff.mp h).1

theorem Hole.sub (H : Hole m d l c t F path d1 l1 c1 t1 F1) : ∀ q, F1 q → F q := by
  induction H with
  | nil _ _ => exact fun _ h => h
  | cons _ _ _ _ _ hc _ ih => exact fun q h => .inr ⟨_, idx hc, ih q h⟩

theorem Hole.place (H : Hole m d l c t F path d1 l1 c1 t1 F1) : (path = [] ∧ l1 = l ∧ c1 = c) ∨ (path ≠ [] ∧ F l1.1) := by
  induction H with
  | nil _ _ => exact .inl ⟨rfl, rfl, rfl⟩
  | cons _ _ _ _ _ hc _ ih =>
    refine .inr ⟨by simp, ?_⟩
    rcases ih with ⟨-, h, -⟩ | ⟨-, h⟩
    · exact .inl (by rw [h])
    · exact .inr ⟨_, idx hc, h⟩

theorem Hole.place' (H : Hole m d l c t F path d1 l1 c1 t1 F1) : l1 = l ∨ F l1.1 := by
  rcases H.place with ⟨-, h, -⟩ | ⟨-, h⟩
  · exact .inl h
  · exact .inr h

theorem Hole.out (H : Hole m d l c t F path d1 l1 c1 t1 F1) (h : ¬ F l.1) : ¬ F1 l1.1 := by
  induction H with
  | nil _ _ => exact h
  | cons _ R _ _ _ _ _ ih => exact ih (R.out _)

theorem hole : ∀ (path : List Nat) {d : Nat} {l : Loc} {c : Cell T} {t t1 : Tree T} {F : Fp}, Nest.own d m c t F → cellAt m l = some c → t.get path = some t1 → ∃ d1 l1 c1 F1, Hole m d l c t F path d1 l1 c1 t1 F1
  | [], d, l, c, t, t1, F, h, hc, e => by
    have : t = t1 := by cases t <;> exact Option.some.inj e
    subst this
    exact ⟨d, l, c, F, .nil h hc⟩
  | i :: is, d, l, c, t, t1, F, h, hc, e => by
    obtain ⟨vs, x, rfl, hx, hg⟩ := get_cons e
    obtain ⟨k, rfl⟩ := own_node h
    obtain ⟨a, ea, ho⟩ := h
    cases ea
    cases c with
    | val a => exact ho.elim
    | vec p cap size => cases p with
      | none => obtain ⟨-, -, rfl, -⟩ := ho; simp at hx
      | some p =>
        obtain ⟨cells, us, fs, R, rfl, h2, h3, rfl⟩ := ho
        have hs : vs.length = size := by rw [h3]; simp
        subst hs
        obtain ⟨hi, hu⟩ := row_val h3 hx
        subst hu
        have hci : cells[i]? = some cells[i] := by simp [show i < cells.length by omega]
        obtain ⟨d1, l1, c1, F1, H⟩ := hole is (l := (p, i)) (R.own i _ hci) (by simp [cellAt, R.block, show i < cells.length by omega]) hg
        exact ⟨d1, l1, c1, F1, .cons hc R h2 h3 hi hci H⟩

theorem hole2 : ∀ (path path' : List Nat) {d : Nat} {l : Loc} {c : Cell T} {t t1 t2 : Tree T} {F : Fp}, Nest.own d m c t F → cellAt m l = some c → t.get path = some t1 → t.get path' = some t2 → ¬ path <+: path' → ¬ path' <+: path →
    ∃ d1 l1 c1 F1 d2 l2 c2 F2, Hole2 m d c t F path d1 l1 c1 t1 F1 path' d2 l2 c2 t2 F2 ∧ Hole m d l c t F path d1 l1 c1 t1 F1 ∧ Hole m d l c t F path' d2 l2 c2 t2 F2 ∧ Apart l1 l2 F1 F2
  | [], _, _, _, _, _, _, _, _, _, _, _, _, n, _ => (n (List.nil_prefix)).elim
  | _ :: _, [], _, _, _, _, _, _, _, _, _, _, _, _, n => (n (List.nil_prefix)).elim
  | i :: is, j :: js, d, l, c, t, t1, t2, F, h, hc, e1, e2, n1, n2 => by
    obtain ⟨vs, x, rfl, hx, hg⟩ := get_cons e1
    obtain ⟨vs', y, e, hy, hg'⟩ := get_cons e2
    cases e
    obtain ⟨k, rfl⟩ := own_node h
    obtain ⟨a, ea, ho⟩ := h
    cases ea
    cases c with
    | val a => exact ho.elim
    | vec p cap size => cases p with
      | none => obtain ⟨-, -, rfl, -⟩ := ho; simp at hx
      | some p =>
        obtain ⟨cells, us, fs, R, rfl, h2, h3, rfl⟩ := ho
        have hs : vs.length = size := by rw [h3]; simp
        subst hs
        obtain ⟨hi, hu⟩ := row_val h3 hx
        obtain ⟨hj, hu'⟩ := row_val h3 hy
        subst hu hu'
        have hci : cells[i]? = some cells[i] := by simp [show i < cells.length by omega]
        have hcj : cells[j]? = some cells[j] := by simp [show j < cells.length by omega]
        have hki : cellAt m (p, i) = some cells[i] := by simp [cellAt, R.block, show i < cells.length by omega]
        have hkj : cellAt m (p, j) = some cells[j] := by simp [cellAt, R.block, show j < cells.length by omega]
        by_cases hij : i = j
        · subst hij
          obtain ⟨d1, l1, c1, F1, d2, l2, c2, F2, H, H1, H2, ap⟩ := hole2 is js (R.own i _ hci) hki hg hg' (fun h => n1 ((List.prefix_cons_inj i).mpr h)) (fun h => n2 ((List.prefix_cons_inj i).mpr h))
          exact ⟨d1, l1, c1, F1, d2, l2, c2, F2, .cons R h2 h3 hi hci H, .cons hc R h2 h3 hi hci H1, .cons hc R h2 h3 hj hcj H2, ap⟩
        · obtain ⟨d1, l1, c1, F1, H1⟩ := hole is (R.own i _ hci) hki hg
          obtain ⟨d2, l2, c2, F2, H2⟩ := hole js (R.own j _ hcj) hkj hg'
          exact ⟨d1, l1, c1, F1, d2, l2, c2, F2, .part R h2 h3 hi hci hj hcj hij H1 H2, .cons hc R h2 h3 hi hci H1, .cons hc R h2 h3 hj hcj H2, row_apart R hij H1.sub H2.sub H1.place' H2.place'⟩

end

/-! ### Other objects put there -/

/-- A row after some of its objects have changed. -/
theorem row_lift {O : Nat → Owns T (Tree T)} {m m' : Blocks T} {p : Nat} {cells : List (Cell T)} {us us' : Nat → Tree T} {fs fs' : Nat → Fp} {new : Loc → Option (Cell T)} (R : Row O m p cells us fs) (hS : Same m m' new p)
    (ho : ∀ j k, cells[j]? = some k → O j m' ((new (p, j)).getD k) (us' j) (fs' j)) (hd : ∀ i j q, fs' i q → fs' j q → i = j) (hp : ∀ i, ¬ fs' i p) (hr : ∀ i, cells.length ≤ i → fs' i = none) :
    ∃ cells', cells'.length = cells.length ∧ Row O m' p cells' us' fs' := by
  obtain ⟨b, b', e, e', hl, hc⟩ := hS
  rw [R.block] at e; cases e
  refine ⟨b', hl, e', fun j k hk => ?_, hd, hp, fun i hi => hr i (by omega)⟩
  have hj : j < cells.length := by rw [← hl]; exact idx hk
  have h1 : cells[j]? = some cells[j] := by simp [hj]
  rw [hc j _ h1] at hk
  cases hk
  exact ho j _ h1

theorem set_range {us : Nat → Tree T} {vs : List (Tree T)} (hv : vs = (List.range vs.length).map us) (i : Nat) (v : Tree T) : vs.set i v = (List.range vs.length).map (upd us i v) := by
  apply List.ext_getElem (by simp)
  intro j h1 h2
  have hj : j < vs.length := by simpa using h1
  have : vs[j] = us j := by
    have := congrArg (·[j]?) hv
    simp only [List.getElem?_map, List.getElem?_range hj, List.getElem?_eq_getElem hj] at this
    exact Option.some.inj this
  rw [List.getElem_set]
  simp only [List.getElem_map, List.getElem_range]
  by_cases hij : i = j
  · subst hij; rw [if_pos rfl, upd_same]
  · rw [if_neg hij, upd_ne (Ne.symm hij), this]

/-- What is owned after `F1` is exchanged for `G`. -/
def exch (F F1 G : Fp) : Fp := fun q => (F q ∧ ¬ F1 q) ∨ G q

section
variable {O : Nat → Owns T (Tree T)} {m m' : Blocks T} {p : Nat} {cells : List (Cell T)} {us : Nat → Tree T} {fs : Nat → Fp} {new : Loc → Option (Cell T)}

/-- One of them. -/
theorem row1 (fr : ∀ i, Framed (O i)) (R : Row O m p cells us fs) (hS : Same m m' new p) {i : Nat} {ci : Cell T} {v : Tree T} {H : Fp} (hci : cells[i]? = some ci) (ho : O i m' ((new (p, i)).getD ci) v H)
    (hn : ∀ a, a ≠ i → new (p, a) = .none) (hs : ∀ a, a ≠ i → ∀ q, fs a q → m' q = m q) (hd : ∀ a, a ≠ i → ∀ q, H q → ¬ fs a q) (hp : ¬ H p) : ∃ cells', cells'.length = cells.length ∧ Row O m' p cells' (upd us i v) (upd fs i H) := by
  refine row_lift R hS (fun j k hk => ?_) (fun a b q h1 h2 => ?_) (fun a h1 => ?_) (fun a ha => ?_)
  · by_cases hji : j = i
    · subst hji
      rw [hci] at hk; cases hk
      rw [upd_same, upd_same]; exact ho
    · rw [upd_ne hji, upd_ne hji, hn j hji]
      exact fr _ _ _ _ _ _ (R.own j _ hk) (hs j hji)
  · by_cases ha : a = i
    · by_cases hb : b = i
      · rw [ha, hb]
      · rw [ha, upd_same] at h1; rw [upd_ne hb] at h2; exact (hd b hb q h1 h2).elim
    · rw [upd_ne ha] at h1
      by_cases hb : b = i
      · rw [hb, upd_same] at h2; exact (hd a ha q h2 h1).elim
      · rw [upd_ne hb] at h2; exact R.disj a b q h1 h2
  · by_cases ha : a = i
    · rw [ha, upd_same] at h1; exact hp h1
    · rw [upd_ne ha] at h1; exact R.out a h1
  · have := idx hci
    rw [upd_ne (by omega)]; exact R.rest a ha

/-- Two of them. -/
theorem row2 (fr : ∀ i, Framed (O i)) (R : Row O m p cells us fs) (hS : Same m m' new p) {i j : Nat} (hij : i ≠ j) {ci cj : Cell T} {v w : Tree T} {H K : Fp} (hci : cells[i]? = some ci) (hcj : cells[j]? = some cj)
    (ho : O i m' ((new (p, i)).getD ci) v H) (ho' : O j m' ((new (p, j)).getD cj) w K) (hn : ∀ a, a ≠ i → a ≠ j → new (p, a) = .none) (hs : ∀ a, a ≠ i → a ≠ j → ∀ q, fs a q → m' q = m q)
    (hd : ∀ a, a ≠ i → a ≠ j → ∀ q, H q ∨ K q → ¬ fs a q) (hHK : ∀ q, H q → ¬ K q) (hp : ¬ H p) (hp' : ¬ K p) :
    ∃ cells', cells'.length = cells.length ∧ Row O m' p cells' (upd (upd us i v) j w) (upd (upd fs i H) j K) := by
  have val : ∀ {α : Type} (f : Nat → α) (x y : α) (a : Nat), upd (upd f i x) j y a = if a = j then y else if a = i then x else f a := fun _ _ _ _ => rfl
  refine row_lift R hS (fun a k hk => ?_) (fun a b q h1 h2 => ?_) (fun a h1 => ?_) (fun a ha => ?_)
  · rw [val, val]
    by_cases haj : a = j
    · subst haj
      rw [hcj] at hk; cases hk
      rw [if_pos rfl, if_pos rfl]; exact ho'
    · rw [if_neg haj, if_neg haj]
      by_cases hai : a = i
      · subst hai
        rw [hci] at hk; cases hk
        rw [if_pos rfl, if_pos rfl]; exact ho
      · rw [if_neg hai, if_neg hai, hn a hai haj]
        exact fr _ _ _ _ _ _ (R.own a _ hk) (hs a hai haj)
  · rw [val] at h1 h2
    by_cases haj : a = j
    · rw [if_pos haj] at h1
      by_cases hbj : b = j
      · rw [haj, hbj]
      · rw [if_neg hbj] at h2
        by_cases hbi : b = i
        · rw [if_pos hbi] at h2; exact (hHK q h2 h1).elim
        · rw [if_neg hbi] at h2; exact (hd b hbi hbj q (.inr h1) h2).elim
    · rw [if_neg haj] at h1
      by_cases hai : a = i
      · rw [if_pos hai] at h1
        by_cases hbj : b = j
        · rw [if_pos hbj] at h2; exact (hHK q h1 h2).elim
        · rw [if_neg hbj] at h2
          by_cases hbi : b = i
          · rw [hai, hbi]
          · rw [if_neg hbi] at h2; exact (hd b hbi hbj q (.inl h1) h2).elim
      · rw [if_neg hai] at h1
        by_cases hbj : b = j
        · rw [if_pos hbj] at h2; exact (hd a hai haj q (.inr h2) h1).elim
        · rw [if_neg hbj] at h2
          by_cases hbi : b = i
          · rw [if_pos hbi] at h2; exact (hd a hai haj q (.inl h2) h1).elim
          · rw [if_neg hbi] at h2; exact R.disj a b q h1 h2
  · rw [val] at h1
    by_cases haj : a = j
    · rw [if_pos haj] at h1; exact hp' h1
    · rw [if_neg haj] at h1
      by_cases hai : a = i
      · rw [if_pos hai] at h1; exact hp h1
      · rw [if_neg hai] at h1; exact R.out a h1
  · have := idx hci
    have := idx hcj
    rw [val, if_neg (by omega), if_neg (by omega)]; exact R.rest a ha

end

/-- Another object at the end of a path. -/
theorem lift1 {m m' : Blocks T} {new : Loc → Option (Cell T)} {d : Nat} {l : Loc} {c : Cell T} {t : Tree T} {F : Fp} {path : List Nat} {d1 : Nat} {l1 : Loc} {c1 : Cell T} {t1 : Tree T} {F1 G : Fp} {k : Cell T} {u : Tree T}
    (H : Hole m d l c t F path d1 l1 c1 t1 F1) (hS : ∀ q, F q → ¬ F1 q → Same m m' new q) (hk : new l1 = some k) (hx : ∀ x : Loc, F x.1 → x ≠ l1 → new x = .none) (ho : own d1 m' k u G) (hG : ∀ q, G q → F q → F1 q) :
    own d m' (if path = [] then k else c) (t.put path u) (exch F F1 G) := by
  induction H with
  | @nil d l c t F h hc =>
    have : exch F F G = G := by funext q; simp [exch]
    rw [this, if_pos rfl]
    cases t <;> exact ho
  | @cons d l p cells us fs vs i ci is d1 l1 c1 t1 F1 hc R hl hv hi hci H ih =>
    have hil : i < cells.length := idx hci
    have hsub := H.sub
    have hpF1 : ¬ F1 p := fun h => R.out i (hsub p h)
    have hnot : ∀ j, j ≠ i → ∀ q, fs j q → ¬ F1 q := fun j hj q h h' => hj (R.disj j i q h (hsub q h'))
    have hne : ∀ j, j ≠ i → ∀ q, fs j q → q ≠ l1.1 := by
      rintro j hj q h rfl
      rcases H.place' with h1 | h1
      · rw [h1] at h; exact R.out j h
      · exact hj (R.disj j i _ h h1)
    have inF : ∀ j q, fs j q → whole p cells.length fs q := by
      intro j q h
      by_cases hj : j < cells.length
      · exact .inr ⟨j, hj, h⟩
      · rw [R.rest j (by omega)] at h; exact h.elim
    have ihi := ih (fun q h h' => hS q (inF i q h) h') hk (fun x h hx' => hx x (inF i _ h) hx') ho (fun q h h' => hG q h (inF i q h'))
    have hx0 : vs[i]? = some (us i) := by rw [hv]; simp [hi]
    obtain ⟨cells', hl', R'⟩ : ∃ cells', cells'.length = cells.length ∧ Row (fun _ => Nest.own d) m' p cells' (upd us i ((us i).put is u)) (upd fs i (exch (fs i) F1 G)) := by
      refine row1 (fun _ => own_frame d) R (hS p (.inl rfl) hpF1) hci ?_ (fun j hji => hx (p, j) (.inl rfl) fun e => ?_) (fun j hji q hq => (hS q (inF j q hq) (hnot j hji q hq)).eq fun a => hx _ (inF j q hq) fun e => hne j hji q hq (by rw [← e]))
        (fun j hji q h h' => ?_) (fun h => ?_)
      · rcases H.place with ⟨h1, h2, -⟩ | ⟨h1, h2⟩
        · rw [if_pos h1] at ihi
          rw [← h2, hk]; exact ihi
        · rw [if_neg h1] at ihi
          rw [hx (p, i) (.inl rfl) (fun e => R.out i (by rw [← e] at h2; exact h2))]; exact ihi
      · rcases H.place' with h1 | h1
        · rw [h1] at e; exact hji (congrArg Prod.snd e)
        · rw [← e] at h1; exact R.out i h1
      · rcases h with ⟨h, -⟩ | h
        · exact hji (R.disj j i q h' h)
        · exact hnot j hji q h' (hG q h (inF j q h'))
      · rcases h with ⟨h, -⟩ | h
        · exact R.out i h
        · exact hpF1 (hG p h (.inl rfl))
    rw [if_neg (by simp)]
    refine ⟨vs.set i ((us i).put is u), by simp only [Tree.put, hx0], cells', _, _, R', hl', hl, set_range hv _ _, ?_⟩
    funext q
    apply propext
    constructor
    · rintro (⟨h | ⟨j, hj, h⟩, h'⟩ | h)
      · exact .inl h
      · by_cases hji : j = i
        · subst hji; exact .inr ⟨j, hj, by rw [upd_same]; exact .inl ⟨h, h'⟩⟩
        · exact .inr ⟨j, hj, by rw [upd_ne hji]; exact h⟩
      · exact .inr ⟨i, hil, by rw [upd_same]; exact .inr h⟩
    · rintro (rfl | ⟨j, hj, h⟩)
      · exact .inl ⟨.inl rfl, hpF1⟩
      · by_cases hji : j = i
        · subst hji
          rw [upd_same] at h
          rcases h with ⟨h, h'⟩ | h
          · exact .inl ⟨.inr ⟨j, hj, h⟩, h'⟩
          · exact .inr h
        · rw [upd_ne hji] at h
          exact .inl ⟨.inr ⟨j, hj, h⟩, hnot j hji q h⟩

/-- What is owned after `F1` and `F2` are exchanged for `G1` and `G2`. -/
def exch2 (F F1 F2 G1 G2 : Fp) : Fp := fun q => (F q ∧ ¬ F1 q ∧ ¬ F2 q) ∨ G1 q ∨ G2 q

theorem Hole2.sub {m : Blocks T} {d : Nat} {c : Cell T} {t : Tree T} {F : Fp} {path path' : List Nat} {d1 : Nat} {l1 : Loc} {c1 : Cell T} {t1 : Tree T} {F1 : Fp} {d2 : Nat} {l2 : Loc} {c2 : Cell T} {t2 : Tree T} {F2 : Fp}
    (H : Hole2 m d c t F path d1 l1 c1 t1 F1 path' d2 l2 c2 t2 F2) : (∀ q, F1 q → F q) ∧ (∀ q, F2 q → F q) ∧ F l1.1 ∧ F l2.1 := by
  induction H with
  | part R _ _ _ hci _ hcj _ H1 H2 =>
    refine ⟨fun q h => .inr ⟨_, idx hci, H1.sub q h⟩, fun q h => .inr ⟨_, idx hcj, H2.sub q h⟩, ?_, ?_⟩
    · rcases H1.place' with h | h
      · exact .inl (by rw [h])
      · exact .inr ⟨_, idx hci, h⟩
    · rcases H2.place' with h | h
      · exact .inl (by rw [h])
      · exact .inr ⟨_, idx hcj, h⟩
  | cons R _ _ _ hci _ ih =>
    obtain ⟨h1, h2, h3, h4⟩ := ih
    exact ⟨fun q h => .inr ⟨_, idx hci, h1 q h⟩, fun q h => .inr ⟨_, idx hci, h2 q h⟩, .inr ⟨_, idx hci, h3⟩, .inr ⟨_, idx hci, h4⟩⟩

/-- Other objects at the ends of two paths. -/
theorem lift2 {m m' : Blocks T} {new : Loc → Option (Cell T)} {d : Nat} {c : Cell T} {t : Tree T} {F : Fp} {path path' : List Nat} {d1 : Nat} {l1 : Loc} {c1 : Cell T} {t1 : Tree T} {F1 G1 : Fp} {d2 : Nat} {l2 : Loc} {c2 : Cell T}
    {t2 : Tree T} {F2 G2 : Fp} {k1 k2 : Cell T} {u1 u2 : Tree T} (H : Hole2 m d c t F path d1 l1 c1 t1 F1 path' d2 l2 c2 t2 F2) (hS : ∀ q, F q → ¬ F1 q → ¬ F2 q → Same m m' new q) (hk1 : new l1 = some k1) (hk2 : new l2 = some k2)
    (hx : ∀ x : Loc, F x.1 → x ≠ l1 → x ≠ l2 → new x = .none) (ho1 : own d1 m' k1 u1 G1) (ho2 : own d2 m' k2 u2 G2) (hG1 : ∀ q, G1 q → F q → F1 q ∨ F2 q) (hG2 : ∀ q, G2 q → F q → F1 q ∨ F2 q) (hG : ∀ q, G1 q → ¬ G2 q) :
    own d m' c ((t.put path u1).put path' u2) (exch2 F F1 F2 G1 G2) := by
  induction H with
  | @part d p cells us fs vs i j ci cj is js d1 l1 c1 t1 F1 d2 l2 c2 t2 F2 R hl hv hi hci hj hcj hij H1 H2 =>
    have hil : i < cells.length := idx hci
    have hjl : j < cells.length := idx hcj
    have s1 := H1.sub
    have s2 := H2.sub
    have hp1 : ¬ F1 p := fun h => R.out i (s1 p h)
    have hp2 : ¬ F2 p := fun h => R.out j (s2 p h)
    have inF : ∀ a q, fs a q → whole p cells.length fs q := by
      intro a q h
      by_cases ha : a < cells.length
      · exact .inr ⟨a, ha, h⟩
      · rw [R.rest a (by omega)] at h; exact h.elim
    have not1 : ∀ a, a ≠ i → ∀ q, fs a q → ¬ F1 q := fun a ha q h h' => ha (R.disj a i q h (s1 q h'))
    have not2 : ∀ a, a ≠ j → ∀ q, fs a q → ¬ F2 q := fun a ha q h h' => ha (R.disj a j q h (s2 q h'))
    have ne1 : ∀ a, a ≠ i → ∀ q, fs a q → q ≠ l1.1 := by
      rintro a ha q h rfl
      rcases H1.place' with h1 | h1
      · rw [h1] at h; exact R.out a h
      · exact ha (R.disj a i _ h h1)
    have ne2 : ∀ a, a ≠ j → ∀ q, fs a q → q ≠ l2.1 := by
      rintro a ha q h rfl
      rcases H2.place' with h1 | h1
      · rw [h1] at h; exact R.out a h
      · exact ha (R.disj a j _ h h1)
    have pl1 : ∀ a, a ≠ i → (p, a) ≠ l1 := by
      intro a ha e
      rcases H1.place' with h1 | h1
      · rw [h1] at e; exact ha (congrArg Prod.snd e)
      · rw [← e] at h1; exact R.out i h1
    have pl2 : ∀ a, a ≠ j → (p, a) ≠ l2 := by
      intro a ha e
      rcases H2.place' with h1 | h1
      · rw [h1] at e; exact ha (congrArg Prod.snd e)
      · rw [← e] at h1; exact R.out j h1
    have L1 := lift1 H1 (fun q h h' => hS q (inF i q h) h' (not2 i hij q h)) hk1 (fun x h hx' => hx x (inF i _ h) hx' fun e => ne2 i hij _ h (by rw [e])) ho1
      (fun q h h' => (hG1 q h (inF i q h')).resolve_right (not2 i hij q h'))
    have L2 := lift1 H2 (fun q h h' => hS q (inF j q h) (not1 j hij.symm q h) h') hk2 (fun x h hx' => hx x (inF j _ h) (fun e => ne1 j hij.symm _ h (by rw [e])) hx') ho2
      (fun q h h' => (hG2 q h (inF j q h')).resolve_left (not1 j hij.symm q h'))
    have hx0 : vs[i]? = some (us i) := by rw [hv]; simp [hi]
    have hx1 : vs[j]? = some (us j) := by rw [hv]; simp [hj]
    obtain ⟨cells', hl', R'⟩ : ∃ cells', cells'.length = cells.length ∧ Row (fun _ => Nest.own d) m' p cells' (upd (upd us i ((us i).put is u1)) j ((us j).put js u2)) (upd (upd fs i (exch (fs i) F1 G1)) j (exch (fs j) F2 G2)) := by
      refine row2 (fun _ => own_frame d) R (hS p (.inl rfl) hp1 hp2) hij hci hcj ?_ ?_ (fun a ha hb => hx (p, a) (.inl rfl) (pl1 a ha) (pl2 a hb))
        (fun a ha hb q hq => (hS q (inF a q hq) (not1 a ha q hq) (not2 a hb q hq)).eq fun k => hx _ (inF a q hq) (fun e => ne1 a ha q hq (by rw [← e])) fun e => ne2 a hb q hq (by rw [← e])) (fun a ha hb q h h' => ?_) (fun q h h' => ?_) (fun h => ?_) (fun h => ?_)
      · rcases H1.place with ⟨h1, h2, -⟩ | ⟨h1, h2⟩
        · rw [if_pos h1] at L1
          rw [← h2, hk1]; exact L1
        · rw [if_neg h1] at L1
          rw [hx (p, i) (.inl rfl) (fun e => R.out i (by rw [← e] at h2; exact h2)) (pl2 i hij)]; exact L1
      · rcases H2.place with ⟨h1, h2, -⟩ | ⟨h1, h2⟩
        · rw [if_pos h1] at L2
          rw [← h2, hk2]; exact L2
        · rw [if_neg h1] at L2
          rw [hx (p, j) (.inl rfl) (pl1 j hij.symm) (fun e => R.out j (by rw [← e] at h2; exact h2))]; exact L2
      · rcases h with (⟨h, -⟩ | h) | (⟨h, -⟩ | h)
        · exact ha (R.disj a i q h' h)
        · rcases hG1 q h (inF a q h') with h1 | h1
          · exact not1 a ha q h' h1
          · exact not2 a hb q h' h1
        · exact hb (R.disj a j q h' h)
        · rcases hG2 q h (inF a q h') with h1 | h1
          · exact not1 a ha q h' h1
          · exact not2 a hb q h' h1
      · rcases h with ⟨h, h1⟩ | h
        · rcases h' with ⟨h', -⟩ | h'
          · exact hij (R.disj i j q h h')
          · rcases hG2 q h' (inF i q h) with h2 | h2
            · exact h1 h2
            · exact not2 i hij q h h2
        · rcases h' with ⟨h', h1⟩ | h'
          · rcases hG1 q h (inF j q h') with h2 | h2
            · exact not1 j hij.symm q h' h2
            · exact h1 h2
          · exact hG q h h'
      · rcases h with ⟨h, -⟩ | h
        · exact R.out i h
        · exact (hG1 p h (.inl rfl)).elim hp1 hp2
      · rcases h with ⟨h, -⟩ | h
        · exact R.out j h
        · exact (hG2 p h (.inl rfl)).elim hp1 hp2
    have hvs : vs.set i ((us i).put is u1) = (List.range (vs.set i ((us i).put is u1)).length).map (upd us i ((us i).put is u1)) := by rw [List.length_set]; exact set_range hv _ _
    have hv2 := set_range hvs j ((us j).put js u2)
    rw [List.length_set] at hv2
    refine ⟨(vs.set i ((us i).put is u1)).set j ((us j).put js u2), by simp only [Tree.put, hx0, List.getElem?_set_ne hij, hx1], cells', _, _, R', hl', hl, hv2, ?_⟩
    funext q
    apply propext
    constructor
    · rintro (⟨h | ⟨a, ha, h⟩, h1, h2⟩ | h | h)
      · exact .inl h
      · by_cases haj : a = j
        · subst haj; exact .inr ⟨a, ha, by rw [upd_same]; exact .inl ⟨h, h2⟩⟩
        · by_cases hai : a = i
          · subst hai; exact .inr ⟨a, ha, by rw [upd_ne haj, upd_same]; exact .inl ⟨h, h1⟩⟩
          · exact .inr ⟨a, ha, by rw [upd_ne haj, upd_ne hai]; exact h⟩
      · exact .inr ⟨i, hil, by rw [upd_ne hij, upd_same]; exact .inr h⟩
      · exact .inr ⟨j, hjl, by rw [upd_same]; exact .inr h⟩
    · rintro (rfl | ⟨a, ha, h⟩)
      · exact .inl ⟨.inl rfl, hp1, hp2⟩
      · by_cases haj : a = j
        · subst haj
          rw [upd_same] at h
          rcases h with ⟨h, h'⟩ | h
          · exact .inl ⟨.inr ⟨a, ha, h⟩, not1 a hij.symm q h, h'⟩
          · exact .inr (.inr h)
        · rw [upd_ne haj] at h
          by_cases hai : a = i
          · subst hai
            rw [upd_same] at h
            rcases h with ⟨h, h'⟩ | h
            · exact .inl ⟨.inr ⟨a, ha, h⟩, h', not2 a hij q h⟩
            · exact .inr (.inl h)
          · rw [upd_ne hai] at h
            exact .inl ⟨.inr ⟨a, ha, h⟩, not1 a hai q h, not2 a haj q h⟩
  | @cons d p cells us fs vs i ci is js d1 l1 c1 t1 F1 d2 l2 c2 t2 F2 R hl hv hi hci H ih =>
    have hil : i < cells.length := idx hci
    obtain ⟨s1, s2, p1, p2⟩ := H.sub
    have hp1 : ¬ F1 p := fun h => R.out i (s1 p h)
    have hp2 : ¬ F2 p := fun h => R.out i (s2 p h)
    have inF : ∀ a q, fs a q → whole p cells.length fs q := by
      intro a q h
      by_cases ha : a < cells.length
      · exact .inr ⟨a, ha, h⟩
      · rw [R.rest a (by omega)] at h; exact h.elim
    have not1 : ∀ a, a ≠ i → ∀ q, fs a q → ¬ F1 q := fun a ha q h h' => ha (R.disj a i q h (s1 q h'))
    have not2 : ∀ a, a ≠ i → ∀ q, fs a q → ¬ F2 q := fun a ha q h h' => ha (R.disj a i q h (s2 q h'))
    have ne1 : ∀ a, a ≠ i → ∀ q, fs a q → q ≠ l1.1 := by rintro a ha q h rfl; exact ha (R.disj a i _ h p1)
    have ne2 : ∀ a, a ≠ i → ∀ q, fs a q → q ≠ l2.1 := by rintro a ha q h rfl; exact ha (R.disj a i _ h p2)
    have pl : ∀ a, new (p, a) = .none := fun a => hx (p, a) (.inl rfl) (fun e => R.out i (by rw [← e] at p1; exact p1)) fun e => R.out i (by rw [← e] at p2; exact p2)
    have ihi := ih (fun q h => hS q (inF i q h)) hk1 hk2 (fun x h => hx x (inF i _ h)) ho1 ho2 (fun q h h' => hG1 q h (inF i q h')) (fun q h h' => hG2 q h (inF i q h'))
    have hx0 : vs[i]? = some (us i) := by rw [hv]; simp [hi]
    obtain ⟨cells', hl', R'⟩ : ∃ cells', cells'.length = cells.length ∧ Row (fun _ => Nest.own d) m' p cells' (upd us i (((us i).put is u1).put js u2)) (upd fs i (exch2 (fs i) F1 F2 G1 G2)) := by
      refine row1 (fun _ => own_frame d) R (hS p (.inl rfl) hp1 hp2) hci (by rw [pl i]; exact ihi) (fun a _ => pl a)
        (fun a ha q hq => (hS q (inF a q hq) (not1 a ha q hq) (not2 a ha q hq)).eq fun k => hx _ (inF a q hq) (fun e => ne1 a ha q hq (by rw [← e])) fun e => ne2 a ha q hq (by rw [← e])) (fun a ha q h h' => ?_) (fun h => ?_)
      · rcases h with ⟨h, -⟩ | h | h
        · exact ha (R.disj a i q h' h)
        · exact (hG1 q h (inF a q h')).elim (not1 a ha q h') (not2 a ha q h')
        · exact (hG2 q h (inF a q h')).elim (not1 a ha q h') (not2 a ha q h')
      · rcases h with ⟨h, -⟩ | h | h
        · exact R.out i h
        · exact (hG1 p h (.inl rfl)).elim hp1 hp2
        · exact (hG2 p h (.inl rfl)).elim hp1 hp2
    refine ⟨vs.set i (((us i).put is u1).put js u2), ?_, cells', _, _, R', hl', hl, set_range hv _ _, ?_⟩
    · have : (vs.set i ((us i).put is u1))[i]? = some ((us i).put is u1) := by simp [hi]
      simp only [Tree.put, hx0, this, List.set_set]
    · funext q
      apply propext
      constructor
      · rintro (⟨h | ⟨a, ha, h⟩, h1, h2⟩ | h)
        · exact .inl h
        · by_cases hai : a = i
          · subst hai; exact .inr ⟨a, ha, by rw [upd_same]; exact .inl ⟨h, h1, h2⟩⟩
          · exact .inr ⟨a, ha, by rw [upd_ne hai]; exact h⟩
        · exact .inr ⟨i, hil, by rw [upd_same]; exact .inr h⟩
      · rintro (rfl | ⟨a, ha, h⟩)
        · exact .inl ⟨.inl rfl, hp1, hp2⟩
        · by_cases hai : a = i
          · subst hai
            rw [upd_same] at h
            rcases h with ⟨h, h'⟩ | h
            · exact .inl ⟨.inr ⟨a, ha, h⟩, h'⟩
            · exact .inr h
          · rw [upd_ne hai] at h
            exact .inl ⟨.inr ⟨a, ha, h⟩, not1 a hai q h, not2 a hai q h⟩

end Nanostl.Vector.Nest

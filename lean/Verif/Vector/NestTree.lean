import Verif.Vector.NestStr

/-! Helper lemmas for C131: variables of any depth, and places within them. -/

namespace Nanostl.Vector.Nest

variable {T : Type}

/-- The value at the end of a path. -/
def Tree.get : Tree T → List Nat → Option (Tree T)
  | t, [] => some t
  | .leaf _, _ :: _ => .none
  | .node l, i :: is => match l[i]? with
    | .none => .none
    | some x => x.get is

/-- Another value there. -/
def Tree.put : Tree T → List Nat → Tree T → Tree T
  | _, [], u => u
  | .leaf a, _ :: _, _ => .leaf a
  | .node l, i :: is, u => match l[i]? with
    | .none => .node l
    | some x => .node (l.set i (x.put is u))

theorem Tree.put_get : ∀ {is : List Nat} {t u : Tree T}, t.get is = some u → t.put is u = t
  | [], t, u, h => by cases t <;> exact (Option.some.inj h).symm
  | i :: is, .leaf a, u, h => by cases h
  | i :: is, .node l, u, h => by
    simp only [get] at h
    simp only [put]
    cases hx : l[i]? with
    | none => rfl
    | some x =>
      rw [hx] at h
      simp only
      rw [put_get h, set_self hx]

/-- What a variable of depth `d` owns. -/
def own : Nat → Owns T (Tree T)
  | 0 => mapO .leaf ownScalar
  | d + 1 => mapO .node (ownVec (own d))

/-- `T()`. -/
def tzero (dflt : T) (str : Bool) : Nat → Tree T
  | 0 => .leaf dflt
  | d + 1 => .node (if str && d == 0 then [.leaf dflt] else [])

theorem good_own (dflt : T) (str : Bool) : ∀ d, Good (d == 0) (ops dflt str d) (own d) (tzero dflt str d)
  | 0 => good_map _ (good_scalar dflt)
  | d + 1 => by
    rw [ops, tzero]
    split
    · next h =>
      have hd : d = 0 := by simp at h; exact h.2
      subst hd
      exact good_map _ (good_string _ dflt)
    · exact good_map _ (good_vector (good_own dflt str d))

theorem own_frame (d : Nat) : Framed (own (T := T) d) := by
  induction d with
  | zero => rintro m m' c v F ⟨a, rfl, h⟩ hm; exact ⟨a, rfl, h⟩
  | succ d ih =>
    rintro m m' c v F ⟨a, rfl, h⟩ hm
    refine ⟨a, rfl, ?_⟩
    cases c with
    | val a => exact h.elim
    | vec p cap size => cases p with
      | none => exact h
      | some p =>
        obtain ⟨cells, us, fs, R, rfl, h2, h3, rfl⟩ := h
        exact ⟨cells, us, fs, R.frame ih hm, rfl, h2, h3, rfl⟩

theorem own_live (d : Nat) : Lives (own (T := T) d) := by
  induction d with
  | zero => rintro m c v F ⟨a, rfl, -, rfl⟩ q h; exact h.elim
  | succ d ih =>
    rintro m c v F ⟨a, rfl, h⟩
    cases c with
    | val a => exact h.elim
    | vec p cap size => cases p with
      | none => obtain ⟨-, -, -, rfl⟩ := h; exact fun q hq => hq.elim
      | some p =>
        obtain ⟨cells, us, fs, R, rfl, h2, h3, rfl⟩ := h
        exact R.live ih

/-! ### Reading -/

theorem viewRow_spec {f : Loc → Act (Mem T) (Tree T)} {p : Nat} {us : Nat → Tree T} {s : Mem T} : ∀ (n i : Nat), (∀ j, i ≤ j → j < i + n → f (p, j) s = .ok s (us j)) →
    viewRow f (some p) n i s = .ok s ((List.range' i n).map us)
  | 0, i, _ => rfl
  | n + 1, i, h => by
    show (f (p, i) >>= fun t => viewRow f (some p) n (i + 1) >>= fun ts => pure (t :: ts)) s = _
    rw [Act.bind_ok (h i (Nat.le_refl _) (by omega)), Act.bind_ok (viewRow_spec n (i + 1) fun j h1 h2 => h j (by omega) (by omega))]
    rfl

theorem view_spec : ∀ (d : Nat) {s : Mem T} {l : Loc} {c : Cell T} {t : Tree T} {F : Fp}, cellAt s.blocks l = some c → own d s.blocks c t F → view d l s = .ok s t
  | 0, s, l, c, t, F, hc, ⟨a, e, h, _⟩ => by
    subst e h
    rw [view, Act.bind_ok (read_ok hc)]; rfl
  | d + 1, s, l, c, t, F, hc, ⟨vs, e, h⟩ => by
    subst e
    cases c with
    | val a => exact h.elim
    | vec p cap size =>
      rw [view, Act.bind_ok (members_ok hc)]
      cases p with
      | none => obtain ⟨rfl, rfl, rfl, -⟩ := h; rfl
      | some p =>
        obtain ⟨cells, us, fs, R, rfl, h2, rfl, rfl⟩ := h
        rw [Act.bind_ok (viewRow_spec (us := us) size 0 fun j _ hj => view_spec d (R.has (by omega)).cell (R.has (by omega)).own), List.range_eq_range']
        rfl

/-! ### Places -/

/-- An object at the end of a path from the one in `l`. -/
structure Focus (d : Nat) (s : Mem T) (l : Loc) (t : Tree T) (F : Fp) (path : List Nat) (l' : Loc) (c' : Cell T) (t' : Tree T) (F' : Fp) : Prop where
  loc : locOf l path s = .ok s l'
  len : path.length ≤ d
  has : Has (own (d - path.length)) s l' c' t' F'
  sub : ∀ q, F' q → F q
  place : l' = l ∨ F l'.1
  lift : ∀ {b s' c2 u F2}, At b s s' l' c2 F' F2 → own (d - path.length) s'.blocks c2 u F2 → ∃ c3 F3, At b s s' l c3 F F3 ∧ own d s'.blocks c3 (t.put path u) F3

theorem focus_nil {d : Nat} {s : Mem T} {l : Loc} {c : Cell T} {t : Tree T} {F : Fp} (h : Has (own d) s l c t F) : Focus d s l t F [] l c t F :=
  ⟨rfl, Nat.zero_le _, h, fun _ h => h, .inl rfl, fun {b s' c2 u F2} hA ho => ⟨c2, F2, hA, by cases t <;> exact ho⟩⟩

/-- The storage behind a vector. -/
theorem open_vec {d : Nat} {s : Mem T} {l : Loc} {c : Cell T} {vs : List (Tree T)} {F : Fp} (h : Has (own (d + 1)) s l c (.node vs) F) {i : Nat} (hi : i < vs.length) :
    ∃ p cells us fs, c = .vec (some p) cells.length vs.length ∧ Row (fun _ => own d) s.blocks p cells us fs ∧ vs.length ≤ cells.length ∧ vs = (List.range vs.length).map us ∧ F = whole p cells.length fs := by
  obtain ⟨hc, ⟨a, e, ho⟩, hout⟩ := h
  cases e
  cases c with
  | val a => exact ho.elim
  | vec p cap size => cases p with
    | none => obtain ⟨-, -, rfl, -⟩ := ho; simp at hi
    | some p =>
      obtain ⟨cells, us, fs, R, rfl, h2, h3, rfl⟩ := ho
      have hs : vs.length = size := by rw [h3]; simp
      subst hs
      exact ⟨p, cells, us, fs, rfl, R, h2, h3, rfl⟩

theorem focus_cons {d : Nat} {s : Mem T} {l : Loc} {vs : List (Tree T)} {p : Nat} {cells : List (Cell T)} {us : Nat → Tree T} {fs : Nat → Fp} (w : Wf s) (hc : cellAt s.blocks l = some (.vec (some p) cells.length vs.length))
    (R : Row (fun _ => own d) s.blocks p cells us fs) (hl : vs.length ≤ cells.length) (hv : vs = (List.range vs.length).map us) (hout : ¬ whole p cells.length fs l.1) {i : Nat} (hi : i < vs.length)
    {is : List Nat} {l' : Loc} {c' : Cell T} {t' : Tree T} {F' : Fp} (f : Focus d s (p, i) (us i) (fs i) is l' c' t' F') : Focus (d + 1) s l (.node vs) (whole p cells.length fs) (i :: is) l' c' t' F' := by
  have hil : i < cells.length := by omega
  have e : d + 1 - (i :: is).length = d - is.length := by simp
  have hx : vs[i]? = some (us i) := by rw [hv]; simp [hi]
  refine ⟨?_, by simpa using f.len, by rw [e]; exact f.has, fun q hq => .inr ⟨i, hil, f.sub q hq⟩, .inr ?_, ?_⟩
  · rw [locOf, Act.bind_ok (members_ok hc)]; exact f.loc
  · rcases f.place with h | h
    · exact .inl (by rw [h])
    · exact .inr ⟨i, hil, h⟩
  · intro b s' c2 u F2 hA ho
    rw [e] at ho
    obtain ⟨c3, F3, hA3, ho3⟩ := f.lift hA ho
    obtain ⟨R2, S2, -⟩ := R.put (fun _ => own_frame d) (fun _ => own_live d) w hil hA3 ho3
    refine ⟨_, _, S2.at w hc hout, vs.set i ((us i).put is u), ?_, _, _, _, R2, by simp, hl, ?_, rfl⟩
    · simp only [Tree.put, hx]
    · apply List.ext_getElem (by simp)
      intro j h1 h2
      have hj : j < vs.length := by simpa using h1
      have : vs[j] = us j := by
        have := congrArg (·[j]?) hv
        simp only [List.getElem?_map, List.getElem?_range hj, List.getElem?_eq_getElem hj] at this
        exact Option.some.inj this
      rw [List.getElem_set]
      simp only [List.getElem_map, List.getElem_range]
      by_cases hij : i = j
      · subst hij; rw [if_pos rfl, upd_same]
      · rw [if_neg hij, upd_ne (Ne.symm hij), this]

theorem get_cons {t : Tree T} {i : Nat} {is : List Nat} {u : Tree T} (h : t.get (i :: is) = some u) : ∃ vs x, t = .node vs ∧ vs[i]? = some x ∧ x.get is = some u := by
  cases t with
  | leaf a => cases h
  | node vs =>
    simp only [Tree.get] at h
    cases hx : vs[i]? with
    | none => rw [hx] at h; cases h
    | some x => rw [hx] at h; exact ⟨vs, x, rfl, hx, h⟩

theorem own_node {d : Nat} {m : Blocks T} {c : Cell T} {vs : List (Tree T)} {F : Fp} (h : own d m c (.node vs) F) : ∃ k, d = k + 1 := by
  cases d with
  | zero => obtain ⟨a, e, -⟩ := h; cases e
  | succ k => exact ⟨k, rfl⟩

theorem row_val {vs : List (Tree T)} {us : Nat → Tree T} (hv : vs = (List.range vs.length).map us) {i : Nat} {x : Tree T} (h : vs[i]? = some x) : i < vs.length ∧ us i = x := by
  have hi := (List.getElem?_eq_some_iff.mp h).1
  rw [hv] at h
  simp only [List.getElem?_map, List.getElem?_range hi] at h
  exact ⟨hi, Option.some.inj h⟩

theorem focus : ∀ (path : List Nat) {d : Nat} {s : Mem T} {l : Loc} {c : Cell T} {t t' : Tree T} {F : Fp}, Wf s → Has (own d) s l c t F → t.get path = some t' → ∃ l' c' F', Focus d s l t F path l' c' t' F'
  | [], d, s, l, c, t, t', F, w, h, e => by
    have : t = t' := by cases t <;> exact Option.some.inj e
    subst this
    exact ⟨l, c, F, focus_nil h⟩
  | i :: is, d, s, l, c, t, t', F, w, h, e => by
    obtain ⟨vs, x, rfl, hx, hg⟩ := get_cons e
    obtain ⟨k, rfl⟩ := own_node h.own
    obtain ⟨p, cells, us, fs, rfl, R, hl, hv, rfl⟩ := open_vec h (List.getElem?_eq_some_iff.mp hx).1
    obtain ⟨hi, hu⟩ := row_val hv hx
    subst hu
    obtain ⟨l', c', F', f⟩ := focus is w (R.has (by omega)) hg
    exact ⟨l', c', F', focus_cons w h.cell R hl hv h.out hi f⟩

/-- Objects in different places of a row are apart. -/
theorem row_apart {O : Nat → Owns T (Tree T)} {m : Blocks T} {p : Nat} {cells : List (Cell T)} {us : Nat → Tree T} {fs : Nat → Fp} (R : Row O m p cells us fs) {i j : Nat} (hij : i ≠ j) {l l' : Loc} {F F' : Fp}
    (h : ∀ q, F q → fs i q) (h' : ∀ q, F' q → fs j q) (hl : l = (p, i) ∨ fs i l.1) (hl' : l' = (p, j) ∨ fs j l'.1) : Apart l l' F F' := by
  refine ⟨fun e => ?_, fun e => ?_, fun e => ?_, fun q e e' => hij (R.disj i j q (h q e) (h' q e'))⟩
  · subst e
    rcases hl with rfl | hl
    · rcases hl' with hl' | hl'
      · exact hij (congrArg Prod.snd hl')
      · exact R.out j hl'
    · rcases hl' with rfl | hl'
      · exact R.out i hl
      · exact hij (R.disj i j _ hl hl')
  · rcases hl with rfl | hl
    · exact R.out j (h' _ e)
    · exact hij (R.disj i j _ hl (h' _ e))
  · rcases hl' with rfl | hl'
    · exact R.out i (h _ e)
    · exact hij (R.disj i j _ (h _ e) hl')

theorem focus2 : ∀ (path path' : List Nat) {d : Nat} {s : Mem T} {l : Loc} {c : Cell T} {t t1 t2 : Tree T} {F : Fp}, Wf s → Has (own d) s l c t F → t.get path = some t1 → t.get path' = some t2 → ¬ path <+: path' → ¬ path' <+: path →
    ∃ l1 c1 F1 l2 c2 F2, Focus d s l t F path l1 c1 t1 F1 ∧ Focus d s l t F path' l2 c2 t2 F2 ∧ Apart l1 l2 F1 F2
  | [], _, _, _, _, _, _, _, _, _, _, _, _, _, n, _ => (n (List.nil_prefix)).elim
  | _ :: _, [], _, _, _, _, _, _, _, _, _, _, _, _, _, n => (n (List.nil_prefix)).elim
  | i :: is, j :: js, d, s, l, c, t, t1, t2, F, w, h, e1, e2, n1, n2 => by
    obtain ⟨vs, x, rfl, hx, hg⟩ := get_cons e1
    obtain ⟨vs', y, e, hy, hg'⟩ := get_cons e2
    cases e
    obtain ⟨k, rfl⟩ := own_node h.own
    obtain ⟨p, cells, us, fs, rfl, R, hl, hv, rfl⟩ := open_vec h (List.getElem?_eq_some_iff.mp hx).1
    obtain ⟨hi, hu⟩ := row_val hv hx
    obtain ⟨hj, hu'⟩ := row_val hv hy
    subst hu hu'
    by_cases hij : i = j
    · subst hij
      obtain ⟨l1, c1, F1, l2, c2, F2, f1, f2, ap⟩ := focus2 is js w (R.has (show i < cells.length by omega)) hg hg' (fun h => n1 ((List.prefix_cons_inj i).mpr h)) (fun h => n2 ((List.prefix_cons_inj i).mpr h))
      exact ⟨l1, c1, F1, l2, c2, F2, focus_cons w h.cell R hl hv h.out hi f1, focus_cons w h.cell R hl hv h.out hi f2, ap⟩
    · obtain ⟨l1, c1, F1, f1⟩ := focus is w (R.has (show i < cells.length by omega)) hg
      obtain ⟨l2, c2, F2, f2⟩ := focus js w (R.has (show j < cells.length by omega)) hg'
      exact ⟨l1, c1, F1, l2, c2, F2, focus_cons w h.cell R hl hv h.out hi f1, focus_cons w h.cell R hl hv h.out hj f2, row_apart R hij f1.sub f2.sub f1.place f2.place⟩

end Nanostl.Vector.Nest

import Verif.Vector.NestSwap

/-! C131, C133: vectors of vectors, and of strings, to any depth. -/

namespace Nanostl.Vector.Nest

variable {T : Type}

/-! ### The specification -/

/-- The values of the variables. -/
abbrev Env (T : Type) := Nat → Tree T

def Env.get (env : Env T) (L : LV) : Option (Tree T) := (env L.var).get L.path

/-- The variables after an assignment. -/
def Env.put (env : Env T) (L : LV) (u : Tree T) : Env T := fun i => if i = L.var then (env i).put L.path u else env i

/-- An lvalue of a type. -/
def Typed (dep : Nat → Nat) (L : LV) (d : Nat) : Prop := dep L.var = L.path.length + d

/-- If there are strings, this is none of them. -/
def NoStr (str : Bool) (dep : Nat → Nat) (L : LV) : Prop := str = true → ¬ Typed dep L 1

/-- What a client may do with `n` variables: types and indices are right, `pop_back` and `erase` find an element, and the argument of `push_back` is no element of the vector itself (for this see C06). Strings have
other functions than vectors; no string is appended to itself. -/
def Valid (dflt : T) (str : Bool) (dep : Nat → Nat) (n : Nat) (env : Env T) : Cmd T → Prop
  | .lit L _ => L.var < n ∧ ∃ a, env.get L = some (.leaf a)
  | .assign L R => L.var < n ∧ R.var < n ∧ (∃ t, env.get L = some t) ∧ (∃ t, env.get R = some t) ∧ ∃ d, Typed dep L d ∧ Typed dep R d
  | .push L R => L.var < n ∧ R.var < n ∧ (∃ l, env.get L = some (.node l)) ∧ (∃ t, env.get R = some t) ∧ (∃ d, Typed dep L (d + 1) ∧ Typed dep R d) ∧ (∀ i, R ≠ ⟨L.var, L.path ++ [i]⟩) ∧ NoStr str dep L
  | .pop L => L.var < n ∧ (∃ l, env.get L = some (.node l) ∧ l ≠ []) ∧ NoStr str dep L
  | .erase L i => L.var < n ∧ ∃ l, env.get L = some (.node l) ∧ i < l.length
  | .resize L _ => L.var < n ∧ (∃ l, env.get L = some (.node l)) ∧ NoStr str dep L
  | .clear L => L.var < n ∧ (∃ l, env.get L = some (.node l)) ∧ NoStr str dep L
  | .text L cs => L.var < n ∧ (∃ l, env.get L = some (.node l)) ∧ Typed dep L 1 ∧ str = true ∧ ∀ a ∈ cs, a ≠ dflt
  | .append L R => L.var < n ∧ R.var < n ∧ (∃ l, env.get L = some (.node l)) ∧ (∃ l, env.get R = some (.node l)) ∧ (Typed dep L 1 ∧ Typed dep R 1 ∧ str = true) ∧ L ≠ R
  | .empty L => L.var < n ∧ (∃ l, env.get L = some (.node l)) ∧ Typed dep L 1 ∧ str = true
  | .pushCopy L R => L.var < n ∧ R.var < n ∧ (∃ l, env.get L = some (.node l)) ∧ (∃ t, env.get R = some t) ∧ ∃ d, Typed dep L (d + 2) ∧ Typed dep R (d + 1)
  | .swap L R => L.var < n ∧ R.var < n ∧ (∃ t, env.get L = some t) ∧ (∃ t, env.get R = some t) ∧ (∃ d, Typed dep L (d + 1) ∧ Typed dep R (d + 1)) ∧ NoStr str dep L

/-- The variables after a command that returned. Other variables, and other parts of the same one, are as before. -/
def Returned (dflt : T) (env : Env T) : Cmd T → Env T → Prop
  | .lit L a, env' => env' = env.put L (.leaf a)
  | .assign L R, env' => ∃ t, env.get R = some t ∧ env' = env.put L t
  | .push L R, env' => ∃ l t, env.get L = some (.node l) ∧ env.get R = some t ∧ env' = env.put L (.node (l ++ [t]))
  | .pop L, env' => ∃ l, env.get L = some (.node l) ∧ env' = env.put L (.node l.dropLast)
  | .erase L i, env' => ∃ l, env.get L = some (.node l) ∧ env' = env.put L (.node (l.eraseIdx i))
  | .resize L n, env' => ∃ l l', env.get L = some (.node l) ∧ env' = env.put L (.node l') ∧ if n = 0 then l' = l else l'.length = n ∧ l'.take l.length = l.take n
  | .clear L, env' => env' = env.put L (.node [])
  | .text L cs, env' => env' = env.put L (.node ((cs ++ [dflt]).map .leaf))
  | .append L R, env' => ∃ l r, env.get L = some (.node l) ∧ env.get R = some (.node r) ∧ env' = env.put L (.node (l.dropLast ++ r))
  | .empty L, env' => env' = env.put L (.node [.leaf dflt])
  | .pushCopy L R, env' => ∃ l t, env.get L = some (.node l) ∧ env.get R = some t ∧ env' = env.put L (.node (l ++ [t]))
  | .swap L R, env' => ∃ t u, env.get L = some t ∧ env.get R = some u ∧ env' = (env.put L u).put R t

/-- The variables after a command that threw. -/
def Threw (env : Env T) : Cmd T → Env T → Prop
  | .assign L _, env' => ∃ t, env' = env.put L t
  | .push L _, env' => env' = env ∨ ∃ l t, env.get L = some (.node l) ∧ env' = env.put L (.node (l ++ [t]))
  | .erase L _, env' => ∃ l l', env.get L = some (.node l) ∧ l'.length = l.length ∧ env' = env.put L (.node l')
  | .resize _ _, env' => env' = env
  | .text L _, env' => ∃ t, env' = env.put L t
  | .append L _, env' => ∃ l l', env.get L = some (.node l) ∧ env' = env.put L (.node (l.dropLast ++ l'))
  | .empty L, env' => env' = env.put L (.node [])
  | .pushCopy L _, env' => env' = env ∨ ∃ l t, env.get L = some (.node l) ∧ env' = env.put L (.node (l ++ [t]))
  | _, _ => False

/-- What a command is on. -/
def Cmd.target : Cmd T → LV
  | .lit L _ | .assign L _ | .push L _ | .pop L | .erase L _ | .resize L _ | .clear L | .text L _ | .append L _ | .empty L | .pushCopy L _ | .swap L _ => L

/-- Commands on vectors of vectors or of strings. -/
def Cmd.deep (dep : Nat → Nat) (c : Cmd T) : Bool := decide (1 < c.target.depth dep)

/-- What a client sees of `n` variables. -/
def Shows (dep : Nat → Nat) (n : Nat) (s : Mem T) (env : Env T) : Prop := ∀ i, i < n → view (dep i) (0, i) s = .ok s (env i)

/-- The states a client gets to, and whether a command on a vector of vectors or of strings has thrown. -/
inductive Reach (dflt : T) (str : Bool) (dep : Nat → Nat) (n : Nat) : Mem T → Bool → Prop
  | init {s : Mem T} (fails : Nat → Bool) : init dflt str dep n fails = .ok s () → Reach dflt str dep n s false
  | ok {s s' : Mem T} {b : Bool} {env : Env T} (c : Cmd T) : Reach dflt str dep n s b → Shows dep n s env → Valid dflt str dep n env c → exec dflt str dep c s = .ok s' () → Reach dflt str dep n s' b
  | exc {s s' : Mem T} {b : Bool} {env : Env T} (c : Cmd T) : Reach dflt str dep n s b → Shows dep n s env → Valid dflt str dep n env c → exec dflt str dep c s = .exc s' → Reach dflt str dep n s' (b || c.deep dep)

/-! ### Invariant -/

/-- The variables, with what they own. -/
structure Inv (dep : Nat → Nat) (n : Nat) (s : Mem T) (cells : List (Cell T)) (env : Env T) (fs : Nat → Fp) : Prop where
  wf : Wf s
  len : cells.length = n
  row : Row (fun i => own (dep i)) s.blocks 0 cells env fs

/-- No block is left over. -/
def Clean (n : Nat) (s : Mem T) (fs : Nat → Fp) : Prop := ∀ q, s.blocks q ≠ .none → whole 0 n fs q

theorem Inv.shows {dep : Nat → Nat} {n : Nat} {s : Mem T} {cells : List (Cell T)} {env : Env T} {fs : Nat → Fp} (I : Inv dep n s cells env fs) : Shows dep n s env := by
  intro i hi
  have h := I.row.has (i := i) (by rw [I.len]; exact hi)
  exact view_spec _ h.cell h.own

theorem Inv.unique {dep : Nat → Nat} {n : Nat} {s : Mem T} {cells : List (Cell T)} {env env' : Env T} {fs : Nat → Fp} (I : Inv dep n s cells env fs) (h : Shows dep n s env') : ∀ i, i < n → env' i = env i := by
  intro i hi
  have h1 := I.shows i hi
  rw [h i hi] at h1
  injection h1

/-- An object within a variable. -/
structure Obj (dep : Nat → Nat) (n : Nat) (s : Mem T) (env : Env T) (fs : Nat → Fp) (L : LV) (l : Loc) (c : Cell T) (t : Tree T) (F : Fp) : Prop where
  loc : L.loc s = .ok s l
  has : Has (own (L.depth dep)) s l c t F
  len : L.path.length ≤ dep L.var
  put : ∀ {b s' c2 u F2}, At b s s' l c2 F F2 → own (L.depth dep) s'.blocks c2 u F2 → ∃ cells' fs', Inv dep n s' cells' (env.put L u) fs' ∧ (b = true → Clean n s fs → Clean n s' fs')

theorem obj_of_focus {dep : Nat → Nat} {n : Nat} {s : Mem T} {cells : List (Cell T)} {env : Env T} {fs : Nat → Fp} (I : Inv dep n s cells env fs) {L : LV} (hL : L.var < n) {l : Loc} {c : Cell T} {t : Tree T} {F : Fp}
    (f : Focus (dep L.var) s (0, L.var) (env L.var) (fs L.var) L.path l c t F) : Obj dep n s env fs L l c t F := by
  refine ⟨f.loc, f.has, f.len, fun {b s' c2 u F2} hA ho => ?_⟩
  obtain ⟨c3, F3, hA3, ho3⟩ := f.lift hA ho
  have hl : L.var < cells.length := by rw [I.len]; exact hL
  obtain ⟨R2, S2, -⟩ := I.row.put (fun i => own_frame (dep i)) (fun i => own_live (dep i)) I.wf hl hA3 ho3
  refine ⟨cells.set L.var c3, upd fs L.var F3, ⟨S2.wf, by rw [List.length_set]; exact I.len, ?_⟩, fun hb hc q hq => ?_⟩
  · have : (env.put L u) = upd env L.var ((env L.var).put L.path u) := by
      funext i; simp only [Env.put, upd]
      split
      · rename_i h; rw [h]
      · rfl
    rw [this]; exact R2
  · rw [I.len] at S2
    rcases S2.tidy hb q hq with h | ⟨h1, h2⟩
    · exact h
    · exact (h2 (hc q h1)).elim

theorem obj {dep : Nat → Nat} {n : Nat} {s : Mem T} {cells : List (Cell T)} {env : Env T} {fs : Nat → Fp} (I : Inv dep n s cells env fs) {L : LV} (hL : L.var < n) {t : Tree T} (h : env.get L = some t) :
    ∃ l c F, Obj dep n s env fs L l c t F := by
  obtain ⟨l, c, F, f⟩ := focus L.path I.wf (I.row.has (i := L.var) (by rw [I.len]; exact hL)) h
  exact ⟨l, c, F, obj_of_focus I hL f⟩

/-- Neither lies within the other. -/
def Diff (L R : LV) : Prop := L.var = R.var → ¬ L.path <+: R.path ∧ ¬ R.path <+: L.path

theorem obj2 {dep : Nat → Nat} {n : Nat} {s : Mem T} {cells : List (Cell T)} {env : Env T} {fs : Nat → Fp} (I : Inv dep n s cells env fs) {L R : LV} (hL : L.var < n) (hR : R.var < n) {t u : Tree T} (h : env.get L = some t)
    (h' : env.get R = some u) (hd : Diff L R) : ∃ l c F l' c' F', Obj dep n s env fs L l c t F ∧ Obj dep n s env fs R l' c' u F' ∧ Apart l l' F F' := by
  by_cases hv : L.var = R.var
  · obtain ⟨n1, n2⟩ := hd hv
    rw [Env.get, ← hv] at h'
    obtain ⟨l1, c1, F1, l2, c2, F2, f1, f2, ap⟩ := focus2 L.path R.path I.wf (I.row.has (i := L.var) (by rw [I.len]; exact hL)) h h' n1 n2
    rw [hv] at f2
    exact ⟨l1, c1, F1, l2, c2, F2, obj_of_focus I hL f1, obj_of_focus I hR f2, ap⟩
  · obtain ⟨l1, c1, F1, f1⟩ := focus L.path I.wf (I.row.has (i := L.var) (by rw [I.len]; exact hL)) h
    obtain ⟨l2, c2, F2, f2⟩ := focus R.path I.wf (I.row.has (i := R.var) (by rw [I.len]; exact hR)) h'
    exact ⟨l1, c1, F1, l2, c2, F2, obj_of_focus I hL f1, obj_of_focus I hR f2, row_apart I.row hv f1.sub f2.sub f1.place f2.place⟩

theorem depth_of {dep : Nat → Nat} {L : LV} {d : Nat} (h : Typed dep L d) : L.depth dep = d := by
  simp only [Typed] at h; simp only [LV.depth, h]; omega

theorem env_put_get {env : Env T} {L : LV} {t : Tree T} (h : env.get L = some t) : env.put L t = env := by
  funext i
  simp only [Env.put]
  split
  · rename_i e; subst e; exact Tree.put_get h
  · rfl

theorem Apart.symm {l l' : Loc} {F F' : Fp} (h : Apart l l' F F') : Apart l' l F' F := ⟨fun e => h.ne e.symm, h.right, h.left, fun q a b => h.disj q b a⟩

theorem has_node {d : Nat} {s : Mem T} {l : Loc} {c : Cell T} {vs : List (Tree T)} {F : Fp} (h : Has (own d) s l c (.node vs) F) : ∃ k, d = k + 1 ∧ Has (ownVec (own k)) s l c vs F := by
  obtain ⟨k, rfl⟩ := own_node h.own
  obtain ⟨a, e, ho⟩ := h.own
  cases e
  exact ⟨k, rfl, h.cell, ho, h.out⟩

/-- Two objects exchanged. -/
theorem swap_inv {dep : Nat → Nat} {n : Nat} {s : Mem T} {cells : List (Cell T)} {env : Env T} {fs : Nat → Fp} (I : Inv dep n s cells env fs) {L R : LV} (hL : L.var < n) (hR : R.var < n) {t u : Tree T} (hg : env.get L = some t)
    (hg' : env.get R = some u) {d : Nat} (tL : Typed dep L d) (tR : Typed dep R d) (hLR : L ≠ R) :
    ∃ l x c k F1 F2, L.loc s = .ok s l ∧ R.loc s = .ok s x ∧ cellAt s.blocks l = some c ∧ cellAt s.blocks x = some k ∧ own d s.blocks c t F1 ∧ own d s.blocks k u F2 ∧
      ∀ s', Swapped s s' l x c k → ∃ cells' fs', Inv dep n s' cells' ((env.put L u).put R t) fs' ∧ (Clean n s fs → Clean n s' fs') := by
  have hLl : L.var < cells.length := by rw [I.len]; exact hL
  have hRl : R.var < cells.length := by rw [I.len]; exact hR
  have hL0 := I.row.has hLl
  have hR0 := I.row.has hRl
  have hLc : cells[L.var]? = some cells[L.var] := by simp [hLl]
  have hRc : cells[R.var]? = some cells[R.var] := by simp [hRl]
  have live : ∀ a q, fs a q → s.blocks q ≠ .none := by
    intro a q hq
    by_cases ha : a < cells.length
    · exact own_live _ _ _ _ _ (I.row.own a cells[a] (by simp [ha])) q hq
    · rw [I.row.rest a (by omega)] at hq; exact hq.elim
  have live0 : s.blocks 0 ≠ .none := by rw [I.row.block]; simp
  have wf : ∀ {s' l x c k}, Swapped s s' l x c k → Wf s' := fun h q hq => by rw [h.next]; exact I.wf q (h.dead hq)
  by_cases hv : L.var = R.var
  · have hlen : L.path.length = R.path.length := by simp only [Typed] at tL tR; rw [hv] at tL; omega
    have hne : L.path ≠ R.path := fun h => hLR (by cases L; cases R; simp_all)
    rw [Env.get, ← hv] at hg'
    obtain ⟨d1, l, c, F1, d2, x, k, F2, H, H1, H2, ap⟩ := hole2 L.path R.path hL0.own hL0.cell hg hg' (fun h => hne (h.eq_of_length hlen)) (fun h => hne (h.eq_of_length hlen.symm).symm)
    have e1 : d1 = d := by have := H1.depth; simp only [Typed] at tL; omega
    have e2 : d2 = d := by have := H2.depth; simp only [Typed] at tL; omega
    subst e1 e2
    have o1 := H1.out hL0.out
    have o2 := H2.out hL0.out
    obtain ⟨s1, s2, p1, p2⟩ := H.sub
    refine ⟨l, x, c, k, F1, F2, H1.loc, by rw [LV.loc, ← hv]; exact H2.loc, H1.own.2, H2.own.2, H1.own.1, H2.own.1, fun s' hS => ?_⟩
    have non : ∀ y : Loc, y ≠ l → y ≠ x → newCells l x c k y = .none := fun y h1 h2 => by rw [newCells, if_neg h1, if_neg h2]
    have away : ∀ q, s.blocks q ≠ .none → q ≠ l.1 → q ≠ x.1 → s'.blocks q = s.blocks q := fun q hq h1 h2 => (hS.same hq).eq fun i => non _ (fun e => h1 (by rw [← e])) fun e => h2 (by rw [← e])
    have A1 : own d2 s'.blocks c t F1 := own_frame _ _ _ _ _ _ H1.own.1 fun q hq => away q (own_live _ _ _ _ _ H1.own.1 q hq) (by rintro rfl; exact o1 hq) (by rintro rfl; exact ap.right hq)
    have A2 : own d2 s'.blocks k u F2 := own_frame _ _ _ _ _ _ H2.own.1 fun q hq => away q (own_live _ _ _ _ _ H2.own.1 q hq) (by rintro rfl; exact ap.left hq) (by rintro rfl; exact o2 hq)
    have V := lift2 H (new := newCells l x c k) (fun q h _ _ => hS.same (live _ q h)) (by rw [newCells, if_pos rfl]) (by rw [newCells, if_neg ap.ne, if_pos rfl]) (fun y _ h1 h2 => non y h1 h2) A2 A1 (fun q h _ => .inr h) (fun q h _ => .inl h)
      (fun q h h' => ap.disj q h' h)
    have n0 : ∀ a, newCells l x c k (0, a) = .none := fun a => non _ (fun e => I.row.out L.var (by rw [← e] at p1; exact p1)) fun e => I.row.out L.var (by rw [← e] at p2; exact p2)
    have ex : exch2 (fs L.var) F1 F2 F2 F1 = fs L.var := by
      funext q
      apply propext
      constructor
      · rintro (⟨h, -⟩ | h | h)
        · exact h
        · exact s2 q h
        · exact s1 q h
      · intro h
        by_cases h1 : F1 q
        · exact .inr (.inr h1)
        · by_cases h2 : F2 q
          · exact .inr (.inl h2)
          · exact .inl ⟨h, h1, h2⟩
    rw [ex] at V
    obtain ⟨cells', hl', R'⟩ := row1 (fun i => own_frame (dep i)) I.row (hS.same live0) hLc (by rw [n0]; exact V) (fun a _ => n0 a)
      (fun a ha q hq => away q (live a q hq) (by rintro rfl; exact ha (I.row.disj a _ _ hq p1)) (by rintro rfl; exact ha (I.row.disj a _ _ hq p2))) (fun a ha q h h' => ha (I.row.disj a _ q h' h)) (I.row.out _)
    have ef : upd fs L.var (fs L.var) = fs := by
      funext a
      by_cases ha : a = L.var
      · rw [ha, upd_same]
      · rw [upd_ne ha]
    rw [ef] at R'
    refine ⟨cells', fs, ⟨wf hS, by rw [hl']; exact I.len, ?_⟩, fun cl q hq => cl q (hS.dead hq)⟩
    have : (env.put L u).put R t = upd env L.var (((env L.var).put L.path u).put R.path t) := by
      funext a
      simp only [Env.put, upd, ← hv]
      split
      · rename_i h; rw [h]
      · rfl
    rw [this]; exact R'
  · obtain ⟨d1, l, c, F1, H1⟩ := hole L.path hL0.own hL0.cell hg
    obtain ⟨d2, x, k, F2, H2⟩ := hole R.path hR0.own hR0.cell hg'
    have e1 : d1 = d := by have := H1.depth; simp only [Typed] at tL; omega
    have e2 : d2 = d := by have := H2.depth; simp only [Typed] at tR; omega
    subst e1 e2
    have ap := row_apart I.row hv H1.sub H2.sub H1.place' H2.place'
    have o1 := H1.out hL0.out
    have o2 := H2.out hR0.out
    refine ⟨l, x, c, k, F1, F2, H1.loc, H2.loc, H1.own.2, H2.own.2, H1.own.1, H2.own.1, fun s' hS => ?_⟩
    have non : ∀ y : Loc, y ≠ l → y ≠ x → newCells l x c k y = .none := fun y h1 h2 => by rw [newCells, if_neg h1, if_neg h2]
    have nl : newCells l x c k l = some k := by rw [newCells, if_pos rfl]
    have nx : newCells l x c k x = some c := by rw [newCells, if_neg ap.ne, if_pos rfl]
    have away : ∀ q, s.blocks q ≠ .none → q ≠ l.1 → q ≠ x.1 → s'.blocks q = s.blocks q := fun q hq h1 h2 => (hS.same hq).eq fun i => non _ (fun e => h1 (by rw [← e])) fun e => h2 (by rw [← e])
    have A1 : own d2 s'.blocks c t F1 := own_frame _ _ _ _ _ _ H1.own.1 fun q hq => away q (own_live _ _ _ _ _ H1.own.1 q hq) (by rintro rfl; exact o1 hq) (by rintro rfl; exact ap.right hq)
    have A2 : own d2 s'.blocks k u F2 := own_frame _ _ _ _ _ _ H2.own.1 fun q hq => away q (own_live _ _ _ _ _ H2.own.1 q hq) (by rintro rfl; exact ap.left hq) (by rintro rfl; exact o2 hq)
    -- where the places are
    have pl1 : ∀ a, a ≠ L.var → ∀ q, fs a q → q ≠ l.1 := by
      rintro a ha q h rfl
      rcases H1.place' with h1 | h1
      · rw [h1] at h; exact I.row.out a h
      · exact ha (I.row.disj a _ _ h h1)
    have pl2 : ∀ a, a ≠ R.var → ∀ q, fs a q → q ≠ x.1 := by
      rintro a ha q h rfl
      rcases H2.place' with h1 | h1
      · rw [h1] at h; exact I.row.out a h
      · exact ha (I.row.disj a _ _ h h1)
    have z1 : ∀ a, a ≠ L.var → (0, a) ≠ l := by
      intro a ha e
      rcases H1.place' with h1 | h1
      · rw [h1] at e; exact ha (congrArg Prod.snd e)
      · rw [← e] at h1; exact I.row.out _ h1
    have z2 : ∀ a, a ≠ R.var → (0, a) ≠ x := by
      intro a ha e
      rcases H2.place' with h1 | h1
      · rw [h1] at e; exact ha (congrArg Prod.snd e)
      · rw [← e] at h1; exact I.row.out _ h1
    have V1 := lift1 H1 (new := newCells l x c k) (fun q h _ => hS.same (live _ q h)) nl (fun y h h' => non y h' fun e => pl2 _ hv _ h (by rw [e])) A2 (fun q h h' => (hv (I.row.disj _ _ q h' (H2.sub q h))).elim)
    have V2 := lift1 H2 (new := newCells l x c k) (fun q h _ => hS.same (live _ q h)) nx (fun y h h' => non y (fun e => pl1 _ (Ne.symm hv) _ h (by rw [e])) h') A1 (fun q h h' => (hv (I.row.disj _ _ q (H1.sub q h) h')).elim)
    obtain ⟨cells', hl', R'⟩ : ∃ cells', cells'.length = cells.length ∧ Row (fun i => own (dep i)) s'.blocks 0 cells' (upd (upd env L.var ((env L.var).put L.path u)) R.var ((env R.var).put R.path t))
        (upd (upd fs L.var (exch (fs L.var) F1 F2)) R.var (exch (fs R.var) F2 F1)) := by
      refine row2 (fun i => own_frame (dep i)) I.row (hS.same live0) hv hLc hRc ?_ ?_ (fun a ha hb => non _ (z1 a ha) (z2 a hb)) (fun a ha hb q hq => away q (live a q hq) (pl1 a ha q hq) (pl2 a hb q hq)) (fun a ha hb q h h' => ?_) (fun q h h' => ?_) (fun h => ?_)
        (fun h => ?_)
      · rcases H1.place with ⟨h1, h2, -⟩ | ⟨h1, h2⟩
        · rw [if_pos h1] at V1
          rw [← h2, nl]; exact V1
        · rw [if_neg h1] at V1
          rw [non _ (fun e => I.row.out _ (by rw [← e] at h2; exact h2)) (z2 _ hv)]; exact V1
      · rcases H2.place with ⟨h1, h2, -⟩ | ⟨h1, h2⟩
        · rw [if_pos h1] at V2
          rw [← h2, nx]; exact V2
        · rw [if_neg h1] at V2
          rw [non _ (z1 _ (Ne.symm hv)) (fun e => I.row.out _ (by rw [← e] at h2; exact h2))]; exact V2
      · rcases h with (⟨h, -⟩ | h) | (⟨h, -⟩ | h)
        · exact ha (I.row.disj a _ q h' h)
        · exact hb (I.row.disj a _ q h' (H2.sub q h))
        · exact hb (I.row.disj a _ q h' h)
        · exact ha (I.row.disj a _ q h' (H1.sub q h))
      · rcases h with ⟨h, h1⟩ | h
        · rcases h' with ⟨h', -⟩ | h'
          · exact hv (I.row.disj _ _ q h h')
          · exact h1 h'
        · rcases h' with ⟨h', h1⟩ | h'
          · exact h1 h
          · exact ap.disj q h' h
      · rcases h with ⟨h, -⟩ | h
        · exact I.row.out _ h
        · exact I.row.out _ (H2.sub 0 h)
      · rcases h with ⟨h, -⟩ | h
        · exact I.row.out _ h
        · exact I.row.out _ (H1.sub 0 h)
    refine ⟨cells', upd (upd fs L.var (exch (fs L.var) F1 F2)) R.var (exch (fs R.var) F2 F1), ⟨wf hS, by rw [hl']; exact I.len, ?_⟩, fun cl q hq => ?_⟩
    · have : (env.put L u).put R t = upd (upd env L.var ((env L.var).put L.path u)) R.var ((env R.var).put R.path t) := by
        funext a
        simp only [Env.put, upd]
        by_cases h1 : a = R.var
        · subst h1; simp [Ne.symm hv]
        · simp only [if_neg h1]
          split
          · rename_i h; rw [h]
          · rfl
      rw [this]; exact R'
    · rcases cl q (hS.dead hq) with h | ⟨a, ha, h⟩
      · exact .inl h
      · by_cases haR : a = R.var
        · subst haR
          by_cases h2 : F2 q
          · exact .inr ⟨L.var, hL, by rw [upd_ne hv, upd_same]; exact .inr h2⟩
          · exact .inr ⟨R.var, hR, by rw [upd_same]; exact .inl ⟨h, h2⟩⟩
        · by_cases haL : a = L.var
          · subst haL
            by_cases h1 : F1 q
            · exact .inr ⟨R.var, hR, by rw [upd_same]; exact .inr h1⟩
            · exact .inr ⟨L.var, hL, by rw [upd_ne hv, upd_same]; exact .inl ⟨h, h1⟩⟩
          · exact .inr ⟨a, ha, by rw [upd_ne haR, upd_ne haL]; exact h⟩

theorem own_vec {d : Nat} {m : Blocks T} {c : Cell T} {t : Tree T} {F : Fp} (h : own (d + 1) m c t F) : ∃ p cap size, c = .vec p cap size := by
  obtain ⟨vs, -, ho⟩ := h
  obtain ⟨p, cap, e, -⟩ := ownVec_vec ho
  exact ⟨p, cap, _, e⟩

/-- One command. -/
theorem exec_spec (dflt : T) (str : Bool) {dep : Nat → Nat} {n : Nat} {s : Mem T} {cells : List (Cell T)} {env : Env T} {fs : Nat → Fp} (I : Inv dep n s cells env fs) {c : Cmd T} (hc : Valid dflt str dep n env c) :
    Does (exec dflt str dep c) s fun b s' => ∃ cells' env' fs', Inv dep n s' cells' env' fs' ∧ ((b = true ∨ c.deep dep = false) → Clean n s fs → Clean n s' fs') ∧ (if b then Returned dflt env c env' else Threw env c env') := by
  -- a command on one vector
  have one : ∀ {L : LV} {vs : List (Tree T)} {A : Nat → Loc → Act (Mem T) Unit} {want : Bool → List (Tree T) → Prop}, L.var < n → env.get L = some (.node vs) →
      (∀ {k l c F}, Has (ownVec (own k)) s l c vs F → Does (A k l) s (Put (k == 0) (ownVec (own k)) s l F want)) →
      Does (do let l ← L.loc; A (L.depth dep - 1) l) s fun b s' => ∃ cells' env' fs', Inv dep n s' cells' env' fs' ∧ ((b = true ∨ L.depth dep ≤ 1) → Clean n s fs → Clean n s' fs') ∧ ∃ v, want b v ∧ env' = env.put L (.node v) := by
    intro L vs A want hL hg hA
    obtain ⟨l, c, F, o⟩ := obj I hL hg
    obtain ⟨k, e, h⟩ := has_node o.has
    refine .of_eq (B := A (L.depth dep - 1) l) (Act.bind_ok o.loc) ?_
    rw [e]
    refine (hA h).mono ?_
    rintro b s' ⟨c2, v, F2, h1, h2, h3⟩
    obtain ⟨cells', fs', J, cl⟩ := o.put h1 (by rw [e]; exact ⟨v, rfl, h2⟩)
    exact ⟨cells', _, fs', J, fun hb => cl (by
      rcases hb with rfl | hb
      · rfl
      · rw [show k = 0 by omega, Bool.or_eq_true]; exact .inr rfl), v, h3, rfl⟩
  have shallow : ∀ {L : LV} {b : Bool}, (b = true ∨ decide (1 < L.depth dep) = false) → b = true ∨ L.depth dep ≤ 1 := fun h => h.imp id fun h => by have := of_decide_eq_false h; omega
  -- from what the specifications say
  have tidy : ∀ {L : LV} {b : Bool} {k : Nat} {P : Prop}, L.depth dep = k + 1 → ((b || (k == 0)) = true → P) → (b = true ∨ decide (1 < L.depth dep) = false) → P := fun e h hb => h (by
    rcases shallow hb with rfl | hb
    · rfl
    · rw [Bool.or_eq_true]; exact .inr (by simp; omega))
  cases c with
  | lit L a =>
    obtain ⟨hL, x, hg⟩ := hc
    obtain ⟨l, c, F, o⟩ := obj I hL hg
    have hd : L.depth dep = 0 := by
      have := o.has.own
      cases h : L.depth dep with
      | zero => rfl
      | succ k => rw [h] at this; obtain ⟨_, e, -⟩ := this; cases e
    have ho := o.has.own
    rw [hd] at ho
    obtain ⟨y, -, -, rfl⟩ := ho
    obtain ⟨s', e, hA, -⟩ := write_spec I.wf o.has.cell (.val a) none
    obtain ⟨cells', fs', J, cl⟩ := o.put hA (u := .leaf a) (by rw [hd]; exact ⟨a, rfl, rfl, rfl⟩)
    exact .ok ((Act.bind_ok o.loc).trans e) ⟨cells', _, fs', J, fun _ => cl rfl, rfl⟩
  | assign L R =>
    obtain ⟨hL, hR, ⟨t, hg⟩, ⟨u, hg'⟩, d, tL, tR⟩ := hc
    by_cases hLR : L = R
    · -- to itself
      subst hLR
      rw [hg] at hg'; cases hg'
      obtain ⟨l, c, F, o⟩ := obj I hL hg
      refine .of_eq (B := (ops dflt str (L.depth dep)).assign l l) (s' := s) (by simp only [exec]; rw [Act.bind_ok o.loc, Act.bind_ok o.loc]) ?_
      have e := env_put_get hg
      cases hd : L.depth dep with
      | zero =>
        have ho := o.has.own
        rw [hd] at ho
        obtain ⟨y, rfl, rfl, rfl⟩ := ho
        obtain ⟨s', e', hA, -⟩ := write_spec I.wf o.has.cell (.val y) none
        obtain ⟨cells', fs', J, cl⟩ := o.put hA (u := .leaf y) (by rw [hd]; exact ⟨y, rfl, rfl, rfl⟩)
        exact .ok ((Act.bind_ok (read_ok o.has.cell)).trans e') ⟨cells', _, fs', J, fun _ => cl rfl, _, hg, rfl⟩
      | succ k =>
        refine .ok (s' := s) (by rw [ops]; split <;> (show assign _ l l s = _; rw [assign, if_pos rfl]; rfl)) ⟨cells, env, fs, I, fun _ h => h, t, hg, e.symm⟩
    · have hdf : Diff L R := by
        intro hv
        simp only [Typed] at tL tR
        rw [← hv] at tR
        have hlen : L.path.length = R.path.length := by omega
        have hne : L.path ≠ R.path := fun h => hLR (by cases L; cases R; simp_all)
        exact ⟨fun h => hne (h.eq_of_length hlen), fun h => hne (h.eq_of_length hlen.symm).symm⟩
      obtain ⟨l, c, F, l', c', F', o, o', ap⟩ := obj2 I hL hR hg hg' hdf
      refine .of_eq (B := (ops dflt str (L.depth dep)).assign l l') (s' := s) (by simp only [exec]; rw [Act.bind_ok o.loc, Act.bind_ok o'.loc]) ?_
      have h1 := o.has
      have h2 := o'.has
      rw [depth_of tR, ← depth_of tL] at h2
      cases hd : L.depth dep with
      | zero =>
        rw [hd] at h1 h2
        refine ((good_own dflt str 0).assign I.wf h1 h2 ap).mono ?_
        rintro b s' ⟨c2, v, F2, hA, ho, hv, hb⟩
        obtain rfl := hb rfl
        obtain ⟨cells', fs', J, cl⟩ := o.put hA (by rw [hd]; exact ho)
        exact ⟨cells', _, fs', J, fun _ => cl rfl, u, hg', by rw [hv rfl]⟩
      | succ k =>
        rw [hd] at h1 h2
        obtain ⟨c1, ⟨vs, et, ho1⟩, o1⟩ := h1
        obtain ⟨c2, ⟨us, eu, ho2⟩, o2⟩ := h2
        refine .of_eq (B := Nest.assign (ops dflt str k) l l') (s' := s) (by
          rw [ops]
          split
          · next h =>
            have : k = 0 := by simp at h; exact h.2
            subst this; rfl
          · rfl) ?_
        refine (assign_spec (good_own dflt str k) I.wf ⟨c1, ho1, o1⟩ ⟨c2, ho2, o2⟩ ap).mono ?_
        rintro b s' ⟨c2, v, F2, hA, ho, hv⟩
        obtain ⟨cells', fs', J, cl⟩ := o.put hA (by rw [hd]; exact ⟨v, rfl, ho⟩)
        refine ⟨cells', _, fs', J, tidy hd cl, ?_⟩
        cases b with
        | true => exact ⟨u, hg', by rw [eu, show v = us from hv]⟩
        | false => exact ⟨_, rfl⟩
  | push L R =>
    obtain ⟨hL, hR, ⟨vs, hg⟩, ⟨u, hg'⟩, ⟨d, tL, tR⟩, hne, -⟩ := hc
    have hdf : Diff L R := by
      intro hv
      simp only [Typed] at tL tR
      rw [← hv] at tR
      refine ⟨fun ⟨r, hr⟩ => ?_, fun h => ?_⟩
      · have : r.length = 1 := by have := congrArg List.length hr; simp at this; omega
        obtain ⟨i, rfl⟩ := List.length_eq_one_iff.mp this
        exact hne i (by cases R; simp_all)
      · have := h.length_le; omega
    obtain ⟨l, c, F, l', c', F', o, o', ap⟩ := obj2 I hL hR hg hg' hdf
    refine .of_eq (B := pushBack (ops dflt str (L.depth dep - 1)) l l') (s' := s) (by simp only [exec]; rw [Act.bind_ok o.loc, Act.bind_ok o'.loc]) ?_
    obtain ⟨k, e, h1⟩ := has_node o.has
    have h2 := o'.has
    rw [depth_of tR] at h2
    have hk : k = d := by have := depth_of tL; omega
    subst hk
    rw [e]
    refine (pushBack_spec (good_own dflt str k) I.wf h1 h2 ap).mono ?_
    rintro b s' ⟨c2, v, F2, hA, ho, hv⟩
    obtain ⟨cells', fs', J, cl⟩ := o.put hA (by rw [e]; exact ⟨v, rfl, ho⟩)
    refine ⟨cells', _, fs', J, tidy e cl, ?_⟩
    cases b with
    | true => exact ⟨vs, u, hg, hg', by rw [show v = vs ++ [u] from hv]⟩
    | false =>
      rcases hv with rfl | ⟨y, rfl⟩
      · exact .inl (env_put_get hg)
      · exact .inr ⟨vs, y, hg, rfl⟩
  | pop L =>
    obtain ⟨hL, ⟨vs, hg, hn⟩, -⟩ := hc
    refine (one (A := fun _ l => popBack l) hL hg fun {k _ _ _} h => popBack_spec (good_own dflt str k) I.wf h hn).mono ?_
    rintro b s' ⟨cells', env', fs', J, cl, v, ⟨rfl, rfl⟩, rfl⟩
    exact ⟨cells', _, fs', J, fun h => cl (shallow h), vs, hg, rfl⟩
  | erase L i =>
    obtain ⟨hL, vs, hg, hn⟩ := hc
    refine (one (A := fun k l => erase (ops dflt str k) l i) hL hg fun {k _ _ _} h => Nest.erase_spec (good_own dflt str k) I.wf h hn).mono ?_
    rintro b s' ⟨cells', env', fs', J, cl, v, hv, rfl⟩
    refine ⟨cells', _, fs', J, fun h => cl (shallow h), ?_⟩
    cases b with
    | true => exact ⟨vs, hg, by rw [show v = vs.eraseIdx i from hv]⟩
    | false => exact ⟨vs, v, hg, hv, rfl⟩
  | resize L m =>
    obtain ⟨hL, ⟨vs, hg⟩, -⟩ := hc
    refine (one (A := fun k l => resize (ops dflt str k) l m) hL hg fun {k _ _ _} h => resize_spec (good_own dflt str k) I.wf h m).mono ?_
    rintro b s' ⟨cells', env', fs', J, cl, v, hv, rfl⟩
    refine ⟨cells', _, fs', J, fun h => cl (shallow h), ?_⟩
    cases b with
    | true => exact ⟨vs, v, hg, rfl, hv⟩
    | false => exact (by rw [show v = vs from hv]; exact env_put_get hg)
  | clear L =>
    obtain ⟨hL, ⟨vs, hg⟩, -⟩ := hc
    refine (one (A := fun _ l => clear l) hL hg fun {k _ _ _} h => clear_spec (good_own dflt str k) I.wf h).mono ?_
    rintro b s' ⟨cells', env', fs', J, cl, v, ⟨rfl, rfl⟩, rfl⟩
    exact ⟨cells', _, fs', J, fun h => cl (shallow h), rfl⟩
  | text L cs =>
    obtain ⟨hL, ⟨vs, hg⟩, tL, -, -⟩ := hc
    obtain ⟨l, c, F, o⟩ := obj I hL hg
    obtain ⟨k, e, h⟩ := has_node o.has
    have hk : k = 0 := by have := depth_of tL; omega
    subst hk
    refine .of_eq (B := fromC dflt l cs) (s' := s) (Act.bind_ok o.loc) ?_
    refine (fromC_spec Tree.leaf dflt cs I.wf h).mono ?_
    rintro b s' ⟨c2, v, F2, hA, ho, hv⟩
    obtain ⟨cells', fs', J, cl⟩ := o.put hA (by rw [e]; exact ⟨v, rfl, ho⟩)
    refine ⟨cells', _, fs', J, fun _ => cl (by cases b <;> rfl), ?_⟩
    cases b with
    | true => exact (by rw [hv rfl]; rfl)
    | false => exact ⟨_, rfl⟩
  | append L R =>
    obtain ⟨hL, hR, ⟨vs, hg⟩, ⟨us, hg'⟩, ⟨tL, tR, -⟩, hne⟩ := hc
    have hdf : Diff L R := by
      intro hv
      simp only [Typed] at tL tR
      rw [← hv] at tR
      have hlen : L.path.length = R.path.length := by omega
      have hne : L.path ≠ R.path := fun h => hne (by cases L; cases R; simp_all)
      exact ⟨fun h => hne (h.eq_of_length hlen), fun h => hne (h.eq_of_length hlen.symm).symm⟩
    obtain ⟨l, c, F, l', c', F', o, o', ap⟩ := obj2 I hL hR hg hg' hdf
    obtain ⟨k, e, h1⟩ := has_node o.has
    obtain ⟨k', e', h2⟩ := has_node o'.has
    have hk : k = 0 := by have := depth_of tL; omega
    have hk' : k' = 0 := by have := depth_of tR; omega
    subst hk hk'
    refine .of_eq (B := Nest.append dflt l l') (s' := s) (by simp only [exec]; rw [Act.bind_ok o.loc, Act.bind_ok o'.loc]) ?_
    refine (append_spec Tree.leaf dflt I.wf h1 h2 ap).mono ?_
    rintro b s' ⟨c2, v, F2, hA, ho, hv⟩
    obtain ⟨cells', fs', J, cl⟩ := o.put hA (by rw [e]; exact ⟨v, rfl, ho⟩)
    refine ⟨cells', _, fs', J, fun _ => cl (by cases b <;> rfl), ?_⟩
    cases b with
    | true => exact ⟨vs, us, hg, hg', by rw [show v = _ from hv]⟩
    | false =>
      obtain ⟨k, rfl | ⟨y, rfl⟩⟩ := hv
      · exact ⟨vs, _, hg, rfl⟩
      · exact ⟨vs, _, hg, by rw [List.append_assoc]⟩
  | empty L =>
    obtain ⟨hL, ⟨vs, hg⟩, tL, -⟩ := hc
    obtain ⟨l, c, F, o⟩ := obj I hL hg
    obtain ⟨k, e, h⟩ := has_node o.has
    have hk : k = 0 := by have := depth_of tL; omega
    subst hk
    refine .of_eq (B := strClear dflt l) (s' := s) (Act.bind_ok o.loc) ?_
    refine (strClear_spec Tree.leaf dflt I.wf h).mono ?_
    rintro b s' ⟨c2, v, F2, hA, ho, hv⟩
    obtain ⟨cells', fs', J, cl⟩ := o.put hA (by rw [e]; exact ⟨v, rfl, ho⟩)
    refine ⟨cells', _, fs', J, fun _ => cl (by cases b <;> rfl), ?_⟩
    cases b with
    | true => exact (by rw [show v = _ from hv]; rfl)
    | false => exact (by rw [show v = _ from hv]; rfl)

  | pushCopy L R =>
    obtain ⟨hL, hR, ⟨vs, hg⟩, ⟨u, hg'⟩, d, tL, tR⟩ := hc
    obtain ⟨l, c, F, o⟩ := obj I hL hg
    obtain ⟨l', c', F', o'⟩ := obj I hR hg'
    refine .of_eq (B := Nest.pushCopy (ops dflt str (L.depth dep - 1)) (str && L.depth dep == 2) l l') (s' := s) (by simp only [exec]; rw [Act.bind_ok o.loc, Act.bind_ok o'.loc]) ?_
    obtain ⟨k, e, h1⟩ := has_node o.has
    have h2 := o'.has
    rw [depth_of tR] at h2
    have hk : k = d + 1 := by have := depth_of tL; omega
    subst hk
    rw [show L.depth dep - 1 = d + 1 by omega]
    refine (pushCopy_spec (good_own dflt str (d + 1)) _ I.wf h1 h2).mono ?_
    rintro b s' ⟨c2, v, F2, hA, ho, hv⟩
    obtain ⟨cells', fs', J, cl⟩ := o.put hA (by rw [e]; exact ⟨v, rfl, ho⟩)
    refine ⟨cells', _, fs', J, tidy e cl, ?_⟩
    cases b with
    | true => exact ⟨vs, u, hg, hg', by rw [show v = vs ++ [u] from hv]⟩
    | false =>
      rcases hv with rfl | ⟨y, rfl⟩
      · exact .inl (env_put_get hg)
      · exact .inr ⟨vs, y, hg, rfl⟩

  | swap L R =>
    obtain ⟨hL, hR, ⟨t, hg⟩, ⟨u, hg'⟩, ⟨d, tL, tR⟩, -⟩ := hc
    by_cases hLR : L = R
    · -- with itself
      subst hLR
      rw [hg] at hg'; cases hg'
      obtain ⟨l, c, F, o⟩ := obj I hL hg
      have ho := o.has.own
      rw [depth_of tL] at ho
      obtain ⟨p, cap, size, rfl⟩ := own_vec ho
      obtain ⟨s', e, hS⟩ := swap_spec o.has.cell o.has.cell
      have eq : s'.blocks = s.blocks := by
        funext q
        cases hq : s.blocks q with
        | none =>
          cases hq' : s'.blocks q with
          | none => rfl
          | some b => exact absurd hq (hS.dead (by rw [hq']; simp))
        | some b =>
          obtain ⟨b1, b2, h1, h2, h3, h4⟩ := hS.same (q := q) (by rw [hq]; simp)
          rw [h2, ← hq, h1]
          congr 1
          refine List.ext_getElem h3 fun i h5 h6 => ?_
          have h7 := h4 i b1[i] (by simp [h6])
          have h8 : newCells (T := T) l l (.vec p cap size) (.vec p cap size) (q, i) = .none ∨ newCells l l (.vec p cap size) (.vec p cap size) (q, i) = some b1[i] := by
            by_cases h9 : (q, i) = l
            · right
              subst h9
              have := o.has.cell
              simp only [cellAt, h1, Option.bind_some] at this
              rw [newCells, if_pos rfl, ← this]
              simp [h6]
            · left; rw [newCells, if_neg h9, if_neg h9]
          rcases h8 with h8 | h8 <;> rw [h8] at h7 <;> simpa [h5] using h7
      refine .ok (by simp only [exec]; rw [Act.bind_ok o.loc, Act.bind_ok o.loc]; exact e) ⟨cells, env, fs, ⟨fun q hq => ?_, I.len, by rw [eq]; exact I.row⟩, fun _ cl q hq => cl q (by rw [← eq]; exact hq), t, t, hg, hg, ?_⟩
      · rw [hS.next]; exact I.wf q (by rw [← eq]; exact hq)
      · rw [env_put_get hg, env_put_get hg]
    · obtain ⟨l, x, c, k, F1, F2, e1, e2, c1, c2, o1, o2, h⟩ := swap_inv I hL hR hg hg' tL tR hLR
      obtain ⟨p, cap, size, rfl⟩ := own_vec o1
      obtain ⟨p', cap', size', rfl⟩ := own_vec o2
      obtain ⟨s', e, hS⟩ := swap_spec c1 c2
      obtain ⟨cells', fs', J, cl⟩ := h s' hS
      exact .ok (by simp only [exec]; rw [Act.bind_ok e1, Act.bind_ok e2]; exact e) ⟨cells', _, fs', J, fun _ => cl, t, u, hg, hg', rfl⟩

/-- While the constructors run. -/
theorem start_spec (dflt : T) (str : Bool) {dep : Nat → Nat} {n : Nat} : ∀ (m i : Nat) {s : Mem T} {cells : List (Cell T)} {env : Env T} {fs : Nat → Fp}, i + m = n → Inv dep n s cells env fs → Clean n s fs →
    (∀ j, j < i → env j = tzero dflt str (dep j)) → (∀ j, i ≤ j → j < n → cells[j]? = some (ops dflt str (dep j)).zero ∧ fs j = none) →
    Does (start dflt str dep m i) s fun b s' => b = true → ∃ cells env fs, Inv dep n s' cells env fs ∧ Clean n s' fs ∧ ∀ j, j < n → env j = tzero dflt str (dep j)
  | 0, i, s, cells, env, fs, hi, I, cl, h, _ => by
    rw [Nat.add_zero] at hi
    subst hi
    exact .ok rfl fun _ => ⟨cells, env, fs, I, cl, h⟩
  | m + 1, i, s, cells, env, fs, hi, I, cl, h, h' => by
    have hin : i < cells.length := by rw [I.len]; omega
    obtain ⟨hz, hf⟩ := h' i (Nat.le_refl _) (by omega)
    refine Does.bind (P := fun b s' => ∃ c v F, At true s s' (0, i) c none F ∧ own (dep i) s'.blocks c v F ∧ (b = true → v = tzero dflt str (dep i)))
      ((good_own dflt str (dep i)).init I.wf (by simp only [cellAt, I.row.block]; exact hz)) ?_ fun _ _ hb => (by cases hb)
    rintro s1 ⟨c, v, F, hA, ho, hv⟩
    rw [← hf] at hA
    obtain ⟨R2, S2, -⟩ := I.row.put (fun i => own_frame (dep i)) (fun i => own_live (dep i)) I.wf hin hA ho
    refine start_spec dflt str m (i + 1) (by omega) ⟨S2.wf, by rw [List.length_set]; exact I.len, R2⟩ (fun q hq => ?_) (fun j hj => ?_) fun j h1 h2 => ?_
    · rw [I.len] at S2
      rcases S2.tidy rfl q hq with h1 | ⟨h1, h2⟩
      · exact h1
      · exact (h2 (cl q h1)).elim
    · by_cases hji : j = i
      · subst hji; rw [upd_same, hv rfl]
      · rw [upd_ne hji]; exact h j (by omega)
    · rw [List.getElem?_set_ne (by omega), upd_ne (by omega)]
      exact h' j (by omega) h2

theorem init_spec (dflt : T) (str : Bool) (dep : Nat → Nat) (n : Nat) (fails : Nat → Bool) :
    (∃ s cells env fs, init dflt str dep n fails = .ok s () ∧ Inv dep n s cells env fs ∧ Clean n s fs ∧ ∀ j, j < n → env j = tzero dflt str (dep j)) ∨ ∃ s, init dflt str dep n fails = .exc s := by
  have hcell : ∀ j, j < n → ((List.range n).map fun i => (ops dflt str (dep i)).zero)[j]? = some (ops dflt str (dep j)).zero := fun j hj => by simp [hj]
  have D := start_spec dflt str (dep := dep) (n := n) n 0
    (s := ⟨fun q => if q = 0 then some ((List.range n).map fun i => (ops dflt str (dep i)).zero) else .none, 1, 0, fails⟩) (cells := (List.range n).map fun i => (ops dflt str (dep i)).zero)
    (env := fun i => Classical.choose (good_own dflt str (dep i)).zero) (fs := fun _ => none) (by omega) ?_ ?_ (fun j hj => by omega) (fun j _ hj => ⟨hcell j hj, rfl⟩)
  · rcases D with ⟨s, e, h⟩ | ⟨s, e, -⟩
    · obtain ⟨cells, env, fs, I, cl, hv⟩ := h rfl
      exact .inl ⟨s, cells, env, fs, e, I, cl, hv⟩
    · exact .inr ⟨s, e⟩
  · refine ⟨fun q hq => ?_, by simp, ⟨rfl, fun i c hc => ?_, fun _ _ _ h => h.elim, fun _ h => h, fun _ _ => rfl⟩⟩
    · by_cases h : q = 0
      · simp [h]
      · simp [h] at hq
    · rw [List.getElem?_map] at hc
      obtain ⟨j, hj, rfl⟩ := Option.map_eq_some_iff.mp hc
      have : j = i := by
        obtain ⟨h1, h2⟩ := List.getElem?_eq_some_iff.mp hj
        simpa using h2.symm
      subst this
      exact Classical.choose_spec (good_own dflt str (dep j)).zero _
  · intro q hq
    by_cases h : q = 0
    · exact .inl h
    · simp [h] at hq

/-- Commands depend only on the variables there are. -/
theorem valid_congr {dflt : T} {str : Bool} {dep : Nat → Nat} {n : Nat} {env env' : Env T} (h : ∀ i, i < n → env' i = env i) {c : Cmd T} (hc : Valid dflt str dep n env' c) : Valid dflt str dep n env c := by
  have g : ∀ {L : LV}, L.var < n → env'.get L = env.get L := fun {L} hL => by simp only [Env.get, h _ hL]
  cases c with
  | lit L a => obtain ⟨h1, h2⟩ := hc; rw [g h1] at h2; exact ⟨h1, h2⟩
  | assign L R => obtain ⟨h1, h2, h3, h4, h5⟩ := hc; rw [g h1] at h3; rw [g h2] at h4; exact ⟨h1, h2, h3, h4, h5⟩
  | push L R => obtain ⟨h1, h2, h3, h4, h5⟩ := hc; rw [g h1] at h3; rw [g h2] at h4; exact ⟨h1, h2, h3, h4, h5⟩
  | pop L => obtain ⟨h1, h2⟩ := hc; rw [g h1] at h2; exact ⟨h1, h2⟩
  | erase L i => obtain ⟨h1, h2⟩ := hc; rw [g h1] at h2; exact ⟨h1, h2⟩
  | resize L i => obtain ⟨h1, h2⟩ := hc; rw [g h1] at h2; exact ⟨h1, h2⟩
  | clear L => obtain ⟨h1, h2⟩ := hc; rw [g h1] at h2; exact ⟨h1, h2⟩
  | text L cs => obtain ⟨h1, h2⟩ := hc; rw [g h1] at h2; exact ⟨h1, h2⟩
  | append L R => obtain ⟨h1, h2, h3, h4, h5⟩ := hc; rw [g h1] at h3; rw [g h2] at h4; exact ⟨h1, h2, h3, h4, h5⟩
  | empty L => obtain ⟨h1, h2⟩ := hc; rw [g h1] at h2; exact ⟨h1, h2⟩
  | pushCopy L R => obtain ⟨h1, h2, h3, h4, h5⟩ := hc; rw [g h1] at h3; rw [g h2] at h4; exact ⟨h1, h2, h3, h4, h5⟩
  | swap L R => obtain ⟨h1, h2, h3, h4, h5⟩ := hc; rw [g h1] at h3; rw [g h2] at h4; exact ⟨h1, h2, h3, h4, h5⟩

theorem reach_inv {dflt : T} {str : Bool} {dep : Nat → Nat} {n : Nat} {s : Mem T} {b : Bool} (h : Reach dflt str dep n s b) : ∃ cells env fs, Inv dep n s cells env fs ∧ (b = false → Clean n s fs) := by
  induction h with
  | init fails e =>
    rcases init_spec dflt str dep n fails with ⟨s', cells, env, fs, e', I, cl, -⟩ | ⟨s', e'⟩ <;> rw [e'] at e <;> cases e
    exact ⟨_, _, _, I, fun _ => cl⟩
  | ok c _ hs hv e ih =>
    obtain ⟨cells, env, fs, I, cl⟩ := ih
    rcases exec_spec dflt str I (valid_congr (I.unique hs) hv) with ⟨u, e', cells', env', fs', J, cl', -⟩ | ⟨u, e', -⟩ <;> rw [e'] at e <;> cases e
    exact ⟨cells', env', fs', J, fun hb => cl' (.inl rfl) (cl hb)⟩
  | exc c _ hs hv e ih =>
    obtain ⟨cells, env, fs, I, cl⟩ := ih
    rcases exec_spec dflt str I (valid_congr (I.unique hs) hv) with ⟨u, e', -⟩ | ⟨u, e', cells', env', fs', J, cl', -⟩ <;> rw [e'] at e <;> cases e
    exact ⟨cells', env', fs', J, fun h => cl' (.inr (Bool.or_eq_false_iff.mp h).2) (cl (Bool.or_eq_false_iff.mp h).1)⟩

theorem done_spec (dflt : T) (str : Bool) {dep : Nat → Nat} {cells : List (Cell T)} {env : Env T} {fs : Nat → Fp} (hd : ∀ i j q, fs i q → fs j q → i = j) (ho : ∀ i, ¬ fs i 0) :
    ∀ (n : Nat) (s : Mem T), Wf s → s.blocks 0 = some cells → n ≤ cells.length → (∀ i c, i < n → cells[i]? = some c → own (dep i) s.blocks c (env i) (fs i)) →
    ∃ s', done dflt str dep n s = .ok s' () ∧ (∀ q, inner n fs q → s'.blocks q = .none) ∧ ∀ q, ¬ inner n fs q → s'.blocks q = s.blocks q
  | 0, s, _, _, _, _ => ⟨s, rfl, fun q ⟨i, hi, _⟩ => (by omega), fun _ _ => rfl⟩
  | n + 1, s, w, hb, hn, hO => by
    have hl : n < cells.length := by omega
    have h1 : cells[n]? = some cells[n] := by simp [hl]
    obtain ⟨s1, e1, e2, e3, e4⟩ := (good_own dflt str (dep n)).del (l := (0, n)) w ⟨by simp [cellAt, hb, hl], hO n _ (by omega) h1, ho n⟩
    have w1 : Wf s1 := by
      intro q hq
      by_cases hF : fs n q
      · rw [e3 q hF] at hq; exact (hq rfl).elim
      · rw [e4 q hF] at hq; rw [e2]; exact w q hq
    obtain ⟨s2, f1, f3, f4⟩ := done_spec dflt str hd ho n s1 w1 (by rw [e4 0 (ho n)]; exact hb) (by omega) fun i c hi hc =>
      own_frame _ _ _ _ _ _ (hO i c (by omega) hc) fun q hq => e4 q fun h => (by have := hd i n q hq h; omega)
    refine ⟨s2, (Act.bind_ok e1).trans f1, ?_, fun q hq => ?_⟩
    · rintro q ⟨i, hi, hq⟩
      by_cases hin : inner n fs q
      · exact f3 q hin
      · have : i = n := by
          by_cases h : i = n
          · exact h
          · exact (hin ⟨i, by omega, hq⟩).elim
        subst this
        rw [f4 q hin, e3 q hq]
    · rw [f4 q fun ⟨i, hi, h⟩ => hq ⟨i, by omega, h⟩, e4 q fun h => hq ⟨n, by omega, h⟩]

/-! ### The property -/

/-- **C133.** Variables that are vectors of vectors or of strings, to any depth, have values: what a client reads of them is defined, … -/
theorem c133_shows {dflt : T} {str : Bool} {dep : Nat → Nat} {n : Nat} {s : Mem T} {b : Bool} (h : Reach dflt str dep n s b) : ∃ env, Shows dep n s env := by
  obtain ⟨cells, env, fs, I, -⟩ := reach_inv h
  exact ⟨env, I.shows⟩

/-- … every command on any part of them returns or throws, changes that part as it says and nothing else (copies are deep), … -/
theorem c133_step {dflt : T} {str : Bool} {dep : Nat → Nat} {n : Nat} {s : Mem T} {b : Bool} (h : Reach dflt str dep n s b) {env : Env T} (hs : Shows dep n s env) {c : Cmd T} (hc : Valid dflt str dep n env c) :
    (∃ s' env', exec dflt str dep c s = .ok s' () ∧ Shows dep n s' env' ∧ Returned dflt env c env') ∨ ∃ s' env', exec dflt str dep c s = .exc s' ∧ Shows dep n s' env' ∧ Threw env c env' := by
  obtain ⟨cells, env0, fs, I, -⟩ := reach_inv h
  have hu := I.unique hs
  -- the same variables, with any values where there are none
  have I' : Inv dep n s cells env fs := by
    refine ⟨I.wf, I.len, I.row.block, fun i c hc => ?_, I.row.disj, I.row.out, I.row.rest⟩
    rw [hu i (by rw [← I.len]; exact (List.getElem?_eq_some_iff.mp hc).1)]
    exact I.row.own i c hc
  rcases exec_spec dflt str I' hc with ⟨u, e, cells', env', fs', J, -, r⟩ | ⟨u, e, cells', env', fs', J, -, r⟩
  · exact .inl ⟨u, env', e, J.shows, r⟩
  · exact .inr ⟨u, env', e, J.shows, r⟩

/-- … and at their end no storage is left, also if commands on strings and on vectors of scalars threw, wherever these lie. Missing: when a command on a vector of vectors or of strings threw (`c133_leak_false`). -/
theorem c133_end_partial {dflt : T} {str : Bool} {dep : Nat → Nat} {n : Nat} {s : Mem T} {b : Bool} (h : Reach dflt str dep n s b) : ∃ s', done dflt str dep n s = .ok s' () ∧ (b = false → ∀ q, q ≠ 0 → s'.blocks q = .none) := by
  obtain ⟨cells, env, fs, I, cl⟩ := reach_inv h
  obtain ⟨s', e, h1, h2⟩ := done_spec dflt str (env := env) I.row.disj I.row.out n s I.wf I.row.block (by rw [I.len]; exact Nat.le_refl _) fun i c _ hc => I.row.own i c hc
  refine ⟨s', e, fun hb q hq => ?_⟩
  by_cases hin : inner n fs q
  · exact h1 q hin
  · rw [h2 q hin]
    cases hx : s.blocks q with
    | none => rfl
    | some k =>
      rcases cl hb q (by rw [hx]; simp) with h | h
      · exact (hq h).elim
      · exact (hin h).elim

/-- What a variable is at first: strings hold their zero, vectors nothing. -/
def Fresh (dflt : T) (str : Bool) (d : Nat) (t : Tree T) : Prop := if d = 0 then t = .leaf dflt else if d = 1 ∧ str = true then t = .node [.leaf dflt] else t = .node []

/-- At first the variables are empty, if there is memory for them. -/
theorem c133_init (dflt : T) (str : Bool) (dep : Nat → Nat) (n : Nat) (fails : Nat → Bool) :
    (∃ s env, init dflt str dep n fails = .ok s () ∧ Shows dep n s env ∧ ∀ i, i < n → Fresh dflt str (dep i) (env i)) ∨ ∃ s, init dflt str dep n fails = .exc s := by
  rcases init_spec dflt str dep n fails with ⟨s, cells, env, fs, e, I, -, hv⟩ | h
  · refine .inl ⟨s, env, e, I.shows, fun i hi => ?_⟩
    rw [hv i hi]
    generalize dep i = d
    simp only [Fresh]
    match d with
    | 0 => rfl
    | 1 => cases str <;> rfl
    | d + 2 => simp [tzero]
  · exact .inr h

/-- A `new T[n]` in which one of the constructors throws, as those of strings do when there is no memory, leaves nothing behind (nanoallocator.h:61-75). -/
theorem c133_new {dflt : T} {str : Bool} {dep : Nat → Nat} {n : Nat} {s s' : Mem T} {b : Bool} (h : Reach dflt str dep n s b) {d m : Nat} (e : allocate (ops dflt str d) m s = .exc s') : s'.blocks = s.blocks := by
  obtain ⟨cells, env, fs, I, -⟩ := reach_inv h
  by_cases hm : m < 1
  · simp [allocate, hm] at e
  · rcases allocate_spec (good_own dflt str d) I.wf (n := m) (by omega) with ⟨s1, _, _, _, e1, -⟩ | ⟨s1, e1, -, -, b1⟩ <;> rw [e1] at e <;> cases e
    exact funext b1

/-- A copy of a string whose constructor throws leaves nothing behind (nanostring.h:67-68). For vectors this is not so (`c131_copy_leak_false`). -/
theorem c133_copy {dflt : T} {dep : Nat → Nat} {n : Nat} {s s' : Mem T} {b : Bool} (h : Reach dflt true dep n s b) {env : Env T} (hs : Shows dep n s env) {R : LV} (hR : R.var < n) {t : Tree T} (hg : env.get R = some t) (tR : Typed dep R 1)
    (e : (do let r ← R.loc; construct (ops dflt true 1) true r : Act (Mem T) Nat) s = .exc s') : s'.blocks = s.blocks := by
  obtain ⟨cells, env0, fs, I, -⟩ := reach_inv h
  have hg0 : env0.get R = some t := by rw [Env.get, ← I.unique hs _ hR]; exact hg
  obtain ⟨l, c, F, o⟩ := obj I hR hg0
  rw [Act.bind_ok o.loc] at e
  obtain ⟨hc, ho, hout⟩ := o.has
  rw [depth_of tR] at ho
  obtain ⟨vs, -, ho⟩ := ho
  exact construct_string Tree.leaf dflt I.wf ⟨hc, ho, hout⟩ e

/-- **C131.** Variables that are vectors of vectors to any depth have values: what a client reads of them is defined, … -/
theorem c131_shows {dflt : T} {dep : Nat → Nat} {n : Nat} {s : Mem T} {b : Bool} (h : Reach dflt false dep n s b) : ∃ env, Shows dep n s env := c133_shows h

/-- … every command on any part of them returns or throws, changes that part as it says and nothing else (copies are deep), … -/
theorem c131_step {dflt : T} {dep : Nat → Nat} {n : Nat} {s : Mem T} {b : Bool} (h : Reach dflt false dep n s b) {env : Env T} (hs : Shows dep n s env) {c : Cmd T} (hc : Valid dflt false dep n env c) :
    (∃ s' env', exec dflt false dep c s = .ok s' () ∧ Shows dep n s' env' ∧ Returned dflt env c env') ∨ ∃ s' env', exec dflt false dep c s = .exc s' ∧ Shows dep n s' env' ∧ Threw env c env' := c133_step h hs hc

/-- … `swap` exchanges two parts and nothing else; it never throws, and allocates and frees nothing (nanovector.h:170-174), … -/
theorem c131_swap {dflt : T} {dep : Nat → Nat} {n : Nat} {s : Mem T} {b : Bool} (h : Reach dflt false dep n s b) {env : Env T} (hs : Shows dep n s env) {L R : LV} (hc : Valid dflt false dep n env (.swap L R)) :
    ∃ s' t u, exec dflt false dep (.swap L R) s = .ok s' () ∧ env.get L = some t ∧ env.get R = some u ∧ Shows dep n s' ((env.put L u).put R t) ∧ ∀ q, (s'.blocks q).map List.length = (s.blocks q).map List.length := by
  rcases c133_step h hs hc with ⟨s', env', e, hs', t, u, hg, hg', rfl⟩ | ⟨_, _, _, _, hf⟩
  · refine ⟨s', t, u, e, hg, hg', hs', ?_⟩
    obtain ⟨cells, env0, fs, I, -⟩ := reach_inv h
    obtain ⟨hL, hR, -, -, ⟨d, tL, tR⟩, -⟩ := hc
    obtain ⟨l, c, F, o⟩ := obj I hL (t := t) (by rw [Env.get, ← I.unique hs _ hL]; exact hg)
    obtain ⟨r, k, F', o'⟩ := obj I hR (t := u) (by rw [Env.get, ← I.unique hs _ hR]; exact hg')
    have ho := o.has.own
    have ho' := o'.has.own
    rw [depth_of tL] at ho
    rw [depth_of tR] at ho'
    obtain ⟨p, cap, size, rfl⟩ := own_vec ho
    obtain ⟨p', cap', size', rfl⟩ := own_vec ho'
    obtain ⟨s2, e2, hS⟩ := swap_spec o.has.cell o'.has.cell
    simp only [exec] at e
    rw [Act.bind_ok o.loc, Act.bind_ok o'.loc, e2] at e
    cases e
    exact hS.len
  · exact hf.elim

/-- … and at their end no storage is left, also if commands on vectors of scalars threw, wherever these lie. Missing: when a command on a vector of vectors threw (`c131_leak_false`). -/
theorem c131_end_partial {dflt : T} {dep : Nat → Nat} {n : Nat} {s : Mem T} {b : Bool} (h : Reach dflt false dep n s b) : ∃ s', done dflt false dep n s = .ok s' () ∧ (b = false → ∀ q, q ≠ 0 → s'.blocks q = .none) := c133_end_partial h

/-- Commands one after the other, and which of them returned. -/
def run (dflt : T) (str : Bool) (dep : Nat → Nat) : List (Cmd T) → Mem T → Option (Mem T × List Bool)
  | [], s => some (s, [])
  | c :: cs, s => match exec dflt str dep c s with
    | .ok s _ => (run dflt str dep cs s).map fun x => (x.1, true :: x.2)
    | .exc s => (run dflt str dep cs s).map fun x => (x.1, false :: x.2)
    | .ub => .none

/-- `vector<vector<int>> x; vector<int> y; int z;` -/
def xyz : Nat → Nat
  | 0 => 2
  | 1 => 1
  | _ => 0

def x : LV := ⟨0, []⟩

def y : LV := ⟨1, []⟩

def z : LV := ⟨2, []⟩

/-- Three variables, and commands on them. -/
def prog (str : Bool) (cs : List (Cmd Nat)) (fails : Nat → Bool) : Option (Mem Nat × List Bool) := match init 0 str xyz 3 fails with
  | .ok s _ => run 0 str xyz cs s
  | _ => .none

/-- What blocks there are in the end. -/
def left (str : Bool) (cs : List (Cmd Nat)) (fails : Nat → Bool) (q : Nat) : Option (List Bool × Bool) := match prog str cs fails with
  | some (s, bs) => match done 0 str xyz 3 s with
    | .ok s' _ => some (bs, (s'.blocks q).isSome)
    | _ => .none
  | .none => .none

theorem left_spec {str : Bool} {cs : List (Cmd Nat)} {fails : Nat → Bool} {q : Nat} {bs : List Bool} (h : left str cs fails q = some (bs, true)) :
    ∃ s s', prog str cs fails = some (s, bs) ∧ done 0 str xyz 3 s = .ok s' () ∧ s'.blocks q ≠ .none := by
  simp only [left] at h
  split at h
  · rename_i s bs' e
    split at h
    · rename_i s' _ e'
      simp only [Option.some.injEq, Prod.mk.injEq] at h
      exact ⟨s, s', by rw [e, h.1], e', fun hn => by rw [hn] at h; simp at h⟩
    · cases h
  · cases h

/-- **C131, not so.** `y.push_back(z); x.push_back(y); x.push_back(y);` where the last finds memory for the new storage of `x` but none for the copy of `x[0]`: that storage, block 4, is there for ever. -/
theorem c131_leak_false : ∃ s s', prog false [.push y z, .push x y, .push x y] (fun k => k == 4) = some (s, [true, true, false]) ∧ done 0 false xyz 3 s = .ok s' () ∧ s'.blocks 4 ≠ .none :=
  left_spec (by decide +kernel)

/-- **C131, not so.** A vector whose copy constructor throws is not destroyed: `y.push_back(z); y.push_back(z); x.push_back(vector<int>(y));` where there is no memory for the second element of the copy: its storage, block 4, is there for ever. -/
theorem c131_copy_leak_false : ∃ s s', prog false [.push y z, .push y z, .pushCopy x y] (fun k => k == 3) = some (s, [true, true, false]) ∧ done 0 false xyz 3 s = .ok s' () ∧ s'.blocks 4 ≠ .none :=
  left_spec (by decide +kernel)

/-- **C133, not so.** `y = "ab"; x.push_back(y); x.push_back(y);`, now `vector<string> x; string y;`, and no memory for the copy of `x[0]`: the new storage is there for ever. -/
theorem c133_leak_false : ∃ s s', prog true [.text y [97, 98], .push x y, .push x y] (fun k => k == 13) = some (s, [true, true, false]) ∧ done 0 true xyz 3 s = .ok s' () ∧ s'.blocks 13 ≠ .none :=
  left_spec (by decide +kernel)

/-- Whether these commands and then this one are undefined. -/
def ends (str : Bool) (cs : List (Cmd Nat)) (c : Cmd Nat) : Bool := match prog str cs fun _ => false with
  | some (s, bs) => bs.all id && match exec 0 str xyz c s with
    | .ub => true
    | _ => false
  | .none => false

theorem ends_spec {str : Bool} {cs : List (Cmd Nat)} {c : Cmd Nat} (h : ends str cs c = true) : ∃ s bs, prog str cs (fun _ => false) = some (s, bs) ∧ (∀ b ∈ bs, b = true) ∧ exec 0 str xyz c s = .ub := by
  simp only [ends] at h
  split at h
  · rename_i s bs e
    rw [Bool.and_eq_true] at h
    obtain ⟨h1, h2⟩ := h
    split at h2
    · rename_i e'
      exact ⟨s, bs, e, by simpa using h1, e'⟩
    · cases h2
  · cases h

/-- **C131, not so.** The argument of `push_back` cannot be an element of the vector itself: `x.push_back(y); x.push_back(x[0]);` reads a vector that has been destroyed. With a copy, `x.push_back(vector<int>(x[0]))`, it can (`c131_step`). -/
theorem c131_alias_false : ∃ s bs, prog false [.push x y] (fun _ => false) = some (s, bs) ∧ (∀ b ∈ bs, b = true) ∧ exec 0 false xyz (.push x ⟨0, [0]⟩) s = .ub := ends_spec (by decide +kernel)

/-- **C133, not so.** Neither can it with strings. -/
theorem c133_alias_false : ∃ s bs, prog true [.push x y] (fun _ => false) = some (s, bs) ∧ (∀ b ∈ bs, b = true) ∧ exec 0 true xyz (.push x ⟨0, [0]⟩) s = .ub := ends_spec (by decide +kernel)

/-- Whether a variable is `{{a}}`. -/
def isNest (t : Tree Nat) (a : Nat) : Bool := match t with
  | .node [.node [.leaf b]] => a == b
  | _ => false

/-- What `x` is then. -/
def xIs (cs : List (Cmd Nat)) (a : Nat) : Bool := match prog false cs fun _ => false with
  | some (s, bs) => bs.all id && match view 2 (0, 0) s with
    | .ok _ t => isNest t a
    | _ => false
  | .none => false

theorem xIs_spec {cs : List (Cmd Nat)} {a : Nat} (h : xIs cs a = true) : ∃ s bs s', prog false cs (fun _ => false) = some (s, bs) ∧ (∀ b ∈ bs, b = true) ∧ view 2 (0, 0) s = .ok s' (.node [.node [.leaf a]]) := by
  simp only [xIs] at h
  split at h
  · rename_i s bs e
    rw [Bool.and_eq_true] at h
    obtain ⟨h1, h2⟩ := h
    split at h2
    · rename_i s' t e'
      refine ⟨s, bs, s', e, by simpa using h1, ?_⟩
      simp only [isNest] at h2
      split at h2
      · rename_i b
        rw [e', beq_iff_eq.mp h2]
      · cases h2
    · cases h2
  · cases h

/-- **C131, not so.** The vectors `resize` adds need not be empty: `z = 7; y.push_back(z); x.push_back(y); x.pop_back(); x.resize(1);` and `x` is `{{7}}`. -/
theorem c131_stale_false : ∃ s bs s', prog false [.lit z 7, .push y z, .push x y, .pop x, .resize x 1] (fun _ => false) = some (s, bs) ∧ (∀ b ∈ bs, b = true) ∧
    view 2 (0, 0) s = .ok s' (.node [.node [.leaf 7]]) := xIs_spec (by decide +kernel)

/-- Whether something is these characters. -/
def isText : Tree Nat → List Nat → Bool
  | .node (.leaf a :: ts), b :: l => a == b && isText (.node ts) l
  | .node [], [] => true
  | _, _ => false

theorem isText_spec : ∀ {l : List Nat} {t : Tree Nat}, isText t l = true → t = .node (l.map .leaf)
  | [], .node [], _ => rfl
  | b :: l, .node (.leaf a :: ts), h => by
    simp only [isText, Bool.and_eq_true, beq_iff_eq] at h
    obtain ⟨rfl, h⟩ := h
    have := isText_spec h
    simp only [Tree.node.injEq] at this
    rw [this]; rfl
  | [], .leaf _, h => by simp [isText] at h
  | b :: l, .leaf _, h => by simp [isText] at h
  | [], .node (_ :: _), h => by simp [isText] at h
  | b :: l, .node [], h => by simp [isText] at h
  | b :: l, .node (.node _ :: _), h => by simp [isText] at h

/-- What the string at `L` is then. -/
def textIs (cs : List (Cmd Nat)) (fails : Nat → Bool) (bs : List Bool) (L : LV) (l : List Nat) : Bool := match prog true cs fails with
  | some (s, bs') => bs == bs' && match (do let p ← L.loc; view 1 p : Act (Mem Nat) (Tree Nat)) s with
    | .ok _ t => isText t l
    | _ => false
  | .none => false

theorem textIs_spec {cs : List (Cmd Nat)} {fails : Nat → Bool} {bs : List Bool} {L : LV} {l : List Nat} (h : textIs cs fails bs L l = true) :
    ∃ s s', prog true cs fails = some (s, bs) ∧ (do let p ← L.loc; view 1 p : Act (Mem Nat) (Tree Nat)) s = .ok s' (.node (l.map .leaf)) := by
  simp only [textIs] at h
  split at h
  · rename_i s bs' e
    rw [Bool.and_eq_true, beq_iff_eq] at h
    obtain ⟨rfl, h2⟩ := h
    split at h2
    · rename_i s' t e'
      exact ⟨s, s', e, by rw [e', isText_spec h2]⟩
    · cases h2
  · cases h

/-- **C133, not so.** A string whose assignment threw need not be a string: `y = "ab";` where there is no memory for the second character, and `y` has one character, `'a'`, and no zero behind it (`size()` is 0 and `c_str()` does not end). -/
theorem c133_unended_false : ∃ s s', prog true [.text y [97, 98]] (fun k => k == 4) = some (s, [false]) ∧ (do let p ← y.loc; view 1 p : Act (Mem Nat) (Tree Nat)) s = .ok s' (.node [.leaf 97]) :=
  textIs_spec (l := [97]) (by decide +kernel)

/-- **C133, not so.** The strings `resize` adds need not be empty: `y = "ab"; x.push_back(y); x.pop_back(); x.resize(1);` and `x[0]` is `"ab"`. -/
theorem c133_stale_false : ∃ s s', prog true [.text y [97, 98], .push x y, .pop x, .resize x 1] (fun _ => false) = some (s, [true, true, true, true]) ∧
    (do let p ← (⟨0, [0]⟩ : LV).loc; view 1 p : Act (Mem Nat) (Tree Nat)) s = .ok s' (.node [.leaf 97, .leaf 98, .leaf 0]) :=
  textIs_spec (l := [97, 98, 0]) (by decide +kernel)

/-! ### The hypotheses can be met -/

/-- A copy is deep: `y.push_back(z); x.push_back(y); z = 9; y[0] = z;` and `x` is still `{{7}}`. -/
example : xIs [.lit z 7, .push y z, .push x y, .lit z 9, .assign ⟨1, [0]⟩ z] 7 = true := by decide +kernel

/-- Within: `x[0][0] = z`, `x[0].push_back(z)`, `x[0].pop_back()`. -/
example : xIs [.lit z 7, .push y z, .push x y, .lit z 9, .assign ⟨0, [0, 0]⟩ z, .push ⟨0, [0]⟩ z, .pop ⟨0, [0]⟩] 9 = true := by decide +kernel

/-- `x.push_back(y); x[0].swap(y);` -/
example : xIs [.lit z 7, .push x y, .push y z, .swap ⟨0, [0]⟩ y] 7 = true := by decide +kernel

/-- Elements of one vector may be exchanged. -/
example : Valid 0 false xyz 3 (fun i => if i = 0 then .node [.node [.leaf 7], .node []] else if i = 1 then .node [] else .leaf 1) (.swap ⟨0, [0]⟩ ⟨0, [1]⟩) :=
  ⟨by decide, by decide, ⟨_, rfl⟩, ⟨_, rfl⟩, ⟨0, rfl, rfl⟩, fun h => by cases h⟩

/-- Strings within vectors: `y = "a"; x.push_back(y); x[0] += y; y.clear();` and `x[0]` is `"aa"`. -/
example : textIs [.text y [97], .push x y, .append ⟨0, [0]⟩ y, .empty y] (fun _ => false) [true, true, true, true] ⟨0, [0]⟩ [97, 97, 0] = true := by decide +kernel

/-- After an assignment to a string that threw nothing is left of its temporary, blocks 2 to 6, nor of the string, block 1. -/
example : (List.range 10).map (left true [.text y [97, 98]] fun k => k == 4) = some ([false], true) :: List.replicate 9 (some ([false], false)) := by decide +kernel

example : Cmd.deep xyz (.text y [97, 98]) = false := by decide

/-- `y = "a"; x.push_back(y); x.push_back(string(x[0]));` and `x[1]` is `"a"`. -/
example : textIs [.text y [97], .push x y, .pushCopy x ⟨0, [0]⟩] (fun _ => false) [true, true, true] ⟨0, [1]⟩ [97, 0] = true := by decide +kernel

/-- A vector's own element may be copied and pushed. -/
example : Valid 0 false xyz 3 (fun i => if i = 0 then .node [.node [.leaf 7]] else if i = 1 then .node [] else .leaf 1) (.pushCopy x ⟨0, [0]⟩) :=
  ⟨by decide, by decide, ⟨_, rfl⟩, ⟨_, rfl⟩, 0, rfl, rfl⟩

/-- There are copies of strings that throw: the copy of `y` has two characters. -/
example : ∃ s s', prog true [.text y [97]] (fun k => k == 5) = some (s, [true]) ∧ (do let r ← y.loc; construct (ops 0 true 1) true r : Act (Mem Nat) Nat) s = .exc s' := by
  have : (match prog true [.text y [97]] (fun k => k == 5) with | some (s, [true]) => (match (do let r ← y.loc; construct (ops 0 true 1) true r : Act (Mem Nat) Nat) s with | .exc _ => true | _ => false) | _ => false) = true := by
    decide +kernel
  split at this
  · rename_i s e
    split at this
    · rename_i s' e'; exact ⟨s, s', e, e'⟩
    · cases this
  · cases this

/-- `x.resize(2)`: two empty strings. -/
example : textIs [.resize x 2] (fun _ => false) [true] ⟨0, [1]⟩ [0] = true := by decide +kernel

/-- There are constructors that throw after others have allocated: the third allocation of `x.resize(2)` is that of the second string. -/
example : ∃ s s', prog true [] (fun k => k == 3) = some (s, []) ∧ allocate (ops 0 true 1) 2 s = .exc s' := by
  have : (match prog true [] (fun k => k == 3) with | some (s, []) => (match allocate (ops 0 true 1) 2 s with | .exc _ => true | _ => false) | _ => false) = true := by decide +kernel
  split at this
  · rename_i s e
    split at this
    · rename_i s' e'; exact ⟨s, s', e, e'⟩
    · cases this
  · cases this

/-- Commands a client may use. -/
example : Valid 0 false xyz 3 (fun i => if i = 0 then .node [.node [.leaf 7]] else if i = 1 then .node [] else .leaf 1) (.push ⟨0, [0]⟩ z) := by
  refine ⟨by decide, by decide, ⟨[.leaf 7], rfl⟩, ⟨.leaf 1, rfl⟩, ⟨0, rfl, rfl⟩, fun i h => ?_, fun h => by cases h⟩
  simp [z] at h

example : Valid 0 true xyz 3 (fun i => if i = 0 then .node [.node [.leaf 7, .leaf 0]] else if i = 1 then .node [.leaf 0] else .leaf 1) (.append ⟨0, [0]⟩ y) :=
  ⟨by decide, by decide, ⟨_, rfl⟩, ⟨_, rfl⟩, ⟨rfl, rfl, rfl⟩, by decide⟩

end Nanostl.Vector.Nest

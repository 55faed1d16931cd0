import Verif.Vector.Nest

/-! Helper lemmas for C131 and C133. -/

namespace Nanostl.Vector.Nest

variable {T β : Type}

/-- Sets of blocks. -/
abbrev Fp := Nat → Prop

abbrev Blocks (T : Type) := Nat → Option (List (Cell T))

/-- Addresses not given out are free. -/
def Wf (s : Mem T) : Prop := ∀ q, s.blocks q ≠ none → q < s.next

/-- What became of a set of blocks `F`: it is `F2` now, nothing else but `touch` is changed, and if the action returned (`b`) no block is left over. -/
structure Step (b : Bool) (s s' : Mem T) (touch F F2 : Fp) : Prop where
  wf : Wf s'
  next : s.next ≤ s'.next
  old : ∀ q, F2 q → F q ∨ s.next ≤ q
  same : ∀ q, q < s.next → ¬ F q → ¬ touch q → s'.blocks q = s.blocks q
  tidy : b = true → ∀ q, s'.blocks q ≠ none → F2 q ∨ (s.blocks q ≠ none ∧ ¬ F q)

/-- A step whose only change elsewhere is in one place. -/
structure At (b : Bool) (s s' : Mem T) (l : Loc) (c : Cell T) (F F2 : Fp) : Prop where
  step : Step b s s' (· = l.1) F F2
  cell : s'.blocks l.1 = (s.blocks l.1).map (·.set l.2 c)

def none : Fp := fun _ => False

theorem Step.refl {b : Bool} {s : Mem T} (w : Wf s) (t F : Fp) : Step b s s t F F :=
  ⟨w, Nat.le_refl _, fun _ h => .inl h, fun _ _ _ _ => rfl, fun _ q h => by
    by_cases hF : F q
    · exact .inl hF
    · exact .inr ⟨h, hF⟩⟩

theorem Step.weak {b : Bool} {s s' : Mem T} {t F F2 : Fp} (h : Step b s s' t F F2) : Step false s s' t F F2 :=
  ⟨h.wf, h.next, h.old, h.same, fun h => (by cases h)⟩

theorem Step.trans {b b' : Bool} {s s' s'' : Mem T} {t F F2 F3 : Fp} (h : Step b s s' t F F2) (h' : Step b' s' s'' t F2 F3) (hb : b' = true → b = true) : Step b' s s'' t F F3 := by
  refine ⟨h'.wf, Nat.le_trans h.next h'.next, fun q hq => ?_, fun q h1 h2 h3 => ?_, fun e q hq => ?_⟩
  · rcases h'.old q hq with h1 | h1
    · exact h.old q h1
    · exact .inr (Nat.le_trans h.next h1)
  · rw [h'.same q (Nat.lt_of_lt_of_le h1 h.next) ?_ h3, h.same q h1 h2 h3]
    intro h4
    rcases h.old q h4 with h5 | h5
    · exact h2 h5
    · omega
  · rcases h'.tidy e q hq with h1 | ⟨h1, h2⟩
    · exact .inl h1
    · rcases h.tidy (hb e) q h1 with h3 | h3
      · exact (h2 h3).elim
      · exact .inr h3

theorem cellAt_lt {m : Blocks T} {l : Loc} {c : Cell T} (h : cellAt m l = some c) : m l.1 ≠ .none := by
  intro e; simp [cellAt, e] at h

theorem cellAt_block {m : Blocks T} {l : Loc} {c : Cell T} (h : cellAt m l = some c) : ∃ b, m l.1 = some b ∧ b[l.2]? = some c := by
  simp only [cellAt] at h
  cases e : m l.1 with
  | none => simp [e] at h
  | some b => rw [e] at h; exact ⟨b, rfl, h⟩

theorem set_self {α : Type} {b : List α} {i : Nat} {c : α} (h : b[i]? = some c) : b.set i c = b := by
  obtain ⟨h1, h2⟩ := List.getElem?_eq_some_iff.mp h
  rw [← h2]; simp

theorem At.refl {b : Bool} {s : Mem T} {l : Loc} {c : Cell T} (w : Wf s) (h : cellAt s.blocks l = some c) (F : Fp) : At b s s l c F F := by
  obtain ⟨k, e, e'⟩ := cellAt_block h
  exact ⟨.refl w _ _, by rw [e]; simp [set_self e']⟩

theorem At.weak {b : Bool} {s s' : Mem T} {l : Loc} {c : Cell T} {F F2 : Fp} (h : At b s s' l c F F2) : At false s s' l c F F2 := ⟨h.step.weak, h.cell⟩

theorem At.trans {b b' : Bool} {s s' s'' : Mem T} {l : Loc} {c c' : Cell T} {F F2 F3 : Fp} (h : At b s s' l c F F2) (h' : At b' s' s'' l c' F2 F3) (hb : b' = true → b = true) :
    At b' s s'' l c' F F3 := by
  refine ⟨h.step.trans h'.step hb, ?_⟩
  rw [h'.cell, h.cell, Option.map_map]
  congr 1
  funext k
  simp

theorem At.get {b : Bool} {s s' : Mem T} {l : Loc} {c c0 : Cell T} {F F2 : Fp} (h : At b s s' l c F F2) (h0 : cellAt s.blocks l = some c0) : cellAt s'.blocks l = some c := by
  obtain ⟨k, e, e'⟩ := cellAt_block h0
  simp only [cellAt, h.cell, e]
  have := (List.getElem?_eq_some_iff.mp e').1
  simp [this]

/-- Other places are as before. -/
theorem At.other {b : Bool} {s s' : Mem T} {l l' : Loc} {c c' : Cell T} {F F2 : Fp} (h : At b s s' l c F F2) (w : Wf s) (h' : cellAt s.blocks l' = some c') (hF : ¬ F l'.1) (hl : l' ≠ l) :
    cellAt s'.blocks l' = some c' := by
  by_cases hq : l'.1 = l.1
  · obtain ⟨k, e, e'⟩ := cellAt_block h'
    have hi : l'.2 ≠ l.2 := fun hi => hl (Prod.ext hq hi)
    simp only [cellAt, hq, h.cell]
    rw [← hq, e]
    simp only [Option.map_some, Option.bind_some]
    rw [List.getElem?_set_ne (Ne.symm hi)]
    exact e'
  · rw [cellAt, h.step.same l'.1 (w _ (cellAt_lt h')) hF hq]
    exact h'

/-- An action that returns or throws. -/
def Does (A : Act (Mem T) Unit) (s : Mem T) (P : Bool → Mem T → Prop) : Prop := (∃ s', A s = .ok s' () ∧ P true s') ∨ ∃ s', A s = .exc s' ∧ P false s'

theorem Does.bind {A B : Act (Mem T) Unit} {s : Mem T} {P Q : Bool → Mem T → Prop} (h : Does A s P) (h1 : ∀ s', P true s' → Does B s' Q) (h2 : ∀ s', P false s' → Q false s') :
    Does (do A; B) s Q := by
  rcases h with ⟨s', e, p⟩ | ⟨s', e, p⟩
  · rcases h1 s' p with ⟨u, e', q⟩ | ⟨u, e', q⟩
    · exact .inl ⟨u, (Act.bind_ok e).trans e', q⟩
    · exact .inr ⟨u, (Act.bind_ok e).trans e', q⟩
  · exact .inr ⟨s', Act.bind_exc e, h2 s' p⟩

theorem Does.mono {A : Act (Mem T) Unit} {s : Mem T} {P Q : Bool → Mem T → Prop} (h : Does A s P) (h1 : ∀ b s', P b s' → Q b s') : Does A s Q := by
  rcases h with ⟨s', e, p⟩ | ⟨s', e, p⟩
  · exact .inl ⟨s', e, h1 _ _ p⟩
  · exact .inr ⟨s', e, h1 _ _ p⟩

theorem Does.ok {A : Act (Mem T) Unit} {s s' : Mem T} {P : Bool → Mem T → Prop} (e : A s = .ok s' ()) (h : P true s') : Does A s P := .inl ⟨s', e, h⟩

theorem Does.of_eq {A B : Act (Mem T) Unit} {s s' : Mem T} {P : Bool → Mem T → Prop} (e : A s = B s') (h : Does B s' P) : Does A s P := by
  rcases h with ⟨u, e', p⟩ | ⟨u, e', p⟩
  · exact .inl ⟨u, e.trans e', p⟩
  · exact .inr ⟨u, e.trans e', p⟩

/-- What it is for an object to have a value and to own blocks. -/
abbrev Owns (T β : Type) := Blocks T → Cell T → β → Fp → Prop

/-- After an action on the object in `l`: it has a value, one that is wanted of an action that returned or not, and nothing else has changed. If `τ`, no block is left over either when it threw. -/
def Put (τ : Bool) (O : Owns T β) (s : Mem T) (l : Loc) (F : Fp) (want : Bool → β → Prop) (b : Bool) (s' : Mem T) : Prop :=
  ∃ c v F2, At (b || τ) s s' l c F F2 ∧ O s'.blocks c v F2 ∧ want b v

theorem Put.weak {τ : Bool} {O : Owns T β} {s s' : Mem T} {l : Loc} {F : Fp} {want : Bool → β → Prop} {b : Bool} (h : Put τ O s l F want b s') : Put false O s l F want b s' := by
  obtain ⟨c, v, F2, hA, ho, hv⟩ := h
  refine ⟨c, v, F2, ?_, ho, hv⟩
  cases b with
  | true => exact hA
  | false => exact hA.weak

theorem or_of_imp {τ b : Bool} (h : τ = true → b = true) : (b || τ) = b := by
  cases b with
  | true => rfl
  | false => cases τ with
    | true => exact (by cases h rfl)
    | false => rfl

/-- An object in a place, with what it owns. -/
structure Has (O : Owns T β) (s : Mem T) (l : Loc) (c : Cell T) (v : β) (F : Fp) : Prop where
  cell : cellAt s.blocks l = some c
  own : O s.blocks c v F
  out : ¬ F l.1

/-- Two objects apart. -/
structure Apart (l l' : Loc) (F F' : Fp) : Prop where
  ne : l' ≠ l
  left : ¬ F' l.1
  right : ¬ F l'.1
  disj : ∀ q, F q → ¬ F' q

/-- What an object is depends only on what it owns. -/
def Framed (O : Owns T β) : Prop := ∀ (m m' : Blocks T) (c : Cell T) (v : β) (F : Fp), O m c v F → (∀ q, F q → m' q = m q) → O m' c v F

/-- What an object owns is there. -/
def Lives (O : Owns T β) : Prop := ∀ (m : Blocks T) (c : Cell T) (v : β) (F : Fp), O m c v F → ∀ q, F q → m q ≠ .none

/-- What a class must fulfil. If `τ`, its assignment never throws. -/
structure Good (τ : Bool) (E : Ops T) (O : Owns T β) (dflt : β) : Prop where
  frame : Framed O
  live : Lives O
  zero : ∃ v, ∀ m : Blocks T, O m E.zero v none
  init : ∀ {s : Mem T} {l : Loc}, Wf s → cellAt s.blocks l = some E.zero → Does (E.init l) s fun b s' => ∃ c v F, At true s s' l c none F ∧ O s'.blocks c v F ∧ (b = true → v = dflt)
  assign : ∀ {s : Mem T} {l l' : Loc} {c c' v v' F F'}, Wf s → Has O s l c v F → Has O s l' c' v' F' → Apart l l' F F' → Does (E.assign l l') s (Put false O s l F (fun b v => (b = true → v = v') ∧ (τ = true → b = true)))
  del : ∀ {s : Mem T} {l : Loc} {c v F}, Wf s → Has O s l c v F → ∃ s', E.del l s = .ok s' () ∧ s'.next = s.next ∧ (∀ q, F q → s'.blocks q = .none) ∧ ∀ q, ¬ F q → s'.blocks q = s.blocks q

/-! ### Scalars -/

def ownScalar : Owns T T := fun _ c v F => c = .val v ∧ F = none

theorem read_ok {s : Mem T} {l : Loc} {c : Cell T} (h : cellAt s.blocks l = some c) : read l s = .ok s c := by simp [read, h]

theorem write_ok {s : Mem T} {l : Loc} {c : Cell T} (h : cellAt s.blocks l = some c) (c' : Cell T) : ∃ b, s.blocks l.1 = some b ∧ write l c' s = .ok (s.setBlock l.1 (some (b.set l.2 c'))) () := by
  obtain ⟨b, e, e'⟩ := cellAt_block h
  have := (List.getElem?_eq_some_iff.mp e').1
  exact ⟨b, e, by simp [write, e, this]⟩

/-- Only the cell is changed. -/
theorem write_spec {s : Mem T} {l : Loc} {c : Cell T} (w : Wf s) (h : cellAt s.blocks l = some c) (c' : Cell T) (F : Fp) :
    ∃ s', write l c' s = .ok s' () ∧ At true s s' l c' F F ∧ ∀ q, q ≠ l.1 → s'.blocks q = s.blocks q := by
  obtain ⟨b, e, e'⟩ := write_ok h c'
  refine ⟨_, e', ⟨⟨fun q hq => ?_, Nat.le_refl _, fun _ h => .inl h, fun q _ _ hq => by simp [Mem.setBlock, hq], fun _ q hq => ?_⟩, by simp [Mem.setBlock, e]⟩, fun q hq => by simp [Mem.setBlock, hq]⟩
  · by_cases h1 : q = l.1
    · subst h1; exact w _ (by simp [e])
    · exact w q (by simpa [Mem.setBlock, h1] using hq)
  · by_cases hF : F q
    · exact .inl hF
    · refine .inr ⟨?_, hF⟩
      by_cases h1 : q = l.1
      · subst h1; simp [e]
      · simpa [Mem.setBlock, h1] using hq

theorem good_scalar (dflt : T) : Good true (scalar dflt) ownScalar dflt where
  frame := fun _ _ _ _ _ h _ => h
  live := by rintro m c v F ⟨-, rfl⟩ q h; exact h.elim
  zero := ⟨dflt, fun _ => ⟨rfl, rfl⟩⟩
  init := fun w h => .ok rfl ⟨_, _, none, .refl w h none, ⟨rfl, rfl⟩, fun _ => rfl⟩
  assign := by
    rintro s l l' c c' v v' F F' w ⟨h1, ⟨rfl, rfl⟩, -⟩ ⟨h2, ⟨rfl, rfl⟩, -⟩ -
    obtain ⟨s', e, hA, -⟩ := write_spec w h1 (.val v') none
    exact .ok ((Act.bind_ok (read_ok h2)).trans e) ⟨_, v', none, hA, ⟨rfl, rfl⟩, fun _ => rfl, fun _ => rfl⟩
  del := by
    rintro s l c v F w ⟨h1, ⟨rfl, rfl⟩, -⟩
    exact ⟨s, rfl, rfl, fun q h => h.elim, fun _ _ => rfl⟩

/-! ### Blocks of objects -/

/-- A block of objects, which own different blocks each. -/
structure Row (O : Nat → Owns T β) (m : Blocks T) (p : Nat) (cells : List (Cell T)) (us : Nat → β) (fs : Nat → Fp) : Prop where
  block : m p = some cells
  own : ∀ i c, cells[i]? = some c → O i m c (us i) (fs i)
  disj : ∀ i j q, fs i q → fs j q → i = j
  out : ∀ i, ¬ fs i p
  rest : ∀ i, cells.length ≤ i → fs i = none

/-- The blocks of a row, with itself and without. -/
def inner (n : Nat) (fs : Nat → Fp) : Fp := fun q => ∃ i, i < n ∧ fs i q

def whole (p n : Nat) (fs : Nat → Fp) : Fp := fun q => q = p ∨ inner n fs q

def upd {α : Type} (f : Nat → α) (i : Nat) (a : α) : Nat → α := fun j => if j = i then a else f j

theorem upd_same {α : Type} (f : Nat → α) (i : Nat) (a : α) : upd f i a i = a := by simp [upd]

theorem upd_ne {α : Type} {f : Nat → α} {i j : Nat} {a : α} (h : j ≠ i) : upd f i a j = f j := by simp [upd, h]

/-- The objects of a row can be used. -/
theorem Row.has {O : Nat → Owns T β} {s : Mem T} {p : Nat} {cells : List (Cell T)} {us : Nat → β} {fs : Nat → Fp} (R : Row O s.blocks p cells us fs) {i : Nat} (hi : i < cells.length) :
    Has (O i) s (p, i) cells[i] (us i) (fs i) :=
  ⟨by simp [cellAt, R.block, hi], R.own i _ (by simp [hi]), R.out i⟩

/-- A row after one of its objects has changed. -/
theorem Row.put {O : Nat → Owns T β} {b : Bool} {s s' : Mem T} {p : Nat} {cells : List (Cell T)} {us : Nat → β} {fs : Nat → Fp} (fr : ∀ i, Framed (O i))
    (lv : ∀ i, Lives (O i))
    (R : Row O s.blocks p cells us fs) (w : Wf s) {i : Nat} (hi : i < cells.length) {c : Cell T} {v : β} {G : Fp} (hA : At b s s' (p, i) c (fs i) G) (ho : O i s'.blocks c v G) :
    Row O s'.blocks p (cells.set i c) (upd us i v) (upd fs i G) ∧ Step b s s' none (whole p cells.length fs) (whole p cells.length (upd fs i G)) ∧
      Step b s s' (· = p) (inner cells.length fs) (inner cells.length (upd fs i G)) := by
  have hp : s'.blocks p = some (cells.set i c) := by have := hA.cell; simpa [R.block] using this
  have hlt : ∀ j q, fs j q → q < s.next := by
    intro j q hq
    by_cases hj : j < cells.length
    · exact w q (lv j _ _ _ _ (R.own j cells[j] (by simp [hj])) q hq)
    · rw [R.rest j (by omega)] at hq; exact hq.elim
  have hpl : p < s.next := w p (by rw [R.block]; simp)
  have hG : ∀ j q, j ≠ i → fs j q → ¬ G q := by
    intro j q hj hq hg
    rcases hA.step.old q hg with h1 | h1
    · exact hj (R.disj j i q hq h1)
    · have := hlt j q hq; omega
  refine ⟨⟨hp, fun j d hd => ?_, fun j k q h1 h2 => ?_, fun j h1 => ?_, fun j h1 => ?_⟩, ⟨hA.step.wf, hA.step.next, fun q hq => ?_, fun q h1 h2 _ => ?_, fun e q hq => ?_⟩,
    ⟨hA.step.wf, hA.step.next, fun q hq => ?_, fun q h1 h2 h3 => ?_, fun e q hq => ?_⟩⟩
  · by_cases hj : j = i
    · subst hj
      rw [List.getElem?_set_self hi] at hd
      cases hd
      rw [upd_same, upd_same]; exact ho
    · rw [List.getElem?_set_ne (Ne.symm hj)] at hd
      rw [upd_ne hj, upd_ne hj]
      refine fr j _ _ _ _ _ (R.own j d hd) fun q hq => hA.step.same q (hlt j q hq) (fun h => hj (R.disj j i q hq h)) ?_
      rintro rfl; exact R.out j hq
  · by_cases hj : j = i
    · by_cases hk : k = i
      · rw [hj, hk]
      · rw [hj, upd_same] at h1; rw [upd_ne hk] at h2
        exact (hG k q hk h2 h1).elim
    · rw [upd_ne hj] at h1
      by_cases hk : k = i
      · rw [hk, upd_same] at h2
        exact (hG j q hj h1 h2).elim
      · rw [upd_ne hk] at h2
        exact R.disj j k q h1 h2
  · by_cases hj : j = i
    · rw [hj, upd_same] at h1
      rcases hA.step.old p h1 with h2 | h2
      · exact R.out i h2
      · omega
    · rw [upd_ne hj] at h1; exact R.out j h1
  · rw [List.length_set] at h1
    rw [upd_ne (by omega)]; exact R.rest j h1
  · rcases hq with rfl | ⟨j, hj, hq⟩
    · exact .inl (.inl rfl)
    · by_cases hji : j = i
      · rw [hji, upd_same] at hq
        rcases hA.step.old q hq with h1 | h1
        · exact .inl (.inr ⟨i, hi, h1⟩)
        · exact .inr h1
      · rw [upd_ne hji] at hq; exact .inl (.inr ⟨j, hj, hq⟩)
  · exact hA.step.same q h1 (fun h => h2 (.inr ⟨i, hi, h⟩)) (fun h => h2 (.inl h))
  · rcases hA.step.tidy e q hq with h1 | ⟨h1, h2⟩
    · exact .inl (.inr ⟨i, hi, by rw [upd_same]; exact h1⟩)
    · by_cases hF : whole p cells.length fs q
      · rcases hF with rfl | ⟨j, hj, hF⟩
        · exact .inl (.inl rfl)
        · by_cases hji : j = i
          · subst hji; exact (h2 hF).elim
          · exact .inl (.inr ⟨j, hj, by rw [upd_ne hji]; exact hF⟩)
      · exact .inr ⟨h1, hF⟩
  · obtain ⟨j, hj, hq⟩ := hq
    by_cases hji : j = i
    · rw [hji, upd_same] at hq
      rcases hA.step.old q hq with h1 | h1
      · exact .inl ⟨i, hi, h1⟩
      · exact .inr h1
    · rw [upd_ne hji] at hq; exact .inl ⟨j, hj, hq⟩
  · exact hA.step.same q h1 (fun h => h2 ⟨i, hi, h⟩) h3
  · rcases hA.step.tidy e q hq with h1 | ⟨h1, h2⟩
    · exact .inl ⟨i, hi, by rw [upd_same]; exact h1⟩
    · by_cases hF : inner cells.length fs q
      · obtain ⟨j, hj, hF⟩ := hF
        by_cases hji : j = i
        · subst hji; exact (h2 hF).elim
        · exact .inl ⟨j, hj, by rw [upd_ne hji]; exact hF⟩
      · exact .inr ⟨h1, hF⟩

end Nanostl.Vector.Nest

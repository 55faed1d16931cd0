import Verif.Opt.Compare
import Verif.Opt.Props

/-! C99: comparisons and hash of `optional`. -/

namespace Nanostl.Opt

variable {α β : Type}

namespace Spec

/-- An optional as an option, if the flag and the storage agree. -/
def Holds (o : Ov α) (x : Option α) : Prop := o.has = x.isSome ∧ o.st.map Prod.snd = x

/-- Equality of options. -/
inductive Equal (E : α → β → Prop) : Option α → Option β → Prop
  | none : Equal E none none
  | some {a : α} {b : β} : E a b → Equal E (some a) (some b)

/-- Order of options: the empty one first. -/
inductive Less (L : α → β → Prop) : Option α → Option β → Prop
  | none {b : β} : Less L none (some b)
  | some {a : α} {b : β} : L a b → Less L (some a) (some b)

/-- The values' own six operators, of which none throws, belong together: `E` and `L` (`L'` with the operands exchanged). -/
structure Together (eq ne lt le gt ge : α → β → Option Bool) (E L : α → β → Prop) (L' : β → α → Prop) : Prop where
  eq : ∀ a b, (eq a b = some true ↔ E a b) ∧ (eq a b = some false ↔ ¬ E a b)
  ne : ∀ a b, (ne a b = some true ↔ ¬ E a b) ∧ (ne a b = some false ↔ E a b)
  lt : ∀ a b, (lt a b = some true ↔ L a b) ∧ (lt a b = some false ↔ ¬ L a b)
  le : ∀ a b, (le a b = some true ↔ ¬ L' b a) ∧ (le a b = some false ↔ L' b a)
  gt : ∀ a b, (gt a b = some true ↔ L' b a) ∧ (gt a b = some false ↔ ¬ L' b a)
  ge : ∀ a b, (ge a b = some true ↔ ¬ L a b) ∧ (ge a b = some false ↔ L a b)

/-- A comparison that decides `P`. -/
def Decides (c : Cmp) (P : Prop) : Prop := (c = .val true ↔ P) ∧ (c = .val false ↔ ¬ P)
end Spec

open Spec

/-- In every state that a program reaches each optional's flag and storage agree. -/
theorem holds_reached (c : Cls α) (ks : List (Cmd α)) (h : LegalRun c init ks) (w : W α) (ts : List Bool) (e : run c init ks = .inr (w, ts)) (i : Nat)
    (o : Ov α) (ho : w.vars i = some o) : ∃ x, cont w i = some x ∧ Holds o x := by
  have hI := (inv_run c inv_init ks h).2 w ts e
  have := hI.flags i o ho
  rcases o with ⟨f, s⟩
  cases s with
  | none => exact ⟨none, by simp [cont, ho], by simpa [Holds] using this⟩
  | some p =>
    have h1 : f = true := this
    subst h1
    exact ⟨some p.2, by simp [cont, ho], by simp [Holds]⟩

theorem Spec.Holds.none_ {o : Ov α} (h : Holds o none) : o.has = false := h.1
theorem Spec.Holds.some_ {o : Ov α} {a : α} (h : Holds o (some a)) : o.has = true ∧ star o = some a := by
  have this : o.has = true := h.1
  exact ⟨this, by unfold star; rw [if_pos this]; exact h.2⟩

theorem decides_val {f : Option Bool} {P : Prop} (h : (f = some true ↔ P) ∧ (f = some false ↔ ¬ P)) {c : Cmp}
    (hc : ∀ b, f = some b → c = .val b) : Decides c P := by
  rcases f with _ | b
  · exfalso
    have h1 : ¬ P := fun p => by cases h.1.mpr p
    cases h.2.mpr h1
  · rw [hc b rfl]
    cases b
    · exact ⟨⟨fun h' => by simp at h', fun p => absurd p (h.2.mp rfl)⟩, ⟨fun _ => h.2.mp rfl, fun _ => rfl⟩⟩
    · exact ⟨⟨fun _ => h.1.mp rfl, fun _ => rfl⟩, ⟨fun h' => by simp at h', fun p => absurd (h.1.mp rfl) p⟩⟩

theorem Spec.Decides.not {c : Cmp} {P : Prop} (h : Decides c P) : Decides c.not (¬ P) := by
  rcases c with b | _ | _
  · cases b
    · exact ⟨⟨fun _ => h.2.mp rfl, fun _ => rfl⟩, ⟨fun h' => by simp [Cmp.not] at h', fun p => absurd (h.2.mp rfl) p⟩⟩
    · exact ⟨⟨fun h' => by simp [Cmp.not] at h', fun p => absurd (h.1.mp rfl) p⟩, ⟨fun _ p => p (h.1.mp rfl), fun _ => rfl⟩⟩
  all_goals
    exfalso
    have h1 : ¬ P := fun p => by cases h.1.mpr p
    cases h.2.mpr h1

theorem decides_true {P : Prop} (h : P) : Decides (.val true) P := ⟨⟨fun _ => h, fun _ => rfl⟩, ⟨fun h' => by simp at h', fun n => absurd h n⟩⟩
theorem decides_false {P : Prop} (h : ¬ P) : Decides (.val false) P := ⟨⟨fun h' => by simp at h', fun n => absurd n h⟩, ⟨fun _ => h, fun _ => rfl⟩⟩
theorem Spec.Decides.congr {c : Cmp} {P Q : Prop} (h : Decides c P) (e : P ↔ Q) : Decides c Q := ⟨h.1.trans e, h.2.trans (not_congr e)⟩

theorem equal_some {E : α → β → Prop} {a : α} {b : β} : E a b ↔ Equal E (some a) (some b) := ⟨.some, fun h => by cases h; assumption⟩
theorem less_some {L : α → β → Prop} {a : α} {b : β} : L a b ↔ Less L (some a) (some b) := ⟨.some, fun h => by cases h; assumption⟩

theorem eqOO_decides {eq : α → β → Option Bool} {E : α → β → Prop} (he : ∀ a b, (eq a b = some true ↔ E a b) ∧ (eq a b = some false ↔ ¬ E a b))
    {o : Ov α} {p : Ov β} {x : Option α} {y : Option β} (hx : Holds o x) (hy : Holds p y) : Decides (eqOO eq o p) (Equal E x y) := by
  unfold eqOO
  cases x with
  | none =>
    cases y with
    | none => rw [hx.none_, hy.none_]; exact decides_true .none
    | some b => rw [hx.none_, hy.some_.1]; exact decides_false (fun h => by cases h)
  | some a =>
    cases y with
    | none => rw [hx.some_.1, hy.none_]; exact decides_false (fun h => by cases h)
    | some b =>
      rw [hx.some_.1, hy.some_.1]
      unfold on2
      rw [hx.some_.2, hy.some_.2]
      exact (decides_val (he a b) fun r hr => by simp [hr]).congr equal_some

theorem ltOO_decides {lt : α → β → Option Bool} {L : α → β → Prop} (hl : ∀ a b, (lt a b = some true ↔ L a b) ∧ (lt a b = some false ↔ ¬ L a b))
    {o : Ov α} {p : Ov β} {x : Option α} {y : Option β} (hx : Holds o x) (hy : Holds p y) : Decides (ltOO lt o p) (Less L x y) := by
  unfold ltOO
  cases y with
  | none => rw [hy.none_]; exact decides_false (fun h => by cases h)
  | some b =>
    rw [hy.some_.1]
    cases x with
    | none => rw [hx.none_]; exact decides_true .none
    | some a =>
      rw [hx.some_.1]
      unfold on2
      rw [hx.some_.2, hy.some_.2]
      exact (decides_val (hl a b) fun r hr => by simp [hr]).congr less_some

/-- C99: the six comparisons of two optionals, possibly of different types, are those of options with the empty one first. -/
theorem c99_optionals {eq lt : α → β → Option Bool} {lt' : β → α → Option Bool} {E L : α → β → Prop} {L' : β → α → Prop}
    (he : ∀ a b, (eq a b = some true ↔ E a b) ∧ (eq a b = some false ↔ ¬ E a b))
    (hl : ∀ a b, (lt a b = some true ↔ L a b) ∧ (lt a b = some false ↔ ¬ L a b))
    (hl' : ∀ a b, (lt' a b = some true ↔ L' a b) ∧ (lt' a b = some false ↔ ¬ L' a b))
    (o : Ov α) (p : Ov β) (x : Option α) (y : Option β) (hx : Holds o x) (hy : Holds p y) :
    Decides (eqOO eq o p) (Equal E x y) ∧ Decides (neOO eq o p) (¬ Equal E x y) ∧ Decides (ltOO lt o p) (Less L x y) ∧
    Decides (gtOO lt' o p) (Less L' y x) ∧ Decides (leOO lt' o p) (¬ Less L' y x) ∧ Decides (geOO lt o p) (¬ Less L x y) :=
  ⟨eqOO_decides he hx hy, (eqOO_decides he hx hy).not, ltOO_decides hl hx hy, ltOO_decides hl' hy hx, (ltOO_decides hl' hy hx).not,
    (ltOO_decides hl hx hy).not⟩

/-- C99: an exception comes out exactly if both optionals have values and comparing these throws; no absent value is ever compared. -/
theorem c99_exceptions (op : α → β → Option Bool) (o : Ov α) (p : Ov β) (x : Option α) (y : Option β) (hx : Holds o x) (hy : Holds p y) :
    (∀ c ∈ [eqOO op o p, neOO op o p, ltOO op o p, geOO op o p, gtOO op p o, leOO op p o], c ≠ .bad ∧
      (c = .exc ↔ ∃ a b, x = some a ∧ y = some b ∧ op a b = none)) ∧
    ∀ v : β, ∀ c ∈ [eqOV op o v, neOV op o v, ltOV op o v, leOV op o v, gtOV op o v, geOV op o v, eqVO (fun b a => op a b) v o,
      neVO (fun b a => op a b) v o, ltVO (fun b a => op a b) v o, leVO (fun b a => op a b) v o, gtVO (fun b a => op a b) v o, geVO (fun b a => op a b) v o],
      c ≠ .bad ∧ (c = .exc ↔ ∃ a, x = some a ∧ op a v = none) := by
  constructor
  · cases x with
    | none =>
      have h1 := hx.none_
      cases y with
      | none => simp [eqOO, neOO, ltOO, geOO, gtOO, leOO, h1, hy.none_, Cmp.not]
      | some b => simp [eqOO, neOO, ltOO, geOO, gtOO, leOO, h1, hy.some_.1, Cmp.not]
    | some a =>
      obtain ⟨h1, h2⟩ := hx.some_
      cases y with
      | none => simp [eqOO, neOO, ltOO, geOO, gtOO, leOO, h1, hy.none_, Cmp.not]
      | some b =>
        obtain ⟨h3, h4⟩ := hy.some_
        cases hop : op a b <;> simp [eqOO, neOO, ltOO, geOO, gtOO, leOO, h1, h3, on2, h2, h4, Cmp.not, hop]
  · intro v
    cases x with
    | none =>
      have h1 := hx.none_
      simp [eqOV, neOV, ltOV, leOV, gtOV, geOV, eqVO, neVO, ltVO, leVO, gtVO, geVO, h1]
    | some a =>
      obtain ⟨h1, h2⟩ := hx.some_
      cases hop : op a v <;> simp [eqOV, neOV, ltOV, leOV, gtOV, geOV, eqVO, neVO, ltVO, leVO, gtVO, geVO, h1, on1, h2, hop]

/-- C99: comparing with `nullopt` is comparing with an empty optional. -/
theorem c99_nullopt (E L : α → α → Prop) (o : Ov α) (x : Option α) (hx : Holds o x) :
    (eqON o = true ↔ Equal E x none) ∧ (eqNO o = true ↔ Equal E none x) ∧ (neON o = true ↔ ¬ Equal E x none) ∧ (neNO o = true ↔ ¬ Equal E none x) ∧
    (ltON o = true ↔ Less L x none) ∧ (ltNO o = true ↔ Less L none x) ∧ (leON o = true ↔ ¬ Less L none x) ∧ (leNO o = true ↔ ¬ Less L x none) ∧
    (gtON o = true ↔ Less L none x) ∧ (gtNO o = true ↔ Less L x none) ∧ (geON o = true ↔ ¬ Less L x none) ∧ (geNO o = true ↔ ¬ Less L none x) := by
  have n1 : ¬ Less L x none := fun h => by cases h
  unfold eqON eqNO neON neNO ltON ltNO leON leNO gtON gtNO geON geNO
  cases x with
  | none =>
    rw [hx.none_]
    have e1 : Equal E (none : Option α) (none : Option α) := .none
    simp [n1, e1]
  | some a =>
    rw [hx.some_.1]
    have e1 : ¬ Equal E (some a) (none : Option α) := fun h => by cases h
    have e2 : ¬ Equal E (none : Option α) (some a) := fun h => by cases h
    have l1 : Less L (none : Option α) (some a) := .none
    simp [n1, e1, e2, l1]

theorem on1_decides {f : α → Option Bool} {P : Prop} {o : Ov α} {a : α} (h : Holds o (some a)) (hf : (f a = some true ↔ P) ∧ (f a = some false ↔ ¬ P)) :
    Decides (on1 f o) P := by
  unfold on1
  rw [h.some_.2]
  exact decides_val hf fun r hr => by simp [hr]

/-- C99: comparing with a value, on either side, is comparing with an optional that holds it. -/
theorem c99_value {eq ne lt le gt ge : α → β → Option Bool} {eq' ne' lt' le' gt' ge' : β → α → Option Bool} {E L : α → β → Prop} {E' L' : β → α → Prop}
    (t : Together eq ne lt le gt ge E L L') (t' : Together eq' ne' lt' le' gt' ge' E' L' L) (o : Ov α) (x : Option α) (hx : Holds o x) (v : β) :
    Decides (eqOV eq o v) (Equal E x (some v)) ∧ Decides (neOV ne o v) (¬ Equal E x (some v)) ∧ Decides (ltOV lt o v) (Less L x (some v)) ∧
    Decides (leOV le o v) (¬ Less L' (some v) x) ∧ Decides (gtOV gt o v) (Less L' (some v) x) ∧ Decides (geOV ge o v) (¬ Less L x (some v)) ∧
    Decides (eqVO eq' v o) (Equal E' (some v) x) ∧ Decides (neVO ne' v o) (¬ Equal E' (some v) x) ∧ Decides (ltVO lt' v o) (Less L' (some v) x) ∧
    Decides (leVO le' v o) (¬ Less L x (some v)) ∧ Decides (gtVO gt' v o) (Less L x (some v)) ∧ Decides (geVO ge' v o) (¬ Less L' (some v) x) := by
  unfold eqOV neOV ltOV leOV gtOV geOV eqVO neVO ltVO leVO gtVO geVO
  cases x with
  | none =>
    rw [hx.none_]
    have e1 : ¬ Equal E none (some v) := fun h => by cases h
    have e2 : ¬ Equal E' (some v) none := fun h => by cases h
    have l1 : Less L none (some v) := .none
    have l2 : ¬ Less L' (some v) none := fun h => by cases h
    exact ⟨decides_false e1, decides_true e1, decides_true l1, decides_true l2, decides_false l2, decides_false (not_not_intro l1),
      decides_false e2, decides_true e2, decides_false l2, decides_false (not_not_intro l1), decides_true l1, decides_true l2⟩
  | some a =>
    rw [hx.some_.1]
    have neg : ∀ {f : Option Bool} {P : Prop}, (f = some true ↔ ¬ P) ∧ (f = some false ↔ P) → (f = some true ↔ ¬ P) ∧ (f = some false ↔ ¬ ¬ P) :=
      fun h => ⟨h.1, h.2.trans (not_not).symm⟩
    exact ⟨(on1_decides hx (t.eq a v)).congr equal_some, (on1_decides hx (neg (t.ne a v))).congr (not_congr equal_some),
      (on1_decides hx (t.lt a v)).congr less_some, (on1_decides hx (neg (t.le a v))).congr (not_congr less_some),
      (on1_decides hx (t.gt a v)).congr less_some, (on1_decides hx (neg (t.ge a v))).congr (not_congr less_some),
      (on1_decides hx (t'.eq v a)).congr equal_some, (on1_decides hx (neg (t'.ne v a))).congr (not_congr equal_some),
      (on1_decides hx (t'.lt v a)).congr less_some, (on1_decides hx (neg (t'.le v a))).congr (not_congr less_some),
      (on1_decides hx (t'.gt v a)).congr less_some, (on1_decides hx (neg (t'.ge v a))).congr (not_congr less_some)⟩

/-- C99: optionals are ordered as strictly and as totally as their values. -/
theorem c99_order {L : α → α → Prop} :
    ((∀ a, ¬ L a a) → ∀ x, ¬ Less L x x) ∧
    ((∀ a b c, L a b → L b c → L a c) → ∀ x y z, Less L x y → Less L y z → Less L x z) ∧
    ((∀ a b c, ¬ L a b → ¬ L b c → ¬ L a c) → ∀ x y z, ¬ Less L x y → ¬ Less L y z → ¬ Less L x z) ∧
    ((∀ a b, L a b ∨ a = b ∨ L b a) → ∀ x y, Less L x y ∨ x = y ∨ Less L y x) ∧
    (∀ {E : α → α → Prop}, (∀ a b, ¬ L a b → ¬ L b a → E a b) → ∀ x y, ¬ Less L x y → ¬ Less L y x → Equal E x y) := by
  refine ⟨?_, ?_, ?_, ?_, ?_⟩
  · rintro h _ (_ | l)
    exact h _ l
  · rintro h _ _ _ (_ | l) (_ | l')
    · exact .none
    · exact .some (h _ _ _ l l')
  · rintro h x y z h1 h2 (_ | l)
    · cases y with
      | none => exact h2 .none
      | some b => exact h1 .none
    · cases y with
      | none => exact h2 .none
      | some b => exact h _ b _ (fun k => h1 (.some k)) (fun k => h2 (.some k)) l
  · rintro h (_ | a) (_ | b)
    · exact .inr (.inl rfl)
    · exact .inl .none
    · exact .inr (.inr .none)
    · rcases h a b with h | h | h
      · exact .inl (.some h)
      · exact .inr (.inl (h ▸ rfl))
      · exact .inr (.inr (.some h))
  · rintro E h (_ | a) (_ | b) h1 h2
    · exact .none
    · exact absurd .none h1
    · exact absurd .none h2
    · exact .some (h a b (fun k => h1 (.some k)) fun k => h2 (.some k))

/-- C99: optionals that compare equal have equal hashes if values do; the hash reads the value only if there is one. -/
theorem c99_hash {E : α → α → Prop} (h : α → Nat) (hE : ∀ a b, E a b → h a = h b) (o p : Ov α) (x y : Option α) (hx : Holds o x) (hy : Holds p y)
    (he : Equal E x y) : hash h o ≠ none ∧ hash h o = hash h p ∧ ∀ a, x = some a → hash h o = some (h a) := by
  unfold hash
  cases he with
  | none => simp [hx.none_, hy.none_]
  | some e => simp [hx.some_.1, hy.some_.1, hx.some_.2, hy.some_.2, hE _ _ e]

/-! ### Hypotheses are met -/

example : Holds (⟨true, some (3, 5)⟩ : Ov Nat) (some 5) ∧ Holds (⟨false, none⟩ : Ov Nat) none := ⟨⟨rfl, rfl⟩, ⟨rfl, rfl⟩⟩
example : Together (α := Nat) (β := Nat) (fun a b => some (a == b)) (fun a b => some (a != b)) (fun a b => some (decide (a < b)))
    (fun a b => some (decide (a ≤ b))) (fun a b => some (decide (a > b))) (fun a b => some (decide (a ≥ b))) (· = ·) (· < ·) (· < ·) := by
  constructor <;> intro a b <;> simp
example : ltOO (fun a b : Nat => some (decide (a < b))) ⟨false, none⟩ ⟨true, some (0, 0)⟩ = .val true ∧
    eqOO (fun _ _ : Nat => none) ⟨true, some (0, 1)⟩ ⟨true, some (1, 1)⟩ = .exc := by decide +kernel
/-- `>` of a value: greater than every empty optional. -/
example : gtVO (fun a b : Nat => some (decide (a > b))) 0 ⟨false, none⟩ = .val true := rfl
example : hash (fun a : Nat => a + 1) ⟨true, some (0, 6)⟩ = some 7 := rfl

end Nanostl.Opt

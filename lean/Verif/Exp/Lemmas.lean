import Verif.Exp.Spec

/-!
Invariant of `expected` and its proof for every command.
-/

namespace Nanostl.Exp

open Opt (W M R Ev Ov var setVar hasValue setHas declare ctorBody)
open Spec

variable {α β : Type}

def stOf (w : W (α ⊕ β)) : Nat → Option (Nat × (α ⊕ β)) := fun i => (w.vars i).bind Ov.st

structure Inv (w : W (α ⊕ β)) : Prop where
  flags : ∀ i o, w.vars i = some o → ∃ id x, o.st = some (id, x) ∧ o.has = x.isLeft
  own : Own (stOf w) w.next w.evs noT

theorem inv_init : Inv (init : W (α ⊕ β)) := ⟨by simp [init, Opt.init], own_init.congr fun _ => rfl⟩

theorem bind_eq {γ δ ε : Type} (m : M γ δ) (f : δ → M γ ε) (w : W γ) : (m >>= f) w = match m w with
  | .ok s b => f b s
  | .exc s => .exc s
  | .term => .term
  | .bad => .bad := rfl

theorem pure_eq {γ δ : Type} (b : δ) (w : W γ) : (pure b : M γ δ) w = .ok w b := rfl

theorem Inv.get {w : W (α ⊕ β)} (h : Inv w) {i : Nat} (hi : w.vars i ≠ none) : ∃ id x, w.vars i = some ⟨x.isLeft, some (id, x)⟩ := by
  cases hv : w.vars i with
  | none => exact (hi hv).elim
  | some o =>
    obtain ⟨id, x, h1, h2⟩ := h.flags i o hv
    refine ⟨id, x, ?_⟩
    obtain ⟨a, b⟩ := o
    simp only at h1 h2
    rw [h1, h2]

theorem slot_of {w : W (α ⊕ β)} {i id : Nat} {x : α ⊕ β} (h : w.vars i = some ⟨x.isLeft, some (id, x)⟩) : slot w i = some x := by
  simp [slot, h]

theorem Inv.slot_none {w : W (α ⊕ β)} (h : Inv w) {i : Nat} : slot w i = none ↔ w.vars i = none := by
  constructor
  · intro hs
    by_contra hn
    obtain ⟨id, x, hv⟩ := h.get hn
    rw [slot_of hv] at hs
    cases hs
  · intro hv; simp [slot, hv]

theorem Inv.slot_some {w : W (α ⊕ β)} (h : Inv w) {i : Nat} {x : α ⊕ β} (hs : slot w i = some x) :
    ∃ id, w.vars i = some ⟨x.isLeft, some (id, x)⟩ := by
  obtain ⟨id, y, hv⟩ := h.get (i := i) (fun e => by rw [h.slot_none.2 e] at hs; cases hs)
  rw [slot_of hv] at hs
  cases hs
  exact ⟨id, hv⟩

/-- The command ended well, leaving the contents `f`. -/
def Done (r : R (W (α ⊕ β)) Unit) (f : Nat → Option (α ⊕ β)) : Prop := ∃ w', r = .ok w' () ∧ Inv w' ∧ slot w' = f

/-- The command threw, leaving the contents `f`. -/
def Threw (r : R (W (α ⊕ β)) Unit) (f : Nat → Option (α ⊕ β)) : Prop := ∃ w', r = .exc w' ∧ Inv w' ∧ slot w' = f

theorem Calm.t {c : Cls α β} (h : Calm c) (n : Nat) : (!c.nothrowT && c.throws n) = false := by
  cases e : c.nothrowT
  · simp [h.1 e n]
  · rfl

theorem Calm.e {c : Cls α β} (h : Calm c) (n : Nat) : (!c.nothrowE && c.throws n) = false := by
  cases e : c.nothrowE
  · simp [h.2 e n]
  · rfl

theorem Calm.x {c : Cls α β} (h : Calm c) (x : α ⊕ β) (n : Nat) : (!c.nothrow x && c.throws n) = false := by
  cases x
  · exact h.t n
  · exact h.e n

/-- A variable comes into being with an object. -/
theorem Inv.birth {w w' : W (α ⊕ β)} (h : Inv w) {i : Nat} {x : α ⊕ β} (hi : w.vars i = none)
    (hv : ∀ j, w'.vars j = if j = i then some ⟨x.isLeft, some (w.next, x)⟩ else w.vars j) (hn : w'.next = w.next + 1)
    (he : w'.evs = w.evs ++ [Ev.cons w.next]) : Inv w' ∧ slot w' = upd (slot w) i (some x) := by
  refine ⟨⟨?_, ?_⟩, ?_⟩
  · intro j o hj
    rw [hv] at hj
    split at hj
    · cases hj; exact ⟨_, _, rfl, rfl⟩
    · exact h.flags j o hj
  · rw [hn, he]
    refine (h.own.birth (i := i) x (by simp [stOf, hi])).congr fun j => ?_
    simp only [stOf, put, hv]
    split <;> simp
  · funext j
    simp only [slot, upd, hv]
    split <;> simp

theorem Inv.death {w w' : W (α ⊕ β)} (h : Inv w) {i id : Nat} {x : α ⊕ β} (hi : w.vars i = some ⟨x.isLeft, some (id, x)⟩)
    (hv : ∀ j, w'.vars j = if j = i then none else w.vars j) (hn : w'.next = w.next)
    (he : w'.evs = w.evs ++ [Ev.dest id]) : Inv w' ∧ slot w' = upd (slot w) i none := by
  refine ⟨⟨?_, ?_⟩, ?_⟩
  · intro j o hj
    rw [hv] at hj
    split at hj
    · cases hj
    · exact h.flags j o hj
  · rw [hn, he]
    refine (h.own.death (i := i) (id := id) (v := x) (by simp [stOf, hi])).congr fun j => ?_
    simp only [stOf, put, hv]
    split <;> simp
  · funext j
    simp only [slot, upd, hv]
    split <;> simp

/-- Nothing changes but the counter of calls. -/
theorem Inv.same {w w' : W (α ⊕ β)} (h : Inv w) (hv : ∀ j, w'.vars j = w.vars j) (hn : w'.next = w.next) (he : w'.evs = w.evs) :
    Inv w' ∧ slot w' = slot w := by
  have e : w'.vars = w.vars := funext hv
  refine ⟨⟨by rw [e]; exact h.flags, ?_⟩, ?_⟩
  · rw [hn, he]
    exact h.own.congr fun j => by simp only [stOf, hv]
  · funext j; simp only [slot, hv]

/-! ### Calls -/

theorem call_ok {c : Cls α β} {nt : Bool} {w : W (α ⊕ β)} (h : (!nt && c.throws w.calls) = false) :
    call c nt w = .ok { w with calls := w.calls + 1 } () := by simp only [call, h]; rfl

theorem call_exc {c : Cls α β} {nt : Bool} {w : W (α ⊕ β)} (h : (!nt && c.throws w.calls) = true) :
    call c nt w = .exc { w with calls := w.calls + 1 } := by simp only [call, h]; rfl

theorem call_t {c : Cls α β} (hc : Calm c) (w : W (α ⊕ β)) : call c c.nothrowT w = .ok { w with calls := w.calls + 1 } () := call_ok (hc.t _)
theorem call_e {c : Cls α β} (hc : Calm c) (w : W (α ⊕ β)) : call c c.nothrowE w = .ok { w with calls := w.calls + 1 } () := call_ok (hc.e _)
theorem call_x {c : Cls α β} (hc : Calm c) (x : α ⊕ β) (w : W (α ⊕ β)) :
    call c (c.nothrow x) w = .ok { w with calls := w.calls + 1 } () := call_ok (hc.x x _)

/-! ### Constructors and destructor -/

theorem ctorOf_spec (c : Cls α β) (nt : Bool) {w : W (α ⊕ β)} (h : Inv w) {i : Nat} (hi : slot w i = none) (x : α ⊕ β) :
    Done (ctorOf c nt i x w) (upd (slot w) i (some x)) ∨
    (nt = false ∧ (∃ n, c.throws n = true) ∧ Threw (ctorOf c nt i x w) (slot w)) := by
  have hv := h.slot_none.1 hi
  cases ht : (!nt && c.throws w.calls)
  · left
    unfold Done
    simp [ctorOf, bind_eq, declare, hv, ctorBody, construct, call_ok, var, W.set, ht]
    refine h.birth hv (fun j => ?_) rfl rfl
    by_cases e : j = i <;> simp [e]
  · right
    have ht' := ht
    simp only [Bool.and_eq_true, Bool.not_eq_true'] at ht'
    refine ⟨ht'.1, ⟨_, ht'.2⟩, ?_⟩
    unfold Threw
    simp [ctorOf, bind_eq, declare, hv, ctorBody, construct, call_exc, W.set, ht]
    refine h.same (fun j => ?_) rfl rfl
    by_cases e : j = i <;> simp [e, hv]

theorem ctorDefault_spec {c : Cls α β} (hc : Calm c) {w : W (α ⊕ β)} (h : Inv w) {i : Nat} (hi : slot w i = none) :
    Done (ctorDefault c i w) (upd (slot w) i (some (.inl c.dflt))) ∨ ((∃ n, c.throws n = true) ∧ Threw (ctorDefault c i w) (slot w)) := by
  have hv := h.slot_none.1 hi
  cases ht : c.throws w.calls
  · left
    unfold Done
    simp [ctorDefault, bind_eq, declare, hv, ctorBody, withTemp, construct, call_ok (nt := false), call_t hc, var, W.set, ht]
    refine ⟨⟨?_, ?_⟩, ?_⟩
    · intro j o hj
      simp only at hj
      split at hj
      · cases hj; exact ⟨_, _, rfl, rfl⟩
      · exact h.flags j o hj
    · have h1 := h.own.tmpBirth
      have h2 := h1.birth (i := i) (Sum.inl c.dflt) (by simp [stOf, hv])
      have h3 := h2.tmpDeath (by simp [noT])
      simp only [List.append_assoc, List.cons_append, List.nil_append] at h3
      refine h3.congr fun j => ?_
      simp only [stOf, put]
      split <;> simp
    · funext j
      simp only [slot, upd]
      split <;> simp
  · right
    refine ⟨⟨_, ht⟩, ?_⟩
    unfold Threw
    simp [ctorDefault, bind_eq, declare, hv, ctorBody, withTemp, construct, call_exc (nt := false), var, W.set, ht]
    refine h.same (fun j => ?_) rfl rfl
    by_cases e : j = i <;> simp [e, hv]

theorem ctorCopy_spec (c : Cls α β) {w : W (α ⊕ β)} (h : Inv w) {i j : Nat} (hi : slot w i = none) {x : α ⊕ β} (hj : slot w j = some x) :
    Done (ctorCopy c i j w) (upd (slot w) i (some x)) ∨ ((∃ n, c.throws n = true) ∧ Threw (ctorCopy c i j w) (slot w)) := by
  have hv := h.slot_none.1 hi
  obtain ⟨id, hu⟩ := h.slot_some hj
  have hij : j ≠ i := by rintro rfl; rw [hi] at hj; cases hj
  cases ht : c.throws w.calls
  · left
    unfold Done
    simp [ctorCopy, bind_eq, pure_eq, declare, hv, hu, hij, ctorBody, hasValue, read, construct, call_ok (nt := false), var, W.set, ht]
    refine h.birth hv (fun j => ?_) rfl rfl
    by_cases e : j = i <;> simp [e]
  · right
    refine ⟨⟨_, ht⟩, ?_⟩
    unfold Threw
    simp [ctorCopy, bind_eq, pure_eq, declare, hv, hu, hij, ctorBody, hasValue, read, construct, call_exc (nt := false), var, W.set, ht]
    refine h.same (fun j => ?_) rfl rfl
    by_cases e : j = i <;> simp [e, hv]

theorem moved_isLeft (c : Cls α β) (x : α ⊕ β) : (c.moved x).isLeft = x.isLeft := by cases x <;> rfl

/-- An object gets another value. -/
theorem Inv.setValue {w w' : W (α ⊕ β)} (h : Inv w) {i id : Nat} {x y : α ⊕ β} (hxy : y.isLeft = x.isLeft)
    (hi : w.vars i = some ⟨x.isLeft, some (id, x)⟩)
    (hv : ∀ j, w'.vars j = if j = i then some ⟨x.isLeft, some (id, y)⟩ else w.vars j) (hn : w'.next = w.next)
    (he : w'.evs = w.evs) : Inv w' ∧ slot w' = upd (slot w) i (some y) := by
  refine ⟨⟨?_, ?_⟩, ?_⟩
  · intro j o hj
    rw [hv] at hj
    split at hj
    · cases hj; exact ⟨_, _, rfl, hxy.symm⟩
    · exact h.flags j o hj
  · rw [hn, he]
    refine (h.own.setValue (i := i) (id := id) (v := x) y (by simp [stOf, hi])).congr fun j => ?_
    simp only [stOf, put, hv]
    split <;> simp
  · funext j
    simp only [slot, upd, hv]
    split <;> simp [hxy]

theorem ctorMove_spec {c : Cls α β} (hc : Calm c) {w : W (α ⊕ β)} (h : Inv w) {i j : Nat} (hi : slot w i = none) {x : α ⊕ β}
    (hj : slot w j = some x) : Done (ctorMove c i j w) (upd (upd (slot w) j (some (c.moved x))) i (some x)) := by
  have hv := h.slot_none.1 hi
  obtain ⟨id, hu⟩ := h.slot_some hj
  have hij : j ≠ i := by rintro rfl; rw [hi] at hj; cases hj
  unfold Done
  simp [ctorMove, bind_eq, pure_eq, declare, hv, hu, hij, ctorBody, hasValue, read, construct, call_x hc, var, W.set, write, setVar]
  let w1 : W (α ⊕ β) := { w with vars := fun k => if k = j then some ⟨x.isLeft, some (id, c.moved x)⟩ else w.vars k }
  obtain ⟨h1, s1⟩ := h.setValue (w' := w1) (moved_isLeft c x) hu (fun k => rfl) rfl rfl
  rw [← s1]
  refine h1.birth (by simp [w1, hij.symm, hv]) (fun k => ?_) rfl rfl
  by_cases e : k = i
  · simp [e, hij.symm, w1]
  · by_cases e' : k = j <;> simp [e, e', hij, w1]

theorem dtor_spec {w : W (α ⊕ β)} (h : Inv w) {i : Nat} {x : α ⊕ β} (hi : slot w i = some x) : Done (dtor i w) (upd (slot w) i none) := by
  obtain ⟨id, hu⟩ := h.slot_some hi
  unfold Done
  cases x with
  | inl v =>
    simp only [Sum.isLeft_inl] at hu
    simp [dtor, bind_eq, pure_eq, hasValue, var, destruct, hu, W.set]
    refine h.death (x := .inl v) hu (fun k => ?_) rfl rfl
    by_cases e : k = i <;> simp [e]
  | inr v =>
    simp only [Sum.isLeft_inr] at hu
    simp [dtor, bind_eq, pure_eq, hasValue, var, destruct, hu, W.set]
    refine h.death (x := .inr v) hu (fun k => ?_) rfl rfl
    by_cases e : k = i <;> simp [e]

/-! ### swap -/

/-- The invariant from the storages. -/
theorem Inv.of {w : W (α ⊕ β)} (f : Nat → Option (Nat × (α ⊕ β)))
    {F : Nat → Option (α ⊕ β)}
    (ho : Own f w.next w.evs noT) (hv : ∀ j, w.vars j = (f j).map fun p => (⟨p.2.isLeft, some p⟩ : Ov (α ⊕ β)))
    (hF : ∀ j, F j = (f j).map Prod.snd) : Inv w ∧ slot w = F := by
  refine ⟨⟨?_, ho.congr fun j => ?_⟩, ?_⟩
  · intro j o hj
    rw [hv] at hj
    cases hf : f j with
    | none => rw [hf] at hj; cases hj
    | some p => rw [hf] at hj; cases hj; exact ⟨p.1, p.2, rfl, rfl⟩
  · rw [stOf, hv]
    cases f j <;> rfl
  · funext j
    rw [slot, hv, hF]
    cases f j <;> simp

theorem Inv.vars_eq {w : W (α ⊕ β)} (h : Inv w) (j : Nat) : w.vars j = (stOf w j).map fun p => (⟨p.2.isLeft, some p⟩ : Ov (α ⊕ β)) := by
  cases hv : w.vars j with
  | none => simp [stOf, hv]
  | some o =>
    obtain ⟨id, x, hw⟩ := h.get (i := j) (by simp [hv])
    rw [hv] at hw; cases hw
    simp [stOf, hv]

theorem slot_eq {w : W (α ⊕ β)} (h : Inv w) (j : Nat) : slot w j = (stOf w j).map Prod.snd := by
  rw [slot, h.vars_eq]
  cases stOf w j <;> simp

theorem upd_self (f : Nat → Option (α ⊕ β)) (i : Nat) : upd f i (f i) = f := by
  funext j; unfold upd; split
  · rename_i e; rw [e]
  · rfl

/-- `swap` of two that hold values, or of two that hold errors. -/
theorem swapSame_spec {c : Cls α β} (hc : Calm c) {w : W (α ⊕ β)} (h : Inv w) {i j : Nat} {x y : α ⊕ β} (hi : slot w i = some x)
    (hj : slot w j = some y) (b : Bool) (hx : x.isLeft = b) (hy : y.isLeft = b) :
    Done (swapSame c b i j w) (upd (upd (slot w) i (some y)) j (some x)) := by
  obtain ⟨id, hu⟩ := h.slot_some hi
  obtain ⟨id', hv⟩ := h.slot_some hj
  have h1 := h.own.tmpBirth
  have si : stOf w i = some (id, x) := by simp [stOf, hu]
  have sj : stOf w j = some (id', y) := by simp [stOf, hv]
  unfold Done
  by_cases hij : i = j
  · subst hij
    rw [hi] at hj
    cases hj
    rw [hu] at hv
    cases hv
    simp [swapSame, bind_eq, pure_eq, withTemp, read, write, setVar, var, W.set, hu, hx, moved_isLeft, call_x hc]
    have h3 := h1.tmpDeath (by simp [noT])
    simp only [List.append_assoc, List.cons_append, List.nil_append] at h3
    refine Inv.of (stOf w) h3 (fun k => ?_) (fun k => ?_)
    · by_cases e : k = i
      · simp [e, si, hx]
      · simp [e, h.vars_eq]
    · by_cases e : k = i
      · simp [e, upd, si]
      · simp [e, upd, slot_eq h]
  · have hji : j ≠ i := fun e => hij e.symm
    simp [swapSame, bind_eq, pure_eq, withTemp, read, write, setVar, var, W.set, hu, hv, hji, hx, hy, moved_isLeft, call_x hc]
    have h2 := (h1.setValue (i := i) (id := id) (v := x) y si).setValue (i := j) (id := id') (v := y) x (by simp [put, hji, sj])
    have h3 := h2.tmpDeath (by simp [noT])
    simp only [List.append_assoc, List.cons_append, List.nil_append] at h3
    refine Inv.of _ h3 (fun k => ?_) (fun k => ?_)
    · by_cases e : k = i
      · simp [e, put, hij, hy]
      · by_cases e' : k = j
        · simp [e', put, hx]
        · simp [e, e', put, h.vars_eq]
    · by_cases e : k = j
      · simp [e, upd, put]
      · by_cases e' : k = i <;> simp [e, e', hij, upd, put, slot_eq h]

/-- `swap` of one that holds a value with one that holds an error. -/
theorem swapMixed_spec {c : Cls α β} (hc : Calm c) {w : W (α ⊕ β)} (h : Inv w) {i j : Nat} {v : α} {e : β} (hi : slot w i = some (.inl v))
    (hj : slot w j = some (.inr e)) : Done (swapMixed c i j w) (upd (upd (slot w) i (some (.inr e))) j (some (.inl v))) := by
  obtain ⟨id, hu⟩ := h.slot_some hi
  obtain ⟨id', hv⟩ := h.slot_some hj
  simp only [Sum.isLeft_inl] at hu
  simp only [Sum.isLeft_inr] at hv
  have hij : i ≠ j := by rintro rfl; rw [hi] at hj; cases hj
  have hji : j ≠ i := fun e => hij e.symm
  have si : stOf w i = some (id, .inl v) := by simp [stOf, hu]
  have sj : stOf w j = some (id', .inr e) := by simp [stOf, hv]
  unfold Done
  simp [swapMixed, bind_eq, pure_eq, error, hasValue, withTemp, read, write, setVar, setHas, destruct, construct, var, W.set, hu, hv, hij, hji,
    Cls.moved, call_t hc, call_e hc]
  have h1 := h.own.tmpBirth
  have h2 := h1.death (i := j) sj
  have h3 := h2.birth (i := j) (Sum.inl v) (by simp [put])
  have h4 := h3.death (i := i) (id := id) (v := .inl v) (by simp [put, hij, si])
  have h5 := h4.birth (i := i) (Sum.inr e) (by simp [put])
  have h6 := h5.tmpDeath (by simp [noT])
  simp only [List.append_assoc, List.cons_append, List.nil_append] at h6
  refine Inv.of _ h6 (fun k => ?_) (fun k => ?_)
  · by_cases q : k = i
    · simp [q, put]
    · by_cases q' : k = j
      · simp [q', put, hji]
      · simp [q, q', put, h.vars_eq]
  · by_cases q : k = j
    · simp [q, upd, put, hji]
    · by_cases q' : k = i <;> simp [q, q', hij, upd, put, slot_eq h]

theorem noexcept_done {b : Bool} {m : M (α ⊕ β) Unit} {w : W (α ⊕ β)} {f : Nat → Option (α ⊕ β)} (h : Done (m w) f) :
    Done (M.noexcept b m w) f := by
  obtain ⟨w', e, h⟩ := h
  exact ⟨w', by simp [M.noexcept, e], h⟩

theorem upd_comm (f : Nat → Option (α ⊕ β)) {i j : Nat} (x y : Option (α ⊕ β)) (h : i ≠ j) : upd (upd f i x) j y = upd (upd f j y) i x := by
  funext k
  by_cases e : k = i <;> by_cases e' : k = j <;> simp_all [upd]

theorem swap_spec {c : Cls α β} (hc : Calm c) {w : W (α ⊕ β)} (h : Inv w) {i j : Nat} {x y : α ⊕ β} (hi : slot w i = some x)
    (hj : slot w j = some y) : Done (swap c i j w) (upd (upd (slot w) i (some y)) j (some x)) := by
  refine noexcept_done ?_
  obtain ⟨id, hu⟩ := h.slot_some hi
  obtain ⟨id', hv⟩ := h.slot_some hj
  have ha : hasValue i w = .ok w x.isLeft := by simp [hasValue, bind_eq, pure_eq, var, hu]
  have hb : hasValue j w = .ok w y.isLeft := by simp [hasValue, bind_eq, pure_eq, var, hv]
  simp only [bind_eq, ha, hb]
  cases x <;> cases y <;> simp only [Sum.isLeft_inl, Sum.isLeft_inr]
  · exact swapSame_spec hc h hi hj true rfl rfl
  · exact swapMixed_spec hc h hi hj
  · have := swapMixed_spec hc h hj hi
    rwa [upd_comm] at this
    rintro rfl
    rw [hi] at hj; cases hj
  · exact swapSame_spec hc h hi hj false rfl rfl

/-! ### Assignment -/

/-- A temporary is built, exchanged with the variable and destroyed. -/
theorem viaTemp {c : Cls α β} (hc : Calm c) {ctor : M (α ⊕ β) Unit} {w : W (α ⊕ β)} {t i : Nat} {f : Nat → Option (α ⊕ β)}
    (hctor : Done (ctor w) f) {x y : α ⊕ β} (ht : f t = some x) (hi : f i = some y) (hti : t ≠ i) :
    Done (withVar t ctor (swap c t i) w) (upd (upd f i (some x)) t none) := by
  obtain ⟨w1, e1, h1, s1⟩ := hctor
  obtain ⟨w2, e2, h2, s2⟩ := swap_spec hc h1 (i := t) (j := i) (x := x) (y := y) (by rw [s1, ht]) (by rw [s1, hi])
  obtain ⟨w3, e3, h3, s3⟩ := dtor_spec h2 (i := t) (x := y) (by simp [s2, upd, hti])
  refine ⟨w3, by simp [withVar, bind_eq, e1, e2, e3], h3, ?_⟩
  rw [s3, s2, s1]
  funext k
  by_cases q : k = t <;> by_cases q' : k = i <;> simp_all [upd]

theorem viaTemp_threw {ctor body : M (α ⊕ β) Unit} {w : W (α ⊕ β)} {t : Nat} {f : Nat → Option (α ⊕ β)} (h : Threw (ctor w) f) :
    Threw (withVar t ctor body w) f := by
  obtain ⟨w', e, h⟩ := h
  exact ⟨w', by simp [withVar, bind_eq, e], h⟩

theorem assignMove_spec {c : Cls α β} (hc : Calm c) {w : W (α ⊕ β)} (h : Inv w) (h0 : slot w 0 = none) {i j : Nat} (hi : slot w i ≠ none)
    {x : α ⊕ β} (hj : slot w j = some x) : Done (assignMove c i j w) (upd (upd (slot w) j (some (c.moved x))) i (some x)) := by
  have hi0 : 0 ≠ i := by rintro rfl; exact hi h0
  have hj0 : 0 ≠ j := by rintro rfl; rw [h0] at hj; cases hj
  refine noexcept_done ?_
  have h1 := ctorMove_spec hc h h0 hj
  obtain ⟨y, hy⟩ : ∃ y, upd (upd (slot w) j (some (c.moved x))) 0 (some x) i = some y := by
    by_cases e : i = j
    · exact ⟨_, by simp [upd, e, hj0.symm]; rfl⟩
    · obtain ⟨y, hy⟩ := Option.ne_none_iff_exists'.1 hi
      exact ⟨y, by simp [upd, e, hi0.symm, hy]⟩
  have h2 := viaTemp hc h1 (t := 0) (i := i) (x := x) (by simp [upd]) hy hi0
  refine cast (congrArg _ ?_) h2
  funext k
  by_cases q : k = 0 <;> by_cases q' : k = i <;> by_cases q'' : k = j <;> simp_all [upd]

/-! ### Programs -/

structure Inv0 (w : W (α ⊕ β)) : Prop where
  inv : Inv w
  t0 : slot w 0 = none
  t1 : slot w 1 = none

theorem inv0_init : Inv0 (init : W (α ⊕ β)) := ⟨inv_init, rfl, rfl⟩

theorem Inv0.decl {w : W (α ⊕ β)} (h : Inv0 w) (i : Nat) : w.vars (i + 2) ≠ none ↔ cont w i ≠ none := by
  rw [cont, Ne, Ne, h.inv.slot_none]

def Good (c : Cls α β) (k : Cmd α β) (w : W (α ⊕ β)) : Prop :=
  (∃ w', step c k w = .ok w' () ∧ Inv0 w' ∧ cont w' = Spec.step c.moved c.dflt (cont w) k) ∨
  ((∃ n, c.throws n = true) ∧
    ((∃ w', step c k w = .exc w' ∧ Inv0 w' ∧ cont w' = cont w ∧ ¬ (IsLvalue k ∧ c.nothrowE = true)) ∨
     (step c k w = .term ∧ IsLvalue k ∧ c.nothrowE = true)))

/-- The slots beside the program's variables stay empty. -/
theorem good_done {c : Cls α β} {k : Cmd α β} {w : W (α ⊕ β)} {F : Nat → Option (α ⊕ β)} (h : Done (step c k w) F) (h0 : F 0 = none)
    (h1 : F 1 = none) (hF : ∀ i, F (i + 2) = Spec.step c.moved c.dflt (cont w) k i) : Good c k w := by
  obtain ⟨w', e, hi, hs⟩ := h
  refine .inl ⟨w', e, ⟨hi, by rw [hs, h0], by rw [hs, h1]⟩, ?_⟩
  funext i
  rw [cont, hs, hF]

theorem good_threw {c : Cls α β} {k : Cmd α β} {w : W (α ⊕ β)} (hn : ∃ n, c.throws n = true) (h : Threw (step c k w) (slot w)) (hw : Inv0 w)
    (hl : ¬ (IsLvalue k ∧ c.nothrowE = true)) : Good c k w := by
  obtain ⟨w', e, hi, hs⟩ := h
  refine .inr ⟨hn, .inl ⟨w', e, ⟨hi, by rw [hs, hw.t0], by rw [hs, hw.t1]⟩, ?_, hl⟩⟩
  funext i
  rw [cont, hs]; rfl

theorem upd_two (f : Nat → Option (α ⊕ β)) (i j : Nat) (x : Option (α ⊕ β)) : upd f (i + 2) x (j + 2) = upd (fun k => f (k + 2)) i x j := by
  simp [upd]

/-- Constructors from a value. -/
theorem ctorValue_spec {c : Cls α β} (hc : Calm c) (m : Mode) {w : W (α ⊕ β)} (h : Inv w) {i : Nat} (hi : slot w i = none) (v : α) :
    Done (ctorValue c m i v w) (upd (slot w) i (some (.inl v))) ∨
    ((∃ n, c.throws n = true) ∧
      ((Threw (ctorValue c m i v w) (slot w) ∧ ¬ (m = .lvalue ∧ c.nothrowE = true)) ∨
       (ctorValue c m i v w = .term ∧ m = .lvalue ∧ c.nothrowE = true))) := by
  cases m with
  | const =>
    rcases ctorOf_spec c false h hi (.inl v) with hd | ⟨-, hn, hd⟩
    · exact .inl hd
    · exact .inr ⟨hn, .inl ⟨hd, by simp⟩⟩
  | lvalue =>
    rcases ctorOf_spec c false h hi (.inl v) with hd | ⟨-, hn, hd⟩
    · exact .inl (noexcept_done hd)
    · refine .inr ⟨hn, ?_⟩
      obtain ⟨w', e, hd⟩ := hd
      cases he : c.nothrowE
      · exact .inl ⟨⟨w', by simp [ctorValue, M.noexcept, e, he], hd⟩, by simp⟩
      · exact .inr ⟨by simp [ctorValue, M.noexcept, e, he], rfl, rfl⟩
  | rvalue =>
    rcases ctorOf_spec c c.nothrowT h hi (.inl v) with hd | ⟨hf, ⟨n, hn⟩, hd⟩
    · exact .inl (noexcept_done hd)
    · rw [hc.1 hf n] at hn; cases hn

theorem good_step {c : Cls α β} (hc : Calm c) {w : W (α ⊕ β)} (hw : Inv0 w) {k : Cmd α β} (hk : Legal (fun i => cont w i ≠ none) k) :
    Good c k w := by
  have h := hw.inv
  have h0 := hw.t0
  have h1 := hw.t1
  cases k with
  | dflt i =>
    have hi : slot w (i + 2) = none := not_not.1 hk
    rcases ctorDefault_spec hc h hi with hd | ⟨hn, hd⟩
    · exact good_done hd (by simp [upd, h0]) (by simp [upd, h1]) fun k => upd_two _ _ _ _
    · exact good_threw hn hd hw (by simp [IsLvalue])
  | ofValue m i v =>
    have hi : slot w (i + 2) = none := not_not.1 hk
    rcases ctorValue_spec hc m h hi v with hd | ⟨hn, ⟨hd, hm⟩ | ⟨hd, hm, he⟩⟩
    · exact good_done hd (by simp [upd, h0]) (by simp [upd, h1]) fun k => upd_two _ _ _ _
    · refine good_threw hn hd hw ?_
      cases m <;> simp_all [IsLvalue]
    · subst hm
      exact .inr ⟨hn, .inr ⟨hd, trivial, he⟩⟩
  | ofError m i e =>
    have hi : slot w (i + 2) = none := not_not.1 hk
    rcases ctorOf_spec c (m && c.nothrowE) h hi (.inr e) with hd | ⟨-, hn, hd⟩
    · exact good_done hd (by simp [upd, h0]) (by simp [upd, h1]) fun k => upd_two _ _ _ _
    · exact good_threw hn hd hw (by simp [IsLvalue])
  | copy i j =>
    have hi : slot w (i + 2) = none := not_not.1 hk.1
    obtain ⟨x, hx⟩ := Option.ne_none_iff_exists'.1 hk.2
    rcases ctorCopy_spec c h hi hx with hd | ⟨hn, hd⟩
    · refine good_done hd (by simp [upd, h0]) (by simp [upd, h1]) fun k => ?_
      rw [upd_two, Spec.step, hx]; rfl
    · exact good_threw hn hd hw (by simp [IsLvalue])
  | move i j =>
    have hi : slot w (i + 2) = none := not_not.1 hk.1
    obtain ⟨x, hx⟩ := Option.ne_none_iff_exists'.1 hk.2
    refine good_done (ctorMove_spec hc h hi hx) (by simp [upd, h0]) (by simp [upd, h1]) fun k => ?_
    rw [upd_two, Spec.step, hx]
    simp only [upd_two]
    rfl
  | assignCopy i j =>
    obtain ⟨y, hy⟩ := Option.ne_none_iff_exists'.1 hk.1
    obtain ⟨x, hx⟩ := Option.ne_none_iff_exists'.1 hk.2
    have hy' : slot w (i + 2) = some y := hy
    rcases ctorCopy_spec c h h0 hx with hd | ⟨hn, hd⟩
    · refine good_done (viaTemp hc hd (t := 0) (i := i + 2) (x := x) (y := y) (by simp [upd]) (by simp [upd, hy']) (by simp)) (by simp [upd])
        (by simp [upd, h1]) fun k => ?_
      rw [Spec.step, hx]
      simp [upd, cont]
    · exact good_threw hn (viaTemp_threw hd) hw (by simp [IsLvalue])
  | assignMove i j =>
    obtain ⟨x, hx⟩ := Option.ne_none_iff_exists'.1 hk.2
    refine good_done (assignMove_spec hc h h0 (i := i + 2) hk.1 hx) (by simp [upd, h0]) (by simp [upd, h1]) fun k => ?_
    rw [upd_two, Spec.step, hx]
    simp only [upd_two]
    rfl
  | assignValue m i v =>
    obtain ⟨y, hy⟩ := Option.ne_none_iff_exists'.1 hk
    have hy' : slot w (i + 2) = some y := hy
    rcases ctorValue_spec hc m h h1 v with hd | ⟨hn, ⟨hd, hm⟩ | ⟨hd, hm, he⟩⟩
    · obtain ⟨w1, e1, i1, s1⟩ := hd
      obtain ⟨w2, e2, i2, s2⟩ := assignMove_spec hc i1 (by simp [s1, upd, h0]) (i := i + 2) (j := 1) (x := .inl v) (by simp [s1, upd, hy'])
        (by simp [s1, upd])
      obtain ⟨w3, e3, i3, s3⟩ := dtor_spec i2 (i := 1) (x := c.moved (.inl v)) (by simp [s2, upd])
      refine good_done (F := upd (slot w) (i + 2) (some (.inl v)))
        ⟨w3, by simp [step, assignValue, withVar, bind_eq, e1, e2, e3], i3, ?_⟩ (by simp [upd, h0]) (by simp [upd, h1]) fun k => upd_two _ _ _ _
      rw [s3, s2, s1]
      funext k
      by_cases q : k = 1 <;> by_cases q' : k = i + 2 <;> simp_all [upd]
    · refine good_threw hn (viaTemp_threw hd) hw ?_
      cases m <;> simp_all [IsLvalue]
    · subst hm
      exact .inr ⟨hn, .inr ⟨by simp [step, assignValue, withVar, bind_eq, hd], trivial, he⟩⟩
  | assignError m i e =>
    obtain ⟨y, hy⟩ := Option.ne_none_iff_exists'.1 hk
    have hy' : slot w (i + 2) = some y := hy
    rcases ctorOf_spec c (m && c.nothrowE) h h0 (.inr e) with hd | ⟨-, hn, hd⟩
    · refine good_done (viaTemp hc hd (t := 0) (i := i + 2) (x := .inr e) (y := y) (by simp [upd]) (by simp [upd, hy']) (by simp)) (by simp [upd])
        (by simp [upd, h1]) fun k => ?_
      rw [Spec.step]
      simp [upd, cont]
    · exact good_threw hn (viaTemp_threw hd) hw (by simp [IsLvalue])
  | emplace i v =>
    obtain ⟨y, hy⟩ := Option.ne_none_iff_exists'.1 hk
    have hy' : slot w (i + 2) = some y := hy
    rcases ctorOf_spec c true h h0 (.inl v) with hd | ⟨hf, -⟩
    · refine good_done (viaTemp hc hd (t := 0) (i := i + 2) (x := .inl v) (y := y) (by simp [upd]) (by simp [upd, hy']) (by simp)) (by simp [upd])
        (by simp [upd, h1]) fun k => ?_
      rw [Spec.step]
      simp [upd, cont]
    · cases hf
  | swap i j =>
    obtain ⟨y, hy⟩ := Option.ne_none_iff_exists'.1 hk.1
    obtain ⟨x, hx⟩ := Option.ne_none_iff_exists'.1 hk.2
    refine good_done (swap_spec hc h hy hx) (by simp [upd, h0]) (by simp [upd, h1]) fun k => ?_
    rw [upd_two, Spec.step, hx, hy]
    simp only [upd_two]
    rfl
  | destroy i =>
    obtain ⟨y, hy⟩ := Option.ne_none_iff_exists'.1 hk
    exact good_done (dtor_spec h hy) (by simp [upd, h0]) (by simp [upd, h1]) fun k => upd_two _ _ _ _

theorem legal_congr {D D' : Nat → Prop} (h : ∀ i, D i ↔ D' i) (k : Cmd α β) : Legal D k ↔ Legal D' k := by
  have : D = D' := funext fun i => propext (h i)
  rw [this]

theorem inv_run {c : Cls α β} (hc : Calm c) {w : W (α ⊕ β)} (hw : Inv0 w) (ks : List (Cmd α β)) (h : LegalRun c w ks) :
    run c w ks ≠ .inl false ∧ ((∀ k ∈ ks, ¬ IsLvalue k) → run c w ks ≠ .inl true) ∧ ∀ w' ts, run c w ks = .inr (w', ts) → Inv0 w' := by
  induction ks generalizing w with
  | nil =>
    refine ⟨by simp [run], by simp [run], ?_⟩
    intro w' ts e
    simp only [run, Sum.inr.injEq, Prod.mk.injEq] at e
    rw [← e.1]; exact hw
  | cons k ks ih =>
    obtain ⟨hk, hr⟩ := h
    have hk' := (legal_congr hw.decl k).1 hk
    have fin : ∀ w1 b, Inv0 w1 → LegalRun c w1 ks →
        (run c w (k :: ks) = match run c w1 ks with
          | .inl b => .inl b
          | .inr (w'', ts) => .inr (w'', b :: ts)) →
        run c w (k :: ks) ≠ .inl false ∧ ((∀ k' ∈ k :: ks, ¬ IsLvalue k') → run c w (k :: ks) ≠ .inl true) ∧
          ∀ w' ts, run c w (k :: ks) = .inr (w', ts) → Inv0 w' := by
      intro w1 b hw1 hr1 e
      obtain ⟨a1, a2, a3⟩ := ih hw1 hr1
      rw [e]
      cases hq : run c w1 ks with
      | inl q =>
        refine ⟨?_, fun hl => ?_, by simp⟩
        · simp only [ne_eq, Sum.inl.injEq]; rintro rfl; exact a1 hq
        · simp only [ne_eq, Sum.inl.injEq]; rintro rfl; exact a2 (fun k' hk' => hl k' (List.mem_cons_of_mem _ hk')) hq
      | inr p =>
        obtain ⟨w'', ts⟩ := p
        refine ⟨by simp, by simp, ?_⟩
        intro w' ts' e'
        simp only [Sum.inr.injEq, Prod.mk.injEq] at e'
        rw [← e'.1]
        exact a3 _ _ hq
    rcases good_step hc hw hk' with ⟨w1, e, i1, -⟩ | ⟨-, ⟨w1, e, i1, -⟩ | ⟨e, hl, -⟩⟩
    · rw [e] at hr
      exact fin w1 false i1 hr (by simp only [run, e]; cases run c w1 ks <;> rfl)
    · rw [e] at hr
      exact fin w1 true i1 hr (by simp only [run, e]; cases run c w1 ks <;> rfl)
    · refine ⟨by simp [run, e], fun hn => (hn k (List.mem_cons_self ..) hl).elim, by simp [run, e]⟩

end Nanostl.Exp

import Verif.Tuple.Make
import Verif.Traits.WrapProps

/-! C117: a tuple is made from what its elements are made from. -/

namespace Nanostl.Tuple.Make
open Nanostl.Traits Nanostl.Traits.Wrap Nanostl.Traits.Spec

/-- Element `i` can be made from argument `i`, for all of them. -/
def Fits (L : Lang) (ts : List Ty) (as : List Src) : Prop :=
  as.length = ts.length ∧ ∀ (i : Nat) (h : i < ts.length) (h' : i < as.length), constructible L ts[i] [arrives as[i].base as[i].lv as[i].const] = true

/-- Argument `i` converts to a const reference to element `i`, from which the element is copied, for all of them. -/
def Converts (L : Lang) (ts : List Ty) (as : List Src) : Prop :=
  as.length = ts.length ∧ (∀ t ∈ ts, constructible L t [.lref (addConst t)] = true) ∧
  ∀ (i : Nat) (h : i < ts.length) (h' : i < as.length), L.conv as[i].expr (.lref (addConst ts[i])) = true

/-- A const or volatile empty class. -/
def Qualified (e : Env) (t : Ty) : Prop := ∃ q n, t = .base q (.cls n) ∧ q ≠ {} ∧ e.clsEmpty n = true ∧ e.clsFinal n = false

def Copyable (L : Lang) (t : Ty) : Prop := constructible L t [.lref (addConst t)] = true
def Movable (L : Lang) (t : Ty) : Prop := constructible L t [.rref t] = true

theorem all2_iff {α β : Type} (p : α → β → Bool) : ∀ (as : List α) (bs : List β),
    all2 p as bs = true ↔ bs.length = as.length ∧ ∀ (i : Nat) (h : i < as.length) (h' : i < bs.length), p as[i] bs[i] = true
  | [], [] => by simp [all2]
  | [], _ :: _ => by simp [all2]
  | _ :: _, [] => by simp [all2]
  | a :: as, b :: bs => by
    rw [all2, Bool.and_eq_true, all2_iff p as bs]
    constructor
    · rintro ⟨h1, h2, h3⟩
      refine ⟨by simp [h2], fun i h h' => ?_⟩
      cases i with
      | zero => exact h1
      | succ i => exact h3 i (by simpa using h) (by simpa using h')
    · rintro ⟨h1, h2⟩
      refine ⟨h2 0 (by simp) (by simp), by simpa using h1, fun i h h' => h2 (i + 1) (by simpa using h) (by simpa using h')⟩

variable {L : Lang} {ts : List Ty}

theorem mkLref_held {t : Ty} (h : Held t) : mkLref (addConst t) = .lref (addConst t) := by
  obtain ⟨_, h2, _⟩ := h.addConst
  generalize addConst t = u at h2
  rcases u with ⟨q, (f | k | k | k)⟩ | _ | ⟨q, t, k⟩ | ⟨t, n⟩ | ⟨(_ | _), _, _⟩ | _ | _ <;> first | rfl | simp_all [object, cat]

theorem mkRref_held {t : Ty} (h : Held t) : mkRref t = .rref t := by
  obtain ⟨_, h2, _⟩ := h
  rcases t with ⟨q, (f | k | k | k)⟩ | _ | ⟨q, t, k⟩ | ⟨t, n⟩ | ⟨(_ | _), _, _⟩ | _ | _ <;> first | rfl | simp_all [object, cat]

theorem copyable_eq {t : Ty} (h : Held t) : (is_copy_constructible L t = some true) ↔ Copyable L t := by
  rw [(c106_copy_move L h.wf h.obj.2.1 h.obj.2.2.1).1]
  have hr : referenceable t = true := by
    obtain ⟨h1, h2, h3⟩ := h
    rcases t with ⟨q, (f | k | k | k)⟩ | _ | ⟨q, t, k⟩ | ⟨t, n⟩ | ⟨(_ | _), _, _⟩ | _ | _ <;> simp_all [referenceable, object, cat]
  simp [hr, Copyable]

theorem values_iff (ht : ∀ t ∈ ts, Held t) (as : List Src) : valuesOk L ts as = true ↔ Fits L ts as := by
  simp only [valuesOk, Bool.and_eq_true, decide_eq_true_eq, all2_iff, Fits]
  constructor
  · rintro ⟨h1, _, h2⟩
    refine ⟨h1, fun i h h' => ?_⟩
    rw [← ctor_eq L (ht _ (List.getElem_mem h))]; exact h2 i h h'
  · rintro ⟨h1, h2⟩
    refine ⟨h1, h1, fun i h h' => ?_⟩
    rw [ctor_eq L (ht _ (List.getElem_mem h))]; exact h2 i h h'

theorem consts_iff (ht : ∀ t ∈ ts, Held t) (as : List Src) : constsOk L ts as = true ↔ Converts L ts as := by
  simp only [constsOk, Bool.and_eq_true, List.all_eq_true, decide_eq_true_eq, all2_iff, Converts]
  constructor
  · rintro ⟨h1, h2, h3⟩
    refine ⟨h2, fun t h => (copyable_eq (ht t h)).1 (h1 t h), fun i h h' => ?_⟩
    rw [← mkLref_held (ht _ (List.getElem_mem h))]; exact h3 i h h'
  · rintro ⟨h1, h2, h3⟩
    refine ⟨fun t h => (copyable_eq (ht t h)).2 (h2 t h), h1, fun i h h' => ?_⟩
    rw [mkLref_held (ht _ (List.getElem_mem h))]; exact h3 i h h'

theorem fromValues_eq (ht : ∀ t ∈ ts, Held t) (as : List Src) :
    (Fits L ts as ∨ Converts L ts as → fromValues L ts as = .made ((List.range ts.length).map .arg)) ∧
    (¬ (Fits L ts as ∨ Converts L ts as) → fromValues L ts as = .refused) := by
  rw [← values_iff ht, ← consts_iff ht]
  unfold fromValues places
  refine ⟨fun h => ?_, fun h => ?_⟩
  · by_cases k : valuesOk L ts as = true
    · rw [if_pos k]
    · rw [if_neg k, if_pos (h.resolve_left k)]
  · rw [not_or] at h
    rw [if_neg h.1, if_neg h.2]

/-- C117 for arguments that are no tuples: the tuple is made exactly if each element can be made from its argument (or all be copied from what the arguments convert to), element `i` from
argument `i`; else it is refused, before any body is compiled. Without arguments, exactly if all elements can be made without. -/
theorem c117_values (self : Ty) (tup : Ty → Option (List Ty)) (ht : ∀ t ∈ ts, Held t) (hne : ts ≠ []) (as : List Src) (h1 : ∀ s, as = [s] → s.base ≠ self ∧ tup s.base = none) :
    (as ≠ [] → (Fits L ts as ∨ Converts L ts as → make L self tup true ts as = .made ((List.range ts.length).map .arg)) ∧
      (¬ (Fits L ts as ∨ Converts L ts as) → make L self tup true ts as = .refused)) ∧
    ((∀ t ∈ ts, destructible L.env t = true) → ∀ direct,
      ((∀ t ∈ ts, constructible L t [] = true) → make L self tup direct ts [] = .made (List.replicate ts.length .value)) ∧
      ((∃ t ∈ ts, constructible L t [] = false) → make L self tup direct ts [] = .refused)) := by
  obtain ⟨t0, tr, rfl⟩ := List.exists_cons_of_ne_nil hne
  refine ⟨fun hn => ?_, fun hd direct => ?_⟩
  · have : make L self tup true (t0 :: tr) as = fromValues L (t0 :: tr) as := by
      match as, hn, h1 with
      | [s], _, h1 =>
        obtain ⟨a, b⟩ := h1 s rfl
        simp only [make, a, if_false, if_true, b]
      | _ :: _ :: _, _, _ => simp [make]
    rw [this]
    exact fromValues_eq ht as
  · have key : defaultOk L (t0 :: tr) = true ↔ ∀ t ∈ t0 :: tr, constructible L t [] = true := by
      simp only [defaultOk, List.all_eq_true, decide_eq_true_eq]
      refine forall₂_congr fun t hm => ?_
      have h := ht t hm
      rw [is_default_constructible, c106_constructible_partial L h.wf [] h.obj.2.1 h.obj.2.2.1 (fun k => absurd k h.arr) (fun _ _ => hd t hm)]
      simp
    simp only [make, places]
    refine ⟨fun h => ?_, fun ⟨t, hm, h⟩ => ?_⟩
    · rw [if_pos (key.2 h), List.map_const', List.length_range]
    · rw [if_neg]
      intro k
      have := key.1 k t hm
      rw [h] at this; cases this

theorem slot_eq {e : Env} {t : Ty} (h : ¬ Qualified e t) : slot e t = t := by
  by_cases hc : is_empty e t = some true
  · rw [slot, if_pos hc]
    unfold is_empty at hc
    split at hc
    · split at hc
      · rename_i _ q n _
        split at hc
        · cases hc
        · rename_i hf
          rw [remove_cv_eq]
          by_cases hq : q = {}
          · subst hq; rfl
          · exact absurd ⟨q, n, rfl, hq, by simpa using hc, by simpa using hf⟩ h
      · cases hc
    · cases hc
  · rw [slot, if_neg hc]

theorem slots_eq {e : Env} {ts : List Ty} (h : ∀ t ∈ ts, ¬ Qualified e t) : ts.map (slot e) = ts := by
  conv_rhs => rw [← List.map_id ts]
  exact List.map_congr_left fun t k => slot_eq (h t k)

theorem copyOk_iff (ht : ∀ t ∈ ts, Held t) (hq : ∀ t ∈ ts, ¬ Qualified L.env t) : copyOk L ts = true ↔ ∀ t ∈ ts, Copyable L t := by
  simp only [copyOk, List.all_eq_true]
  exact forall₂_congr fun t hm => by rw [slot_eq (hq t hm), ctor_eq L (ht t hm)]; rfl

theorem moveElems_ok : ∀ (ts : List Ty) (k : Nat), (∀ t ∈ ts, Held t) → (∀ t ∈ ts, ¬ Qualified L.env t) → (∀ t ∈ ts, Movable L t ∨ Copyable L t) →
    ∃ l, moveElems L k ts = some l ∧ l.length = ts.length ∧ ∀ (i : Nat) (h : i < ts.length) (h' : i < l.length),
      (Movable L ts[i] → l[i] = .moveOf (k + i)) ∧ (¬ Movable L ts[i] → l[i] = .copyOf (k + i))
  | [], _, _, _, _ => ⟨[], rfl, rfl, fun i h => absurd h (by simp)⟩
  | t :: ts, k, ht, hq, hm => by
    obtain ⟨l, e1, e2, e3⟩ := moveElems_ok ts (k + 1) (fun t h => ht t (by simp [h])) (fun t h => hq t (by simp [h])) (fun t h => hm t (by simp [h]))
    have h0 := hm t (by simp)
    have c1 := ctor_eq L (ht t (by simp)) (.rref t)
    have c2 := ctor_eq L (ht t (by simp)) (.lref (addConst t))
    have : ∃ a, moveElem L t k = some a ∧ (Movable L t → a = .moveOf k) ∧ (¬ Movable L t → a = .copyOf k) := by
      unfold moveElem Movable Copyable at *
      simp only [slot_eq (hq t (by simp)), c1, c2]
      by_cases m : constructible L t [.rref t] = true
      · exact ⟨.moveOf k, by simp [m], fun _ => rfl, fun h => absurd m h⟩
      · exact ⟨.copyOf k, by simp [m, h0.resolve_left m], fun h => absurd h m, fun _ => rfl⟩
    obtain ⟨a, a1, a2, a3⟩ := this
    refine ⟨a :: l, by simp [moveElems, a1, e1], by simp [e2], fun i h h' => ?_⟩
    cases i with
    | zero => exact ⟨a2, a3⟩
    | succ i =>
      have := e3 i (by simpa using h) (by simpa using h')
      simpa [Nat.add_assoc, Nat.add_comm 1] using this

/-- C117 for an argument that is a tuple of the same type, as far as it holds: the elements are copied from an lvalue or a const object, if all can be, else it is refused; from an rvalue each one is
moved, or copied if it cannot be moved. Missing: a tuple of one element that can be made from the tuple itself, rvalues with elements that can neither be copied nor moved, and elements of a const empty class. -/
theorem c117_copy_partial (self : Ty) (tup : Ty → Option (List Ty)) (ht : ∀ t ∈ ts, Held t) (hq : ∀ t ∈ ts, ¬ Qualified L.env t) (hne : ts ≠ []) (s : Src) (hs : s.base = self) (direct : Bool)
    (h1 : ∀ t, ts = [t] → constructible L t [arrives self s.lv s.const] = false) (h2 : ∀ t ∈ ts, Movable L t ∨ Copyable L t ∨ s.lv = true ∨ s.const = true) :
    ((s.lv = true ∨ s.const = true) →
      ((∀ t ∈ ts, Copyable L t) → make L self tup direct ts [s] = .made ((List.range ts.length).map .copyOf)) ∧
      ((∃ t ∈ ts, ¬ Copyable L t) → make L self tup direct ts [s] = .refused)) ∧
    (s.lv = false → s.const = false → ∃ l, make L self tup direct ts [s] = .made l ∧ l.length = ts.length ∧
      ∀ (i : Nat) (h : i < ts.length) (h' : i < l.length), (Movable L ts[i] → l[i] = .moveOf i) ∧ (¬ Movable L ts[i] → l[i] = .copyOf i)) := by
  obtain ⟨t0, tr, rfl⟩ := List.exists_cons_of_ne_nil hne
  have hv : valuesOk L (t0 :: tr) [s] = false := by
    rw [Bool.eq_false_iff, Ne, values_iff ht]
    rintro ⟨a, b⟩
    have : tr = [] := by simpa using a.symm
    subst this
    have := h1 t0 rfl
    have k := b 0 (by simp) (by simp)
    simp only [List.getElem_cons_zero, hs, this, Bool.false_eq_true] at k
  obtain ⟨b, lv, const⟩ := s
  simp only at hs hv h2 ⊢
  have hmk : (lv = true ∨ const = true) → make L self tup direct (t0 :: tr) [⟨b, lv, const⟩] =
      if copyOk L (t0 :: tr) then .made (places (t0 :: tr).length .copyOf) else .refused := by
    intro h
    cases lv <;> cases const <;> cases direct <;> simp_all [make, fromSame]
  have hcopy := copyOk_iff (L := L) ht hq
  refine ⟨fun h => ⟨fun hc => ?_, fun ⟨t, hm, hc⟩ => ?_⟩, fun hl hc => ?_⟩
  · rw [hmk h, if_pos (hcopy.2 hc)]; rfl
  · rw [hmk h, if_neg]
    exact fun k => hc (hcopy.1 k t hm)
  · subst hl hc
    obtain ⟨l, e1, e2, e3⟩ := moveElems_ok (L := L) (t0 :: tr) 0 ht hq (fun t hm => by simpa using h2 t hm)
    refine ⟨l, ?_, e2, by simpa using e3⟩
    cases direct <;> simp [make, hs, fromSame, moveOut, e1]

/-- The elements can be made from those of a tuple with elements of the types `us` that is given as an lvalue or a const object (`mv = false`), or as an rvalue. -/
def Elementwise (L : Lang) (ts us : List Ty) (mv : Bool) : Prop :=
  us.length = ts.length ∧ ∀ (i : Nat) (h : i < ts.length) (h' : i < us.length), constructible L ts[i] [if mv then .rref us[i] else .lref (addConst us[i])] = true

theorem convCopy_iff (ht : ∀ t ∈ ts, Held t) {us : List Ty} (hu : ∀ u ∈ us, Held u) : convCopyOk L ts us = true ↔ Elementwise L ts us false := by
  simp only [convCopyOk, Bool.and_eq_true, decide_eq_true_eq, all2_iff, Elementwise, Bool.false_eq_true, if_false]
  constructor
  · rintro ⟨h1, _, h2⟩
    refine ⟨h1, fun i h h' => ?_⟩
    rw [← ctor_eq L (ht _ (List.getElem_mem h)), ← mkLref_held (hu _ (List.getElem_mem h'))]; exact h2 i h h'
  · rintro ⟨h1, h2⟩
    refine ⟨h1, h1, fun i h h' => ?_⟩
    rw [ctor_eq L (ht _ (List.getElem_mem h)), mkLref_held (hu _ (List.getElem_mem h'))]; exact h2 i h h'

theorem convMove_iff (ht : ∀ t ∈ ts, Held t) {us : List Ty} (hu : ∀ u ∈ us, Held u) : convMoveOk L ts us = true ↔ Elementwise L ts us true := by
  simp only [convMoveOk, Bool.and_eq_true, decide_eq_true_eq, all2_iff, Elementwise, if_true]
  constructor
  · rintro ⟨h1, _, h2⟩
    refine ⟨h1, fun i h h' => ?_⟩
    rw [← ctor_eq L (ht _ (List.getElem_mem h)), ← mkRref_held (hu _ (List.getElem_mem h'))]; exact h2 i h h'
  · rintro ⟨h1, h2⟩
    refine ⟨h1, h1, fun i h h' => ?_⟩
    rw [ctor_eq L (ht _ (List.getElem_mem h)), mkRref_held (hu _ (List.getElem_mem h'))]; exact h2 i h h'

/-- C117 for an argument that is another tuple, as far as it holds: with two or more elements, a conversion that cannot be done element by element is refused, and one that can be is accepted
by overload resolution. Missing: that it then compiles (`c117_convert_false`). -/
theorem c117_convert_partial (self : Ty) (tup : Ty → Option (List Ty)) (ht : ∀ t ∈ ts, Held t) (hn : 2 ≤ ts.length) (s : Src) (hs : s.base ≠ self) (us : List Ty) (hu : ∀ u ∈ us, Held u)
    (hus : tup s.base = some us) :
    make L self tup true ts [s] = .refused ↔ ¬ (Elementwise L ts us false ∨ (s.lv = false ∧ s.const = false ∧ Elementwise L ts us true)) := by
  match ts, hn, ht with
  | t0 :: t1 :: tr, _, ht =>
    have hv : valuesOk L (t0 :: t1 :: tr) [s] = false := by simp [valuesOk]
    have hc : constsOk L (t0 :: t1 :: tr) [s] = false := by simp [constsOk, all2]
    rw [← convCopy_iff ht hu, ← convMove_iff ht hu]
    simp only [make, hs, if_false, if_true, hus, fromTuple, hv, hc, Bool.false_eq_true]
    cases hl : s.lv <;> cases hk : s.const <;> cases convCopyOk L (t0 :: t1 :: tr) us <;> cases convMoveOk L (t0 :: t1 :: tr) us <;> simp [resolve, hl, hk, wholeOut]

/-- C117 is false of conversions: with two or more elements the body of a constructor from another tuple that is accepted does not compile; with one element, that element is made from the whole of
the other tuple, or the body does not compile. -/
theorem c117_convert_false (self : Ty) (tup : Ty → Option (List Ty)) (hne : ts ≠ []) (s : Src) (hs : s.base ≠ self) (us : List Ty) (hus : tup s.base = some us) :
    (2 ≤ ts.length → make L self tup true ts [s] = .refused ∨ make L self tup true ts [s] = .error) ∧
    ∀ l, make L self tup true ts [s] = .made l → l = [.whole] := by
  match ts, hne with
  | t0 :: tr, _ =>
    have e : make L self tup true (t0 :: tr) [s] = fromTuple L (t0 :: tr) us s := by simp only [make, hs, if_false, if_true, hus]
    rw [e]
    have hw : ∀ a l, wholeOut L a (t0 :: tr) = .made l → l = [.whole] := by
      intro a l h
      unfold wholeOut at h
      split at h
      · split at h
        · cases h; rfl
        · cases h
      · cases h
    refine ⟨fun h2 => ?_, fun l h => ?_⟩
    · match tr, h2 with
      | t1 :: tr, _ =>
        have hv : valuesOk L (t0 :: t1 :: tr) [s] = false := by simp [valuesOk]
        have hc : constsOk L (t0 :: t1 :: tr) [s] = false := by simp [constsOk, all2]
        simp only [fromTuple, hv, hc, Bool.false_eq_true, if_false]
        cases hl : s.lv <;> cases hk : s.const <;> cases convCopyOk L (t0 :: t1 :: tr) us <;> cases convMoveOk L (t0 :: t1 :: tr) us <;> simp [resolve, hl, hk, wholeOut]
    · unfold fromTuple at h
      split at h
      · exact hw _ _ h
      · exact hw _ _ h
      · cases h; rfl
      · split at h
        · cases h; rfl
        · cases h

/-! ### With an allocator -/

/-- Uses-allocator construction ([allocator.uses.construction]): what the constructor of a `T` gets besides a `U`. -/
def allocSpec (L : Lang) (uses : Bool) (tag a t u : Ty) (i : Nat) : Option AInit :=
  if uses then
    if constructible L t [tag, .lref (addConst a), u] then some (.first i)
    else if constructible L t [u, .lref (addConst a)] then some (.last i) else none
  else if constructible L t [u] then some (.plain i) else none

/-- `T` uses the allocator ([allocator.uses.trait]): a tuple always, another class if it has a nested `allocator_type` to which the allocator converts. -/
def Uses (L : Lang) (A : Alloc) (isTup : Ty → Bool) (t : Ty) : Prop := isTup t = true ∨ ∃ n, A.nested t = some n ∧ convertible L A.ty n = true

theorem uses_iff (A : Alloc) (isTup : Ty → Bool) (hA : wf A.ty) (hN : ∀ t n, A.nested t = some n → wf n) (t : Ty) :
    usesAllocator L A isTup t = true ↔ Uses L A isTup t := by
  unfold usesAllocator Uses
  cases h : A.nested t with
  | none => simp
  | some n => simp [c106_convertible L hA (hN t n h)]

/-- C117 with an allocator, as far as it holds: if each element can be made from its argument, element `i` gets argument `i` and the allocator as uses-allocator construction says, and the body
compiles if that is possible. Missing: elements for which `allocator_arg_t` with an rvalue of the allocator is another question than with a const one, which is what they get. -/
theorem c117_alloc_partial (A : Alloc) (isTup : Ty → Bool) (hA : wf A.ty) (hN : ∀ t n, A.nested t = some n → wf n) (ht : ∀ t ∈ ts, Held t) (hd : ∀ t ∈ ts, destructible L.env t = true)
    (as : List Src) (h : Fits L ts as)
    (hq : ∀ t ∈ ts, ∀ u, constructible L t [A.tag, A.ty, u] = constructible L t [A.tag, .lref (addConst A.ty), u]) (f : Ty → Bool) (hf : ∀ t, f t = true ↔ Uses L A isTup t) :
    (∀ l : List AInit, l.length = ts.length →
      (∀ (i : Nat) (h : i < ts.length) (h' : i < as.length) (h'' : i < l.length), allocSpec L (f ts[i]) A.tag A.ty ts[i] (arrives as[i].base as[i].lv as[i].const) i = some l[i]) →
      makeAlloc L A isTup ts as = .made l) ∧
    ((∃ (i : Nat) (h : i < ts.length) (h' : i < as.length), allocSpec L (f ts[i]) A.tag A.ty ts[i] (arrives as[i].base as[i].lv as[i].const) i = none) →
      makeAlloc L A isTup ts as = .error) := by
  have hel : ∀ t ∈ ts, ∀ u i, allocElem L A isTup t u i = allocSpec L (f t) A.tag A.ty t u i := by
    intro t hm u i
    have hh := ht t hm
    have e := fun as => c106_constructible_partial L hh.wf as hh.obj.2.1 hh.obj.2.2.1 (fun k => absurd k hh.arr) (fun _ _ => hd t hm)
    have eu : usesAllocator L A isTup t = f t := by
      rw [Bool.eq_iff_iff, uses_iff A isTup hA hN, hf]
    unfold allocElem allocSpec
    rw [eu, e, e, e, ctor_eq L hh, hq t hm u]
    cases f t <;> cases constructible L t [A.tag, .lref (addConst A.ty), u] <;> simp
  have hmk : makeAlloc L A isTup ts as = .of (allocElems L A isTup 0 ts (as.map Src.fwd)) := by
    unfold makeAlloc
    rw [if_pos ((values_iff ht as).2 h)]
  have key : ∀ (ts : List Ty) (as : List Src) (k : Nat), as.length = ts.length → (∀ t ∈ ts, ∀ u i, allocElem L A isTup t u i = allocSpec L (f t) A.tag A.ty t u i) →
      (∀ l : List AInit, l.length = ts.length →
        (∀ (i : Nat) (h : i < ts.length) (h' : i < as.length) (h'' : i < l.length), allocSpec L (f ts[i]) A.tag A.ty ts[i] (arrives as[i].base as[i].lv as[i].const) (k + i) = some l[i]) →
        allocElems L A isTup k ts (as.map Src.fwd) = some l) ∧
      ((∃ (i : Nat) (h : i < ts.length) (h' : i < as.length), allocSpec L (f ts[i]) A.tag A.ty ts[i] (arrives as[i].base as[i].lv as[i].const) (k + i) = none) →
        allocElems L A isTup k ts (as.map Src.fwd) = none) := by
    intro ts
    induction ts with
    | nil =>
      intro as k hl _
      have : as = [] := by simpa using hl
      subst this
      refine ⟨fun l h _ => ?_, fun ⟨i, h, _⟩ => absurd h (by simp)⟩
      have : l = [] := by simpa using h
      subst this; rfl
    | cons t ts ih =>
      intro as k hl hel
      match as, hl with
      | s :: as, hl =>
        obtain ⟨i1, i2⟩ := ih as (k + 1) (by simpa using hl) (fun t h => hel t (by simp [h]))
        have h0 := hel t (by simp) s.fwd k
        refine ⟨fun l hll h => ?_, fun ⟨i, hi, hi', h⟩ => ?_⟩
        · match l, hll with
          | a :: l, hll =>
            have g0 := h 0 (by simp) (by simp) (by simp)
            have g1 := i1 l (by simpa using hll) (fun i h1 h2 h3 => by
              have := h (i + 1) (by simpa using h1) (by simpa using h2) (by simpa using h3)
              simpa [Nat.add_assoc, Nat.add_comm 1] using this)
            simp only [List.getElem_cons_zero, Nat.add_zero, ← fwd_eq] at g0
            simp only [List.map_cons, allocElems, h0, g0, g1]
        · simp only [List.map_cons, allocElems]
          cases i with
          | zero =>
            simp only [List.getElem_cons_zero, Nat.add_zero, ← fwd_eq] at h
            simp [h0, h]
          | succ i =>
            have := i2 ⟨i, by simpa using hi, by simpa using hi', by simpa [Nat.add_assoc, Nat.add_comm 1] using h⟩
            rw [this]
            cases allocElem L A isTup t s.fwd k <;> rfl
  obtain ⟨k1, k2⟩ := key ts as 0 h.1 hel
  refine ⟨fun l hl h => ?_, fun h => ?_⟩
  · rw [hmk, k1 l hl (by simpa using h)]; rfl
  · rw [hmk, k2 (by simpa using h)]; rfl

/-! ### Assignment -/

/-- Element `i` can be assigned element `i` of a tuple of the types `us`, for all of them. -/
def Assigns (L : Lang) (ts us : List Ty) (mv : Bool) : Prop :=
  us.length = ts.length ∧ ∀ (i : Nat) (h : i < ts.length) (h' : i < us.length), assignable L (.lref ts[i]) (if mv then .rref us[i] else .lref (addConst us[i])) = true

theorem assigns_eq {t u : Ty} (ht : Held t) (hq : ¬ Qualified L.env t) (hu : Held u) (mv : Bool) : assigns L mv t u = assignable L (.lref t) (if mv then .rref u else .lref (addConst u)) := by
  have h1 := ht.obj.2.2.2
  have h2 := hu.obj.2.2.2
  have h3 := hu.addConst.obj.2.2.2
  have h4 : cat u ≠ .function := hu.obj.1
  cases mv <;> simp [assigns, slot_eq hq, assignable, valueOf, h1, h2, h3, h4]

theorem assigns_iff (ht : ∀ t ∈ ts, Held t) (hq : ∀ t ∈ ts, ¬ Qualified L.env t) {us : List Ty} (hu : ∀ u ∈ us, Held u) (mv : Bool) : all2 (assigns L mv) ts us = true ↔ Assigns L ts us mv := by
  rw [all2_iff]
  refine and_congr_right fun _ => forall_congr' fun i => forall₂_congr fun h h' => ?_
  rw [assigns_eq (ht _ (List.getElem_mem h)) (hq _ (List.getElem_mem h)) (hu _ (List.getElem_mem h'))]

/-- C118, as far as it holds: a tuple is assigned another (or one of the same type) exactly if each element can be assigned the element at its place: copied from an lvalue or a const
object, moved from an rvalue. What is no tuple is refused. Missing: that other tuples are refused (`c118_false`), and elements of a const empty class. -/
theorem c118_assign_partial (self : Ty) (tup : Ty → Option (List Ty)) (ht : ∀ t ∈ ts, Held t) (hq : ∀ t ∈ ts, ¬ Qualified L.env t) (hne : ts ≠ []) (hself : tup self = some ts) (s : Src) :
    (∀ us, tup s.base = some us → (∀ u ∈ us, Held u) →
      (Assigns L ts us (!s.lv && !s.const) → assign L self tup ts s = .made ((List.range ts.length).map (if !s.lv && !s.const then .moveOf else .copyOf))) ∧
      (¬ Assigns L ts us (!s.lv && !s.const) → ∀ l, assign L self tup ts s ≠ .made l)) ∧
    (tup s.base = none → assign L self tup ts s = .refused) := by
  obtain ⟨t0, tr, rfl⟩ := List.exists_cons_of_ne_nil hne
  obtain ⟨b, lv, const⟩ := s
  refine ⟨fun us hus hu => ?_, fun hn => ?_⟩
  · rw [← assigns_iff ht hq hu]
    simp only at hus ⊢
    by_cases hb : b = self
    · subst hb
      have : us = t0 :: tr := by rw [hself] at hus; exact (Option.some.inj hus).symm
      subst this
      cases lv <;> cases const <;> simp only [assign, slots_eq hq, if_true, Bool.not_true, Bool.not_false, Bool.and_self, Bool.and_true, Bool.and_false, Bool.false_eq_true, if_false]
      all_goals refine ⟨fun h => by rw [if_pos h]; rfl, fun h l => by rw [if_neg h]; simp⟩
    · simp only [assign, hb, if_false, hus]
      cases lv <;> cases const <;> simp only [if_true, Bool.not_true, Bool.not_false, Bool.and_self, Bool.and_true, Bool.and_false, Bool.false_eq_true, if_false]
      all_goals refine ⟨fun h => by rw [if_pos h]; rfl, fun h l => by rw [if_neg h]; simp⟩
  · simp only at hn
    have hb : b ≠ self := by rintro rfl; rw [hself] at hn; cases hn
    simp only [assign, hb, if_false, hn]

/-- C118 is false: an assignment from another tuple that cannot be done element by element is never refused, whatever the types and numbers of the elements; it does not compile. The same holds of a tuple of the same type, unless
it is a const lvalue. -/
theorem c118_false (self : Ty) (tup : Ty → Option (List Ty)) (ht : ∀ t ∈ ts, Held t) (hq : ∀ t ∈ ts, ¬ Qualified L.env t) (hne : ts ≠ []) (s : Src) (us : List Ty) (hus : tup s.base = some us) (hu : ∀ u ∈ us, Held u)
    (hself : tup self = some ts) (hs : s.base = self → s.lv = false ∨ s.const = false) (h : ¬ Assigns L ts us (!s.lv && !s.const)) : assign L self tup ts s = .error := by
  obtain ⟨t0, tr, rfl⟩ := List.exists_cons_of_ne_nil hne
  rw [← assigns_iff ht hq hu] at h
  obtain ⟨b, lv, const⟩ := s
  simp only at hus hs h
  by_cases hb : b = self
  · subst hb
    have : us = t0 :: tr := by rw [hself] at hus; exact (Option.some.inj hus).symm
    subst this
    have := hs rfl
    have := slots_eq hq
    cases lv <;> cases const <;> simp_all [assign]
  · simp only [assign, hb, if_false, hus]
    rw [if_neg h]

/-! ### Witnesses -/

/-- A program: class 7 is made from anything, as `any` is; class 12 can neither be copied nor moved; class 13 is made from anything, from an `allocator_arg_t` (class 14), an rvalue of the
allocator (class 15) and anything, or from anything and the allocator; numbers convert to each other; everything else is only made from its own type. Class 17 is made from anything, and with an allocator after
`allocator_arg_t`. Class 25 can be moved, but not copied. What is const cannot be assigned. -/
def langT : Lang where
  env := env1
  elides := true
  init := fun t es => match es with
    | [] => true
    | [e] => (strip e.ty = strip t && strip t ≠ tCls 12 && (strip t ≠ tCls 25 || e.vc ≠ .lv && !(quals e.ty).c)) || (is_arithmetic e.ty && is_arithmetic t) || strip t = tCls 7 || strip t = tCls 13 || strip t = tCls 17
    | [x, a, _] => strip t = tCls 13 && strip x.ty = tCls 14 && a.ty = tCls 15 && a.vc = .xv || strip t = tCls 17 && strip x.ty = tCls 14
    | [_, a] => strip t = tCls 13 && strip a.ty = tCls 15
    | _ => false
  conv := fun e t => match t with
    | .lref u => (e.ty = u && e.vc = .lv) || (strip e.ty = strip u && (quals u).c)
    | .rref u => e.vc ≠ .lv && e.ty = u
    | u => strip e.ty = strip u || (is_arithmetic e.ty && is_arithmetic u) || strip u = tCls 7
  bind := fun _ _ => false
  assign := fun x y => x.vc = .lv && !(quals x.ty).c && strip x.ty ≠ tCls 12 && (strip x.ty = strip y.ty || (is_arithmetic x.ty && is_arithmetic y.ty))
  cond := fun _ _ => none
  initNo := fun _ _ => true
  dtorNo := fun _ => true
  convNo := fun _ _ => true
  assignNo := fun _ _ => true

/-- Class 20 is `tuple<any>`, 21 `tuple<int>`, 22 `tuple<long>`, 23 `tuple<C>` of class 12, 24 `tuple<int, long>`, 26 `tuple<const C>` of class 25. -/
def tupT : Ty → Option (List Ty)
  | .base _ (.cls 20) => some [tCls 7]
  | .base _ (.cls 21) => some [tInt]
  | .base _ (.cls 22) => some [tLong]
  | .base _ (.cls 23) => some [tCls 12]
  | .base _ (.cls 24) => some [tInt, tLong]
  | .base _ (.cls 26) => some [.base ⟨true, false⟩ (.cls 25)]
  | _ => none

/-- C117 is false of copies: a copy of a `tuple<any>` that is not const holds a tuple, instead of what the tuple holds; and so does a `tuple<any>` made from a `tuple<int>`, though an `any` can be made
from an `int`. -/
theorem c117_copy_false : ∃ (L : Lang) (t u self other : Ty) (tup : Ty → Option (List Ty)), Held t ∧ Held u ∧ Copyable L t ∧ Movable L t ∧ tup self = some [t] ∧ tup other = some [u] ∧
    make L self tup true [t] [⟨self, true, false⟩] = .made [.whole] ∧ make L self tup true [t] [⟨self, true, true⟩] = .made [.copyOf 0] ∧
    Elementwise L [t] [u] true ∧ Elementwise L [t] [u] false ∧ ∀ lv const, make L self tup true [t] [⟨other, lv, const⟩] = .made [.whole] := by
  refine ⟨langT, tCls 7, tInt, tCls 20, tCls 21, tupT, held_cls 7, held_fund _ (by decide), by unfold Copyable; decide, by unfold Movable; decide, rfl, rfl, by decide, by decide, ?_, ?_, by decide⟩
  · exact ⟨rfl, fun i h h' => by
      have : i = 0 := by simpa using h
      subst this; rfl⟩
  · exact ⟨rfl, fun i h h' => by
      have : i = 0 := by simpa using h
      subst this; rfl⟩

/-- C117 is false of moves: a tuple with an element that can be neither copied nor moved is said to be constructible from an rvalue, and does not compile. As an lvalue it is refused. -/
theorem c117_move_false : ∃ (L : Lang) (t self : Ty) (tup : Ty → Option (List Ty)), Held t ∧ ¬ Copyable L t ∧ ¬ Movable L t ∧ tup self = some [t] ∧
    ∀ direct, make L self tup direct [t] [⟨self, false, false⟩] = .error ∧ make L self tup direct [t] [⟨self, true, false⟩] = .refused :=
  ⟨langT, tCls 12, tCls 23, tupT, held_cls 12, by unfold Copyable; decide, by unfold Movable; decide, rfl, by decide⟩

/-- C117 and C118 are false of elements of a const empty class, which are bases and not const: a tuple of one that cannot be moved from, and cannot be assigned, is moved from and assigned. A class with
members is treated right. -/
theorem c118_const_false : ∃ (L : Lang) (t self : Ty) (tup : Ty → Option (List Ty)), Held t ∧ ¬ Copyable L t ∧ ¬ Movable L t ∧ tup self = some [t] ∧ (∀ mv, ¬ Assigns L [t] [t] mv) ∧
    (∀ direct, make L self tup direct [t] [⟨self, false, false⟩] = .made [.moveOf 0]) ∧ assign L self tup [t] ⟨self, false, false⟩ = .made [.moveOf 0] ∧
    assign L self tup [t] ⟨self, true, false⟩ = .made [.copyOf 0] ∧
    ∀ direct, make { L with env := { L.env with clsEmpty := fun _ => false } } self tup direct [t] [⟨self, false, false⟩] = .error ∧
      assign { L with env := { L.env with clsEmpty := fun _ => false } } self tup [t] ⟨self, false, false⟩ = .error :=
  ⟨langT, .base ⟨true, false⟩ (.cls 25), tCls 26, tupT, (held_cls 25).addConst, by unfold Copyable; decide, by unfold Movable; decide, rfl,
    fun mv h => absurd (h.2 0 (by simp) (by simp)) (by cases mv <;> decide), by decide, by decide, by decide, by decide⟩

/-- C117 is false of implicit conversions: `int`s that convert to the elements implicitly cannot be passed, in braces, for a parameter that is a tuple. -/
theorem c117_implicit_false : ∃ (L : Lang) (t u self : Ty) (tup : Ty → Option (List Ty)), Held t ∧ Held u ∧ self ≠ tInt ∧ tup tInt = none ∧
    (∀ lv const, convertible L (arrives tInt lv const) t = true ∧ convertible L (arrives tInt lv const) u = true) ∧
    ∀ lv const, make L self tup true [t, u] [⟨tInt, lv, const⟩, ⟨tInt, lv, const⟩] = .made [.arg 0, .arg 1] ∧
      make L self tup false [t, u] [⟨tInt, lv, const⟩, ⟨tInt, lv, const⟩] = .refused ∧ make L self tup false [t] [⟨tInt, lv, const⟩] = .refused :=
  ⟨langT, tInt, tLong, tCls 24, tupT, held_fund _ (by decide), held_fund _ (by decide), by decide, rfl, by decide, by decide⟩

/-- C117 is false with an allocator: an element that takes the allocator only as an rvalue after `allocator_arg_t`, or else at the end, does not compile, though it could get it at the end. -/
theorem c117_alloc_false : ∃ (L : Lang) (A : Alloc) (t : Ty), Held t ∧ Uses L A (fun _ => false) t ∧ allocSpec L true A.tag A.ty t (.lref tInt) 0 = some (.last 0) ∧
    Fits L [t] [⟨tInt, true, false⟩] ∧ makeAlloc L A (fun _ => false) [t] [⟨tInt, true, false⟩] = .error := by
  refine ⟨langT, ⟨tCls 15, tCls 14, fun _ => some (tCls 15)⟩, tCls 13, held_cls 13, ?_, by decide, ?_, by decide⟩
  · exact .inr ⟨_, rfl, by decide⟩
  · exact ⟨rfl, fun i h h' => by
      have : i = 0 := by simpa using h
      subst this; rfl⟩

/-! The hypotheses are met. -/

example : ∀ t ∈ [tLong, tCls 7, .base ⟨true, false⟩ (.fund .int)], ¬ Qualified langT.env t := by
  simp [Qualified]

example : Fits langT [tLong, tCls 7] [⟨tInt, true, false⟩, ⟨tCls 5, false, false⟩] :=
  ⟨rfl, fun i h h' => by
    have : i = 0 ∨ i = 1 := by simp at h; omega
    rcases this with rfl | rfl <;> rfl⟩
example : make langT (tCls 24) tupT true [tInt, tLong] [⟨tInt, true, false⟩, ⟨tCls 5, false, false⟩] = .refused := by decide
example : make langT (tCls 24) tupT true [tInt, tLong] [⟨tCls 24, true, false⟩] = .made [.copyOf 0, .copyOf 1] ∧
    make langT (tCls 24) tupT false [tInt, tLong] [⟨tCls 24, false, false⟩] = .made [.moveOf 0, .moveOf 1] := by decide
example : constructible langT tInt [arrives (tCls 21) true false] = false := by decide
example : make langT (tCls 30) tupT true [tLong, tInt] [⟨tCls 24, true, true⟩] = .error ∧ make langT (tCls 22) tupT true [tLong] [⟨tCls 21, true, true⟩] = .error := by decide
example : makeAlloc langT ⟨tCls 16, tCls 14, fun t => if t = tCls 13 then some (tCls 16) else none⟩ (fun _ => false) [tLong] [⟨tInt, true, false⟩] = .made [.plain 0] := by decide
/-- Class 13 gets the allocator at the end, class 17 in front; an `int` does not get it. -/
example : makeAlloc langT ⟨tCls 15, tCls 18, fun t => if t = tInt then none else some (tCls 15)⟩ (fun _ => false) [tCls 13, tInt] [⟨tInt, true, false⟩, ⟨tInt, true, false⟩] = .made [.last 0, .plain 1] ∧
    makeAlloc langT ⟨tCls 16, tCls 14, fun t => if t = tInt then none else some (tCls 16)⟩ (fun _ => false) [tInt, tCls 17] [⟨tInt, true, false⟩, ⟨tInt, true, false⟩] = .made [.plain 0, .first 1] := by decide
example : ∀ u ∈ [Ty.lref tInt, .rref (tCls 5)], constructible langT (tCls 17) [tCls 14, tCls 16, u] = constructible langT (tCls 17) [tCls 14, .lref (addConst (tCls 16)), u] := by decide
example : assign langT (tCls 22) tupT [tLong] ⟨tCls 21, false, false⟩ = .made [.moveOf 0] ∧ assign langT (tCls 22) tupT [tLong] ⟨tCls 24, false, false⟩ = .error ∧
    assign langT (tCls 23) tupT [tCls 12] ⟨tCls 23, true, true⟩ = .refused ∧ assign langT (tCls 23) tupT [tCls 12] ⟨tCls 23, false, false⟩ = .error := by decide

end Nanostl.Tuple.Make

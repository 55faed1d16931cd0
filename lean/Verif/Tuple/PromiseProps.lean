import Verif.Tuple.Promise
import Verif.Tuple.MakeProps
import Verif.Traits.SwapProps

/-! C120: the operations of a tuple are `noexcept` exactly if what they do to the elements cannot throw. -/

namespace Nanostl.Tuple.Promise
open Nanostl.Traits Nanostl.Traits.Wrap Nanostl.Traits.Spec Nanostl.Tuple.Make

variable {L : Lang} {ts : List Ty}

/-! ### Constructors -/

/-- Making the element from these arguments cannot throw, in the standard's words. -/
def Step.safe (L : Lang) (s : Step) : Prop := nothrowConstructible L s.1 s.2 = true

theorem no_eq {t : Ty} (h : Held t) (a : Ty) : (is_nothrow_constructible L t [a] = some true) ↔ nothrowConstructible L t [a] = true := by
  rw [c106_nothrow_partial L h.wf [a] h.obj.2.1 h.obj.2.2.1 (by simp) (by simp)]; simp

theorem all2_zip {β : Type} {p : Ty → β → Bool} {q : Ty × List Ty → Prop} (f : β → List Ty) (hp : ∀ t b, t ∈ ts → (p t b = true ↔ q (t, f b))) {bs : List β} (hl : bs.length = ts.length) :
    all2 p ts bs = true ↔ ∀ s ∈ ts.zip (bs.map f), q s := by
  induction ts generalizing bs with
  | nil => cases bs <;> simp_all [all2]
  | cons t ts ih =>
    cases bs with
    | nil => simp at hl
    | cons b bs => simp [all2, hp t b (by simp), ih (fun t b h => hp t b (by simp [h])) (by simpa using hl)]

/-- What is chosen is what `Make.make` says compiles: for arguments that do not select a defaulted constructor, one is chosen exactly if the tuple is made. -/
theorem chosen_iff (self : Ty) (tup : Ty → Option (List Ty)) (hne : ts ≠ []) (as : List Src) (hd : ∀ s, as = [s] → s.base = self → s.lv ≠ s.const ∧ valuesOk L ts [s] = true) :
    (∃ c, chosen L self tup ts as = some c) ↔ ∃ l, make L self tup true ts as = .made l := by
  obtain ⟨t0, tr, rfl⟩ := List.exists_cons_of_ne_nil hne
  have whole : ∀ a, (∃ l, wholeOut L a (t0 :: tr) = .made l) ↔ wholeOut L a (t0 :: tr) ≠ .error := by
    intro a
    cases tr with
    | nil => simp only [wholeOut]; split <;> simp
    | cons => simp [wholeOut]
  match as, hd with
  | [], _ => simp only [chosen, make]; split <;> simp
  | [s], hd =>
    by_cases hs : s.base = self
    · obtain ⟨h1, h2⟩ := hd s rfl hs
      obtain ⟨b, lv, const⟩ := s
      cases lv <;> cases const <;> simp_all [chosen, make, fromSame]
    · simp only [chosen, make, hs, if_false, if_true]
      cases tup s.base with
      | none => simp only [fromValues]; split <;> [simp; (split <;> simp)]
      | some us =>
        simp only [fromTuple]
        cases resolve s (convCopyOk L (t0 :: tr) us) (convMoveOk L (t0 :: tr) us) (valuesOk L (t0 :: tr) [s]) with
        | copy => simp only [whole]; split <;> simp_all
        | move => simp only [whole]; split <;> simp_all
        | value => simp
        | valueConst => simp only; split <;> simp
        | none => simp only; split <;> simp
  | a :: b :: as, _ => simp only [chosen, make, fromValues, if_true]; split <;> [simp; (split <;> simp)]

/-- As many arguments as elements. -/
theorem chosen_length {self : Ty} {tup : Ty → Option (List Ty)} {as : List Src} (h : chosen L self tup ts as = some .values) : as.length = ts.length := by
  have key : valuesOk L ts as = true → as.length = ts.length := by
    simp only [valuesOk, Bool.and_eq_true, decide_eq_true_eq]; exact fun h => h.1
  unfold chosen at h
  repeat' split at h
  all_goals first
    | (cases h; done)
    | (rename_i hv; exact key (by simpa using hv))
    | (rename_i hv; exact key (by simp at hv; exact hv.2))
    | skip
  rename_i us _ hr
  apply key
  cases hl : (‹Src› : Src).lv <;> cases hk : (‹Src› : Src).const <;> simp only [resolve, hl, hk, Bool.false_eq_true, if_false, if_true] at hr <;> repeat' split at hr
  all_goals first | assumption | cases hr

/-- Where the constructor from `Us&&...` takes the arguments, that from `const Ts&...` is not called. -/
theorem chosen_consts {self : Ty} {tup : Ty → Option (List Ty)} {as : List Src} (hv : valuesOk L ts as = true) : chosen L self tup ts as ≠ some .consts := by
  intro h
  unfold chosen at h
  repeat' split at h
  all_goals first
    | (cases h; done)
    | skip
  rename_i us _ hr
  cases hl : (‹Src› : Src).lv <;> cases hk : (‹Src› : Src).const <;> simp_all [resolve]

/-- C120 for constructors, as far as it holds: the one that is called is `noexcept` exactly if making the elements from what it makes them from cannot throw. Missing: the constructors from other tuples
(`c120_convert_false`). -/
theorem c120_construct_partial (self : Ty) (tup : Ty → Option (List Ty)) (ht : ∀ t ∈ ts, Held t) (hdt : ∀ t ∈ ts, destructible L.env t = true) (as : List Src) {c : Ctor}
    (h : chosen L self tup ts as = some c) (hc : ∀ us, c ≠ .copy us ∧ c ≠ .move us) :
    c.promise L ts as = true ↔ ∀ s ∈ c.run ts as, s.safe L := by
  cases c with
  | default =>
    simp only [Ctor.promise, Ctor.run, defaultNo, List.all_eq_true, decide_eq_true_eq, List.mem_map, forall_exists_index, and_imp, forall_apply_eq_imp_iff₂, Step.safe]
    refine forall₂_congr fun t hm => ?_
    rw [c106_nothrow_partial L (ht t hm).wf [] (ht t hm).obj.2.1 (ht t hm).obj.2.2.1 (fun k => absurd k (ht t hm).arr) (fun _ _ => hdt t hm)]; simp
  | consts =>
    simp only [Ctor.promise, Ctor.run, constsNo, List.all_eq_true, decide_eq_true_eq, List.mem_map, forall_exists_index, and_imp, forall_apply_eq_imp_iff₂, Step.safe]
    refine forall₂_congr fun t hm => ?_
    have hk := ht t hm
    have hr : referenceable t = true := by
      obtain ⟨h1, h2, h3⟩ := hk
      rcases t with ⟨q, (f | k | k | k)⟩ | _ | ⟨q, t, k⟩ | ⟨t, n⟩ | ⟨(_ | _), _, _⟩ | _ | _ <;> simp_all [referenceable, object, cat]
    rw [(c106_copy_move L hk.wf hk.obj.2.1 hk.obj.2.2.1).2.2.1]; simp [hr]
  | values =>
    exact all2_zip (p := fun t (s : Src) => decide (is_nothrow_constructible L t [s.fwd] = some true)) (q := fun s => Step.safe L s) (fun s => [s.fwd])
      (fun t s hm => by rw [decide_eq_true_eq]; exact no_eq (ht t hm) s.fwd) (chosen_length h)
  | copy us => exact absurd rfl (hc us).1
  | move us => exact absurd rfl (hc us).2

/-! ### Assignment -/

/-- The assignment cannot throw. -/
def Sets (L : Lang) (s : Ty × Ty) : Prop := ∃ x y, valueOf s.1 = some x ∧ valueOf s.2 = some y ∧ L.assignNo x y = true

/-- C120 for assignments that are not defaulted, as far as it holds. Missing: elements of a const empty class (`c120_assign_false`). -/
theorem c120_assign_partial (self : Ty) (tup : Ty → Option (List Ty)) (ht : ∀ t ∈ ts, Held t) (hq : ∀ t ∈ ts, ¬ Qualified L.env t) (s : Src) {us : List Ty} (hus : tup s.base = some us)
    (hu : ∀ u ∈ us, Held u) {p : Bool} {l : List (Ty × Ty)} (h : assignment L self tup ts s = some (p, l)) : p = true ↔ ∀ a ∈ l, Sets L a := by
  unfold assignment at h
  split at h
  · cases h
  · rw [hus] at h
    simp only at h
    split at h
    case isFalse => cases h
    case isTrue ha =>
      obtain ⟨rfl, rfl⟩ := Prod.mk.inj (Option.some.inj h)
      clear h hus
      generalize hm : (!s.lv && !s.const) = mv at *
      induction ts generalizing us with
      | nil => cases us <;> simp_all [all2]
      | cons t ts ih =>
        cases us with
        | nil => simp [all2] at ha
        | cons u us =>
          simp only [all2, Bool.and_eq_true] at ha ⊢
          have ih := ih (fun t k => ht t (by simp [k])) (fun t k => hq t (by simp [k])) (fun u k => hu u (by simp [k])) ha.2
          have kt := ht t (by simp)
          have ku := hu u (by simp)
          have kq := hq t (by simp)
          rw [assigns_eq kt kq ku] at ha
          have head : is_nothrow_assignable L (.lref t) (if mv then .rref u else .lref (addConst u)) = true ↔
              Sets L (.lref (slot L.env t), if mv then .rref u else .lref (addConst u)) := by
            rw [slot_eq kq]
            have wy : wf (if mv then .rref u else .lref (addConst u)) := by
              cases mv
              · exact ku.addConst.lref
              · exact ku.rref
            obtain ⟨y, hy⟩ : ∃ y, valueOf (if mv then .rref u else .lref (addConst u)) = some y := by cases mv <;> exact ⟨_, rfl⟩
            rw [(c106_assignable L kt.lref wy).2.2 _ _ rfl hy, ha.1]
            simp only [Sets, hy, Bool.true_and]
            exact ⟨fun k => ⟨_, _, rfl, rfl, k⟩, fun ⟨_, _, e1, e2, k⟩ => by cases e1; cases e2; exact k⟩
          simp only [List.map_cons, List.zip_cons_cons, List.forall_mem_cons]
          exact and_congr head ih

/-! ### swap -/

/-- The exchange cannot throw: the `swap` that is called for its type; or the moves. -/
def Exchange.safe (L : Lang) (adl : Ty → Option Bool) : Exchange → Prop
  | .call t => swaps L adl t = some true
  | .moves t => nothrowConstructible L t [.rref t] = true ∧ L.assignNo ⟨.lv, t⟩ ⟨.xv, t⟩ = true

theorem swaps_held (adl : Ty → Option Bool) {t : Ty} (h : Held t) (ha : adl t = none) {n : Bool} (hs : swaps L adl t = some n) :
    n = true ↔ nothrowConstructible L t [.rref t] = true ∧ L.assignNo ⟨.lv, t⟩ ⟨.xv, t⟩ = true := by
  have e : swaps L adl t = if object t ∧ constructible L t [.rref t] = true ∧ assignable L (.lref t) (.rref t) = true
      then some (nothrowConstructible L t [.rref t] && L.assignNo ⟨.lv, t⟩ ⟨.xv, t⟩) else none := by
    have := h.arr
    rcases t with ⟨q, b⟩ | ⟨q, t⟩ | ⟨q, t, k⟩ | ⟨t, n⟩ | ⟨c, _, _⟩ | _ | _ <;> first | exact absurd rfl this | simp only [swaps, ha]
  rw [e] at hs
  split at hs
  · rw [← Option.some.inj hs, Bool.and_eq_true]
  · cases hs

/-- C120 for swapping, as far as it holds: `swap` of tuples is `noexcept` exactly if the exchanges of the elements cannot throw. Missing: empty classes that have a `swap` of their own, or are const
(`c120_swap_false`). -/
theorem c120_swap_partial (adl : Ty → Option Bool) (ht : ∀ t ∈ ts, Held t) (hq : ∀ t ∈ ts, ¬ Qualified L.env t) (ha : ∀ t ∈ ts, is_empty L.env t = some true → adl t = none) {p : Bool}
    {l : List Exchange} (h : swap L adl ts = some (p, l)) : (p = true ↔ ∀ x ∈ l, x.safe L adl) ∧ l.length = ts.length := by
  induction ts generalizing p l with
  | nil => simp only [swap, Option.some.injEq, Prod.mk.injEq] at h; obtain ⟨rfl, rfl⟩ := h; simp
  | cons t ts ih =>
    have kt := ht t (by simp)
    have hs : swap_call L adl t = swaps L adl t := swap_call_eq L adl kt.wf kt.obj.2.1 kt.obj.2.2.1
    have ih := fun {p l} => ih (p := p) (l := l) (fun t k => ht t (by simp [k])) (fun t k => hq t (by simp [k])) (fun t k => ha t (by simp [k]))
    unfold swap at h
    split at h
    · rename_i n q r e1 e2 e3
      obtain ⟨rfl, rfl⟩ := Prod.mk.inj (Option.some.inj h)
      obtain ⟨i1, i2⟩ := ih e3
      rw [hs] at e1
      refine ⟨?_, by simp [i2]⟩
      simp only [Bool.and_eq_true, i1, List.forall_mem_cons, Exchange.safe, e1, Option.some.injEq]
    · rename_i n q r e1 e2 e3
      split at h
      case isFalse => cases h
      case isTrue =>
        obtain ⟨rfl, rfl⟩ := Prod.mk.inj (Option.some.inj h)
        obtain ⟨i1, i2⟩ := ih e3
        rw [hs] at e1
        refine ⟨?_, by simp [i2]⟩
        rw [slot_eq (hq t (by simp))]
        simp only [Bool.and_eq_true, i1, List.forall_mem_cons, Exchange.safe, swaps_held adl kt (ha t (by simp) e2) e1]
    · cases h

/-! ### Comparisons -/

/-- A comparison that is declared not to throw does not. -/
def Cmp.keeps (c : Cmp) : Prop := c.no = true → c.res ≠ none

/-- C120 for comparisons: if no comparison of elements throws that is declared not to, none of a tuple does that is `noexcept`; `a != b`, `a <= b` and so on likewise. -/
theorem c120_compare {l : List (Cmp × Cmp)} (h : ∀ c ∈ l, c.1.keeps ∧ c.2.keeps) {m : List Cmp} (hm : ∀ c ∈ m, c.keeps) :
    ((equal m).1 = true → (equal m).2 ≠ none ∧ (unequal m).2 ≠ none) ∧ ((less l).1 = true → (less l).2 ≠ none ∧ (notLess l).2 ≠ none) ∧
    ((greater l).1 = true → (greater l).2 ≠ none ∧ (notGreater l).2 ≠ none) ∧
    (unequal m).1 = (equal m).1 ∧ (notLess l).1 = (less l).1 ∧ (notGreater l).1 = (greater l).1 ∧ (greater l).1 = (less l).1 := by
  have ke : (equal m).1 = true → (equal m).2 ≠ none := by
    induction m with
    | nil => simp [equal]
    | cons c m ih =>
      simp only [equal, Bool.and_eq_true]
      rintro ⟨h1, h2⟩
      have h3 := hm c (by simp) h1
      have h4 := ih (fun c k => hm c (by simp [k])) h2
      split <;> simp_all
  have kl : ∀ l : List (Cmp × Cmp), (∀ c ∈ l, c.1.keeps ∧ c.2.keeps) → (less l).1 = true → (less l).2 ≠ none := by
    intro l
    induction l with
    | nil => simp [less]
    | cons c l ih =>
      intro h
      obtain ⟨c, d⟩ := c
      simp only [less, Bool.and_eq_true]
      rintro ⟨⟨h1, h2⟩, h3⟩
      have h4 := (h (c, d) (by simp)).1 h1
      have h5 := (h (c, d) (by simp)).2 h2
      have h6 := ih (fun c k => h c (by simp [k])) h3
      simp only at h4 h5
      split
      · simp_all
      · simp
      · split <;> simp_all
  have kg : ∀ l : List (Cmp × Cmp), (greater l).1 = (less l).1 := by
    intro l
    induction l with
    | nil => rfl
    | cons c l ih => simp only [greater, List.map_cons, less] at ih ⊢; rw [ih, Bool.and_comm c.2.no]
  have hg : (greater l).1 = true → (greater l).2 ≠ none := kl _ (by
    intro c hc
    obtain ⟨d, hd, rfl⟩ := List.mem_map.1 hc
    exact ⟨(h d hd).2, (h d hd).1⟩)
  refine ⟨fun k => ⟨ke k, ?_⟩, fun k => ⟨kl l h k, ?_⟩, fun k => ⟨hg k, ?_⟩, rfl, rfl, rfl, kg l⟩
  · simpa [unequal] using ke k
  · simpa [notLess] using kl l h k
  · simpa [notGreater] using hg k

/-- C120 for comparisons, the other way: where they are not `noexcept`, some values of the same types make them throw. -/
theorem c120_compare_throws (m : List Bool) (l : List (Bool × Bool)) :
    (m.all id = false → ∃ c : List Cmp, c.map Cmp.no = m ∧ (∀ x ∈ c, x.keeps) ∧ (equal c).1 = false ∧ (equal c).2 = none) ∧
    (l.all (fun x => x.1 && x.2) = false → ∃ c : List (Cmp × Cmp), c.map (fun x => (x.1.no, x.2.no)) = l ∧ (∀ x ∈ c, x.1.keeps ∧ x.2.keeps) ∧ (less c).1 = false ∧ (less c).2 = none) := by
  constructor
  · intro h
    refine ⟨m.map fun n => ⟨n, if n then some true else none⟩, by simp [Function.comp_def], ?_, ?_⟩
    · intro x hx
      obtain ⟨n, _, rfl⟩ := List.mem_map.1 hx
      intro k; simp only at k; simp [k]
    · induction m with
      | nil => simp at h
      | cons n m ih => cases n <;> simp_all [equal]
  · intro h
    refine ⟨l.map fun n => (⟨n.1, if n.1 then some false else none⟩, ⟨n.2, if n.2 then some false else none⟩), by simp [Function.comp_def], ?_, ?_⟩
    · intro x hx
      obtain ⟨n, _, rfl⟩ := List.mem_map.1 hx
      constructor <;> (intro k; simp only at k; simp [k])
    · induction l with
      | nil => simp at h
      | cons n l ih => obtain ⟨a, b⟩ := n; cases a <;> cases b <;> simp_all [less]

/-! ### Witnesses -/

/-- A program: as `langT`, but making class 7 from anything other than a number can throw, the moves of class 8 can throw, and assigning to class 9 can, unless it is const, for which it has an assignment of its own. -/
def langP : Lang := { langT with
  assign := fun x y => langT.assign x y || strip x.ty = tCls 9
  initNo := fun t es => match es with
    | [e] => if strip t = tCls 7 then is_arithmetic e.ty else strip t ≠ tCls 8
    | _ => true
  assignNo := fun x _ => strip x.ty ≠ tCls 8 && (strip x.ty ≠ tCls 9 || (quals x.ty).c) }

/-- C120 is false of the constructors from other tuples: a `tuple<any>` made from a const `tuple<int>` promises that making an `any` from an `int` does not throw, and makes one from the tuple, which can:
the program is terminated. -/
theorem c120_convert_false : ∃ (L : Lang) (t u self : Ty) (tup : Ty → Option (List Ty)) (s : Src) (us : List Ty) (c : Ctor), Held t ∧ Held u ∧ tup self = some [t] ∧ tup s.base = some us ∧ us = [u] ∧
    chosen L self tup [t] [s] = some c ∧ c.promise L [t] [s] = true ∧ ∃ x ∈ c.run [t] [s], ¬ x.safe L :=
  ⟨langP, tCls 7, tInt, tCls 20, tupT, ⟨tCls 21, true, true⟩, [tInt], .copy [tInt], held_cls 7, held_fund _ (by decide), rfl, rfl, rfl, by decide, by decide,
    (tCls 7, [.lref (addConst (tCls 21))]), by decide, by unfold Step.safe; decide⟩

/-- C120 is false of swapping: an empty class with a `swap` of its own that does not throw is swapped by moving it, which can throw, and the program is terminated; its own `swap` is not called. With a `swap` that
can throw and moves that cannot, swapping tuples is not `noexcept`, though it could be. -/
theorem c120_swap_false : ∃ (L : Lang) (t u : Ty), Held t ∧ Held u ∧ swap L (fun _ => some true) [t] = some (true, [.moves t]) ∧ ¬ (Exchange.moves t).safe L (fun _ => some true) ∧
    swap L (fun _ => some false) [u] = some (false, [.moves u]) ∧ (Exchange.moves u).safe L (fun _ => some false) :=
  ⟨langP, tCls 8, tCls 5, held_cls 8, held_cls 5, by decide, by unfold Exchange.safe; decide, by decide, by unfold Exchange.safe; decide⟩

/-- C120 is false of assigning to an element of a const empty class: the promise is about its const assignment, the other one is called. -/
theorem c120_assign_false : ∃ (L : Lang) (t u self : Ty) (tup : Ty → Option (List Ty)) (s : Src) (x : Ty × Ty), Held t ∧ Held u ∧ tup s.base = some [u] ∧
    assignment L self tup [t] s = some (true, [x]) ∧ ¬ Sets L x :=
  ⟨langP, .base ⟨true, false⟩ (.cls 9), tInt, tCls 27, tupT, ⟨tCls 21, true, true⟩, (.lref (tCls 9), .lref (addConst tInt)), (held_cls 9).addConst, held_fund _ (by decide), rfl, by decide, by
    rintro ⟨x, y, hx, hy, h⟩
    cases hx; cases hy
    exact absurd h (by decide)⟩

/-! The hypotheses are met. -/

example : chosen langP (tCls 24) tupT [tInt, tCls 7] [⟨tInt, true, false⟩, ⟨tInt, false, false⟩] = some .values ∧
    Ctor.promise langP [tInt, tCls 7] [⟨tInt, true, false⟩, ⟨tInt, false, false⟩] .values = true ∧
    chosen langP (tCls 24) tupT [tInt, tCls 7] [⟨tInt, true, false⟩, ⟨tCls 5, false, false⟩] = some .values ∧
    Ctor.promise langP [tInt, tCls 7] [⟨tInt, true, false⟩, ⟨tCls 5, false, false⟩] .values = false ∧ chosen langP (tCls 24) tupT [tInt, tCls 7] [] = some .default := by decide
example : valuesOk langP [tInt, tCls 7] [⟨tInt, true, false⟩, ⟨tInt, false, false⟩] = true := by decide
example : ∀ t ∈ [tInt, tCls 7], destructible langP.env t = true := by decide
example : assignment langP (tCls 22) tupT [tLong] ⟨tCls 21, false, false⟩ = some (true, [(.lref tLong, .rref tInt)]) := by decide
example : swap langP (fun t => if t = tInt then some false else none) [tInt, tCls 5] = some (false, [.call tInt, .moves (tCls 5)]) ∧
    swap langP (fun _ => none) [tInt, tCls 5] = some (true, [.call tInt, .moves (tCls 5)]) ∧ swap langP (fun _ => none) [tInt, tCls 8] = some (false, [.call tInt, .moves (tCls 8)]) := by decide
example : (∀ c ∈ [(⟨true, some false⟩, ⟨true, some false⟩), ((⟨false, none⟩, ⟨true, some true⟩) : Cmp × Cmp)], c.1.keeps ∧ c.2.keeps) ∧
    less [(⟨true, some false⟩, ⟨true, some false⟩), (⟨false, none⟩, ⟨true, some true⟩)] = (false, none) := by
  refine ⟨?_, by decide⟩
  simp [Cmp.keeps]

end Nanostl.Tuple.Promise

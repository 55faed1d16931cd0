import Verif.Variant.Step

/-! C78: lifetimes in `variant`. C79: contents and access. C80: what exceptions leave. -/

namespace Nanostl.Variant

variable {α : Type}

open Spec

/-- What holds between commands. -/
structure Good (c : Cls α) (w : W α) : Prop where
  inv : Inv w
  av : av w = emb (cont w)
  ok : Ok c (cont w)

theorem good_init (c : Cls α) : Good c init := ⟨inv_init, by funext x; cases x <;> rfl, by intro i o h; simp [cont, init] at h⟩

theorem good_step {c : Cls α} (hn : c.n ≤ 16) (h0 : 0 < c.n) {w : W α} (h : Good c w) {k : Cmd α} (hl : Legal c.n (cont w) k) :
    (∃ w', step c k w = .ok w' () ∧ Good c w' ∧ cont w' = Spec.step c.moved c.dflt (cont w) k) ∨
    (∃ w', step c k w = .exc w' ∧ Good c w' ∧ Thr c ∧ Exc c.moved (cont w) (cont w') k) ∨ (step c k w = .term ∧ Term c k) := by
  have h1 := awp_step hn h.ok hl w h.av
  have h2 := (pres_step c k).run w h.inv
  cases e : step c k w with
  | ok w' u =>
    simp only [e] at h1 h2
    have := cont_emb h1
    exact .inl ⟨w', rfl, ⟨h2, by rw [this]; exact h1, by rw [this]; exact h.ok.step h0 hl⟩, this⟩
  | exc w' =>
    simp only [e] at h1 h2
    obtain ⟨ht, f', h3, h4⟩ := h1
    have := cont_emb h3
    subst this
    exact .inr (.inl ⟨w', rfl, ⟨h2, h3, h.ok.exc h4⟩, ht, h4⟩)
  | term => simp only [e] at h1; exact .inr (.inr ⟨rfl, h1⟩)
  | bad => simp only [e] at h1

theorem good_run {c : Cls α} (hn : c.n ≤ 16) (h0 : 0 < c.n) {w : W α} (h : Good c w) (ks : List (Cmd α)) (hl : LegalRun c w ks) :
    run c w ks ≠ .inl false ∧ ∀ w' ts, run c w ks = .inr (w', ts) → Good c w' := by
  induction ks generalizing w with
  | nil =>
    refine ⟨by simp [run], fun w' ts e => ?_⟩
    simp only [run, Sum.inr.injEq, Prod.mk.injEq] at e
    obtain ⟨rfl, -⟩ := e
    exact h
  | cons k ks ih =>
    obtain ⟨hk, hs⟩ := hl
    rcases good_step hn h0 h hk with ⟨w1, e, h1, -⟩ | ⟨w1, e, h1, -, -⟩ | ⟨e, -⟩
    · rw [e] at hs
      obtain ⟨i1, i2⟩ := ih h1 hs
      simp only [run, e]
      cases e2 : run c w1 ks with
      | inl b => rw [e2] at i1; exact ⟨i1, by simp⟩
      | inr p =>
        refine ⟨by simp, fun w' ts e3 => ?_⟩
        simp only [Sum.inr.injEq, Prod.mk.injEq] at e3
        obtain ⟨rfl, -⟩ := e3
        exact i2 _ _ e2
    · rw [e] at hs
      obtain ⟨i1, i2⟩ := ih h1 hs
      simp only [run, e]
      cases e2 : run c w1 ks with
      | inl b => rw [e2] at i1; exact ⟨i1, by simp⟩
      | inr p =>
        refine ⟨by simp, fun w' ts e3 => ?_⟩
        simp only [Sum.inr.injEq, Prod.mk.injEq] at e3
        obtain ⟨rfl, -⟩ := e3
        exact i2 _ _ e2
    · simp [run, e]

/-! ### C78 -/

/-- In every history, wherever value operations throw, no object is constructed over a living one, used or destroyed when dead or as one of another
type, or left behind in storage that ends (`bad`); the record of constructions and destructions is proper; the living objects are exactly those in the
variables, each in one; and the index of a variable names the alternative that lives in it. -/
theorem c78_lifetime (c : Cls α) (hn : c.n ≤ 16) (h0 : 0 < c.n) (ks : List (Cmd α)) (h : LegalRun c init ks) :
    run c init ks ≠ .inl false ∧
    ∀ w ts, run c init ks = .inr (w, ts) →
      (∃ f, life w.evs (fun _ => none) = some f ∧
        ∀ id, (f id = some true → ∃! i, ∃ s t v, w.vars (.user i) = some s ∧ s.obj = some (id, t, v)) ∧
          ∀ i s t v, w.vars (.user i) = some s → s.obj = some (id, t, v) → f id = some true) ∧
      ∀ i s, w.vars (.user i) = some s → match s.obj with
        | none => s.idx = -1
        | some (_, t, _) => s.idx = t ∧ t < c.n := by
  obtain ⟨h1, h2⟩ := good_run hn h0 (good_init c) ks h
  refine ⟨h1, fun w ts e => ⟨?_, fun i s hs => ?_⟩⟩
  · have hg := h2 w ts e
    obtain ⟨f, t1, -, t3⟩ := hg.inv.tr
    have ow : ∀ x s id t v, w.vars x = some s → s.obj = some (id, t, v) → own w x = some id := by
      intro x s id t v hs ho; simp [own, hs, ho]
    refine ⟨f, t1, fun id => ⟨fun hl => ?_, fun i s t v hs ho => (t3 id).2 ⟨_, ow _ _ _ _ _ hs ho⟩⟩⟩
    obtain ⟨x, hx⟩ := (t3 id).1 hl
    cases hv : w.vars x with
    | none => simp [own, hv] at hx
    | some s =>
      simp only [own, hv, Option.bind_some, Option.map_eq_some_iff] at hx
      obtain ⟨⟨id', t, v⟩, ho, rfl⟩ := hx
      cases x with
      | user i =>
        refine ⟨i, ⟨s, t, v, hv, ho⟩, ?_⟩
        rintro j ⟨s', t', v', hs', ho'⟩
        have := hg.inv.inj _ _ _ (ow _ _ _ _ _ hs' ho') (ow _ _ _ _ _ hv ho)
        simpa using this
      | tmp => have := congrFun hg.av .tmp; simp [Variant.av, hv, emb] at this
      | val => have := congrFun hg.av .val; simp [Variant.av, hv, emb] at this
  · have hg := h2 w ts e
    have h3 := congrFun hg.av (.user i)
    have hc : cont w i = some (s.obj.map (·.2)) := by simp [cont, hs]
    simp only [Variant.av, hs, emb, hc, Option.map_some, Option.some.injEq, Prod.ext_iff] at h3
    cases ho : s.obj with
    | none => rw [ho] at h3; exact h3.1
    | some q =>
      obtain ⟨id, t, v⟩ := q
      rw [ho] at h3
      refine ⟨h3.1, ?_⟩
      exact hg.ok i _ hc (t, v) (by simp [ho])

theorem life_count (es : List Ev) (f g : Life) (h : life es f = some g) (id : Nat) :
    (f id = none → es.count (.cons id) = (if g id = none then 0 else 1) ∧ es.count (.dest id) = (if g id = some false then 1 else 0)) ∧
    (f id = some true → es.count (.cons id) = 0 ∧ g id ≠ none ∧ es.count (.dest id) = (if g id = some false then 1 else 0)) ∧
    (f id = some false → es.count (.cons id) = 0 ∧ g id = some false ∧ es.count (.dest id) = 0) := by
  induction es generalizing f with
  | nil =>
    simp only [life, Option.some.injEq] at h
    subst h
    refine ⟨fun h => by simp [h], fun h => by simp [h], fun h => by simp [h]⟩
  | cons e es ih =>
    cases e with
    | cons i =>
      simp only [life] at h
      split at h
      · rename_i hi
        have := ih _ h
        by_cases hid : id = i
        · subst hid; simp_all
        · simp_all [Ne.symm hid]
      · cases h
    | dest i =>
      simp only [life] at h
      split at h
      · rename_i hi
        have := ih _ h
        by_cases hid : id = i
        · subst hid; simp_all
        · simp_all [Ne.symm hid]
      · cases h

/-- When all variables have ended or are valueless every object has been destroyed, once. -/
theorem c78_no_leak (c : Cls α) (hn : c.n ≤ 16) (h0 : 0 < c.n) (ks : List (Cmd α)) (h : LegalRun c init ks) (w : W α) (ts : List Bool)
    (e : run c init ks = .inr (w, ts)) (hend : ∀ i v, cont w i ≠ some (some v)) (id : Nat) :
    w.evs.count (.dest id) = w.evs.count (.cons id) ∧ w.evs.count (.cons id) ≤ 1 := by
  obtain ⟨-, h2⟩ := c78_lifetime c hn h0 ks h
  obtain ⟨⟨f, t1, t2⟩, -⟩ := h2 w ts e
  have hf : f id ≠ some true := by
    intro hl
    obtain ⟨i, ⟨s, t, v, hs, ho⟩, -⟩ := (t2 id).1 hl
    exact hend i (t, v) (by simp [cont, hs, ho])
  obtain ⟨a, b⟩ := (life_count _ _ _ t1 id).1 rfl
  rw [a, b]
  cases hg : f id with
  | none => simp
  | some x => cases x <;> simp_all

/-- `emplace<U>` and `in_place_type<U>` accept a type that is not an alternative: whatever the alternatives, an object then lives in the storage but the
index is -1, and the variable's destructor leaves it. -/
theorem c78_foreign_false (c : Cls α) (hc : ∀ n, c.throws n = false) (t : Nat) (ht : c.n ≤ t) (v : α) :
    run c init [.default 0, .emplaceT 0 false t (.lit v), .destroy 0] = .inl false := by
  have : ¬ t < c.n := by omega
  simp [run, init, step, ctorDefault, ctor, emplaceT, clear, constructT, constructFrom, readSrc, leave, construct, call, hc, place, declare, M.onExc, dtor, valueless,
    slot, setIdx, undeclare, destroy, case, destroyObj, indexOf, this, W.set, bind_eq, pure_eq, M.bind, M.pure]

/-! ### C79 -/

theorem refines {c : Cls α} (hn : c.n ≤ 16) (h0 : 0 < c.n) (hc : ∀ n, c.throws n = false) {w : W α} (h : Good c w) (ks : List (Cmd α))
    (hl : LegalAll c.n c.moved c.dflt (cont w) ks) :
    ∃ w', run c w ks = .inr (w', ks.map fun _ => false) ∧ cont w' = ks.foldl (Spec.step c.moved c.dflt) (cont w) := by
  have nt : ¬ Thr c := by rintro ⟨n, h⟩; rw [hc] at h; cases h
  induction ks generalizing w with
  | nil => exact ⟨w, rfl, rfl⟩
  | cons k ks ih =>
    obtain ⟨hk, hs⟩ := hl
    rcases good_step hn h0 h hk with ⟨w1, e, h1, h2⟩ | ⟨w1, e, h1, h2, -⟩ | ⟨-, h2⟩
    · rw [← h2] at hs
      obtain ⟨w', e', h'⟩ := ih h1 hs
      refine ⟨w', ?_, ?_⟩
      · simp only [run, e, e', List.map_cons]
      · rw [h', h2]; rfl
    · exact absurd h2 nt
    · cases k <;> first | exact absurd h2 id | exact absurd h2.1 nt

/-- If nothing throws, every history acts as the specification says: assignments, copies, moves, `emplace` and `swap` give the variables the
alternatives and values asked for, whatever they held before and also if both operands are the same variable. -/
theorem c79_contents (c : Cls α) (hn : c.n ≤ 16) (h0 : 0 < c.n) (hc : ∀ n, c.throws n = false) (ks : List (Cmd α))
    (h : LegalAll c.n c.moved c.dflt (fun _ => none) ks) :
    ∃ w, run c init ks = .inr (w, ks.map fun _ => false) ∧ cont w = ks.foldl (Spec.step c.moved c.dflt) (fun _ => none) :=
  refines hn h0 hc (good_init c) ks h

theorem read_step {c : Cls α} {w : W α} (h : Good c w) {i : Nat} {o : Option (Val α)} (hx : cont w i = some o) :
    ∃ s, w.vars (.user i) = some s ∧ s.idx = (enc o).1 ∧ s.obj.map (·.2) = o := by
  have := congrFun h.av (.user i)
  simp only [emb, hx, Option.map_some] at this
  exact av_some this

/-- Access in a state reached by any history, to a variable with contents `o`: `index`, `valueless_by_exception` and `holds_alternative` tell what it
holds; `get` of an alternative is defined exactly if the variable holds it and `get_if` points to it exactly then; both give the value. Nothing is
changed. -/
theorem c79_access (c : Cls α) (hn : c.n ≤ 16) (h0 : 0 < c.n) (ks : List (Cmd α)) (h : LegalRun c init ks) (w : W α) (ts : List Bool)
    (e : run c init ks = .inr (w, ts)) (i : Nat) (o : Option (Val α)) (hx : cont w i = some o) (t : Nat) (ht : t < c.n) :
    index (.user i) w = .ok w (o.map Prod.fst) ∧ valueless (.user i) w = .ok w o.isNone ∧
    holds c (.user i) t w = .ok w (decide (o.map Prod.fst = some t)) ∧
    get c (.user i) t w = (match o with
      | some (k, v) => if k = t then .ok w v else .bad
      | none => .bad) ∧
    getIf c (some (.user i)) t w = .ok w (match o with
      | some (k, v) => if k = t then some v else none
      | none => none) := by
  have hg := (good_run hn h0 (good_init c) ks h).2 w ts e
  obtain ⟨⟨j, q⟩, hs, hi, ho⟩ := read_step hg hx
  simp only at hi ho
  have e1 : indexOfSize c t = some t := by simp [indexOfSize, indexOf, ht]
  cases o with
  | none =>
    simp only [enc] at hi
    subst hi
    simp [index, valueless, holds, get, getIf, slot, hs, e1, bad, bind_eq, pure_eq, M.bind, M.pure]
  | some u =>
    obtain ⟨k, v⟩ := u
    simp only [enc] at hi
    subst hi
    cases q with
    | none => simp at ho
    | some r =>
      obtain ⟨id, k', v'⟩ := r
      simp only [Option.map_some, Option.some.injEq, Prod.mk.injEq] at ho
      obtain ⟨rfl, rfl⟩ := ho
      by_cases hk : k' = t
      · subst hk
        simp [index, valueless, holds, get, getIf, slot, hs, e1, readObj, bind_eq, pure_eq, M.bind, M.pure]
      · have hk2 : t ≠ k' := Ne.symm hk
        simp [index, valueless, holds, get, getIf, slot, hs, e1, bad, hk, hk2, bind_eq, pure_eq, M.bind, M.pure]

/-- For a type that is no alternative they do not: of a valueless variable `holds_alternative` is true, and `get` and `get_if` go on to an object that
is not there. -/
theorem c79_foreign_false (c : Cls α) (hn : c.n ≤ 16) (h0 : 0 < c.n) (ks : List (Cmd α)) (h : LegalRun c init ks) (w : W α) (ts : List Bool)
    (e : run c init ks = .inr (w, ts)) (i : Nat) (hx : cont w i = some none) (t : Nat) (ht : c.n ≤ t) :
    holds c (.user i) t w = .ok w true ∧ getIf c (some (.user i)) t w = .bad := by
  have hg := (good_run hn h0 (good_init c) ks h).2 w ts e
  obtain ⟨⟨j, q⟩, hs, hi, ho⟩ := read_step hg hx
  simp only [enc] at hi ho
  subst hi
  have : ¬ t < c.n := by omega
  have e1 : indexOfSize c t = none := by simp [indexOfSize, indexOf, this]
  simp only [Option.map_eq_none_iff] at ho
  subst ho
  simp [index, holds, get, getIf, slot, hs, e1, readObj, bind_eq, pure_eq, M.bind, M.pure]

/-- `get_if` of a null pointer dereferences it. -/
theorem c79_null_false (c : Cls α) (t : Nat) (w : W α) : getIf c none t w = .bad := rfl

/-! ### C80 -/

/-- In a state reached by any history a command does what the specification says; or an exception reaches the caller and all variables are as before
or, for an assignment or `emplace`, the target is valueless (`Spec.Exc`, with what a broken-off `swap` leaves); or a move assignment or `swap` ends the
program, which happens only if the alternatives promise `noexcept` assignment but not construction.
Missing: assignment should keep the old value where moves do not throw (`c80_keep_false`), and should let the exception out (`c80_term_false`). -/
theorem c80_exceptions_partial (c : Cls α) (hn : c.n ≤ 16) (h0 : 0 < c.n) (ks : List (Cmd α)) (h : LegalRun c init ks) (w : W α) (ts : List Bool)
    (e : run c init ks = .inr (w, ts)) (k : Cmd α) (hk : Legal c.n (cont w) k) :
    (∃ w', step c k w = .ok w' () ∧ cont w' = Spec.step c.moved c.dflt (cont w) k) ∨
    (∃ w', step c k w = .exc w' ∧ (∃ n, c.throws n = true) ∧ Exc c.moved (cont w) (cont w') k) ∨
    (step c k w = .term ∧ ((∃ i j, k = .assignMove i j) ∨ ∃ i j, k = .swap i j) ∧ (∃ n, c.throws n = true) ∧ (∀ t, t < c.n → c.nothrowAssign t = true) ∧
      ∃ t, t < c.n ∧ c.nothrowCtor t = false) := by
  have hg := (good_run hn h0 (good_init c) ks h).2 w ts e
  have tr : Thr c ∧ allAssign c = true ∧ allCtor c = false → (∃ n, c.throws n = true) ∧ (∀ t, t < c.n → c.nothrowAssign t = true) ∧
      ∃ t, t < c.n ∧ c.nothrowCtor t = false := by
    rintro ⟨h1, h2, h3⟩
    simp only [allAssign, allCtor, List.all_eq_true, List.all_eq_false, List.mem_range] at h2 h3
    obtain ⟨t, h3, h4⟩ := h3
    exact ⟨h1, h2, t, h3, by simpa using h4⟩
  rcases good_step hn h0 hg hk with ⟨w1, e, -, h2⟩ | ⟨w1, e, -, h1, h2⟩ | ⟨e, h1⟩
  · exact .inl ⟨w1, e, h2⟩
  · exact .inr (.inl ⟨w1, e, h1, h2⟩)
  · cases k with
    | assignMove i j => exact .inr (.inr ⟨e, .inl ⟨i, j, rfl⟩, tr h1⟩)
    | swap i j => exact .inr (.inr ⟨e, .inr ⟨i, j, rfl⟩, tr h1⟩)
    | _ => exact absurd h1 id

/-- If no alternative's moves throw, moves and `swap` of variants always succeed. -/
theorem c80_nothrow_move (c : Cls α) (hn : c.n ≤ 16) (h0 : 0 < c.n) (hm : ∀ t, t < c.n → c.nothrowCtor t = true ∧ c.nothrowAssign t = true)
    (ks : List (Cmd α)) (h : LegalRun c init ks) (w : W α) (ts : List Bool) (e : run c init ks = .inr (w, ts)) (k : Cmd α)
    (hk : Legal c.n (cont w) k) (hkm : (∃ i j, k = .move i j) ∨ (∃ i j, k = .assignMove i j) ∨ ∃ i j, k = .swap i j) :
    ∃ w', step c k w = .ok w' () ∧ cont w' = Spec.step c.moved c.dflt (cont w) k := by
  have ne : ∀ {β : Type} (m : M α β) (b : Bool) w', b = true → M.noexcept b m w ≠ .exc w' := by
    rintro β m b w' rfl
    simp only [M.noexcept]
    cases m w <;> simp
  have hC : allCtor c = true := by simp only [allCtor, List.all_eq_true, List.mem_range]; exact fun t ht => (hm t ht).1
  have hA : allAssign c = true := by simp only [allAssign, List.all_eq_true, List.mem_range]; exact fun t ht => (hm t ht).2
  have hS : allSwap c = true := by
    simp only [allSwap, List.all_eq_true, List.mem_range]
    intro t ht
    simp [hm t ht]
  rcases c80_exceptions_partial c hn h0 ks h w ts e k hk with h1 | ⟨w', h1, -⟩ | ⟨-, -, -, -, t, ht, h2⟩
  · exact h1
  · rcases hkm with ⟨i, j, rfl⟩ | ⟨i, j, rfl⟩ | ⟨i, j, rfl⟩
    · exact absurd h1 (ne _ _ _ hC)
    · exact absurd h1 (ne _ _ _ hA)
    · exact absurd h1 (ne _ _ _ hS)
  · rw [(hm t ht).1] at h2; cases h2

set_option linter.unusedSimpArgs false

/-- The copy assignment of an alternative whose copy throws leaves the target valueless, also if no move throws; `std::variant` then keeps the old value.
(Any alternatives; the third call throws.) -/
theorem c80_keep_false (c : Cls α) (hn : 2 ≤ c.n) (v : α) (h0 : c.throws 0 = false) (h1 : c.throws 1 = false) (h2 : c.throws 2 = true) :
    LegalRun c init [.default 0, .ofValue 1 false 1 (.lit v), .assignCopy 0 1] ∧
    ∃ w, run c init [.default 0, .ofValue 1 false 1 (.lit v), .assignCopy 0 1] = .inr (w, [false, false, true]) ∧ cont w 0 = some none := by
  have : 1 < c.n := by omega
  constructor <;>
  simp [h0, h1, h2, this, LegalRun, LegalAll, Legal, Has, cont, Spec.step, store, upd, left, run, init, step, ctorDefault, ctorValue, ctorCopy, ctorMove, ctorInPlaceT, ctorInPlaceI, ctor,
    Variant.assignCopy, Variant.assignMove, Variant.assignValue, Variant.emplaceT, Variant.emplaceI, Variant.swap, swapValue, clear, constructT, constructI, constructFrom, assignFrom,
    copyConstruct, moveConstruct, copyAssign, moveAssign, readSrc, leave, construct, call, place, declare, undeclare, M.onExc, M.noexcept, M.finally_, dtor, valueless, index, slot,
    setIdx, destroy, case, destroyObj, readObj, writeObj, indexOf, allAssign, allCtor, allSwap, W.set, bind_eq, pure_eq, M.bind, M.pure]

/-- The move assignment of another alternative ends the program if its move constructor throws, where no move assignment does. -/
theorem c80_term_false (c : Cls α) (hn : 2 ≤ c.n) (ha : ∀ t, c.nothrowAssign t = true) (hc : c.nothrowCtor 1 = false) (v : α) (h0 : c.throws 0 = false)
    (h1 : c.throws 1 = false) (h2 : c.throws 2 = true) :
    LegalRun c init [.default 0, .ofValue 1 false 1 (.lit v), .assignMove 0 1] ∧
    run c init [.default 0, .ofValue 1 false 1 (.lit v), .assignMove 0 1] = .inl true := by
  have : 1 < c.n := by omega
  have hb : (List.range c.n).all c.nothrowAssign = true := by simp [ha]
  constructor <;>
  simp [h0, h1, h2, hc, hb, this, LegalRun, LegalAll, Legal, Has, cont, Spec.step, store, upd, left, run, init, step, ctorDefault, ctorValue, ctorCopy, ctorMove, ctorInPlaceT, ctorInPlaceI, ctor,
    Variant.assignCopy, Variant.assignMove, Variant.assignValue, Variant.emplaceT, Variant.emplaceI, Variant.swap, swapValue, clear, constructT, constructI, constructFrom, assignFrom,
    copyConstruct, moveConstruct, copyAssign, moveAssign, readSrc, leave, construct, call, place, declare, undeclare, M.onExc, M.noexcept, M.finally_, dtor, valueless, index, slot,
    setIdx, destroy, case, destroyObj, readObj, writeObj, indexOf, allAssign, allCtor, allSwap, W.set, bind_eq, pure_eq, M.bind, M.pure]

/-- A `swap` broken off loses a value: neither variable has it. -/
theorem c80_swap_false (c : Cls α) (hn : 2 ≤ c.n) (ha : ∀ t, c.nothrowAssign t = false) (hc : ∀ t, c.nothrowCtor t = false) (v : α)
    (ht : ∀ n, c.throws n = (n == 4)) :
    LegalRun c init [.default 0, .ofValue 1 false 1 (.lit v), .swap 0 1] ∧
    ∃ w, run c init [.default 0, .ofValue 1 false 1 (.lit v), .swap 0 1] = .inr (w, [false, false, true]) ∧ cont w 0 = some (some (1, v)) ∧ cont w 1 = some none := by
  have : 1 < c.n := by omega
  have h0 : 0 < c.n := by omega
  have hb : allAssign c = false := by simp only [allAssign, List.all_eq_false, List.mem_range]; exact ⟨0, h0, by simp [ha]⟩
  have hd : allCtor c = false := by simp only [allCtor, List.all_eq_false, List.mem_range]; exact ⟨0, h0, by simp [hc]⟩
  have hf : allSwap c = false := by
    simp only [allSwap, List.all_eq_false, List.mem_range]; exact ⟨0, h0, by simp [hc]⟩
  constructor <;>
  simp [ht, hc, hb, hd, hf, this, LegalRun, LegalAll, Legal, Has, cont, Spec.step, store, upd, left, run, init, step, ctorDefault, ctorValue, ctorCopy, ctorMove, ctorInPlaceT, ctorInPlaceI, ctor,
    Variant.assignCopy, Variant.assignMove, Variant.assignValue, Variant.emplaceT, Variant.emplaceI, Variant.swap, swapValue, clear, constructT, constructI, constructFrom, assignFrom,
    copyConstruct, moveConstruct, copyAssign, moveAssign, readSrc, leave, construct, call, place, declare, undeclare, M.onExc, M.noexcept, M.finally_, dtor, valueless, index, slot,
    setIdx, destroy, case, destroyObj, readObj, writeObj, indexOf, W.set, bind_eq, pure_eq, M.bind, M.pure]

/-! ### Hypotheses are met -/

/-- Three alternatives; the second's moves may throw; call 3 throws. -/
def demoCls : Cls Nat := ⟨3, 7, fun t => t != 1, fun t => t != 1, fun _ _ => 0, fun n => n == 3⟩

def demo : List (Cmd Nat) := [.default 0, .ofValue 1 true 1 (.lit 5), .copy 2 1, .assignCopy 0 1, .swap 1 0, .inPlaceT 3 false 1 (.at 2), .assignMove 3 1]

example : LegalRun demoCls init demo ∧ ∃ w, run demoCls init demo = .inr (w, [false, false, false, true, false, false, false]) ∧ cont w 0 = some (some (1, 5)) ∧
    cont w 1 = some none ∧ cont w 3 = some none := by
  constructor <;>
  simp [demo, demoCls, List.range, List.range.loop, LegalRun, LegalAll, Legal, Has, cont, Spec.step, store, upd, left, run, init, step, ctorDefault, ctorValue, ctorCopy, ctorMove, ctorInPlaceT, ctorInPlaceI, ctor,
    Variant.assignCopy, Variant.assignMove, Variant.assignValue, Variant.emplaceT, Variant.emplaceI, Variant.swap, swapValue, clear, constructT, constructI, constructFrom, assignFrom,
    copyConstruct, moveConstruct, copyAssign, moveAssign, readSrc, leave, construct, call, place, declare, undeclare, M.onExc, M.noexcept, M.finally_, dtor, valueless, index, slot,
    setIdx, destroy, case, destroyObj, readObj, writeObj, indexOf, allAssign, allCtor, allSwap, W.set, bind_eq, pure_eq, M.bind, M.pure]

def demo2 : List (Cmd Nat) := [.default 0, .ofValue 1 true 1 (.lit 5), .copy 2 1, .assignMove 2 0, .move 3 1, .swap 0 3, .emplaceT 0 true 1 (.at 1), .emplaceI 1 false 2 (.lit 3),
  .assignValue 1 true 2 (.at 1), .assignCopy 0 0, .swap 1 1, .assignValue 2 false 1 (.at 0), .inPlaceI 4 true 1 (.at 0), .destroy 4]

example : LegalAll 3 (fun _ _ => 0) 7 (fun _ => none) demo2 := by
  simp [demo2, LegalAll, Legal, Has, Spec.step, store, upd, left]

end Nanostl.Variant

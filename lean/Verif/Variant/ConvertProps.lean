import Verif.Variant.Convert
import Verif.Traits.Lemmas
import Mathlib.Data.List.Nodup

/-! C125: what a `variant` made from a value holds. -/

namespace Nanostl.Variant.Convert

open Nanostl.Traits Nanostl.Traits.Spec Nanostl.Traits.Wrap

/-- The alternative for an argument: the one of its type; if there is none, the one that it converts to better than to every other. -/
def Best (C : Conv) (s : Src) (ts : List Ty) (i : Nat) : Prop :=
  ∃ t, ts[i]? = some t ∧ (t = s.base ∨ s.base ∉ ts ∧ ∃ k, C.rank s t = some k ∧
    ∀ j u, j ≠ i → ts[j]? = some u → ∀ k', C.rank s u = some k' → k < k')

/-- The argument itself, or a base of it, is what the alternative is made from, and it must not be changed. -/
def Kept (C : Conv) (s : Src) (t : Ty) : Prop := (t = s.base ∨ C.related s.base t = true) ∧ (s.lv = true ∨ s.const = true)

theorem mem_cands {ts : List Ty} {c : Cand} : c ∈ cands ts ↔ c.idx < ts.length := by
  rcases c with ⟨i, k⟩; cases k <;> simp [cands]

theorem better_asymm {k m k' m'} (h : better k m k' m' = true) : better k' m' k m = false := by
  cases k <;> cases k' <;> simp [better] at * <;> omega

/-- The candidate is viable and better than the others. -/
def Wins (C : Conv) (s : Src) (ts : List Ty) (c : Cand) : Prop :=
  ∃ m, c.seq C s ts = some m ∧ ∀ d, d ≠ c → ∀ n, d.seq C s ts = some n → better c.kind m d.kind n = true

theorem seq_lt {C : Conv} {s : Src} {ts : List Ty} {c : Cand} {m : Nat} (h : c.seq C s ts = some m) : c ∈ cands ts := by
  rw [mem_cands]
  simp only [Cand.seq, Option.bind_eq_some_iff] at h
  obtain ⟨t, h, -⟩ := h
  exact (List.getElem?_eq_some_iff.1 h).1

theorem wins_unique {C : Conv} {s : Src} {ts : List Ty} {c d : Cand} (h : Wins C s ts c) (g : Wins C s ts d) : c = d := by
  by_contra e
  obtain ⟨m, h1, h2⟩ := h
  obtain ⟨n, g1, g2⟩ := g
  have a := better_asymm (h2 d (Ne.symm e) n g1)
  rw [g2 c e m h1] at a
  simp at a

theorem resolve_iff (C : Conv) (s : Src) (ts : List Ty) (c : Cand) : resolve C s ts = some c ↔ Wins C s ts c := by
  have key : ∀ c, wins C s ts c = true ↔ Wins C s ts c := by
    intro c
    unfold Wins wins
    cases h : c.seq C s ts with
    | none => simp
    | some m =>
      simp only [List.all_eq_true, Bool.or_eq_true, beq_iff_eq, Option.some.injEq, exists_eq_left']
      constructor
      · intro g d e n hn
        have := (g d (seq_lt hn)).resolve_left e
        simpa [hn] using this
      · intro g d _
        by_cases e : d = c
        · exact .inl e
        · right
          cases hn : d.seq C s ts with
          | none => rfl
          | some n => simpa using g d e n hn
  constructor
  · intro h
    exact (key c).1 (List.find?_some h)
  · intro h
    cases g : resolve C s ts with
    | none =>
      have := List.find?_eq_none.1 g c (by obtain ⟨m, h, -⟩ := h; exact seq_lt h)
      exact absurd ((key c).2 h) this
    | some d =>
      have := (key d).1 (List.find?_some g)
      rw [wins_unique this h]

theorem seq_of {C : Conv} {s : Src} {ts : List Ty} {i : Nat} {t : Ty} (h : ts[i]? = some t) (k : Kind) :
    Cand.seq C s ts ⟨i, k⟩ = Convert.seq C s k t := by simp [Cand.seq, h]

open Classical in
theorem best_wins {C : Conv} {s : Src} {ts : List Ty} (hn : ts.Nodup) {i : Nat} {t : Ty} (ht : ts[i]? = some t) (h : Best C s ts i) :
    Wins C s ts ⟨i, if Kept C s t then .copy else .move⟩ := by
  obtain ⟨t', ht', h⟩ := h
  obtain rfl : t' = t := by rw [ht] at ht'; exact (Option.some.inj ht').symm
  have uniq : ∀ j, ts[j]? = some t' → j = i := by
    intro j hj
    obtain ⟨a, b⟩ := List.getElem?_eq_some_iff.1 hj
    obtain ⟨a', b'⟩ := List.getElem?_eq_some_iff.1 ht
    exact (hn.getElem_inj_iff (hi := a) (hj := a')).1 (b.trans b'.symm)
  rcases h with rfl | ⟨hs, k, hk, hb⟩
  · refine ⟨0, ?_, ?_⟩
    · rw [seq_of ht]
      by_cases q : s.lv = true ∨ s.const = true
      · simp [Kept, q, seq]
      · simp only [Kept, q, and_false, if_false, seq, if_true]
        rcases s with ⟨b, _ | _, _ | _⟩ <;> simp at q ⊢
    · rintro ⟨j, k⟩ e n hd
      simp only [Cand.seq, Option.bind_eq_some_iff] at hd
      obtain ⟨u, hu, hd⟩ := hd
      by_cases g : s.base = u
      · subst g
        obtain rfl := uniq j hu
        rcases s with ⟨b, _ | _, _ | _⟩ <;> cases k <;> simp [seq, Kept, better] at hd e ⊢; omega
      · have : 0 < n := by
          simp only [seq, g, if_false] at hd
          split at hd
          · simp at hd
          · simp only [Option.map_eq_some_iff] at hd
            obtain ⟨a, -, rfl⟩ := hd
            omega
        simp [better, this]
  · have ne : ∀ {j u}, ts[j]? = some u → s.base ≠ u := fun hu e => hs (e ▸ List.mem_of_getElem? hu)
    refine ⟨k + 1, ?_, ?_⟩
    · rw [seq_of ht]
      have := ne ht
      by_cases q : Kept C s t'
      · simp [q, seq, this, hk]
      · simp only [q, if_false, seq, this, hk]
        have : (C.related s.base t' && (s.lv || s.const)) = false := by
          simp only [Kept] at q
          rcases s with ⟨b, _ | _, _ | _⟩ <;> simp at q ⊢ <;> grind
        simp [this]
    · rintro ⟨j, kd⟩ e n hd
      simp only [Cand.seq, Option.bind_eq_some_iff] at hd
      obtain ⟨u, hu, hd⟩ := hd
      have g := ne hu
      simp only [seq, g, if_false] at hd
      by_cases ji : j = i
      · subst ji
        obtain rfl : t' = u := by rw [ht] at hu; exact Option.some.inj hu
        by_cases q : Kept C s t'
        · have : (C.related s.base t' && (s.lv || s.const)) = true := by
            rcases q with ⟨q | q, q'⟩
            · exact absurd q.symm g
            · simp only [q, Bool.true_and, Bool.or_eq_true]; exact q'
          cases kd <;> simp [q, this] at hd e
        · split at hd
          · simp at hd
          · simp [hk] at hd
            subst hd
            cases kd <;> simp [q, better] at e ⊢
      · split at hd
        · simp at hd
        · simp only [Option.map_eq_some_iff] at hd
          obtain ⟨a, ha, rfl⟩ := hd
          have := hb j u ji hu a ha
          simp [better, this]

theorem wins_best {C : Conv} {s : Src} {ts : List Ty} {c : Cand} (h : Wins C s ts c) : Best C s ts c.idx := by
  obtain ⟨i, k⟩ := c
  obtain ⟨m, hm, h⟩ := h
  have hm' := hm
  simp only [Cand.seq, Option.bind_eq_some_iff] at hm
  obtain ⟨t, ht, hm⟩ := hm
  refine ⟨t, ht, ?_⟩
  by_cases g : s.base = t
  · exact .inl g.symm
  right
  have hs : s.base ∉ ts := by
    intro hs
    obtain ⟨j, hj⟩ := List.mem_iff_getElem?.1 hs
    have := h ⟨j, .copy⟩ (by rintro ⟨⟩; rw [ht] at hj; exact g (Option.some.inj hj).symm) 0 (by rw [seq_of hj]; simp [seq])
    simp only [seq, g, if_false] at hm
    split at hm
    · simp at hm
    · simp only [Option.map_eq_some_iff] at hm
      obtain ⟨a, -, rfl⟩ := hm
      simp [better] at this
  refine ⟨hs, ?_⟩
  simp only [seq, g, if_false] at hm
  split at hm
  · simp at hm
  rename_i q
  simp only [Option.map_eq_some_iff] at hm
  obtain ⟨a, ha, rfl⟩ := hm
  refine ⟨a, ha, fun j u ji hu k' hk' => ?_⟩
  have gu : s.base ≠ u := fun e => hs (e ▸ List.mem_of_getElem? hu)
  by_contra lt
  have hc := h ⟨j, .copy⟩ (by rintro ⟨⟩; exact ji rfl) (k' + 1) (by rw [seq_of hu]; simp [seq, gu, hk'])
  have eq : a = k' ∧ k = .move := by
    cases k <;> simp [better] at hc ⊢ <;> omega
  obtain ⟨rfl, rfl⟩ := eq
  have r := C.fair s t u (by simp [ha]) (by rw [ha, hk'])
  have q' : (C.related s.base u && (s.lv || s.const)) = false := by rw [← r]; simpa using q
  have := h ⟨j, .move⟩ (by rintro ⟨⟩; exact ji rfl) (a + 1) (by rw [seq_of hu]; simp [seq, gu, hk', q'])
  simp [better] at this

/-- A `variant` made from or assigned a value holds the alternative of the value's type, whatever the others are, otherwise the one that the value converts to better than
to every other. -/
theorem c125_holds (C : Conv) (s : Src) (ts : List Ty) (hn : ts.Nodup) (i : Nat) :
    (∃ k, resolve C s ts = some ⟨i, k⟩) ↔ Best C s ts i := by
  constructor
  · rintro ⟨k, h⟩
    exact wins_best ((resolve_iff C s ts _).1 h)
  · intro h
    have h' := h
    obtain ⟨t, ht, -⟩ := h'
    exact ⟨_, (resolve_iff C s ts _).2 (best_wins hn ht h)⟩

/-- If there is no such alternative, it does not compile. -/
theorem c125_rejected (C : Conv) (s : Src) (ts : List Ty) (hn : ts.Nodup) : resolve C s ts = none ↔ ∀ i, ¬ Best C s ts i := by
  constructor
  · intro h i g
    obtain ⟨k, e⟩ := (c125_holds C s ts hn i).2 g
    rw [h] at e; simp at e
  · intro h
    cases e : resolve C s ts with
    | none => rfl
    | some c => exact absurd ((c125_holds C s ts hn c.idx).1 ⟨c.kind, e⟩) (h _)

/-- The argument is moved from exactly if it is no lvalue and not const, or if not it but a temporary is what the alternative is made from. -/
theorem c125_moves (C : Conv) (s : Src) (ts : List Ty) (hn : ts.Nodup) (c : Cand) (h : resolve C s ts = some c) (t : Ty)
    (ht : ts[c.idx]? = some t) : c.kind = .copy ↔ Kept C s t := by
  classical
  have w := (resolve_iff C s ts c).1 h
  have := wins_unique w (best_wins hn ht (wins_best w))
  have k := congrArg Cand.kind this
  simp only at k
  rw [k]
  by_cases q : Kept C s t <;> simp [q]

/-- In particular a value of the type of the alternative `i` makes that, moved from a non-const rvalue and copied from all else. -/
theorem c125_own (C : Conv) (s : Src) (ts : List Ty) (hn : ts.Nodup) (i : Nat) (h : ts[i]? = some s.base) :
    resolve C s ts = some ⟨i, if s.lv || s.const then .copy else .move⟩ := by
  obtain ⟨k, e⟩ := (c125_holds C s ts hn i).2 ⟨_, h, .inl rfl⟩
  have := c125_moves C s ts hn _ e _ h
  rw [e]
  rcases s with ⟨b, _ | _, _ | _⟩ <;> cases k <;> simp [Kept] at this ⊢

theorem addConst_remove (t : Ty) : addConst (remove_const t) = addConst t := by
  unfold remove_const
  cases h : matchConst t with
  | none => rfl
  | some u => have := (matchConst_some h).1; simp only [Option.getD_some]; rw [← this, addConst_addConst]

theorem quals_remove (t : Ty) : (quals (remove_const t)).c = false := by
  unfold remove_const
  cases h : matchConst t with
  | none => exact matchConst_none h
  | some u => simp [(matchConst_some h).2.1]

theorem addConst_eq_iff (t u : Ty) : addConst t = addConst u ↔ remove_const t = remove_const u :=
  ⟨fun h => addConst_inj (quals_remove t) (quals_remove u) (by rw [addConst_remove, addConst_remove, h]),
   fun h => by rw [← addConst_remove t, ← addConst_remove u, h]⟩

theorem param_copy {t : Ty} (h : object t) : Cand.param .copy t = .lref (addConst t) := by
  cases t <;> simp_all [Cand.param, addConst, mkLref, object, cat]

theorem param_move {t : Ty} (h : object t) : Cand.param .move t = .rref t := by
  cases t <;> simp_all [Cand.param, mkRref, object, cat]

theorem canRef_object {t : Ty} (h : object t) : canRef t = true := by
  obtain ⟨h1, h2, h3, h4⟩ := h
  unfold canRef
  split <;> simp_all [cat]

/-- The class is one exactly if no two alternatives are the same type but for const. -/
theorem c125_class_partial (ts : List Ty) (h : ∀ t ∈ ts, object t) : formed ts = true ↔ (ts.map remove_const).Nodup := by
  have a : ts.all canRef = true := List.all_eq_true.2 fun t m => canRef_object (h t m)
  have pc : ts.map (Cand.param .copy) = ts.map fun t => .lref (addConst t) := List.map_congr_left fun t m => param_copy (h t m)
  have pm : ts.map (Cand.param .move) = ts.map .rref := List.map_congr_left fun t m => param_move (h t m)
  simp only [formed, a, Bool.true_and, decide_eq_true_eq, params, pc, pm, List.nodup_append]
  have e : (ts.map fun t => Ty.lref (addConst t)).Nodup ↔ (ts.map remove_const).Nodup := by
    simp only [List.Nodup, List.pairwise_map, ne_eq, Ty.lref.injEq, addConst_eq_iff]
  rw [e]
  constructor
  · exact fun h => h.1
  · intro n
    refine ⟨n, ?_, ?_⟩
    · exact List.Nodup.map (fun a b h => by simpa using h) (List.Nodup.of_map _ n)
    · simp only [List.mem_map, forall_exists_index, and_imp, forall_apply_eq_imp_iff₂, ne_eq, reduceCtorEq, not_false_eq_true, implies_true]

/-- So alternatives of a class that is one are different types, as the theorems above ask. -/
theorem c125_class_nodup (ts : List Ty) (h : ∀ t ∈ ts, object t) (f : formed ts = true) : ts.Nodup :=
  List.Nodup.of_map _ ((c125_class_partial ts h).1 f)

/-- No alternative is an lvalue reference or void. -/
theorem c125_class_objects (ts : List Ty) (f : formed ts = true) (t : Ty) (m : t ∈ ts) : cat t ≠ .lref ∧ cat t ≠ .void := by
  simp only [formed, Bool.and_eq_true, List.all_eq_true, decide_eq_true_eq, params, List.nodup_append] at f
  obtain ⟨f, -, -, g⟩ := f
  have g := g _ (List.mem_map_of_mem m) _ (List.mem_map_of_mem m)
  have f := f t m
  constructor
  · intro e
    unfold cat at e
    split at e <;> simp_all [Cand.param, addConst, mkLref, mkRref]
  · intro e
    unfold cat at e
    split at e <;> simp_all [canRef]

/-- Two alternatives of one type, which `std::variant` allows, make no class; nor do `T` and `T const`. -/
theorem c125_repeat_false (t : Ty) (h : object t) (us : List Ty) (hu : ∀ u ∈ us, object u) :
    formed (t :: t :: us) = false ∧ formed (t :: addConst t :: us) = false := by
  have o : object (addConst t) := by
    have : cat (addConst t) = cat t := by
      clear h
      cases t with
      | base q b => cases b <;> simp [addConst, cat]; rename_i f; cases f <;> rfl
      | mem q t n => cases t <;> rfl
      | _ => rfl
    simpa only [object, this] using h
  have e : remove_const (addConst t) = remove_const t := (addConst_eq_iff _ _).1 (addConst_addConst t)
  constructor
  · rw [← Bool.not_eq_true, c125_class_partial _ (by simpa [h] using hu)]; simp
  · rw [← Bool.not_eq_true, c125_class_partial _ (by simpa [h, o] using hu)]; simp [e]

/-! The theorems at work: `string` is class 0, class 2 is derived from class 1. A pointer converts to `bool` by a standard conversion, to `string` by a constructor. -/

def int : Ty := .base {} (.fund .int)
def bool : Ty := .base {} (.fund .bool)
def cls (n : Nat) : Ty := .base {} (.cls n)
def text : Ty := .ptr {} (.base { c := true } (.fund .char))

def some' : Conv where
  rank s t :=
    if s.base = cls 2 then (if t = cls 1 then some 3 else if t = cls 0 then some 9 else none)
    else if s.base = text then (if t = bool then some 5 else if t = cls 0 then some 9 else none)
    else none
  related t u := decide (t = cls 2 ∧ u = cls 1)
  fair := by
    intro s t u h e
    simp only [cls, text, bool] at *
    grind

/-- `c125_holds`, `c125_moves`: a `variant<int, string>` from a text is a string, made in a temporary and moved; -/
example : Best some' ⟨text, true, false⟩ [int, cls 0] 1 :=
  ⟨cls 0, rfl, .inr ⟨by decide, 9, by decide, by
    rintro (_ | _ | j) u h e
    · simp at e; subst e; intro k' g; exact absurd g (by simp [some', text, int, cls, bool])
    · exact absurd rfl h
    · simp at e⟩⟩

example : resolve some' ⟨text, true, false⟩ [int, cls 0] = some ⟨1, .move⟩ ∧ ¬ Kept some' ⟨text, true, false⟩ (cls 0) := by
  constructor
  · decide
  · simp [Kept, some', text, cls]

/-- a `variant<bool, string>` from a text is a `bool`; -/
example : resolve some' ⟨text, true, false⟩ [bool, cls 0] = some ⟨0, .move⟩ := by decide

/-- an lvalue of a derived class is copied into the base, an rvalue moved. -/
example : resolve some' ⟨cls 2, true, false⟩ [cls 0, cls 1] = some ⟨1, .copy⟩ ∧ resolve some' ⟨cls 2, false, false⟩ [cls 0, cls 1] = some ⟨1, .move⟩ := by decide

/-- `c125_rejected`: a text makes no `variant<int, class 1>`. -/
example : resolve some' ⟨text, true, false⟩ [int, cls 1] = none ∧ [int, cls 1].Nodup := by decide

/-- `c125_own`. -/
example : [int, cls 0][1]? = some (Src.base ⟨cls 0, false, true⟩) ∧ [int, cls 0].Nodup := by decide

/-- `c125_class_partial`, `c125_class_nodup`, `c125_class_objects`: `variant<int, string const>` is a class. -/
example : formed [int, addConst (cls 0)] = true ∧ (∀ t ∈ [int, addConst (cls 0)], object t) := by
  constructor
  · decide
  · simp [object, cat, int, cls, addConst]

/-- `c125_repeat_false`: `variant<int, int>`. -/
example : object int ∧ formed [int, int] = false := by
  constructor
  · simp [object, cat, int]
  · decide

end Nanostl.Variant.Convert

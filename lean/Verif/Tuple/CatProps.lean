import Verif.Tuple.Lemmas

/-! C93: `tuple_cat` concatenates. C94: what it does with the elements of rvalue tuples. -/

namespace Nanostl.Tuple

open Nanostl.Seq (makeSeq_lt c59_select)

theorem mapM_range {β : Type} {f : Nat → Option β} {r : List β} {n : Nat} (hn : n = r.length) (h : ∀ i (hi : i < r.length), f i = some r[i]) :
    (List.range n).mapM f = some r := by
  subst hn
  by_cases he : r.length = 0
  · rw [he, List.eq_nil_of_length_eq_zero he]; rfl
  · have hpos : 0 < r.length := Nat.pos_of_ne_zero he
    rw [mapM_eq (g := fun i => if hi : i < r.length then r[i] else r[0])]
    · congr 1
      apply List.ext_getElem
      · simp
      · intro i h1 h2
        simp [h2]
    · intro i hi
      have := List.mem_range.mp hi
      rw [h i this, dif_pos this]

theorem zipPacks_mapM {β : Type} {f : Nat → Nat → Option β} (l : List (Nat × Nat)) :
    zipPacks f (l.map fun p => (p.1 : Int)) (l.map fun p => (p.2 : Int)) = l.mapM fun p => f p.1 p.2 := by
  induction l with
  | nil => rfl
  | cons a l ih =>
    simp only [List.map_cons]
    rw [zipPacks, List.mapM_cons]
    simp only [Int.toNat_natCast, ih]

theorem mapM_append_some {α β : Type} {f : α → Option β} {a b : List α} {x y : List β} (h1 : a.mapM f = some x) (h2 : b.mapM f = some y) :
    (a ++ b).mapM f = some (x ++ y) := by
  induction a generalizing x with
  | nil =>
    have e : x = [] := by simpa using h1.symm
    subst e
    exact h2
  | cons c a ih =>
    rw [List.mapM_cons] at h1
    rw [List.cons_append, List.mapM_cons]
    cases hf : f c with
    | none => rw [hf] at h1; simp at h1
    | some v =>
      rw [hf] at h1
      cases hm : a.mapM f with
      | none => rw [hm] at h1; simp at h1
      | some z =>
        rw [hm] at h1
        have e : x = v :: z := by simpa using h1.symm
        subst e
        rw [ih hm]
        rfl

theorem positions_mapM {α β : Type} (as : List α) (len : α → Nat) (h : α → Nat → Option β) (r : α → List β)
    (hr : ∀ a ∈ as, (List.range (len a)).mapM (h a) = some (r a)) :
    (Spec.positions (as.map len)).mapM (fun p => (as[p.1]?).bind fun a => h a p.2) = some (as.flatMap r) := by
  induction as with
  | nil => rfl
  | cons a as ih =>
    rw [List.map_cons, Spec.positions, List.flatMap_cons]
    apply mapM_append_some
    · rw [List.mapM_map, ← hr a List.mem_cons_self]
      congr 1
    · rw [List.mapM_map, ← ih fun b hb => hr b (List.mem_cons_of_mem _ hb)]
      congr 1

/-- The two implementations of `sum`. -/
def Spec.IsSum (sm : Seq.Ty → List Int → Option Int) : Prop := sm = Seq.sumFold ∨ sm = Seq.sumNoFold

theorem isSum_exact {w : Nat} (hw : 1 ≤ w) {sm : Seq.Ty → List Int → Option Int} (h : Spec.IsSum sm) : ExactSum w sm := by
  rcases h with rfl | rfl
  · exact exact_fold w
  · exact exact_noFold hw

/-- The number of elements of all arguments. -/
def Spec.total (args : List Arg) : Nat := (args.map fun a => a.tys.length).sum

theorem sizes_eq (args : List Arg) : sizes args = (args.map fun a => a.tys.length).map Int.ofNat := by
  unfold sizes tupleSize
  rw [List.map_map]
  rfl

theorem le_total {args : List Arg} {a : Arg} (ha : a ∈ args) : a.tys.length ≤ Spec.total args := by
  unfold Spec.total
  induction args with
  | nil => cases ha
  | cons b l ih =>
    rw [List.map_cons, List.sum_cons]
    rcases List.mem_cons.mp ha with rfl | h
    · omega
    · have := ih h; omega

section
variable {w : Nat} {sm : Seq.Ty → List Int → Option Int}

/-- The element types of the result are those of the arguments, one tuple after the other, whatever the sizes (0 included). -/
theorem c93_types (hs : Spec.IsSum sm) (hw : 20 ≤ w) (args : List Arg) (hl : args.length + 1 < 2 ^ 20) (ht : Spec.total args < 2 ^ 20) :
    catTypes sm w args = some (args.flatMap fun a => a.tys) := by
  have he := isSum_exact (w := w) (by omega) hs
  unfold catTypes
  have hl' : (args.map fun a => a.tys.length).length + 1 < 2 ^ 20 := by rw [List.length_map]; exact hl
  rw [sizes_eq, outerIndex_eq he hw _ hl' ht, innerIndex_eq he hw _ hl' ht]
  simp only [Option.bind_eq_bind, Option.bind_some]
  rw [zipPacks_mapM]
  have := positions_mapM args (fun a => a.tys.length) (fun a i => tupleElement i { c := a.isConst } a.tys) (fun a => a.tys) (by
    intro a ha
    apply mapM_range rfl
    intro i hi
    unfold tupleElement
    have : a.tys.length ≤ Spec.total args := by
      exact le_total ha
    rw [c59_select i a.tys (by omega), List.getElem?_eq_getElem hi])
  rw [← this]
  congr 1
  funext p
  rw [c59_select _ _ (by omega)]

/-- Specification: the type of an lvalue that names an element of type `t` of a tuple: a reference to what a reference refers to, otherwise to
the element itself, which is const in a const tuple. -/
def Spec.lvalueOf (isConst : Bool) : CTy → CTy
  | .lref u => .lref u
  | .rref u => .lref u
  | t => .lref (if isConst then Traits.addConst t else t)

theorem addConst_ref (t : CTy) (h : Traits.is_reference t = false) : Traits.is_reference (Traits.addConst t) = false := by
  cases t <;> simp_all [Traits.is_reference, Traits.addConst]

theorem mkLref_noref (t : CTy) (h : Traits.is_reference t = false) : Traits.mkLref t = .lref t := by
  cases t <;> simp_all [Traits.is_reference, Traits.mkLref]

theorem lvalueOf_eq (isConst : Bool) (t : CTy) : Spec.lvalueOf isConst t = Traits.mkLref (if isConst then Traits.addConst t else t) := by
  by_cases h : Traits.is_reference t = false
  · have e : Spec.lvalueOf isConst t = .lref (if isConst then Traits.addConst t else t) := by
      cases t <;> first | rfl | cases h
    rw [e, mkLref_noref]
    cases isConst
    · exact h
    · exact addConst_ref t h
  · cases t <;> first | (exfalso; exact h rfl) | (cases isConst <;> rfl)

/-- The elements of the result are initialised with the elements of the arguments, one tuple after the other, each named as an lvalue. -/
theorem c93_values (hs : Spec.IsSum sm) (hw : 20 ≤ w) (args : List Arg) (hl : args.length + 1 < 2 ^ 20) (ht : Spec.total args < 2 ^ 20)
    (hlocs : ∀ a ∈ args, a.locs.length = a.tys.length) :
    catInits sm w args = some (args.flatMap fun a => a.locs.zip (a.tys.map (Spec.lvalueOf a.isConst))) := by
  have he := isSum_exact (w := w) (by omega) hs
  unfold catInits
  have hl' : (args.map fun a => a.tys.length).length + 1 < 2 ^ 20 := by rw [List.length_map]; exact hl
  rw [sizes_eq, outerIndex_eq he hw _ hl' ht, innerIndex_eq he hw _ hl' ht]
  simp only [Option.bind_eq_bind, Option.bind_some]
  rw [zipPacks_mapM]
  have := positions_mapM args (fun a => a.tys.length) (fun a i => (getLoc i a.locs).bind fun l => (getTy a.isConst .lv i a.tys).bind fun t =>
      pure (l, t)) (fun a => a.locs.zip (a.tys.map (Spec.lvalueOf a.isConst))) (by
    intro a ha
    have hla := hlocs a ha
    apply mapM_range (by simp [hla])
    intro i hi
    have hi2 : i < a.tys.length := by simp [hla] at hi; exact hi
    have : a.tys.length ≤ Spec.total args := by
      exact le_total ha
    unfold getLoc getTy
    rw [c59_select i a.locs (by omega), c59_select i a.tys (by omega), List.getElem?_eq_getElem hi2, List.getElem?_eq_getElem (by omega)]
    simp only [Option.bind_eq_bind, Option.bind_some, List.getElem_zip, List.getElem_map]
    rw [lvalueOf_eq]
    obtain ⟨c, k, ty, lo⟩ := a
    cases k <;> rfl)
  rw [← this]
  congr 1
  funext p
  rw [c59_select _ _ (by omega)]
  congr 1
  funext a
  have : catOf (Traits.mkLref (forwardedTy p.1 a)) = .lv := by unfold forwardedTy; cases a.cat <;> rfl
  rw [this]

/-- Results of 2^20 or more elements do not compile. -/
theorem c93_limit (hs : Spec.IsSum sm) (args : List Arg) (hl : args.length + 1 < 2 ^ 20) (ht : 2 ^ 20 ≤ Spec.total args)
    (hw : Spec.total args < 2 ^ w) : catTypes sm w args = none ∧ catInits sm w args = none := by
  have hw1 : 1 ≤ w := by
    by_contra hc
    have : w = 0 := by omega
    subst this
    omega
  have he := isSum_exact hw1 hs
  have : resultIndex sm w (sizes args) = none := by
    rw [sizes_eq]
    unfold resultIndex
    rw [he _ ?_ (by simp only [List.length_map]; exact hl), ← cast_sum]
    · simp only [Option.bind_eq_bind, Option.bind_some, Int.toNat_natCast]
      rw [Seq.c59_make_sequence, if_neg (by unfold Spec.total at ht; omega)]
    · rw [← cast_sum]
      exact_mod_cast hw
    · intro n hn
      obtain ⟨k, _, rfl⟩ := List.mem_map.mp hn
      exact Int.natCast_nonneg _
  have ho : outerIndex sm w (sizes args) = none := by unfold outerIndex; rw [this]; rfl
  constructor
  · unfold catTypes; rw [ho]; rfl
  · unfold catInits; rw [ho]; rfl

/-- Nothing is moved: every initialiser is an lvalue, also those from rvalue tuples. -/
theorem c94_copies (hs : Spec.IsSum sm) (hw : 20 ≤ w) (args : List Arg) (hl : args.length + 1 < 2 ^ 20) (ht : Spec.total args < 2 ^ 20)
    (hlocs : ∀ a ∈ args, a.locs.length = a.tys.length) :
    ∃ inits, catInits sm w args = some inits ∧ inits.length = Spec.total args ∧ ∀ i ∈ inits, ∃ u, i.2 = .lref u := by
  refine ⟨_, c93_values hs hw args hl ht hlocs, ?_, ?_⟩
  · unfold Spec.total
    rw [List.length_flatMap]
    congr 1
    apply List.map_congr_left
    intro a ha
    simp [hlocs a ha]
  · intro i hi
    obtain ⟨a, _, ha⟩ := List.mem_flatMap.mp hi
    have := (List.of_mem_zip ha).2
    obtain ⟨t, _, ht⟩ := List.mem_map.mp this
    rw [← ht]
    cases t <;> exact ⟨_, rfl⟩

/-- Specification: how the elements of an argument should reach the result: in the category of the argument, except that what an lvalue
reference refers to is an lvalue always, and what an rvalue reference refers to follows the argument. -/
def Spec.forwarded (c : Cat) (isConst : Bool) (t : CTy) : CTy :=
  match c, t with
  | _, .lref u => .lref u
  | .lv, t => Spec.lvalueOf isConst t
  | .rv, .rref u => .rref u
  | .rv, t => .rref (if isConst then Traits.addConst t else t)

/-- C94 asks for this of all arguments. It holds if they are lvalues or contain lvalue references only. Missing: rvalue tuples with elements
of their own, which are copied (`c94_copies`, `c94_not_moved`). -/
theorem c94_categories_partial (hs : Spec.IsSum sm) (hw : 20 ≤ w) (args : List Arg) (hl : args.length + 1 < 2 ^ 20)
    (ht : Spec.total args < 2 ^ 20) (hlocs : ∀ a ∈ args, a.locs.length = a.tys.length)
    (hlv : ∀ a ∈ args, a.cat = .lv ∨ ∀ t ∈ a.tys, ∃ u, t = .lref u) :
    catInits sm w args = some (args.flatMap fun a => a.locs.zip (a.tys.map (Spec.forwarded a.cat a.isConst))) := by
  rw [c93_values hs hw args hl ht hlocs]
  congr 1
  have flat : ∀ (l : List Arg) (f g : Arg → List (Nat × CTy)), (∀ a ∈ l, f a = g a) → l.flatMap f = l.flatMap g := by
    intro l f g h
    induction l with
    | nil => rfl
    | cons a l ih => rw [List.flatMap_cons, List.flatMap_cons, h a List.mem_cons_self, ih fun b hb => h b (List.mem_cons_of_mem _ hb)]
  apply flat
  intro a ha
  congr 1
  apply List.map_congr_left
  intro t htm
  rcases hlv a ha with h | h
  · rw [h]; cases t <;> rfl
  · obtain ⟨u, rfl⟩ := h t htm
    cases a.cat <;> rfl

/-- The elements of an rvalue tuple are not moved. -/
theorem c94_not_moved (hs : Spec.IsSum sm) (hw : 20 ≤ w) :
    ∃ a : Arg, a.cat = .rv ∧ a.locs.length = a.tys.length ∧
      catInits sm w [a] ≠ some (a.locs.zip (a.tys.map (Spec.forwarded a.cat a.isConst))) := by
  refine ⟨⟨.rv, false, [.base {} (.cls 1)], [7]⟩, rfl, rfl, ?_⟩
  rw [c93_values hs hw _ (by decide) (by decide) (by decide)]
  decide
end

/-! ### Examples -/

/-- Three tuples, the second empty and const, the third an rvalue with a reference. -/
def exampleArgs : List Arg :=
  [⟨.lv, false, [.base {} (.fund .int), .base {} (.cls 3)], [10, 11]⟩, ⟨.lv, true, [], []⟩,
   ⟨.rv, false, [.base {} (.cls 3), .lref (.base {} (.cls 4)), .base {} (.fund .int)], [12, 13, 14]⟩]

example : Spec.IsSum Seq.sumFold ∧ Spec.IsSum Seq.sumNoFold := ⟨.inl rfl, .inr rfl⟩
example : exampleArgs.length + 1 < 2 ^ 20 ∧ Spec.total exampleArgs < 2 ^ 20 ∧ ∀ a ∈ exampleArgs, a.locs.length = a.tys.length := by decide
example : (catInits Seq.sumFold 64 exampleArgs).map (·.map Prod.fst) = some [10, 11, 12, 13, 14] := by decide +kernel
example : (outerIndex Seq.sumNoFold 64 [2, 0, 3], innerIndex Seq.sumNoFold 64 [2, 0, 3]) = (some [0, 0, 2, 2, 2], some [0, 1, 0, 1, 2]) := by
  decide +kernel
example : catTypes Seq.sumFold 64 [] = some [] := by decide +kernel
/-- Arguments for the limit: two tuples of 2^19 elements. -/
example : ∃ args : List Arg, args.length + 1 < 2 ^ 20 ∧ 2 ^ 20 ≤ Spec.total args ∧ Spec.total args < 2 ^ 64 := by
  refine ⟨[⟨.lv, false, List.replicate (2 ^ 19) (.base {} (.fund .int)), []⟩, ⟨.lv, false, List.replicate (2 ^ 19) (.base {} (.fund .int)), []⟩],
    by decide, ?_, ?_⟩
  · simp only [Spec.total, List.map_cons, List.map_nil, List.length_replicate, List.sum_cons, List.sum_nil]; norm_num
  · simp only [Spec.total, List.map_cons, List.map_nil, List.length_replicate, List.sum_cons, List.sum_nil]; norm_num
example : ∀ a ∈ [(⟨.rv, false, [.lref (.base {} (.cls 4))], [13]⟩ : Arg)], a.cat = .lv ∨ ∀ t ∈ a.tys, ∃ u, t = .lref u := by
  intro a ha
  rw [List.mem_singleton] at ha
  subst ha
  right
  intro t ht
  rw [List.mem_singleton] at ht
  exact ⟨_, ht⟩

end Nanostl.Tuple

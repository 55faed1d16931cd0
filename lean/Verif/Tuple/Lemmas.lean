import Verif.Tuple.Model
import Verif.Seq.Props
import Mathlib.Tactic.Linarith

/-! Lemmas about the index computations of tuple.hpp. -/

namespace Nanostl.Tuple

open Nanostl.Seq (makeSeq_lt c59_select)

theorem mapM_eq {α β : Type} {f : α → Option β} {g : α → β} (l : List α) (h : ∀ x ∈ l, f x = some (g x)) : l.mapM f = some (l.map g) := by
  induction l with
  | nil => rfl
  | cons a l ih =>
    rw [List.mapM_cons, h a List.mem_cons_self, ih fun x hx => h x (List.mem_cons_of_mem _ hx)]
    rfl

/-- A sum that is the exact one whenever it fits. -/
def ExactSum (w : Nat) (sm : Seq.Ty → List Int → Option Int) : Prop :=
  ∀ ns : List Int, (∀ n ∈ ns, 0 ≤ n) → ns.length + 1 < 2 ^ 20 → ns.sum < 2 ^ w → sm (sz w) ns = some ns.sum

theorem sum_nonneg : ∀ ns : List Int, (∀ n ∈ ns, 0 ≤ n) → 0 ≤ ns.sum
  | [], _ => by simp
  | a :: l, h => by
    rw [List.sum_cons]
    have := sum_nonneg l fun n hn => h n (List.mem_cons_of_mem _ hn)
    have := h a List.mem_cons_self
    omega

theorem denotes_exact {w : Nat} {r v : Int} (h : Seq.Spec.Denotes (sz w) r v) (h0 : 0 ≤ v) (h1 : v < 2 ^ w) : r = v := by
  unfold Seq.Spec.Denotes sz at h
  simp only [Bool.false_eq_true, if_false] at h
  rw [h, Int.emod_eq_of_lt h0 h1]

theorem exact_fold (w : Nat) : ExactSum w Seq.sumFold := by
  intro ns h0 _ h1
  obtain ⟨r, hr⟩ := (Seq.c59_sum (sz w) ns).2.1 (by intro h; cases h)
  rw [hr, denotes_exact ((Seq.c59_sum (sz w) ns).1 r hr) (sum_nonneg ns h0) h1]

theorem exact_noFold {w : Nat} (hw : 1 ≤ w) : ExactSum w Seq.sumNoFold := by
  intro ns h0 hl h1
  obtain ⟨r, hr, hd⟩ := (Seq.c59_sum (sz w) ns).2.2 hw hl (fun _ => h0) (by intro h; cases h)
  rw [hr, denotes_exact hd (sum_nonneg ns h0) h1]

/-! ### Scans of sizes -/

def pre (ns : List Nat) (i : Nat) : Nat := (ns.take i).sum

theorem cast_sum (l : List Nat) : ((l.sum : Nat) : Int) = (l.map Int.ofNat).sum := by
  induction l with
  | nil => rfl
  | cons a l ih => simp only [List.sum_cons, List.map_cons, Int.natCast_add, ih]; rfl

theorem prefix_cast (ns : List Nat) (i : Nat) : Seq.Spec.prefixSum (ns.map Int.ofNat) i = (pre ns i : Nat) := by
  unfold Seq.Spec.prefixSum pre
  rw [← List.map_take, cast_sum]

theorem pre_le (ns : List Nat) (i : Nat) : pre ns i ≤ ns.sum := by
  unfold pre
  conv_rhs => rw [← List.take_append_drop i ns, List.sum_append]
  omega

section
variable {w : Nat} {sm : Seq.Ty → List Int → Option Int} (hs : ExactSum w sm)
include hs

theorem partial_eq (ns : List Nat) (hl : ns.length + 1 < 2 ^ 20) (ht : ns.sum < 2 ^ w) (i : Nat) (hi : i ≤ ns.length) :
    Seq.partialSum sm (sz w) i (ns.map Int.ofNat) = some (pre ns i : Nat) := by
  unfold Seq.partialSum
  rw [List.length_map, makeSeq_lt (by omega)]
  simp only [Option.bind_eq_bind, Option.bind_some, List.length_range, if_pos hi]
  have e := Seq.zipWith_prefix (ns.map Int.ofNat) i
  rw [List.length_map, prefix_cast] at e
  rw [hs, e]
  · rfl
  · intro n hn
    obtain ⟨k, hk, rfl⟩ := List.mem_iff_getElem.mp hn
    rw [List.getElem_zipWith]
    split
    · rw [List.getElem_map]; exact Int.natCast_nonneg _
    · exact le_refl _
  · rw [List.length_zipWith]; simp only [List.length_range, List.length_map, min_self]; omega
  · rw [e]
    have := pre_le ns i
    exact_mod_cast lt_of_le_of_lt this ht

theorem exclusive_eq (ns : List Nat) (hl : ns.length + 1 < 2 ^ 20) (ht : ns.sum < 2 ^ w) :
    Seq.exclusiveScan sm (sz w) (ns.map Int.ofNat) = some ((List.range ns.length).map fun i => ((pre ns i : Nat) : Int)) := by
  unfold Seq.exclusiveScan
  rw [List.length_map, makeSeq_lt (by omega)]
  simp only [Option.bind_eq_bind, Option.bind_some]
  exact mapM_eq _ fun i hi => partial_eq hs ns hl ht i (by have := List.mem_range.mp hi; omega)
end

theorem zip_some {op : Int → Int → Option Int} {g : Int → Int → Int} {t : Seq.Ty} : ∀ (as bs : List Int), as.length = bs.length →
    (∀ a ∈ as, t.InRange a) → (∀ b ∈ bs, t.InRange b) →
    (∀ (k : Nat) (ha : k < as.length) (hb : k < bs.length), op as[k] bs[k] = some (g as[k] bs[k])) →
    Seq.zip op t as bs = some (List.zipWith g as bs)
  | [], [], _, _, _, _ => rfl
  | [], _ :: _, h, _, _, _ => by cases h
  | _ :: _, [], h, _, _, _ => by cases h
  | a :: as, b :: bs, hl, ha, hb, ho => by
    rw [Seq.zip]
    unfold Seq.Ty.conv
    rw [if_pos (ha a List.mem_cons_self), if_pos (hb b List.mem_cons_self)]
    have h0 := ho 0 (by simp) (by simp)
    simp only [List.getElem_cons_zero] at h0
    simp only [Option.bind_eq_bind, Option.bind_some, h0]
    rw [zip_some as bs (by simpa using hl) (fun x hx => ha x (List.mem_cons_of_mem _ hx)) (fun x hx => hb x (List.mem_cons_of_mem _ hx))
      fun k hka hkb => by
        have := ho (k + 1) (by simpa using hka) (by simpa using hkb)
        simpa using this]
    rfl

theorem inRange_nat {w n : Nat} (h : n < 2 ^ w) : (sz w).InRange ((n : Nat) : Int) := by
  unfold Seq.Ty.InRange sz
  simp only [Bool.false_eq_true, if_false]
  exact ⟨Int.natCast_nonneg _, by exact_mod_cast h⟩

theorem arith_nat {w n : Nat} (h : n < 2 ^ w) : (sz w).arith ((n : Nat) : Int) = some (n : Int) := by
  unfold Seq.Ty.arith sz
  simp only [Bool.false_eq_true, if_false]
  rw [Int.emod_eq_of_lt (Int.natCast_nonneg _) (by exact_mod_cast h)]

theorem pre_succ (ns : List Nat) (k : Nat) (hk : k < ns.length) : pre ns (k + 1) = pre ns k + ns[k] := by
  unfold pre
  rw [← List.take_concat_get' ns k hk, List.sum_append, List.sum_singleton]

theorem inclusive_eq {w : Nat} {sm : Seq.Ty → List Int → Option Int} (hs : ExactSum w sm) (ns : List Nat) (hl : ns.length + 1 < 2 ^ 20)
    (ht : ns.sum < 2 ^ w) :
    Seq.inclusiveScan sm (sz w) (ns.map Int.ofNat) = some ((List.range ns.length).map fun i => ((pre ns (i + 1) : Nat) : Int)) := by
  unfold Seq.inclusiveScan
  rw [exclusive_eq hs ns hl ht]
  simp only [Option.bind_eq_bind, Option.bind_some]
  unfold Seq.plus
  have key : ∀ k (hk : k < ns.length), pre ns k + ns[k] < 2 ^ w := by
    intro k hk
    rw [← pre_succ ns k hk]
    exact lt_of_le_of_lt (pre_le ns _) ht
  rw [zip_some (g := fun a b => a + b)]
  · congr 1
    apply List.ext_getElem
    · simp
    · intro k h1 h2
      have hk : k < ns.length := by simpa using h2
      simp only [List.getElem_zipWith, List.getElem_map, List.getElem_range]
      rw [pre_succ ns k hk]
      push_cast
      rfl
  · simp
  · intro a ha
    obtain ⟨i, _, rfl⟩ := List.mem_map.mp ha
    exact inRange_nat (lt_of_le_of_lt (pre_le ns i) ht)
  · intro b hb
    obtain ⟨n, hn, rfl⟩ := List.mem_map.mp hb
    obtain ⟨k, hk, rfl⟩ := List.mem_iff_getElem.mp hn
    have := key k hk
    exact inRange_nat (by omega)
  · intro k h1 h2
    have hk : k < ns.length := by simpa using h2
    simp only [List.getElem_map, List.getElem_range]
    have := arith_nat (key k hk)
    push_cast at this ⊢
    exact this

/-! ### The position of an element of the result -/

/-- How many tuples end at or before position `k`. -/
def cnt (ns : List Nat) (k : Nat) : Nat := ((List.range ns.length).map fun j => if pre ns (j + 1) ≤ k then 1 else 0).sum

theorem pre_cons_succ (n : Nat) (ns : List Nat) (j : Nat) : pre (n :: ns) (j + 1) = n + pre ns j := by
  unfold pre
  rw [List.take_succ_cons, List.sum_cons]

theorem cnt_cons (n : Nat) (ns : List Nat) (k : Nat) :
    cnt (n :: ns) k = (if n ≤ k then 1 else 0) + ((List.range ns.length).map fun j => if n + pre ns (j + 1) ≤ k then 1 else 0).sum := by
  unfold cnt
  rw [List.length_cons, List.range_succ_eq_map, List.map_cons, List.sum_cons, List.map_map]
  congr 1

theorem cnt_lt {n : Nat} {ns : List Nat} {k : Nat} (h : k < n) : cnt (n :: ns) k = 0 := by
  rw [cnt_cons, if_neg (by omega), Nat.zero_add]
  have : ((List.range ns.length).map fun j => if n + pre ns (j + 1) ≤ k then 1 else 0) = (List.range ns.length).map fun _ => 0 := by
    apply List.map_congr_left
    intro j _
    rw [if_neg (by omega)]
  rw [this]
  simp

theorem cnt_add (n : Nat) (ns : List Nat) (k : Nat) : cnt (n :: ns) (n + k) = cnt ns k + 1 := by
  rw [cnt_cons, if_pos (by omega), Nat.add_comm]
  congr 1
  unfold cnt
  congr 1
  apply List.map_congr_left
  intro j _
  by_cases h : pre ns (j + 1) ≤ k
  · rw [if_pos h, if_pos (by omega)]
  · rw [if_neg h, if_neg (by omega)]

/-- Specification: the elements of tuples of the given sizes, in order, as (tuple, position in it). -/
def Spec.positions : List Nat → List (Nat × Nat)
  | [] => []
  | n :: ns => (List.range n).map (fun i => (0, i)) ++ (Spec.positions ns).map fun p => (p.1 + 1, p.2)

theorem positions_eq (ns : List Nat) : Spec.positions ns = (List.range ns.sum).map fun k => (cnt ns k, k - pre ns (cnt ns k)) := by
  induction ns with
  | nil => rfl
  | cons n ns ih =>
    rw [Spec.positions, ih, List.sum_cons, List.range_add, List.map_append, List.map_map, List.map_map]
    congr 1
    · apply List.map_congr_left
      intro k hk
      have := List.mem_range.mp hk
      rw [cnt_lt this]
      simp [pre]
    · apply List.map_congr_left
      intro k _
      simp only [Function.comp_apply]
      rw [cnt_add, pre_cons_succ]
      congr 1
      omega

theorem positions_mem {ns : List Nat} {p : Nat × Nat} (h : p ∈ Spec.positions ns) : ∃ h1 : p.1 < ns.length, p.2 < ns[p.1] := by
  induction ns generalizing p with
  | nil => cases h
  | cons n ns ih =>
    rw [Spec.positions, List.mem_append] at h
    rcases h with h | h
    · obtain ⟨i, hi, rfl⟩ := List.mem_map.mp h
      exact ⟨by simp, by simpa using hi⟩
    · obtain ⟨q, hq, rfl⟩ := List.mem_map.mp h
      obtain ⟨h1, h2⟩ := ih hq
      exact ⟨by simpa using h1, by simpa using h2⟩

theorem positions_length (ns : List Nat) : (Spec.positions ns).length = ns.sum := by rw [positions_eq]; simp

theorem sum_ones (l : List Nat) (p : Nat → Bool) : (l.map fun j => if p j then 1 else 0).sum ≤ l.length := by
  induction l with
  | nil => simp
  | cons a l ih =>
    simp only [List.map_cons, List.sum_cons, List.length_cons]
    split <;> omega

section
variable {w : Nat} {sm : Seq.Ty → List Int → Option Int} (hs : ExactSum w sm) (hw : 20 ≤ w) (ns : List Nat) (hl : ns.length + 1 < 2 ^ 20)
  (ht : ns.sum < 2 ^ 20)

theorem pow_bound {w n : Nat} (hw : 20 ≤ w) (h : n < 2 ^ 20) : n < 2 ^ w := lt_of_lt_of_le h (Nat.pow_le_pow_right (by decide) hw)

include hs hw hl ht

theorem resultIndex_eq : resultIndex sm w (ns.map Int.ofNat) = some (List.range ns.sum) := by
  unfold resultIndex
  rw [hs _ ?_ (by rw [List.length_map]; exact hl), ← cast_sum]
  · simp only [Option.bind_eq_bind, Option.bind_some, Int.toNat_natCast]
    exact makeSeq_lt ht
  · rw [← cast_sum]
    exact_mod_cast pow_bound hw ht
  · intro n hn
    obtain ⟨k, _, rfl⟩ := List.mem_map.mp hn
    exact Int.natCast_nonneg _

theorem outerIndex_eq : outerIndex sm w (ns.map Int.ofNat) = some ((Spec.positions ns).map fun p => (p.1 : Int)) := by
  unfold outerIndex
  rw [resultIndex_eq hs hw ns hl ht, inclusive_eq hs ns hl (pow_bound hw ht)]
  simp only [Option.bind_eq_bind, Option.bind_some]
  unfold expand
  rw [positions_eq, List.map_map]
  apply mapM_eq
  intro k _
  unfold countLessOrEqual
  rw [List.map_map]
  have e : (List.range ns.length).map ((fun n : Int => if n ≤ (k : Int) then (1 : Int) else 0) ∘ fun i => ((pre ns (i + 1) : Nat) : Int)) =
      ((List.range ns.length).map fun j => if pre ns (j + 1) ≤ k then 1 else 0).map Int.ofNat := by
    rw [List.map_map]
    apply List.map_congr_left
    intro j _
    simp only [Function.comp_apply]
    by_cases h : pre ns (j + 1) ≤ k
    · rw [if_pos h, if_pos (by exact_mod_cast h)]; rfl
    · rw [if_neg h, if_neg (by exact_mod_cast h)]; rfl
  have b := sum_ones (List.range ns.length) fun j => decide (pre ns (j + 1) ≤ k)
  simp only [decide_eq_true_eq, List.length_range] at b
  rw [e, hs]
  · rw [← cast_sum]; rfl
  · intro n hn
    obtain ⟨k, _, rfl⟩ := List.mem_map.mp hn
    exact Int.natCast_nonneg _
  · simp only [List.length_map, List.length_range]; exact hl
  · rw [← cast_sum]
    have : (List.map (fun j => if pre ns (j + 1) ≤ k then 1 else 0) (List.range ns.length)).sum < 2 ^ w := pow_bound hw (by omega)
    exact_mod_cast this

theorem innerIndex_eq : innerIndex sm w (ns.map Int.ofNat) = some ((Spec.positions ns).map fun p => (p.2 : Int)) := by
  unfold innerIndex
  rw [outerIndex_eq hs hw ns hl ht, resultIndex_eq hs hw ns hl ht, exclusive_eq hs ns hl (pow_bound hw ht)]
  simp only [Option.bind_eq_bind, Option.bind_some]
  have hm : Seq.map (List.map Int.toNat (List.map (fun p => (p.1 : Int)) (Spec.positions ns)))
      (List.map (fun i => ((pre ns i : Nat) : Int)) (List.range ns.length)) = some ((Spec.positions ns).map fun p => ((pre ns p.1 : Nat) : Int)) := by
    rw [Seq.c59_map _ _ (by simp only [List.length_map, List.length_range]; omega), List.map_map, List.mapM_map]
    apply mapM_eq
    intro p hp
    obtain ⟨h1, _⟩ := positions_mem hp
    simp only [Function.comp_apply, Int.toNat_natCast]
    rw [List.getElem?_map, List.getElem?_range h1]
    rfl
  rw [hm]
  simp only [Option.bind_some]
  unfold Seq.minus
  have key : ∀ k (hk : k < ns.sum) (hp : k < (Spec.positions ns).length),
      pre ns ((Spec.positions ns)[k]).1 + ((Spec.positions ns)[k]).2 = k := by
    intro k hk hp
    have h1 : ((Spec.positions ns)[k]) = (cnt ns k, k - pre ns (cnt ns k)) := by
      have : (Spec.positions ns)[k]? = some (cnt ns k, k - pre ns (cnt ns k)) := by
        rw [positions_eq, List.getElem?_map, List.getElem?_range hk]; rfl
      rw [List.getElem?_eq_getElem hp] at this
      exact Option.some.inj this
    rw [h1]
    have : pre ns (cnt ns k) ≤ k := by
      clear h1 hp hm hl ht hs
      induction ns generalizing k with
      | nil => simp at hk
      | cons n ns ih =>
        by_cases h : k < n
        · rw [cnt_lt h]; simp [pre]
        · obtain ⟨d, rfl⟩ : ∃ d, k = n + d := ⟨k - n, by omega⟩
          rw [cnt_add, pre_cons_succ]
          have := ih d (by rw [List.sum_cons] at hk; omega)
          omega
    simp only
    omega
  rw [zip_some (g := fun a b => a - b)]
  · congr 1
    apply List.ext_getElem
    · simp [positions_length]
    · intro k h1 h2
      have hp : k < (Spec.positions ns).length := by simpa using h2
      have hk : k < ns.sum := by rw [positions_length] at hp; exact hp
      simp only [List.getElem_zipWith, List.getElem_map, List.getElem_range]
      have := key k hk hp
      have h3 : (Int.ofNat k) = (k : Int) := rfl
      rw [h3]
      omega
  · simp [positions_length]
  · intro a ha
    obtain ⟨i, hi, rfl⟩ := List.mem_map.mp ha
    have := List.mem_range.mp hi
    exact inRange_nat (pow_bound hw (by omega))
  · intro a ha
    obtain ⟨p, _, rfl⟩ := List.mem_map.mp ha
    exact inRange_nat (lt_of_le_of_lt (pre_le ns _) (pow_bound hw ht))
  · intro k h1 h2
    have hp : k < (Spec.positions ns).length := by simpa using h2
    have hk : k < ns.sum := by rw [positions_length] at hp; exact hp
    simp only [List.getElem_map, List.getElem_range]
    have := key k hk hp
    have e : (Int.ofNat k - ((pre ns ((Spec.positions ns)[k]).1 : Nat) : Int)) = ((((Spec.positions ns)[k]).2 : Nat) : Int) := by
      have h3 : (Int.ofNat k) = (k : Int) := rfl
      rw [h3]; omega
    rw [e]
    exact arith_nat (pow_bound hw (by omega))
end

theorem zipPacks_eq {β : Type} {f : Nat → Nat → Option β} {g : Nat × Nat → β} (l : List (Nat × Nat)) (h : ∀ p ∈ l, f p.1 p.2 = some (g p)) :
    zipPacks f (l.map fun p => (p.1 : Int)) (l.map fun p => (p.2 : Int)) = some (l.map g) := by
  induction l with
  | nil => rfl
  | cons a l ih =>
    simp only [List.map_cons]
    rw [zipPacks]
    simp only [Int.toNat_natCast, h a List.mem_cons_self, ih fun p hp => h p (List.mem_cons_of_mem _ hp), Option.bind_eq_bind, Option.bind_some]
    rfl

end Nanostl.Tuple

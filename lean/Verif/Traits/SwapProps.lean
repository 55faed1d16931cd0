import Verif.Traits.Swap
import Verif.Traits.InitProps

/-! C109: swappability. -/

namespace Nanostl.Traits
open Spec

theorem swap_generic_eq (L : Lang) {t : Ty} (w : wf t) (h1 : cat t ≠ .lref) (h2 : cat t ≠ .rref) : swap_generic L t =
    if object t ∧ constructible L t [.rref t] = true ∧ assignable L (.lref t) (.rref t) = true
    then some (nothrowConstructible L t [.rref t] && L.assignNo ⟨.lv, t⟩ ⟨.xv, t⟩) else none := by
  obtain ⟨_, c2, _, c4⟩ := c106_copy_move L w h1 h2
  obtain ⟨_, a2⟩ := c106_copy_assign L w h1 h2
  have nc : cat t = .function ∨ cat t = .void → constructible L t [.rref t] = false := by
    intro k
    simp only [constructible]
    cases hm : [Ty.rref t].mapM valueOf with
    | none => rfl
    | some es =>
      have : es ≠ [] := by rintro rfl; have := mapM_length hm; simp at this
      exact (odd_cast L (.inr k) this).2.1
  by_cases ho : object t
  · obtain ⟨k1, _, _, k2⟩ := ho
    have hq : referenceable t = true := by
      unfold referenceable
      cases t <;> simp_all [cat]
    have hcr : canRef t = true := by
      rcases t with ⟨q, (f | k | k | k)⟩ | _ | ⟨q, u, k⟩ | ⟨t, (_ | k)⟩ | ⟨(_ | _), _, _⟩ | _ | _
      case base.fund => cases f <;> first | rfl | exact absurd rfl k2
      case fn.true => exact absurd rfl k1
      all_goals rfl
    obtain ⟨e1, e2, w1, w2⟩ := (c73_add_reference w).1 hcr
    rw [remove_reference_obj h1 h2] at e1 e2
    rw [if_neg h1] at e2
    have hn : is_nothrow_move_assignable L t = (assignable L (.lref t) (.rref t) && L.assignNo ⟨.lv, t⟩ ⟨.xv, t⟩) := by
      unfold is_nothrow_move_assignable
      rw [e1] at w1 ⊢
      rw [e2] at w2 ⊢
      exact (c106_assignable L w1 w2).2.2 _ _ rfl (by simp [valueOf, k1])
    have ho' : object t := ⟨k1, h1, h2, k2⟩
    simp only [swap_generic, c2, a2, c4, hq, hn, ho', Bool.true_and, true_and, Option.some.injEq]
    cases constructible L t [.rref t] <;> cases assignable L (.lref t) (.rref t) <;> simp
  · have k : cat t = .function ∨ cat t = .void := by
      unfold object at ho
      by_cases k : cat t = .function
      · exact .inl k
      · exact .inr (by by_contra k2; exact ho ⟨k, h1, h2, k2⟩)
    simp [swap_generic, c2, nc k, ho]

theorem swap_call_eq (L : Lang) (adl : Ty → Option Bool) : ∀ {t : Ty}, wf t → cat t ≠ .lref → cat t ≠ .rref → swap_call L adl t = swaps L adl t
  | .arr u (some n), w, h1, h2 => by
    have ih := swap_call_eq L adl (t := u) w.1 w.2.1.2.1 w.2.1.2.2.1
    have hg : swap_generic L (.arr u (some n)) = none := by
      rw [swap_generic_eq L w h1 h2, if_neg]
      rintro ⟨_, k, _⟩
      simp [constructible, valueOf, defines] at k
    rw [swap_call, swaps, ih, hg]
    cases adl (.arr u (some n)) <;> simp only
    cases swaps L adl u <;> rfl
  | .arr u none, w, h1, h2 => by rw [swap_call, swaps, swap_generic_eq L w h1 h2]; all_goals (intro _ _ k; cases k)
  | .base q b, w, h1, h2 => by rw [swap_call, swaps, swap_generic_eq L w h1 h2]; all_goals (intro _ _ k; cases k)
  | .ptr q b, w, h1, h2 => by rw [swap_call, swaps, swap_generic_eq L w h1 h2]; all_goals (intro _ _ k; cases k)
  | .mem q b n, w, h1, h2 => by rw [swap_call, swaps, swap_generic_eq L w h1 h2]; all_goals (intro _ _ k; cases k)
  | .fn q b n, w, h1, h2 => by rw [swap_call, swaps, swap_generic_eq L w h1 h2]; all_goals (intro _ _ k; cases k)
  | .lref t, w, h1, h2 => absurd rfl h1
  | .rref t, w, h1, h2 => absurd rfl h2

/-- C109: `__is_swappable` and `__is_nothrow_swappable`, for all types there are references to. -/
theorem c109_swappable_partial (L : Lang) (adl : Ty → Option Bool) {t : Ty} (w : wf t) (h : canRef t = true) :
    is_swappable L adl t = some (swaps L adl (remove_reference t)).isSome ∧
    is_nothrow_swappable L adl t = some (decide (swaps L adl (remove_reference t) = some true)) := by
  have wr : wf (remove_reference t) ∧ cat (remove_reference t) ≠ .lref ∧ cat (remove_reference t) ≠ .rref := by
    obtain ⟨k1, k2, _⟩ := c73_remove_reference w
    refine ⟨?_, k1, k2⟩
    cases t <;> first | exact w | exact w.1
  have e : remove_reference (mkLref t) = remove_reference t := by cases t <;> rfl
  simp only [is_swappable, is_nothrow_swappable, h, if_true, e, swap_call_eq L adl wr.1 wr.2.1 wr.2.2, true_and, Option.some.injEq]
  cases hs : swaps L adl (remove_reference t) with
  | none => rfl
  | some b => cases b <;> rfl

/-- C109, the code disagrees: asking whether void, or a function with qualifiers of its own, is swappable ends the translation. -/
theorem c109_void_error (L : Lang) (adl : Ty → Option Bool) (q : CV) (r : Ty) (a : Tys) :
    is_swappable L adl (.base q (.fund .void)) = none ∧ is_nothrow_swappable L adl (.base q (.fund .void)) = none ∧
    is_swappable L adl (.fn true r a) = none := ⟨rfl, rfl, rfl⟩

theorem array_step (L : Lang) (adl : Ty → Option Bool) (ha : ∀ u n, adl (.arr u n) = none) {u : Ty} (n : Nat) (w : wf (.arr u (some n))) :
    is_swappable L adl (.arr u (some n)) = is_swappable L adl u ∧
    is_nothrow_swappable L adl (.arr u (some n)) = is_nothrow_swappable L adl u := by
  have hc : canRef u = true := by
    obtain ⟨_, ⟨k1, _, _, k2⟩, _⟩ := w
    rcases u with ⟨q, (f | k | k | k)⟩ | _ | ⟨q, u, k⟩ | ⟨t, (_ | k)⟩ | ⟨(_ | _), _, _⟩ | _ | _
    case base.fund => cases f <;> first | rfl | exact absurd rfl k2
    case fn.true => exact absurd rfl k1
    all_goals rfl
  have a := c109_swappable_partial L adl w rfl
  have b := c109_swappable_partial L adl w.1 hc
  have e : swaps L adl (.arr u (some n)) = swaps L adl u := by rw [swaps, ha]
  have r : remove_reference u = u := remove_reference_obj w.2.1.2.1 w.2.1.2.2.1
  rw [a.1, a.2, b.1, b.2, r]
  simp only [remove_reference, e, and_self]

/-- C109: arrays, of any number of dimensions, are swappable as their elements are, if there is no other `swap` for them. -/
theorem c109_array (L : Lang) (adl : Ty → Option Bool) (ha : ∀ u n, adl (.arr u n) = none) : ∀ {u : Ty} (n : Nat), wf (.arr u (some n)) →
    is_swappable L adl (.arr u (some n)) = is_swappable L adl (innermost u) ∧
    is_nothrow_swappable L adl (.arr u (some n)) = is_nothrow_swappable L adl (innermost u)
  | .arr v none, n, w => absurd rfl (w.2.2 v)
  | .arr v (some m), n, w => by
    have s1 := array_step L adl ha n w
    rw [innermost, s1.1, s1.2]
    exact c109_array L adl ha m w.1
  | .base .., n, w => array_step L adl ha n w
  | .ptr .., n, w => array_step L adl ha n w
  | .mem .., n, w => array_step L adl ha n w
  | .fn .., n, w => array_step L adl ha n w
  | .lref _, n, w => array_step L adl ha n w
  | .rref _, n, w => array_step L adl ha n w

example : is_swappable (lang1 true) (fun _ => none) (.arr (.arr tInt (some 3)) (some 2)) = some true ∧
    is_nothrow_swappable (lang1 true) (fun _ => none) (.lref (tCls 2)) = some false ∧
    is_swappable (lang1 true) (fun _ => none) (tCls 1) = some false ∧
    is_nothrow_swappable (lang1 true) (fun t => if t = tCls 1 then some true else none) (tCls 1) = some true := by decide

end Nanostl.Traits

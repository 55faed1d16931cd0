import Verif.Algo.Range

/-! C116: distance, and the elements of an initializer_list. -/

namespace Nanostl.Range

variable {α : Type}

/-- A pointer to a position of an array, or null. -/
def Ptr.valid (m : Mem α) : Ptr → Prop
  | .null => True
  | .at b i => i ≤ (m b).length

theorem toLongLong_id {x : Int} (h1 : -2 ^ 63 ≤ x) (h2 : x < 2 ^ 63) : toLongLong x = x := by
  unfold toLongLong
  rw [Int.emod_eq_of_lt (by omega) (by omega)]; omega

/-- What `distance` is to be: the number of steps from `first` to `last`, backwards if it is negative. -/
theorem c116_distance (m : Mem α) (w : Nat) (hw : 1 ≤ w) (hw2 : w ≤ 64) (b i j : Nat) (hi : i ≤ (m b).length) (hj : j ≤ (m b).length)
    (hm : (m b).length < 2 ^ (w - 1)) :
    ∃ d, distance m w (.at b i) (.at b j) = some d ∧ add m (.at b i) d = some (.at b j) ∧ (∀ e, add m (.at b i) e = some (.at b j) → e = d) ∧
    ∀ k, k ≤ (m b).length → ∃ f, distance m w (.at b j) (.at b k) = some f ∧ distance m w (.at b i) (.at b k) = some (d + f) := by
  have hp : (2 : Nat) ^ (w - 1) ≤ 2 ^ 63 := Nat.pow_le_pow_right (by decide) (by omega)
  have key : ∀ i j, i ≤ (m b).length → j ≤ (m b).length → distance m w (.at b i) (.at b j) = some ((j : Int) - i) := by
    intro i j hi hj
    have c1 : (j : Int) - i < 2 ^ (w - 1) := by
      have : ((2 : Nat) ^ (w - 1) : Nat) = (2 : Int) ^ (w - 1) := by push_cast; rfl
      omega
    have c2 : -2 ^ (w - 1) ≤ (j : Int) - i := by
      have : ((2 : Nat) ^ (w - 1) : Nat) = (2 : Int) ^ (w - 1) := by push_cast; rfl
      omega
    simp only [distance, sub, hi, hj, c1, c2, and_self, if_true, Option.map_some]
    rw [toLongLong_id] <;> omega
  refine ⟨_, key i j hi hj, ?_, ?_, fun k hk => ⟨_, key j k hj hk, ?_⟩⟩
  · have : 0 ≤ (i : Int) + (j - i) ∧ (i : Int) + (j - i) ≤ (m b).length := by omega
    simp only [add, this, and_self, if_true, Option.some.injEq, Ptr.at.injEq, true_and]; omega
  · intro e he
    simp only [add] at he
    split at he
    · simp only [Option.some.injEq, Ptr.at.injEq, true_and] at he; omega
    · cases he
  · rw [key i k hi hk]; congr 1; omega

theorem walk_eq (m : Mem α) (b j : Nat) (hj : j ≤ (m b).length) : ∀ (n i fuel : Nat), i + n = j → n ≤ fuel →
    walk m (.at b j) fuel (.at b i) = some (((m b).drop i).take n)
  | 0, i, fuel, h, _ => by
    have : i = j := by omega
    subst this
    cases fuel <;> simp [walk]
  | n + 1, i, 0, _, hf => by omega
  | n + 1, i, fuel + 1, h, hf => by
    have hne : ¬ (Ptr.at b i = .at b j) := by simp; omega
    have hi : i < (m b).length := by omega
    have ha : add m (.at b i) 1 = some (.at b (i + 1)) := by
      have : 0 ≤ (i : Int) + 1 ∧ (i : Int) + 1 ≤ (m b).length := by omega
      simp only [add, this, and_self, if_true, Option.some.injEq, Ptr.at.injEq, true_and]; omega
    rw [walk]
    simp only [hne, if_false, load, List.getElem?_eq_getElem hi, ha, Option.bind_eq_bind, Option.bind_some, walk_eq m b j hj n (i + 1) fuel (by omega) (by omega)]
    rw [List.drop_eq_getElem_cons hi, List.take_succ_cons]; rfl

/-- C116, as far as it holds: a list over `n` elements of an array has them, in order, and `n` is its size and the distance from begin to end. Missing: that a program can have such a list. -/
theorem c116_list_partial (m : Mem α) (b i n : Nat) (h : i + n ≤ (m b).length) (w : Nat) (hw : 1 ≤ w) (hw2 : w ≤ 64) (hm : (m b).length < 2 ^ (w - 1)) :
    ∃ l e, construct true [.ptr (.at b i), .int n] = some l ∧ l.size = n ∧ l.end m = some e ∧ distance m w l.begin e = some (n : Int) ∧
      ∀ fuel, n ≤ fuel → l.forEach m fuel = some (((m b).drop i).take n) := by
  have he : IList.end m ⟨.at b i, n⟩ = some (.at b (i + n)) := by
    have : 0 ≤ (i : Int) + n ∧ (i : Int) + n ≤ (m b).length := by omega
    simp only [IList.end, add, this, and_self, if_true, Option.some.injEq, Ptr.at.injEq, true_and]; omega
  refine ⟨⟨.at b i, n⟩, _, rfl, rfl, he, ?_, fun fuel hf => ?_⟩
  · obtain ⟨d, h1, h2, h3, _⟩ := c116_distance m w hw hw2 b i (i + n) (by omega) h hm
    rw [IList.begin, h1, ← h3 n he]
  · simp only [IList.forEach, he, Option.bind_eq_bind, Option.bind_some, IList.begin]
    exact walk_eq m b (i + n) h n i fuel rfl hf

/-- C116 is false: whatever a program does, the lists it can have are empty; `{ e1, ..., en }` with one or more elements that are no lists is not accepted as a list. A loop over such a list
ends at once, and begin and end are null. -/
theorem c116_false : (∀ l, Made l → l = .empty ∧ l.size = 0 ∧ ∀ (m : Mem α) (w fuel : Nat), l.forEach m fuel = some [] ∧ l.end m = some .null ∧ distance m w .null .null = some 0) ∧
    ∀ args, args ≠ [] → (∀ a ∈ args, ∀ l, a ≠ .list l) → construct false args = none := by
  have key : ∀ l, Made l → l = .empty := by
    intro l hl
    induction hl with
    | construct args l hm hc ih =>
      match args, ih, hc with
      | [], _, hc => cases hc; rfl
      | [.list k], ih, hc => cases hc; exact ih _ (by simp)
      | [a, b], _, hc => simp only [construct] at hc; split at hc <;> simp at hc
      | [.ptr _], _, hc | [.zero], _, hc | [.int _], _, hc | [.other], _, hc => cases hc
      | _ :: _ :: _ :: _, _, hc => simp [construct] at hc
  refine ⟨fun l hl => ?_, fun args hne hno => ?_⟩
  · rw [key l hl]
    refine ⟨rfl, rfl, fun m w fuel => ⟨?_, rfl, ?_⟩⟩
    · cases fuel <;> simp [IList.forEach, IList.end, IList.empty, add, walk, IList.begin]
    · simp [distance, sub, toLongLong]
  · match args, hno with
    | [], _ => exact absurd rfl hne
    | [.list l], hno => exact absurd rfl (hno _ (by simp) l)
    | [.ptr _], _ | [.zero], _ | [.int _], _ | [.other], _ => rfl
    | [a, b], _ => simp only [construct]; split <;> simp
    | _ :: _ :: _ :: _, _ => simp [construct]

example : Made .empty := .construct [] _ (by simp) rfl
example : distance (fun _ => [1, 2, 3]) 64 (.at 0 2) (.at 0 0) = some (-2) := by decide
example : IList.forEach (fun _ => [1, 2, 3]) ⟨.at 0 1, 2⟩ 2 = some [2, 3] := by decide

end Nanostl.Range

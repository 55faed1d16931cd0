import Verif.Algo.Model
import Mathlib.Order.Defs.LinearOrder
import Mathlib.Data.Nat.Init

/-! Property theorems C26-C30. -/

namespace Nanostl.Algo

variable {α β : Type}

/-! ### C26 -/

section
variable [LinearOrder α]

/-- C26. `min` and `max` return one of their arguments, a lower resp. upper bound of both. -/
theorem c26_min_max (a b : α) :
    (min (fun x y => decide (x < y)) a b = a ∨ min (fun x y => decide (x < y)) a b = b) ∧
    min (fun x y => decide (x < y)) a b ≤ a ∧ min (fun x y => decide (x < y)) a b ≤ b ∧
    (max (fun x y => decide (x > y)) a b = a ∨ max (fun x y => decide (x > y)) a b = b) ∧
    a ≤ max (fun x y => decide (x > y)) a b ∧ b ≤ max (fun x y => decide (x > y)) a b := by
  simp only [min, max, Bool.not_eq_true', decide_eq_false_iff_not]
  refine ⟨?_, ?_, ?_, ?_, ?_, ?_⟩ <;> split <;> rename_i h
  · exact .inl rfl
  · exact .inr rfl
  · exact le_refl _
  · exact le_of_lt (Classical.not_not.mp h)
  · exact not_lt.mp h
  · exact le_refl _
  · exact .inl rfl
  · exact .inr rfl
  · exact le_refl _
  · exact le_of_lt (Classical.not_not.mp h)
  · exact not_lt.mp h
  · exact le_refl _

/-- C26. `clamp` yields a value in `[lo, hi]`, `x` itself if it lies there, and otherwise the nearer bound. -/
theorem c26_clamp (x lo hi : α) (h : lo ≤ hi) :
    let r := clamp (fun x y => decide (x < y)) (fun x y => decide (x > y)) x lo hi
    lo ≤ r ∧ r ≤ hi ∧ (lo ≤ x → x ≤ hi → r = x) ∧ (x < lo → r = lo) ∧ (hi < x → r = hi) := by
  simp only [clamp, min, max, Bool.not_eq_true', decide_eq_false_iff_not, gt_iff_lt, not_lt]
  rcases lt_trichotomy x lo with h1 | h1 | h1 <;> rcases lt_trichotomy x hi with h2 | h2 | h2 <;>
    (repeat' split) <;> (refine ⟨?_, ?_, ?_, ?_, ?_⟩) <;> grind

end

/-- C26. On ties, that is for arguments of which neither is less than the other (equal, or unordered such as NaN), the first argument
is returned. This holds for any comparison operators. -/
theorem c26_ties (lt gt : α → α → Bool) (a b : α) : (lt b a = false → min lt a b = a) ∧ (gt b a = false → max gt a b = a) := by
  constructor <;> intro h <;> simp [min, max, h]

/-- C26. Whatever the operators are, results are among the arguments; `clamp` of a value that compares with nothing (NaN) is `hi`
for `lo < hi`, and otherwise `lo`, which for `lo <= hi` is equal to `hi`. -/
theorem c26_unordered (lt gt : α → α → Bool) (x lo hi : α) :
    (min lt x lo = x ∨ min lt x lo = lo) ∧ (max gt x lo = x ∨ max gt x lo = lo) ∧
    (clamp lt gt x lo hi = x ∨ clamp lt gt x lo hi = lo ∨ clamp lt gt x lo hi = hi) ∧
    ((∀ y, lt x y = false) → clamp lt gt x lo hi = if gt hi lo = true then hi else lo) := by
  refine ⟨?_, ?_, ?_, ?_⟩
  · unfold min; split <;> simp
  · unfold max; split <;> simp
  · unfold clamp min max; (repeat' split) <;> simp
  · intro h1; cases h : gt hi lo <;> simp [clamp, min, max, h1, h]

/-- Non-trivial instances: a real clamp, and an operator with an unordered element. -/
example : clamp (fun x y => decide (x < y)) (fun x y => decide (x > y)) (7 : Int) (-2) 5 = 5 := by decide

example : clamp (fun (x y : Option Nat) => match x, y with | some a, some b => decide (a < b) | _, _ => false)
    (fun x y => match x, y with | some a, some b => decide (a > b) | _, _ => false) none (some 1) (some 5) = some 5 := by decide

/-! ### C27 -/

/-- A strict weak order given by a Boolean operator. -/
structure StrictWeak (lt : α → α → Bool) : Prop where
  irrefl : ∀ a, lt a a = false
  trans : ∀ a b c, lt a b = true → lt b c = true → lt a c = true
  incomp : ∀ a b c, lt a b = false → lt b c = false → lt a c = false

theorem maxElementLoop_ok {lt : α → α → Bool} (H : StrictWeak lt) (l : List α) (first0 last : Nat) (hl : last ≤ l.length) :
    ∀ (f largest first : Nat), first ≤ last → last - first < f → first0 ≤ largest → largest < first →
      (∀ q x y, first0 ≤ q → q < first → l[largest]? = some x → l[q]? = some y → lt x y = false) →
      (∀ q x y, first0 ≤ q → q < largest → l[largest]? = some x → l[q]? = some y → lt y x = true) →
      ∃ p, maxElementLoop lt l last f largest first = some p ∧ first0 ≤ p ∧ p < last ∧
        (∀ q x y, first0 ≤ q → q < last → l[p]? = some x → l[q]? = some y → lt x y = false) ∧
        (∀ q x y, first0 ≤ q → q < p → l[p]? = some x → l[q]? = some y → lt y x = true)
  | 0, _, _, _, h, _, _, _, _ => by omega
  | f + 1, largest, first, h1, h2, h3, h4, h5, h6 => by
    unfold maxElementLoop
    split
    · rename_i heq
      subst heq
      exact ⟨largest, rfl, h3, h4, h5, h6⟩
    · rename_i hne
      have g1 : l[largest]? = some l[largest] := List.getElem?_eq_getElem (by omega)
      have g2 : l[first]? = some l[first] := List.getElem?_eq_getElem (by omega)
      simp only [g1, g2]
      split
      · rename_i hlt
        refine maxElementLoop_ok H l first0 last hl f first (first + 1) (by omega) (by omega) (by omega) (by omega) ?_ ?_
        · intro q x y a1 a2 a3 a4
          rw [g2] at a3; cases a3
          by_cases hq : q = first
          · subst hq; rw [g2] at a4; cases a4; exact H.irrefl _
          · have b := h5 q _ y a1 (by omega) g1 a4
            cases hc : lt l[first] y with
            | false => rfl
            | true => rw [H.trans _ _ _ hlt hc] at b; cases b
        · intro q x y a1 a2 a3 a4
          rw [g2] at a3; cases a3
          have b := h5 q _ y a1 a2 g1 a4
          cases hc : lt y l[first] with
          | true => rfl
          | false => rw [H.incomp _ _ _ b hc] at hlt; cases hlt
      · rename_i hlt
        refine maxElementLoop_ok H l first0 last hl f largest (first + 1) (by omega) (by omega) h3 (by omega) ?_ h6
        intro q x y a1 a2 a3 a4
        by_cases hq : q = first
        · subst hq; rw [g2] at a4; cases a4; rw [g1] at a3; cases a3; simpa using hlt
        · exact h5 q x y a1 (by omega) a3 a4

/-- C27. On a non-empty range `max_element` returns the first position whose element is not less than any other of the range; on an
empty range it returns `last`. -/
theorem c27_max_element {lt : α → α → Bool} (H : StrictWeak lt) (l : List α) (first last : Nat) (h : first ≤ last)
    (hl : last ≤ l.length) :
    (first = last → maxElement lt l first last = some last) ∧
    (first < last → ∃ p, maxElement lt l first last = some p ∧ first ≤ p ∧ p < last ∧
      (∀ q x y, first ≤ q → q < last → l[p]? = some x → l[q]? = some y → lt x y = false) ∧
      ∀ p' , first ≤ p' → p' < last →
        (∀ q x y, first ≤ q → q < last → l[p']? = some x → l[q]? = some y → lt x y = false) → p ≤ p') := by
  constructor
  · intro he; simp [maxElement, he]
  · intro hlt
    obtain ⟨p, p1, p2, p3, p4, p5⟩ := maxElementLoop_ok H l first last hl (l.length + 1) first (first + 1) (by omega) (by omega)
      (by omega) (by omega)
      (by
        intro q x y a1 a2 a3 a4
        have : q = first := by omega
        subst this; rw [a3] at a4; cases a4; exact H.irrefl _)
      (by intro q x y a1 a2; omega)
    refine ⟨p, ?_, p2, p3, p4, ?_⟩
    · unfold maxElement
      rw [if_neg (by omega), p1]
    · intro p' b1 b2 b3
      rcases Nat.lt_or_ge p' p with hc | hc
      · have g1 : l[p]? = some l[p] := List.getElem?_eq_getElem (by omega)
        have g2 : l[p']? = some l[p'] := List.getElem?_eq_getElem (by omega)
        have := p5 p' _ _ b1 hc g1 g2
        rw [b3 p _ _ p2 p3 g2 g1] at this
        cases this
      · exact hc

/-- Comparing integers modulo sign is a strict weak order that is not total. -/
example : StrictWeak (fun a b : Int => decide (a.natAbs < b.natAbs)) :=
  ⟨by simp, by simp only [decide_eq_true_eq]; omega, by simp only [decide_eq_false_iff_not]; omega⟩

example : maxElement (fun a b : Int => decide (a.natAbs < b.natAbs)) [9, 1, -3, 3, 2] 1 5 = some 2 := by decide

/-! ### C28 -/

theorem fillLoop_ok (last : Nat) (v : α) : ∀ (f first : Nat) (l : List α), first ≤ last → last ≤ l.length → last - first < f →
    ∃ l', fillLoop last v f first l = some (l', last - first) ∧ l'.length = l.length ∧
      ∀ i : Nat, l'[i]? = if first ≤ i ∧ i < last then some v else l[i]?
  | 0, _, _, _, _, h => by omega
  | f + 1, first, l, h1, h2, h3 => by
    unfold fillLoop
    split
    · rename_i he
      subst he
      exact ⟨l, by simp, rfl, fun i => by rw [if_neg (by omega)]⟩
    · rename_i hne
      rw [if_pos (by omega)]
      obtain ⟨l', g1, g2, g3⟩ := fillLoop_ok last v f (first + 1) (l.set first v) (by omega) (by simpa using h2) (by omega)
      refine ⟨l', ?_, by simpa using g2, ?_⟩
      · rw [g1, Option.map_some, show last - (first + 1) + 1 = last - first by omega]
      · intro i
        rw [g3 i]
        by_cases hi : i = first
        · subst hi
          rw [if_neg (by omega), if_pos (by omega), List.getElem?_set_self (by omega)]
        · rw [List.getElem?_set_ne (Ne.symm hi)]
          by_cases hc : first ≤ i ∧ i < last
          · rw [if_pos (by omega), if_pos hc]
          · rw [if_neg (by omega), if_neg hc]

/-- C28. `fill` ends after exactly `last - first` assignments, having written `v` to every position of the range and to no other. -/
theorem c28_fill (l : List α) (first last : Nat) (v : α) (h : first ≤ last) (hl : last ≤ l.length) :
    ∃ l', fill l first last v = some (l', last - first) ∧ l'.length = l.length ∧
      ∀ i : Nat, l'[i]? = if first ≤ i ∧ i < last then some v else l[i]? :=
  fillLoop_ok last v _ first l h hl (by omega)

example : fill [1, 2, 3, 4] 1 3 9 = some ([1, 9, 9, 4], 2) := by decide

/-! ### C29 -/

/-- A strict total order whose equality is `eq`. -/
structure StrictTotal (lt eq : α → α → Bool) : Prop where
  eq_iff : ∀ a b, eq a b = true ↔ a = b
  irrefl : ∀ a, lt a a = false
  trans : ∀ a b c, lt a b = true → lt b c = true → lt a c = true
  total : ∀ a b, lt a b = true ∨ a = b ∨ lt b a = true

/-- C29. `pair ==` is componentwise and `pair <` lexicographic, a strict total order if the component orders are. -/
theorem c29_pair {lt1 eq1 : α → α → Bool} {lt2 eq2 : β → β → Bool} (h1 : StrictTotal lt1 eq1) (h2 : StrictTotal lt2 eq2) :
    (∀ x y : α × β, pairLt lt1 lt2 x y = true ↔ lt1 x.1 y.1 = true ∨ (x.1 = y.1 ∧ lt2 x.2 y.2 = true)) ∧
    StrictTotal (pairLt lt1 lt2) (pairEq eq1 eq2) ∧ ∀ (a : α) (b : β), (makePair a b).1 = a ∧ (makePair a b).2 = b := by
  have lex : ∀ x y : α × β, pairLt lt1 lt2 x y = true ↔ lt1 x.1 y.1 = true ∨ (x.1 = y.1 ∧ lt2 x.2 y.2 = true) := by
    intro x y
    simp only [pairLt, Bool.or_eq_true, Bool.and_eq_true, Bool.not_eq_true']
    constructor
    · rintro (h | ⟨ha, hb⟩)
      · exact .inl h
      · rcases h1.total x.1 y.1 with h | h | h
        · exact .inl h
        · exact .inr ⟨h, hb⟩
        · rw [ha] at h; cases h
    · rintro (h | ⟨ha, hb⟩)
      · exact .inl h
      · exact .inr ⟨by rw [ha]; exact h1.irrefl _, hb⟩
  refine ⟨lex, ⟨?_, ?_, ?_, ?_⟩, fun _ _ => ⟨rfl, rfl⟩⟩
  · intro a b
    simp only [pairEq, Bool.and_eq_true, h1.eq_iff, h2.eq_iff]
    exact ⟨fun h => Prod.ext h.1 h.2, fun h => by rw [h]; exact ⟨rfl, rfl⟩⟩
  · intro a
    cases hc : pairLt lt1 lt2 a a with
    | false => rfl
    | true =>
      rcases (lex a a).mp hc with h | ⟨_, h⟩
      · rw [h1.irrefl] at h; cases h
      · rw [h2.irrefl] at h; cases h
  · intro a b c hab hbc
    rw [lex] at hab hbc ⊢
    rcases hab with h | ⟨e, h⟩ <;> rcases hbc with g | ⟨e', g⟩
    · exact .inl (h1.trans _ _ _ h g)
    · exact .inl (e' ▸ h)
    · exact .inl (e ▸ g)
    · exact .inr ⟨e.trans e', h2.trans _ _ _ h g⟩
  · intro a b
    rw [lex, lex]
    rcases h1.total a.1 b.1 with h | h | h
    · exact .inl (.inl h)
    · rcases h2.total a.2 b.2 with g | g | g
      · exact .inl (.inr ⟨h, g⟩)
      · exact .inr (.inl (Prod.ext h g))
      · exact .inr (.inr (.inr ⟨h.symm, g⟩))
    · exact .inr (.inr (.inl h))

/-- C29. For component orders that are only strict weak orders, `pair <` is one too. -/
theorem c29_pair_weak {lt1 : α → α → Bool} {lt2 : β → β → Bool} (h1 : StrictWeak lt1) (h2 : StrictWeak lt2) :
    StrictWeak (pairLt lt1 lt2) := by
  have asym : ∀ {x y}, lt1 x y = true → lt1 y x = false := by
    intro x y h
    cases hc : lt1 y x with
    | false => rfl
    | true => exact absurd (h1.trans _ _ _ h hc) (by rw [h1.irrefl]; simp)
  refine ⟨?_, ?_, ?_⟩
  · intro a; simp [pairLt, h1.irrefl, h2.irrefl]
  · intro a b c
    simp only [pairLt, Bool.or_eq_true, Bool.and_eq_true, Bool.not_eq_true']
    rintro (h | ⟨e, h⟩) (g | ⟨e', g⟩)
    · exact .inl (h1.trans _ _ _ h g)
    · left
      cases hc : lt1 a.1 c.1 with
      | true => rfl
      | false => rw [h1.incomp _ _ _ hc e'] at h; cases h
    · left
      cases hc : lt1 a.1 c.1 with
      | true => rfl
      | false => rw [h1.incomp _ _ _ e hc] at g; cases g
    · exact .inr ⟨h1.incomp _ _ _ e' e, h2.trans _ _ _ h g⟩
  · intro a b c
    simp only [pairLt, Bool.or_eq_false_iff, Bool.and_eq_false_iff, Bool.not_eq_false']
    rintro ⟨p, q⟩ ⟨r, s⟩
    refine ⟨h1.incomp _ _ _ p r, ?_⟩
    rcases q with q | q
    · left
      cases hc : lt1 c.1 a.1 with
      | true => rfl
      | false => rw [h1.incomp _ _ _ r hc] at q; cases q
    · rcases s with s | s
      · left
        cases hc : lt1 c.1 a.1 with
        | true => rfl
        | false => rw [h1.incomp _ _ _ hc p] at s; cases s
      · exact .inr (h2.incomp _ _ _ q s)

example : StrictTotal (fun a b : Nat => decide (a < b)) (fun a b => decide (a = b)) :=
  ⟨by simp, by simp, by simp only [decide_eq_true_eq]; omega, by simp only [decide_eq_true_eq]; omega⟩

/-! ### C30 -/

theorem memcpyLoop_ok (d s : Nat) : ∀ (n i : Nat) (m0 m : Bytes),
    (∀ j, j < i + n → m0 (s + j) ≠ none ∧ m0 (d + j) ≠ none) →
    (∀ q, (q < d ∨ d + i ≤ q) → m q = m0 q) →
    (∀ j, j < i → m (d + j) = m0 (s + (if s < d then j % (d - s) else j))) →
    ∃ m', memcpyLoop d s n i m = some m' ∧ (∀ q, (q < d ∨ d + (i + n) ≤ q) → m' q = m0 q) ∧
      ∀ j, j < i + n → m' (d + j) = m0 (s + (if s < d then j % (d - s) else j))
  | 0, i, m0, m, _, h2, h3 => ⟨m, rfl, h2, h3⟩
  | n + 1, i, m0, m, h1, h2, h3 => by
    have key : m (s + i) = m0 (s + (if s < d then i % (d - s) else i)) := by
      by_cases hsd : s < d
      · rw [if_pos hsd]
        by_cases hlt : i < d - s
        · rw [Nat.mod_eq_of_lt hlt, h2 _ (by omega)]
        · have := h3 (i - (d - s)) (by omega)
          rw [if_pos hsd, show d + (i - (d - s)) = s + i by omega] at this
          rw [this, Nat.mod_eq_sub_mod (Nat.le_of_not_lt hlt)]
      · rw [if_neg hsd]
        refine h2 _ ?_
        by_cases he : d ≤ s + i
        · exact .inr (by omega)
        · exact .inl (by omega)
    have hs : m0 (s + (if s < d then i % (d - s) else i)) ≠ none := by
      refine (h1 _ ?_).1
      split
      · have := Nat.mod_le i (d - s); omega
      · omega
    obtain ⟨b, hb⟩ := Option.ne_none_iff_exists'.mp hs
    have hd : m (d + i) = m0 (d + i) := h2 _ (by omega)
    obtain ⟨c, hc⟩ := Option.ne_none_iff_exists'.mp (h1 i (by omega)).2
    unfold memcpyLoop
    simp only [key, hb, hd, hc]
    obtain ⟨m', g1, g2, g3⟩ := memcpyLoop_ok d s n (i + 1) m0 (fun q => if q = d + i then some b else m q)
      (fun j hj => h1 j (by omega))
      (by
        intro q hq
        rw [if_neg (by omega)]
        exact h2 q (by omega))
      (by
        intro j hj
        by_cases hji : j = i
        · subst hji; rw [if_pos rfl, hb]
        · rw [if_neg (by omega)]; exact h3 j (by omega))
    exact ⟨m', g1, fun q hq => g2 q (by omega), fun j hj => g3 j (by omega)⟩

/-- C30. `memcpy` on accessible regions is defined, returns `d`, changes no byte outside `[d, d+n)`; it copies the source if `d <= s`
or the regions do not overlap, and repeats the first `d - s` source bytes otherwise. -/
theorem c30_memcpy (d s n : Nat) (m : Bytes) (h : ∀ j, j < n → m (s + j) ≠ none ∧ m (d + j) ≠ none) :
    ∃ m', memcpy d s n m = some (m', d) ∧ (∀ q, (q < d ∨ d + n ≤ q) → m' q = m q) ∧
      ((d ≤ s ∨ s + n ≤ d) → ∀ j, j < n → m' (d + j) = m (s + j)) ∧
      (s < d → ∀ j, j < n → m' (d + j) = m (s + j % (d - s))) := by
  obtain ⟨m', g1, g2, g3⟩ := memcpyLoop_ok d s n 0 m m (by simpa using h) (fun _ _ => rfl) (by intro j hj; omega)
  refine ⟨m', by simp only [memcpy, g1, Option.map_some], fun q hq => g2 q (by omega), ?_, ?_⟩
  · intro hd j hj
    rw [g3 j (by omega)]
    split
    · rw [Nat.mod_eq_of_lt (by omega)]
    · rfl
  · intro hd j hj
    rw [g3 j (by omega), if_pos hd]

/-- An overlapping copy: bytes 10, 11 repeated over the next five. -/
example : (memcpy 2 0 5 (fun q => if q < 7 then some (UInt8.ofNat (10 + q)) else none)).map (fun x => (List.range 8).map x.1) =
    some [some 10, some 11, some 10, some 11, some 10, some 11, some 10, none] := by decide

end Nanostl.Algo

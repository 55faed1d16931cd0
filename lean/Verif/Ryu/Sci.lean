import Verif.Str.ToString
import Mathlib.Tactic.Ring

/-!
Specification: decimal numbers in scientific notation.
-/

namespace Nanostl.Ryu
open Nanostl.Str (Byte digitsValue IsDecimal)

/-- A decimal digit. -/
def IsDigit (c : Byte) : Prop := 48 ≤ c.toNat ∧ c.toNat ≤ 57
instance (c : Byte) : Decidable (IsDigit c) := inferInstanceAs (Decidable (_ ∧ _))

/-- `s` writes `± c * 10^k` in scientific notation: a minus sign exactly if negative, one digit, a point and more digits if there are any,
`E`, and the decimal numeral of the exponent. The first digit is zero only for zero. -/
def IsSci (s : List Byte) (neg : Bool) (c : Nat) (k : Int) : Prop :=
  ∃ (d : Byte) (ds xs : List Byte) (x : Int),
    s = (if neg then [45] else []) ++ d :: ((if ds = [] then [] else 46 :: ds) ++ 69 :: xs) ∧ (∀ c ∈ d :: ds, IsDigit c) ∧ (d = 48 → ds = []) ∧
    digitsValue (d :: ds) = c ∧ IsDecimal x xs ∧ k = x - ds.length

/-- The number of digits before `E`. -/
def sigDigits (s : List Byte) : Nat := ((s.takeWhile fun c => c != 69).filter fun c => decide (IsDigit c)).length

theorem foldl_dig : ∀ (l : List Byte) (a : Nat), l.foldl (fun a c => 10 * a + (c.toNat - 48)) a = a * 10 ^ l.length + digitsValue l
  | [], a => by simp [digitsValue]
  | c :: l, a => by
    unfold digitsValue
    rw [List.foldl_cons, foldl_dig l, List.foldl_cons, foldl_dig l (10 * 0 + (c.toNat - 48)), List.length_cons, Nat.pow_succ]
    ring

theorem digitsValue_cons (c : Byte) (l : List Byte) : digitsValue (c :: l) = (c.toNat - 48) * 10 ^ l.length + digitsValue l := by
  rw [digitsValue, List.foldl_cons, foldl_dig]; simp

theorem digitsValue_lt : ∀ (l : List Byte), (∀ c ∈ l, IsDigit c) → digitsValue l < 10 ^ l.length
  | [], _ => by simp [digitsValue]
  | c :: l, h => by
    have h1 := digitsValue_lt l fun c hc => h c (List.mem_cons_of_mem _ hc)
    have h2 := (h c List.mem_cons_self).2
    rw [digitsValue_cons, List.length_cons, Nat.pow_succ]
    have : (c.toNat - 48) * 10 ^ l.length ≤ 9 * 10 ^ l.length := Nat.mul_le_mul_right _ (by omega)
    omega

theorem takeWhile_append_cons {α : Type} (f : α → Bool) : ∀ (l : List α) (x : α) (r : List α), (∀ a ∈ l, f a = true) → f x = false →
    (l ++ x :: r).takeWhile f = l
  | [], x, r, _, hx => by simp [hx]
  | a :: l, x, r, h, hx => by
    rw [List.cons_append, List.takeWhile_cons, h a List.mem_cons_self, if_pos rfl,
      takeWhile_append_cons f l x r (fun b hb => h b (List.mem_cons_of_mem _ hb)) hx]

theorem digit_ne {c : Byte} (h : IsDigit c) : c ≠ 69 ∧ c ≠ 46 ∧ c ≠ 45 ∧ c ≠ 0 := by
  unfold IsDigit at h
  refine ⟨?_, ?_, ?_, ?_⟩ <;> (rintro rfl; revert h; decide)

/-- The count of digits is that of the number. -/
theorem sigDigits_eq {s : List Byte} {neg : Bool} {c : Nat} {k : Int} (h : IsSci s neg c k) :
    c < 10 ^ sigDigits s ∧ 0 < sigDigits s ∧ (c = 0 → sigDigits s = 1) ∧ (0 < c → 10 ^ (sigDigits s - 1) ≤ c) := by
  obtain ⟨d, ds, xs, x, hs, hd, h0, hc, _, _⟩ := h
  have hlen : sigDigits s = ds.length + 1 := by
    have e : s = ((if neg then [45] else []) ++ d :: (if ds = [] then [] else 46 :: ds)) ++ 69 :: xs := by rw [hs]; simp
    rw [sigDigits, e, takeWhile_append_cons]
    · have hf : ∀ l : List Byte, (∀ c ∈ l, IsDigit c) → l.filter (fun c => decide (IsDigit c)) = l := fun l hl => by
        rw [List.filter_eq_self]; intro a ha; exact decide_eq_true (hl a ha)
      have hds := hf ds fun c hc => hd c (List.mem_cons_of_mem _ hc)
      have hd1 := hd d List.mem_cons_self
      rw [List.filter_append, List.filter_cons, if_pos (decide_eq_true hd1)]
      have e1 : (if neg = true then [(45 : Byte)] else []).filter (fun c => decide (IsDigit c)) = [] := by cases neg <;> decide
      rw [e1]
      by_cases hn : ds = []
      · rw [if_pos hn, hn]; rfl
      · rw [if_neg hn, List.filter_cons, if_neg (by decide), hds]; rfl
    · intro a ha
      rw [bne_iff_ne]
      rw [List.mem_append, List.mem_cons] at ha
      rcases ha with ha | rfl | ha
      · cases neg <;> simp at ha
        rw [ha]; decide
      · exact (digit_ne (hd _ List.mem_cons_self)).1
      · by_cases hn : ds = []
        · rw [if_pos hn] at ha; simp at ha
        · rw [if_neg hn, List.mem_cons] at ha
          rcases ha with rfl | ha
          · decide
          · exact (digit_ne (hd _ (List.mem_cons_of_mem _ ha))).1
    · rfl
  have hlt := digitsValue_lt _ hd
  rw [hc, List.length_cons] at hlt
  rw [hlen]
  refine ⟨hlt, by omega, fun hz => ?_, fun hp => ?_⟩
  · have hz' := hc
    rw [hz, digitsValue_cons] at hz'
    have : (d.toNat - 48) * 10 ^ ds.length = 0 := by omega
    rcases Nat.mul_eq_zero.1 this with h1 | h1
    · have h2 := hd d List.mem_cons_self
      have h3 : d = 48 := by rw [← UInt8.toNat_inj]; have := h2.1; show d.toNat = 48; omega
      rw [h0 h3]; rfl
    · exact absurd h1 (Nat.pos_iff_ne_zero.1 (Nat.pow_pos (by decide)))
  · rw [Nat.add_sub_cancel]
    by_cases hd0 : d = 48
    · rw [h0 hd0, List.length_nil, Nat.pow_zero]; omega
    · have h2 := hd d List.mem_cons_self
      have h3 : d.toNat ≠ 48 := fun e => hd0 (by rw [← UInt8.toNat_inj]; exact e)
      have h4 := h2.1
      rw [← hc, digitsValue_cons]
      have : 1 * 10 ^ ds.length ≤ (d.toNat - 48) * 10 ^ ds.length := Nat.mul_le_mul_right _ (by omega)
      omega

theorem split_unique {α : Type} (P : α → Prop) : ∀ (l l' : List α) (x x' : α) (r r' : List α), (∀ a ∈ l, P a) → (∀ a ∈ l', P a) → ¬P x → ¬P x' →
    l ++ x :: r = l' ++ x' :: r' → l = l' ∧ x = x' ∧ r = r'
  | [], [], x, x', r, r', _, _, _, _, h => by simpa using h
  | [], b :: l', x, x', r, r', _, h2, h3, _, h => by
    simp at h
    exact absurd (h2 b List.mem_cons_self) (h.1 ▸ h3)
  | a :: l, [], x, x', r, r', h1, _, _, h4, h => by
    simp at h
    exact absurd (h1 a List.mem_cons_self) (h.1 ▸ h4)
  | a :: l, b :: l', x, x', r, r', h1, h2, h3, h4, h => by
    simp at h
    obtain ⟨e1, e2, e3⟩ := split_unique P l l' x x' r r' (fun c hc => h1 c (List.mem_cons_of_mem _ hc)) (fun c hc => h2 c (List.mem_cons_of_mem _ hc)) h3 h4 h.2
    exact ⟨by rw [h.1, e1], e2, e3⟩

theorem isDecimal_unique {s : List Byte} {v w : Int} (h1 : IsDecimal v s) (h2 : IsDecimal w s) : v = w := by
  obtain ⟨a, ha, na, da, _, va⟩ := h1
  obtain ⟨b, hb, nb, db, _, vb⟩ := h2
  rw [ha] at hb
  have nd : ∀ (l : List Byte), l ≠ [] → (∀ c ∈ l, 48 ≤ c.toNat ∧ c.toNat ≤ 57) → ∀ l', l = (45 : Byte) :: l' → False := by
    intro l _ hl l' e
    exact (digit_ne (hl 45 (by rw [e]; exact List.mem_cons_self))).2.2.1 rfl
  by_cases hv : v < 0 <;> by_cases hw : w < 0 <;> simp only [hv, hw, if_true, if_false, List.nil_append, List.cons_append, List.cons.injEq, true_and] at hb
  · rw [hb] at va; omega
  · exact (nd b nb db _ hb.symm).elim
  · exact (nd a na da _ hb).elim
  · rw [hb] at va; omega

/-- A text has one reading. -/
theorem isSci_unique {s : List Byte} {n n' : Bool} {c c' : Nat} {k k' : Int} (h : IsSci s n c k) (h' : IsSci s n' c' k') : n = n' ∧ c = c' ∧ k = k' := by
  obtain ⟨d, ds, xs, x, hs, hd, _, hc, hx, hk⟩ := h
  obtain ⟨d', ds', xs', x', hs', hd', _, hc', hx', hk'⟩ := h'
  rw [hs] at hs'
  have hd1 := digit_ne (hd d List.mem_cons_self)
  have hd1' := digit_ne (hd' d' List.mem_cons_self)
  have step : n = n' ∧ d = d' ∧ ((if ds = [] then [] else 46 :: ds) ++ 69 :: xs : List Byte) = (if ds' = [] then [] else 46 :: ds') ++ 69 :: xs' := by
    cases n <;> cases n' <;> simp only [if_true, if_false, List.nil_append, List.cons_append, List.cons.injEq, Bool.false_eq_true] at hs'
    · exact ⟨rfl, hs'.1, hs'.2⟩
    · exact absurd hs'.1 hd1.2.2.1
    · exact absurd hs'.1.symm hd1'.2.2.1
    · exact ⟨rfl, hs'.2.1, hs'.2.2⟩
  obtain ⟨e1, e2, e3⟩ := step
  have hP : ∀ (l : List Byte) (d : Byte), (∀ c ∈ d :: l, IsDigit c) → ∀ a ∈ (if l = [] then [] else 46 :: l), a ≠ 69 := by
    intro l d hl a ha
    by_cases hn : l = []
    · rw [if_pos hn] at ha; simp at ha
    · rw [if_neg hn, List.mem_cons] at ha
      rcases ha with rfl | ha
      · decide
      · exact (digit_ne (hl a (List.mem_cons_of_mem _ ha))).1
  obtain ⟨f1, _, f3⟩ := split_unique (fun a => a ≠ 69) _ _ _ _ _ _ (hP ds d hd) (hP ds' d' hd') (by simp) (by simp) e3
  have hds : ds = ds' := by
    by_cases a : ds = [] <;> by_cases b : ds' = [] <;> simp only [a, b, if_true, if_false] at f1 ⊢
    · exact absurd f1 (by simp)
    · exact absurd f1 (by simp)
    · simpa using f1
  subst f3
  have hxx := isDecimal_unique hx hx'
  exact ⟨e1, by rw [← hc, ← hc', e2, hds], by rw [hk, hk', hxx, hds]⟩

example : IsSci [45, 49, 46, 53, 69, 45, 51] true 15 (-4) :=
  ⟨49, [53], [45, 51], -3, rfl, by decide, by decide, rfl, ⟨[51], rfl, by decide, by decide, by decide, rfl⟩, rfl⟩

end Nanostl.Ryu

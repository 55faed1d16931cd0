import Verif.Ryu.Words

/-!
Finite checks lifted to their whole range: the logarithms and the tables.
-/

namespace Nanostl.Ryu

/-- `p i` for every `i < n`, evaluated downwards. -/
def allBelow : Nat → (Nat → Bool) → Bool
  | 0, _ => true
  | n + 1, p => p n && allBelow n p

theorem allBelow_sound {n : Nat} {p : Nat → Bool} (h : allBelow n p = true) : ∀ i, i < n → p i = true := by
  induction n with
  | zero => intro i hi; omega
  | succ n ih =>
    rw [allBelow, Bool.and_eq_true] at h
    intro i hi
    by_cases hin : i = n
    · rw [hin]; exact h.1
    · exact ih h.2 i (by omega)

theorem chk_pos {p : Prop} [Decidable p] (h : p) : chk p = some () := if_pos h
theorem chk_neg {p : Prop} [Decidable p] (h : ¬p) : chk p = none := if_neg h

theorem some_bind {α β : Type} (a : α) (f : α → Option β) : (some a >>= f) = f a := rfl
theorem none_bind {α β : Type} (f : α → Option β) : ((none : Option α) >>= f) = none := rfl

/-! ### Logarithms -/

theorem log2pow5_chk : allBelow 3529 (fun e => decide (e * 1217359 < 2 ^ 32 ∧ 2 ^ (e * 1217359 / 2 ^ 19) ≤ 5 ^ e ∧ 5 ^ e < 2 ^ (e * 1217359 / 2 ^ 19 + 1))) = true := by
  decide +kernel

theorem log10Pow2_chk : allBelow 1651 (fun e => decide (e * 78913 < 2 ^ 32 ∧ 10 ^ (e * 78913 / 2 ^ 18) ≤ 2 ^ e ∧ 2 ^ e < 10 ^ (e * 78913 / 2 ^ 18 + 1))) = true := by
  decide +kernel

theorem log10Pow5_chk : allBelow 2621 (fun e => decide (e * 732923 < 2 ^ 32 ∧ 10 ^ (e * 732923 / 2 ^ 20) ≤ 5 ^ e ∧ 5 ^ e < 10 ^ (e * 732923 / 2 ^ 20 + 1))) = true := by
  decide +kernel

theorem log2pow5_val {e : Int} (h0 : 0 ≤ e) (h1 : e ≤ 3528) :
    log2pow5 e = some ((e.toNat * 1217359 / 2 ^ 19 : Nat) : Int) ∧ 2 ^ (e.toNat * 1217359 / 2 ^ 19) ≤ 5 ^ e.toNat ∧
      5 ^ e.toNat < 2 ^ (e.toNat * 1217359 / 2 ^ 19 + 1) := by
  have h := of_decide_eq_true (allBelow_sound log2pow5_chk e.toNat (by omega))
  refine ⟨?_, h.2⟩
  rw [log2pow5, chk_pos h0, chk_pos h1, some_bind, some_bind, w32, Nat.mod_eq_of_lt h.1, shr_eq]
  rfl

theorem pow5bits_val {e : Int} (h0 : 0 ≤ e) (h1 : e ≤ 3528) :
    pow5bits e = some ((e.toNat * 1217359 / 2 ^ 19 + 1 : Nat) : Int) := by
  have h := of_decide_eq_true (allBelow_sound log2pow5_chk e.toNat (by omega))
  rw [pow5bits, chk_pos h0, chk_pos h1, some_bind, some_bind, w32, w32, Nat.mod_eq_of_lt h.1, shr_eq, Nat.mod_eq_of_lt]
  · rfl
  · have := Nat.div_le_self (e.toNat * 1217359) (2 ^ 19)
    have h2 : e.toNat * 1217359 ≤ 3528 * 1217359 := Nat.mul_le_mul_right _ (by omega)
    have h3 : (3528 * 1217359 + 1 : Nat) < 2 ^ 32 := by decide
    omega

theorem log10Pow2_val {e : Int} (h0 : 0 ≤ e) (h1 : e ≤ 1650) :
    log10Pow2 e = some (e.toNat * 78913 / 2 ^ 18) ∧ 10 ^ (e.toNat * 78913 / 2 ^ 18) ≤ 2 ^ e.toNat ∧
      2 ^ e.toNat < 10 ^ (e.toNat * 78913 / 2 ^ 18 + 1) := by
  have h := of_decide_eq_true (allBelow_sound log10Pow2_chk e.toNat (by omega))
  refine ⟨?_, h.2⟩
  rw [log10Pow2, chk_pos h0, chk_pos h1, some_bind, some_bind, w32, Nat.mod_eq_of_lt h.1, shr_eq]
  rfl

theorem log10Pow5_val {e : Int} (h0 : 0 ≤ e) (h1 : e ≤ 2620) :
    log10Pow5 e = some (e.toNat * 732923 / 2 ^ 20) ∧ 10 ^ (e.toNat * 732923 / 2 ^ 20) ≤ 5 ^ e.toNat ∧
      5 ^ e.toNat < 10 ^ (e.toNat * 732923 / 2 ^ 20 + 1) := by
  have h := of_decide_eq_true (allBelow_sound log10Pow5_chk e.toNat (by omega))
  refine ⟨?_, h.2⟩
  rw [log10Pow5, chk_pos h0, chk_pos h1, some_bind, some_bind, w32, Nat.mod_eq_of_lt h.1, shr_eq]
  rfl

/-! ### Tables -/

/-- Every entry of a table against its index. -/
def allFrom (p : Nat → Nat × Nat → Bool) : Nat → List (Nat × Nat) → Bool
  | _, [] => true
  | i, t :: ts => p i t && allFrom p (i + 1) ts

theorem allFrom_sound {p : Nat → Nat × Nat → Bool} {l : List (Nat × Nat)} {k : Nat} (h : allFrom p k l = true) :
    ∀ i t, l[i]? = some t → p (k + i) t = true := by
  induction l generalizing k with
  | nil => intro i t ht; simp at ht
  | cons a l ih =>
    rw [allFrom, Bool.and_eq_true] at h
    intro i t ht
    cases i with
    | zero => simp only [List.getElem?_cons_zero, Option.some.injEq] at ht; rw [← ht]; exact h.1
    | succ i => rw [List.getElem?_cons_succ] at ht; have := ih h.2 i t ht; rwa [Nat.add_assoc, Nat.add_comm 1 i] at this

def invEntry (i : Nat) : Nat := 2 ^ (i * 1217359 / 2 ^ 19 + 125) / 5 ^ i + 1
def powEntry (i : Nat) : Nat := 5 ^ i * 2 ^ 125 / 2 ^ (i * 1217359 / 2 ^ 19 + 1)

theorem inv_chk : allFrom (fun i t => decide (t.1 < 2 ^ 64 ∧ t.2 < 2 ^ 64 ∧ t.2 * 2 ^ 64 + t.1 = invEntry i)) 0 invSplit = true := by
  decide +kernel

theorem pow_chk : allFrom (fun i t => decide (t.1 < 2 ^ 64 ∧ t.2 < 2 ^ 64 ∧ t.2 * 2 ^ 64 + t.1 = powEntry i)) 0 powSplit = true := by
  decide +kernel

theorem inv_length : invSplit.length = 342 := by decide +kernel
theorem pow_length : powSplit.length = 326 := by decide +kernel

theorem inv_get {i : Nat} (h : i < 342) : ∃ t, invSplit[i]? = some t ∧ t.1 < 2 ^ 64 ∧ t.2 < 2 ^ 64 ∧ t.2 * 2 ^ 64 + t.1 = invEntry i := by
  have hl : i < invSplit.length := by rw [inv_length]; exact h
  refine ⟨invSplit[i], List.getElem?_eq_getElem hl, ?_⟩
  have := of_decide_eq_true (allFrom_sound inv_chk i _ (List.getElem?_eq_getElem hl))
  rwa [Nat.zero_add] at this

theorem pow_get {i : Nat} (h : i < 326) : ∃ t, powSplit[i]? = some t ∧ t.1 < 2 ^ 64 ∧ t.2 < 2 ^ 64 ∧ t.2 * 2 ^ 64 + t.1 = powEntry i := by
  have hl : i < powSplit.length := by rw [pow_length]; exact h
  refine ⟨powSplit[i], List.getElem?_eq_getElem hl, ?_⟩
  have := of_decide_eq_true (allFrom_sound pow_chk i _ (List.getElem?_eq_getElem hl))
  rwa [Nat.zero_add] at this

end Nanostl.Ryu

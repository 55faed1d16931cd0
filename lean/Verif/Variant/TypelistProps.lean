import Verif.Variant.Typelist
import Verif.Variant.Model
import Verif.Traits.StorageProps
import Mathlib.Data.List.Nodup

/-! C83: the storage of `variant` fits every alternative; numbers and types of alternatives correspond. -/

namespace Nanostl.Variant

open Traits (Lay)

theorem max_le (lay : Ty → Lay) (l : List Ty) (m : Nat) : typelistMax lay l ≤ m ↔ ∀ t ∈ l, (lay t).size ≤ m := by
  induction l with
  | nil => simp [typelistMax]
  | cons h t ih =>
    simp only [typelistMax, List.mem_cons, forall_eq_or_imp, ← ih]
    split <;> omega

theorem maxAlign_le (lay : Ty → Lay) (l : List Ty) (m : Nat) : typelistMaxAlign lay l ≤ m ↔ ∀ t ∈ l, (lay t).align ≤ m := by
  induction l with
  | nil => simp [typelistMaxAlign]
  | cons h t ih =>
    simp only [typelistMaxAlign, List.mem_cons, forall_eq_or_imp, ← ih]
    split <;> omega

theorem max_mem (lay : Ty → Lay) (l : List Ty) (hl : l ≠ []) (hp : ∀ t ∈ l, 0 < (lay t).size) : ∃ t ∈ l, (lay t).size = typelistMax lay l := by
  induction l with
  | nil => exact absurd rfl hl
  | cons h t ih =>
    simp only [typelistMax]
    split
    · exact ⟨h, by simp, rfl⟩
    · rename_i hlt
      have : t ≠ [] := by
        rintro rfl
        have := hp h (by simp)
        simp [typelistMax] at hlt; omega
      obtain ⟨x, hx, hs⟩ := ih this fun x hx => hp x (by simp [hx])
      exact ⟨x, by simp [hx], hs⟩

theorem maxAlign_mem (lay : Ty → Lay) (l : List Ty) (hl : l ≠ []) (hp : ∀ t ∈ l, 0 < (lay t).align) : ∃ t ∈ l, (lay t).align = typelistMaxAlign lay l := by
  induction l with
  | nil => exact absurd rfl hl
  | cons h t ih =>
    simp only [typelistMaxAlign]
    split
    · exact ⟨h, by simp, rfl⟩
    · rename_i hlt
      have : t ≠ [] := by
        rintro rfl
        have := hp h (by simp)
        simp [typelistMaxAlign] at hlt; omega
      obtain ⟨x, hx, hs⟩ := ih this fun x hx => hp x (by simp [hx])
      exact ⟨x, by simp [hx], hs⟩

theorem types_ne (as : List Nat) (h0 : as ≠ []) : variantTypes as ≠ [] := by
  cases as with
  | nil => exact absurd rfl h0
  | cons a as => simp [variantTypes]

/-- The storage of every variant can hold every one of its alternatives: it compiles if the sizes fit `size_t`, is at least as large as each, and its
alignment is a multiple of each one's. -/
theorem c83_storage {w : Nat} (coff : Bool) (rest : List Lay) (lay : Ty → Lay) (hg : ∀ t, (lay t).Good) (as : List Nat) (h0 : as ≠ [])
    (hw : ∀ s ∈ variantTypes as, ∀ t ∈ variantTypes as, (lay s).size + (lay t).align ≤ 2 ^ w) :
    ∃ l, storage w coff rest lay as = some l ∧ ∀ a ∈ as, (lay (.usr a)).size ≤ l.size ∧ (lay (.usr a)).align ∣ l.align := by
  have hs : ∀ t, 0 < (lay t).size := fun t => (hg t).2.2
  have ha : ∀ t, 0 < (lay t).align := fun t => by obtain ⟨k, hk⟩ := (hg t).1; rw [hk]; exact Nat.two_pow_pos k
  obtain ⟨s, hs1, hs2⟩ := max_mem lay _ (types_ne as h0) fun t _ => hs t
  obtain ⟨t, ht1, ht2⟩ := maxAlign_mem lay _ (types_ne as h0) fun t _ => ha t
  have hsum := hw s hs1 t ht1
  have := hs s
  have := ha t
  have hc := Traits.c75_compiles (w := w) coff rest (len := (lay s).size) (a := (lay t).align) hsum (hs s) (hg t).1
  obtain ⟨l, hl⟩ := Option.isSome_iff_exists.1 hc
  obtain ⟨l1, l2, -⟩ := Traits.c75_storage (by omega) (by omega) hl
  refine ⟨l, by rw [storage, ← hs2, ← ht2]; exact hl, fun a ham => ?_⟩
  have hm : Ty.usr a ∈ variantTypes as := by simp [variantTypes, ham]
  refine ⟨Nat.le_trans ((max_le lay _ _).1 (Nat.le_of_eq hs2.symm) _ hm) l2, ?_⟩
  rw [l1]
  have hle := (maxAlign_le lay _ _).1 (Nat.le_of_eq ht2.symm) _ hm
  obtain ⟨i, hi⟩ := (hg (.usr a)).1
  obtain ⟨j, hj⟩ := (hg t).1
  rw [hi, hj] at hle ⊢
  exact Nat.pow_dvd_pow 2 ((Nat.pow_le_pow_iff_right (by omega)).1 hle)

theorem size_append (l m : List Ty) : typelistSize (l ++ m) = typelistSize l + typelistSize m := by
  induction l with
  | nil => simp [typelistSize]
  | cons h t ih => simp only [List.cons_append, typelistSize, ih]; omega

/-- `variant_size` is the number of alternatives. -/
theorem c83_size (as : List Nat) (h : as.length ≤ 16) : variantSize as = as.length := by
  have h1 : ∀ as : List Nat, typelistSize (as.map .usr) = as.length := by
    intro as
    induction as with
    | nil => rfl
    | cons a as ih => simp only [List.map_cons, typelistSize, tySize, ih, List.length_cons]; omega
  have h2 : ∀ n m, m + n ≤ 16 → typelistSize ((List.range' m n).map .tx) = 0 := by
    intro n
    induction n with
    | zero => intro m _; rfl
    | succ n ih =>
      intro m hm
      have : m < 16 := by omega
      simp only [List.range'_succ, List.map_cons, typelistSize, tySize, this, if_true, ih (m + 1) (by omega)]
  rw [variantSize, variantTypes, size_append, h1, h2 _ _ (by omega)]
  rfl

theorem typeAt_eq (l : List Ty) (k : Nat) : typelistTypeAt l k = l[k]? := by
  induction l generalizing k with
  | nil => rfl
  | cons h t ih => cases k with
    | zero => rfl
    | succ k => simp [typelistTypeAt, ih]

/-- `variant_alternative` of the positions that exist is the type given there. -/
theorem c83_alternative (as : List Nat) (k : Nat) (hk : k < as.length) : variantAlternative as k = some (.usr as[k]) := by
  rw [variantAlternative, typeAt_eq, variantTypes, List.getElem?_append_left (by simpa using hk)]
  simp [hk]

theorem indexOf_spec (l : List Ty) (x : Ty) : (x ∉ l ∧ typelistIndexOf l x = -1) ∨ ∃ k : Nat, typelistIndexOf l x = k ∧ l[k]? = some x ∧ ∀ j < k, l[j]? ≠ some x := by
  induction l with
  | nil => exact .inl ⟨by simp, rfl⟩
  | cons h t ih =>
    simp only [typelistIndexOf]
    split
    · rename_i e
      subst e
      exact .inr ⟨0, rfl, rfl, by simp⟩
    · rename_i e
      rcases ih with ⟨h1, h2⟩ | ⟨k, h1, h2, h3⟩
      · rw [h2]; exact .inl ⟨by simp [h1, Ne.symm e], rfl⟩
      · rw [h1]
        refine .inr ⟨k + 1, ?_, by simpa using h2, ?_⟩
        · rw [if_neg (by omega)]; omega
        · intro j hj
          cases j with
          | zero => simpa using e
          | succ j => simpa using h3 j (by omega)

/-- The index of a type is the first position where it is an alternative, -1 if it is not one. -/
theorem c83_index (as : List Nat) (t : Nat) :
    (t ∉ as → typelistIndexOf (variantTypes as) (.usr t) = -1) ∧
    (∀ k (hk : k < as.length), as[k] = t → (∀ j (hj : j < k), as[j] ≠ t) → typelistIndexOf (variantTypes as) (.usr t) = k) := by
  have hmem : Ty.usr t ∈ variantTypes as ↔ t ∈ as := by simp [variantTypes]
  have hget : ∀ k (hk : k < as.length), (variantTypes as)[k]? = some (.usr as[k]) := by
    intro k hk
    rw [← typeAt_eq]; exact c83_alternative as k hk
  rcases indexOf_spec (variantTypes as) (.usr t) with ⟨h1, h2⟩ | ⟨k, h1, h2, h3⟩
  · refine ⟨fun _ => h2, fun k hk e _ => ?_⟩
    rw [hmem] at h1
    exact absurd (e ▸ List.getElem_mem hk) h1
  · have hin : t ∈ as := hmem.1 (List.mem_of_getElem? h2)
    refine ⟨fun h => absurd hin h, fun j hj e hfirst => ?_⟩
    rw [h1]
    rcases Nat.lt_trichotomy j k with hlt | rfl | hgt
    · exact absurd (by rw [hget j hj, e]) (h3 j hlt)
    · rfl
    · have := hget k (by omega)
      rw [h2] at this
      simp only [Option.some.injEq, Ty.usr.injEq] at this
      exact absurd this.symm (hfirst k hgt)

/-- For different alternatives number and type determine each other. -/
theorem c83_inverse (as : List Nat) (hd : as.Nodup) (t k : Nat) (hk : k < as.length) :
    variantAlternative as k = some (.usr t) ↔ typelistIndexOf (variantTypes as) (.usr t) = k := by
  rw [c83_alternative as k hk, Option.some.injEq, Ty.usr.injEq]
  constructor
  · intro e
    refine (c83_index as t).2 k hk e fun j hj e2 => ?_
    have := (List.Nodup.getElem_inj_iff hd (hi := by omega) (hj := hk)).1 (e2.trans e.symm)
    omega
  · intro e
    by_cases hm : t ∈ as
    · obtain ⟨j, hj, rfl⟩ := List.getElem_of_mem hm
      have := (c83_index as as[j]).2 j hj rfl fun i hi e2 => by
        have := (List.Nodup.getElem_inj_iff hd (hi := by omega) (hj := hj)).1 e2
        omega
      rw [this] at e
      have : j = k := by omega
      subst this
      rfl
    · rw [(c83_index as t).1 hm] at e; omega

/-- The numbering of the model of `variant` (C78 … C82) is this one. -/
theorem c83_model {α : Type} (c : Cls α) (t : Nat) : indexOf c t = typelistIndexOf (variantTypes (List.range c.n)) (.usr t) := by
  by_cases ht : t < c.n
  · rw [(c83_index (List.range c.n) t).2 t (by simpa using ht) (by simp) (by intro j hj; simp; omega)]
    exact if_pos ht
  · rw [(c83_index (List.range c.n) t).1 (by simpa using ht)]
    exact if_neg ht

/-! ### Hypotheses are met -/

/-- `int`, `double`, a string of 24 bytes, and one-byte placeholders. -/
def demoLay : Ty → Lay
  | .usr 0 => ⟨4, 4⟩
  | .usr 1 => ⟨8, 8⟩
  | .usr 2 => ⟨8, 24⟩
  | _ => ⟨1, 1⟩

example : (∀ t, (demoLay t).Good) ∧ ∀ s ∈ variantTypes [0, 2, 1], ∀ t ∈ variantTypes [0, 2, 1], (demoLay s).size + (demoLay t).align ≤ 2 ^ 64 := by
  refine ⟨fun t => ?_, by decide⟩
  unfold demoLay
  split <;> refine ⟨?_, by decide, by decide⟩
  exacts [⟨2, rfl⟩, ⟨3, rfl⟩, ⟨3, rfl⟩, ⟨0, rfl⟩]

example : storage 64 false [] demoLay [0, 2, 1] = some ⟨8, 24⟩ := by decide

end Nanostl.Variant

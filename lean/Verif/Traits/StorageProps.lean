import Verif.Traits.Storage
import Mathlib.Algebra.Order.Group.Nat
import Mathlib.Tactic.Ring
import Mathlib.Tactic.Linarith
import Mathlib.Data.Nat.Log
import Mathlib.Tactic.IntervalCases

/-! C75: `aligned_storage` is large and aligned enough. -/

namespace Nanostl.Traits

theorem roundUp_le (n a : Nat) (ha : 0 < a) : n ≤ (n + a - 1) / a * a ∧ (n + a - 1) / a * a < n + a ∧ a ∣ (n + a - 1) / a * a := by
  have h := Nat.div_add_mod (n + a - 1) a
  have h2 := Nat.mod_lt (n + a - 1) ha
  have h3 : (n + a - 1) / a * a = a * ((n + a - 1) / a) := Nat.mul_comm _ _
  exact ⟨by omega, by omega, ⟨_, h3⟩⟩

/-- In `size_t` the length is the exact one, or it is 0 and the array does not compile. -/
theorem storageLen_eq {w len a n : Nat} (hl : len < 2 ^ w) (ha : a < 2 ^ w) (h : storageLen w len a = some n) :
    0 < a ∧ n = (len + a - 1) / a * a ∧ 0 < n := by
  unfold storageLen at h
  split at h
  · cases h
  rename_i h0
  have hp : 0 < a := Nat.pos_of_ne_zero h0
  simp only at h
  have hW : 0 < 2 ^ w := Nat.pow_pos (by omega)
  have e : ((len + a) % 2 ^ w + (2 ^ w - 1)) % 2 ^ w = (len + a - 1) % 2 ^ w := by
    rw [Nat.mod_add_mod, show len + a + (2 ^ w - 1) = len + a - 1 + 2 ^ w by omega, Nat.add_mod_right]
  rw [e] at h
  split at h
  · cases h
  rename_i hn
  simp only [Option.some.injEq] at h
  by_cases hc : len + a - 1 < 2 ^ w
  · rw [Nat.mod_eq_of_lt hc] at h hn
    have hlt : (len + a - 1) / a * a < 2 ^ w := lt_of_le_of_lt (Nat.div_mul_le_self _ _) hc
    rw [Nat.mod_eq_of_lt hlt] at h hn
    exact ⟨hp, h.symm, by omega⟩
  · exfalso
    apply hn
    have hm : (len + a - 1) % 2 ^ w = len + a - 1 - 2 ^ w := by
      rw [Nat.mod_eq_sub_mod (by omega), Nat.mod_eq_of_lt (by omega)]
    rw [hm, Nat.div_eq_of_lt (by omega)]
    simp

theorem find_pod_align : ∀ {l : List Lay} {a : Nat} {p : Lay}, find_pod l a = some p → p.align = a
  | [], _, _, h => by simp [find_pod] at h
  | [x], a, p, h => by
    simp only [find_pod] at h
    split at h
    · simp_all
    · unfold fallback at h; split at h <;> simp_all; subst h; rfl
  | x :: y :: t, a, p, h => by
    simp only [find_pod] at h
    split at h
    · simp_all
    · exact find_pod_align h

theorem find_pod_some : ∀ {l : List Lay}, l ≠ [] → ∀ {a : Nat}, 2 ^ a.log2 = a → (find_pod l a).isSome
  | [], hl, _, _ => absurd rfl hl
  | [x], _, a, h => by simp only [find_pod, fallback, h]; split <;> simp
  | x :: y :: t, _, a, h => by
    simp only [find_pod]
    split
    · simp
    · exact find_pod_some (by simp) h

/-- The usual alignments: powers of two up to 0x2000, and 0x4000 unless the object format is COFF. -/
def Spec.Usual (coff : Bool) (a : Nat) : Prop := ∃ k, a = 2 ^ k ∧ k ≤ if coff then 13 else 14

theorem specialised_iff (coff : Bool) (a : Nat) : specialised coff a = true ↔ Spec.Usual coff a := by
  unfold specialised Spec.Usual
  constructor
  · intro h
    rw [Bool.or_eq_true, List.contains_iff_mem] at h
    rcases h with h | h
    · simp only [List.mem_cons, List.not_mem_nil, or_false] at h
      have h13 : ∀ k, k ≤ 13 → k ≤ if coff then 13 else 14 := by intro k hk; split <;> omega
      rcases h with rfl | rfl | rfl | rfl | rfl | rfl | rfl | rfl | rfl | rfl | rfl | rfl | rfl | rfl
      exacts [⟨0, rfl, h13 _ (by decide)⟩, ⟨1, rfl, h13 _ (by decide)⟩, ⟨2, rfl, h13 _ (by decide)⟩, ⟨3, rfl, h13 _ (by decide)⟩,
        ⟨4, rfl, h13 _ (by decide)⟩, ⟨5, rfl, h13 _ (by decide)⟩, ⟨6, rfl, h13 _ (by decide)⟩, ⟨7, rfl, h13 _ (by decide)⟩,
        ⟨8, rfl, h13 _ (by decide)⟩, ⟨9, rfl, h13 _ (by decide)⟩, ⟨10, rfl, h13 _ (by decide)⟩, ⟨11, rfl, h13 _ (by decide)⟩,
        ⟨12, rfl, h13 _ (by decide)⟩, ⟨13, rfl, h13 _ (by decide)⟩]
    · rw [Bool.and_eq_true, Bool.not_eq_true', beq_iff_eq] at h
      exact ⟨14, h.2, by rw [h.1]; decide⟩
  · rintro ⟨k, rfl, hk⟩
    cases coff
    · have hk' : k ≤ 14 := hk
      interval_cases k <;> decide
    · have hk' : k ≤ 13 := hk
      interval_cases k <;> decide

/-- Whenever `aligned_storage<Len, Align>` compiles, its type has the alignment asked for, is at least as large as asked for and a multiple of
the alignment; with one of the usual alignments there is no smaller such type. -/
theorem c75_storage {w len a : Nat} {coff : Bool} {rest : List Lay} {l : Lay} (hl : len < 2 ^ w) (ha : a < 2 ^ w)
    (h : aligned_storage w coff rest len a = some l) :
    l.align = a ∧ len ≤ l.size ∧ a ∣ l.size ∧ 0 < l.size ∧ (Spec.Usual coff a → ∀ m, len ≤ m → a ∣ m → 0 < m → l.size ≤ m) := by
  unfold aligned_storage at h
  split at h
  · cases h
  rename_i n hn
  obtain ⟨hp, he, hpos⟩ := storageLen_eq hl ha hn
  obtain ⟨r1, r2, r3⟩ := roundUp_le len a hp
  rw [← he] at r1 r2 r3
  split at h
  · cases h
    refine ⟨rfl, r1, r3, hpos, fun _ m h1 h2 h3 => ?_⟩
    obtain ⟨x, rfl⟩ := h2
    obtain ⟨y, hy⟩ := r3
    simp only
    rw [hy] at r2 ⊢
    have : y < x + 1 := by
      have : a * y < a * (x + 1) := by rw [Nat.mul_add]; omega
      exact Nat.lt_of_mul_lt_mul_left this
    exact Nat.mul_le_mul_left a (by omega)
  · rename_i hs
    split at h
    · cases h
    · rename_i p hpod
      cases h
      have hal := find_pod_align hpod
      rw [hal]
      obtain ⟨s1, s2, s3⟩ := roundUp_le (max p.size n) a hp
      refine ⟨rfl, le_trans r1 (le_trans (le_max_right _ _) s1), s3, lt_of_lt_of_le hpos (le_trans (le_max_right _ _) s1), fun h => absurd ((specialised_iff coff a).mpr h) hs⟩

/-- It compiles for every power of two and every length but 0, unless the length rounded up is too large for `size_t`. -/
theorem c75_compiles {w len a : Nat} (coff : Bool) (rest : List Lay) (h : len + a ≤ 2 ^ w) (hl : 0 < len) (ha : ∃ k, a = 2 ^ k) :
    (aligned_storage w coff rest len a).isSome := by
  obtain ⟨k, rfl⟩ := ha
  have hp : 0 < 2 ^ k := Nat.pow_pos (by omega)
  generalize ha : 2 ^ k = a at *
  have hn : storageLen w len a = some ((len + a - 1) / a * a) := by
    unfold storageLen
    rw [if_neg (by omega)]
    simp only
    have e : ((len + a) % 2 ^ w + (2 ^ w - 1)) % 2 ^ w = len + a - 1 := by
      rw [Nat.mod_add_mod, show len + a + (2 ^ w - 1) = len + a - 1 + 2 ^ w by omega, Nat.add_mod_right, Nat.mod_eq_of_lt (by omega)]
    have := Nat.div_mul_le_self (len + a - 1) a
    rw [e, Nat.mod_eq_of_lt (by omega), if_neg (by have := (roundUp_le len a hp).1; omega)]
  unfold aligned_storage
  rw [hn]
  simp only
  split
  · rfl
  · have hlog : 2 ^ a.log2 = a := by rw [← ha, Nat.log2_two_pow]
    have := find_pod_some (l := allTypes rest) (by simp [allTypes]) hlog
    cases hf : find_pod (allTypes rest) a with
    | none => simp [hf] at this
    | some p => rfl

/-- And for nothing but powers of two. -/
theorem c75_power {w len a : Nat} {coff : Bool} {rest : List Lay} {l : Lay} (hg : ∀ t ∈ rest, t.Good)
    (h : aligned_storage w coff rest len a = some l) : ∃ k, a = 2 ^ k := by
  unfold aligned_storage at h
  split at h
  · cases h
  split at h
  · rename_i hs
    obtain ⟨k, hk, -⟩ := (specialised_iff coff a).mp hs
    exact ⟨k, hk⟩
  · split at h
    · cases h
    · rename_i p hp
      have key : ∀ {l : List Lay}, (∀ t ∈ l, t.Good) → find_pod l a = some p → ∃ k, a = 2 ^ k := by
        intro l
        induction l with
        | nil => intro _ h; cases h
        | cons x t ih =>
          intro hg h
          cases t with
          | nil =>
            simp only [find_pod] at h
            split at h
            · rename_i e; exact e ▸ (hg x (by simp)).1
            · unfold fallback at h
              split at h
              · rename_i e; exact ⟨_, e.symm⟩
              · cases h
          | cons y t =>
            simp only [find_pod] at h
            split at h
            · rename_i e; exact e ▸ (hg x (by simp)).1
            · exact ih (fun t ht => hg t (List.mem_cons_of_mem _ ht)) h
      refine key (fun t ht => ?_) hp
      rcases List.mem_cons.1 ht with rfl | ht
      · exact ⟨⟨0, rfl⟩, ⟨1, rfl⟩, by decide⟩
      · exact hg t ht

/-- A length that rounds up past `size_t` is refused, not made smaller. -/
theorem c75_overflow {w len a : Nat} (coff : Bool) (rest : List Lay) (hl : len < 2 ^ w) (ha : a < 2 ^ w) (h : 2 ^ w ≤ (len + a - 1) / a * a) :
    aligned_storage w coff rest len a = none := by
  cases hs : aligned_storage w coff rest len a with
  | none => rfl
  | some l =>
    exfalso
    unfold aligned_storage at hs
    split at hs
    · cases hs
    rename_i n hn
    obtain ⟨hp, he, hpos⟩ := storageLen_eq hl ha hn
    have : n < 2 ^ w := by
      unfold storageLen at hn
      split at hn
      · cases hn
      · simp only at hn; split at hn
        · cases hn
        · cases hn; exact Nat.mod_lt _ (Nat.pow_pos (by omega))
    omega

/-- The default alignment is the largest of the listed ones that is no larger than the length. -/
theorem c75_default (rest : List Lay) (len : Nat) (hl : 0 < len) : ∃ d, find_max_align (allTypes rest) len = some d ∧ d ≤ len ∧
    (∃ t ∈ allTypes rest, t.align = d) ∧ ∀ t ∈ allTypes rest, t.align ≤ len → t.align ≤ d := by
  have key : ∀ l : List Lay, l ≠ [] → ∃ d, find_max_align l len = some d ∧ (∃ t ∈ l, t.align = d) ∧ (∀ t ∈ l, t.align ≤ len → t.align ≤ d ∧ d ≤ len) := by
    intro l
    induction l with
    | nil => intro h; exact absurd rfl h
    | cons x t ih =>
      intro _
      cases t with
      | nil => exact ⟨x.align, rfl, ⟨x, by simp, rfl⟩, by simp⟩
      | cons y t =>
        obtain ⟨d, h1, ⟨u, h2, h3⟩, h4⟩ := ih (by simp)
        refine ⟨select_align len x.align d, by simp only [find_max_align]; rw [h1]; rfl, ?_, ?_⟩
        · have : select_align len x.align d = x.align ∨ select_align len x.align d = d := by
            unfold select_align; simp only; split_ifs <;> simp
          rcases this with h | h
          · exact ⟨x, by simp, h.symm⟩
          · exact ⟨u, by simp_all, by rw [h, h3]⟩
        · intro v hv hle
          have hd : select_align len x.align d = if x.align ≤ len then (if d ≤ len then max x.align d else x.align) else (if d ≤ len then d else min x.align d) := by
            unfold select_align; simp only; split_ifs <;> omega
          rw [hd]
          rcases List.mem_cons.1 hv with rfl | hv
          · rw [if_pos hle]; split_ifs <;> omega
          · have := h4 v hv hle
            rw [if_pos this.2, if_pos this.2]; split_ifs <;> omega
  obtain ⟨d, h1, h2, h3⟩ := key (allTypes rest) (by simp [allTypes])
  exact ⟨d, h1, (h3 ⟨1, 1⟩ (by simp [allTypes]) hl).2, h2, fun t ht h => (h3 t ht h).1⟩

/-- With the alignment by default, every listed type that is no larger than the storage can live in it: it fits, and the storage is aligned for it. -/
theorem c75_fits {w len : Nat} {coff : Bool} {rest : List Lay} {l : Lay} (hg : ∀ t ∈ rest, t.Good) (hl : 0 < len) (hlt : len < 2 ^ w)
    (h : aligned_storage_default w coff rest len = some l) {t : Lay} (ht : t ∈ allTypes rest) (hs : t.size ≤ len) : t.size ≤ l.size ∧ t.align ∣ l.align := by
  have good : ∀ t ∈ allTypes rest, t.Good := by
    intro t ht
    rcases List.mem_cons.1 ht with rfl | ht
    · exact ⟨⟨0, rfl⟩, ⟨1, rfl⟩, by decide⟩
    · exact hg t ht
  obtain ⟨d, h1, h2, ⟨u, hu, h3⟩, h4⟩ := c75_default rest len hl
  unfold aligned_storage_default at h
  rw [h1] at h
  obtain ⟨a1, a2, -⟩ := c75_storage hlt (by omega) h
  obtain ⟨⟨i, hi⟩, hdv, hpos⟩ := good t ht
  obtain ⟨⟨j, hj⟩, -⟩ := good u hu
  have hle := h4 t ht (le_trans (Nat.le_of_dvd hpos hdv) hs)
  refine ⟨by omega, ?_⟩
  rw [a1, ← h3, hi, hj]
  rw [hi, ← h3, hj] at hle
  exact Nat.pow_dvd_pow 2 ((Nat.pow_le_pow_iff_right (by omega)).1 hle)

example : Spec.Usual true 0x2000 ∧ ¬ Spec.Usual true 0x4000 ∧ Spec.Usual false 0x4000 := by
  refine ⟨⟨13, rfl, by decide⟩, fun h => ?_, ⟨14, rfl, by decide⟩⟩
  exact absurd ((specialised_iff true 0x4000).mpr h) (by decide)

/-- The usual 64-bit platform. -/
def rest64 : List Lay := [⟨2, 2⟩, ⟨4, 4⟩, ⟨8, 8⟩, ⟨8, 8⟩, ⟨8, 8⟩, ⟨16, 16⟩, ⟨16, 16⟩, ⟨8, 32⟩, ⟨8, 8⟩]

example : aligned_storage_default 64 false rest64 24 = some ⟨16, 32⟩ ∧ aligned_storage 64 false rest64 5 4 = some ⟨4, 8⟩ ∧
    aligned_storage 64 false rest64 5 0x10000 = some ⟨0x10000, 0x10000⟩ ∧ aligned_storage 64 false rest64 (2 ^ 64 - 1) 8 = none ∧
    (∀ t ∈ rest64, t.size ∈ [2, 4, 8, 16, 32]) := by decide +kernel

example : ∀ t ∈ rest64, t.Good := by
  intro t ht
  simp only [rest64, List.mem_cons, List.not_mem_nil, or_false] at ht
  rcases ht with rfl | rfl | rfl | rfl | rfl | rfl | rfl | rfl | rfl
  exacts [⟨⟨1, rfl⟩, by decide, by decide⟩, ⟨⟨2, rfl⟩, by decide, by decide⟩, ⟨⟨3, rfl⟩, by decide, by decide⟩, ⟨⟨3, rfl⟩, by decide, by decide⟩,
    ⟨⟨3, rfl⟩, by decide, by decide⟩, ⟨⟨4, rfl⟩, by decide, by decide⟩, ⟨⟨4, rfl⟩, by decide, by decide⟩, ⟨⟨3, rfl⟩, by decide, by decide⟩,
    ⟨⟨3, rfl⟩, by decide, by decide⟩]

end Nanostl.Traits

import Verif.TypeInfo.Model
import Mathlib.Tactic.Common
import Mathlib.Data.Nat.Bitwise
import Mathlib.Tactic.NormNum

/-! C77: `type_info` compares, orders and hashes types. -/

namespace Nanostl.TypeInfo

/-- The name of a type is a C string. -/
def Names (str : Nat → List Nat) : Prop := ∀ a, ∀ c ∈ str a, c ≠ 0

/-- What the platform promises about the names of the `type_info`s of a program, `S`: with the first implementation there is one copy of each name;
with the third, a name marked unique has no other copy. -/
def Promise (i : Impl) (str : Nat → List Nat) (S : Nat → Prop) : Prop := match i with
  | .unique => ∀ u v, S u → S v → str u = str v → u = v
  | .nonUnique => True
  | .arm => ∀ u v, S u → S v → u < 2 ^ 63 → name .arm str u = name .arm str v → u = v

theorem strcmp_zero : ∀ {s t : List Nat}, (∀ c ∈ s, c ≠ 0) → (∀ c ∈ t, c ≠ 0) → (strcmp s t = 0 ↔ s = t)
  | [], [], _, _ => by simp [strcmp]
  | [], b :: t, _, h => by simp [strcmp, h b (by simp)]
  | a :: s, [], h, _ => by simp [strcmp, h a (by simp)]
  | a :: s, b :: t, h1, h2 => by
    simp only [strcmp]
    split
    · rename_i hab
      rw [strcmp_zero (fun c hc => h1 c (by simp [hc])) (fun c hc => h2 c (by simp [hc]))]
      simp [hab]
    · rename_i hab
      simp only [List.cons.injEq, hab, false_and, iff_false]; omega

theorem strcmp_swap : ∀ s t : List Nat, strcmp t s = - strcmp s t
  | [], [] => by simp [strcmp]
  | [], b :: t => by simp [strcmp]
  | a :: s, [] => by simp [strcmp]
  | a :: s, b :: t => by
    simp only [strcmp]
    by_cases h : a = b
    · simp [h, strcmp_swap s t]
    · simp [h, Ne.symm h]

theorem strcmp_trans : ∀ {s t u : List Nat}, strcmp s t < 0 → strcmp t u < 0 → strcmp s u < 0
  | [], t, [], h1, h2 => by
    rw [strcmp_swap] at h2; omega
  | [], [], b :: u, h1, h2 => h2
  | [], a :: t, b :: u, h1, h2 => by
    simp only [strcmp] at h1 h2 ⊢
    split at h2 <;> omega
  | a :: s, [], u, h1, h2 => by simp only [strcmp] at h1; omega
  | a :: s, b :: t, [], h1, h2 => by simp only [strcmp] at h2; omega
  | a :: s, b :: t, c :: u, h1, h2 => by
    simp only [strcmp] at h1 h2 ⊢
    by_cases hab : a = b <;> by_cases hbc : b = c
    · subst hab; subst hbc; simp only [if_true] at h1 h2 ⊢; exact strcmp_trans h1 h2
    · subst hab; simp only [hbc, if_false] at h2 ⊢; exact h2
    · subst hbc; simp only [hab, if_false] at h1 ⊢; exact h1
    · simp only [hab, hbc, if_false] at h1 h2
      rw [if_neg (by omega)]; omega

theorem and_bit {v : Nat} (hv : v < 2 ^ 64) : v &&& rttiBit = if v < 2 ^ 63 then 0 else 2 ^ 63 := by
  unfold rttiBit
  rw [Nat.and_two_pow]
  have : v.testBit 63 = decide (2 ^ 63 ≤ v) := by
    rw [Nat.testBit_eq_decide_div_mod_eq]
    congr 1
    have h1 : v / 2 ^ 63 < 2 := by rw [Nat.div_lt_iff_lt_mul (by norm_num)]; omega
    have h2 : 2 ^ 63 ≤ v ↔ 1 ≤ v / 2 ^ 63 := by rw [Nat.le_div_iff_mul_le (by norm_num)]; omega
    rw [h2]
    ext; constructor <;> intro h <;> omega
  rw [this]
  split
  · rename_i h; rw [decide_eq_false (by omega)]; rfl
  · rename_i h; rw [decide_eq_true (by omega)]; rfl

theorem isUnique1_iff {v : Nat} (hv : v < 2 ^ 64) : isUnique1 v = decide (v < 2 ^ 63) := by
  unfold isUnique1
  rw [and_bit hv]
  by_cases h : v < 2 ^ 63
  · rw [if_pos h, decide_eq_true h]; rfl
  · rw [if_neg h, decide_eq_false h]; rfl

theorem isUnique2_iff {u v : Nat} (hu : u < 2 ^ 64) (hv : v < 2 ^ 64) : isUnique2 u v = (decide (u < 2 ^ 63) || decide (v < 2 ^ 63)) := by
  unfold isUnique2
  rw [Nat.and_assoc, and_bit hv]
  by_cases h : v < 2 ^ 63
  · rw [if_pos h, decide_eq_true h, Nat.and_zero, Bool.or_true]; rfl
  · rw [if_neg h, decide_eq_false h, Bool.or_false]
    change (u &&& rttiBit == 0) = _
    rw [and_bit hu]
    by_cases h' : u < 2 ^ 63
    · rw [if_pos h', decide_eq_true h']; rfl
    · rw [if_neg h', decide_eq_false h']; rfl

/-- `==` holds exactly of the `type_info`s of one type, if the platform keeps its promise. -/
theorem c77_eq (i : Impl) (str : Nat → List Nat) (hs : Names str) (S : Nat → Prop) (hS : ∀ v, S v → v < 2 ^ 64) (hp : Promise i str S) {u v : Nat}
    (hu : S u) (hv : S v) : eq i str u v = true ↔ name i str u = name i str v := by
  have key : ∀ a b, strcmp (str a) (str b) = 0 ↔ str a = str b := fun a b => strcmp_zero (hs a) (hs b)
  cases i with
  | unique =>
    simp only [eq, name, toString, beq_iff_eq]
    exact ⟨fun h => by rw [h], hp u v hu hv⟩
  | nonUnique =>
    simp only [eq, name, toString, Bool.or_eq_true, beq_iff_eq, key]
    exact ⟨fun h => by rcases h with h | h; · rw [h]
                       exact h, .inr⟩
  | arm =>
    simp only [eq]
    split
    · rename_i h; subst h; simp
    · rename_i hne
      rw [isUnique2_iff (hS u hu) (hS v hv)]
      split
      · rename_i h
        simp only [Bool.false_eq_true, false_iff]
        intro hn
        simp only [Bool.or_eq_true, decide_eq_true_eq] at h
        rcases h with h | h
        · exact hne (hp u v hu hv h hn)
        · exact hne (hp v u hv hu h hn.symm).symm
      · simp only [beq_iff_eq, key]; rfl

/-- `before` is a strict total order of the types: with every three `type_info`s. Neither is before the other exactly if they are equal. -/
theorem c77_before (i : Impl) (str : Nat → List Nat) (hs : Names str) {u v w : Nat} (hu : u < 2 ^ 64) (hv : v < 2 ^ 64) (hw : w < 2 ^ 64) :
    lt i str u u = false ∧ (lt i str u v = true → lt i str v u = false) ∧ (lt i str u v = true → lt i str v w = true → lt i str u w = true) ∧
    ((lt i str u v = false ∧ lt i str v u = false) ↔ eq i str u v = true) := by
  have key : ∀ a b, strcmp (str a) (str b) = 0 ↔ str a = str b := fun a b => strcmp_zero (hs a) (hs b)
  have self : ∀ a, strcmp (str a) (str a) = 0 := fun a => (key a a).2 rfl
  have sw : ∀ a b, strcmp (str b) (str a) = - strcmp (str a) (str b) := fun a b => strcmp_swap _ _
  have tr : ∀ a b c, strcmp (str a) (str b) < 0 → strcmp (str b) (str c) < 0 → strcmp (str a) (str c) < 0 := fun _ _ _ => strcmp_trans
  cases i with
  | unique => simp only [lt, eq, decide_eq_true_eq, decide_eq_false_iff_not, beq_iff_eq]; omega
  | nonUnique =>
    simp only [lt, eq, decide_eq_true_eq, decide_eq_false_iff_not, beq_iff_eq, Bool.or_eq_true, self]
    refine ⟨by omega, ?_, tr u v w, ?_⟩
    · rw [sw u v]; omega
    · rw [sw u v]
      constructor
      · intro h; right; omega
      · rintro (rfl | h)
        · rw [self]; omega
        · omega
  | arm =>
    have e : ∀ a b, a < 2 ^ 64 → b < 2 ^ 64 → lt .arm str a b = (if a < 2 ^ 63 ∨ b < 2 ^ 63 then decide (a < b) else
        decide (strcmp (str (toString .arm a)) (str (toString .arm b)) < 0)) := by
      intro a b ha hb
      simp only [lt, isUnique2_iff ha hb, Bool.or_eq_true, decide_eq_true_eq]
    rw [e u u hu hu, e u v hu hv, e v u hv hu, e v w hv hw, e u w hu hw]
    refine ⟨?_, ?_, ?_, ?_⟩
    · split
      · simp
      · simp [self]
    · simp only [or_comm (a := v < 2 ^ 63)]
      split
      · simp only [decide_eq_true_eq, decide_eq_false_iff_not]; omega
      · rw [sw (toString .arm u) (toString .arm v)]
        simp only [decide_eq_true_eq, decide_eq_false_iff_not]; omega
    · split_ifs <;> simp only [decide_eq_true_eq] <;> first | omega | skip
      exact tr _ _ _
    · simp only [or_comm (a := v < 2 ^ 63)]
      simp only [eq, isUnique2_iff hu hv, Bool.or_eq_true, decide_eq_true_eq]
      split
      · rename_i h
        simp only [decide_eq_false_iff_not]
        split
        · rename_i h; subst h; simp
        · simp only [Bool.false_eq_true, iff_false]; omega
      · rw [sw (toString .arm u) (toString .arm v)]
        simp only [decide_eq_false_iff_not]
        split
        · rename_i h; subst h; simp [self]
        · rw [beq_iff_eq]; omega

/-- Equal `type_info`s have equal hash codes. -/
theorem c77_hash (i : Impl) (str : Nat → List Nat) (hs : Names str) {u v : Nat} (hu : u < 2 ^ 64) (hv : v < 2 ^ 64) (h : eq i str u v = true) :
    hash i str u = hash i str v := by
  have key : ∀ a b, strcmp (str a) (str b) = 0 ↔ str a = str b := fun a b => strcmp_zero (hs a) (hs b)
  cases i with
  | unique => simpa [hash, eq] using h
  | nonUnique =>
    simp only [eq, Bool.or_eq_true, beq_iff_eq, key] at h
    simp only [hash]
    rcases h with rfl | h
    · rfl
    · rw [h]
  | arm =>
    simp only [eq] at h
    split at h
    · rename_i h'; rw [h']
    · rw [isUnique2_iff hu hv] at h
      split at h
      · cases h
      · rename_i hn
        simp only [Bool.or_eq_true, decide_eq_true_eq, not_or] at hn
        simp only [beq_iff_eq, key] at h
        simp only [hash, isUnique1_iff hu, isUnique1_iff hv, hn, decide_false, h, Bool.false_eq_true, if_false]

/-- The hash of a name: every character but the NUL enters, in order. -/
def Spec.djb (s : List Nat) : Nat := s.foldl (fun h c => (h * 33 % 2 ^ 64) ^^^ c) 5381

theorem c77_hash_name (str : Nat → List Nat) (hs : Names str) (v : Nat) : hash .nonUnique str v = Spec.djb (str v) := by
  have : ∀ (s : List Nat) (h : Nat), (∀ c ∈ s, c ≠ 0) → hashLoop 64 (s ++ [0]) h = s.foldl (fun h c => (h * 33 % 2 ^ 64) ^^^ c) h := by
    intro s
    induction s with
    | nil => intro h _; simp [hashLoop]
    | cons a s ih =>
      intro h hs
      simp only [List.cons_append, hashLoop, hs a (by simp), if_false, List.foldl_cons]
      exact ih _ (fun c hc => hs c (by simp [hc]))
  exact this _ _ (hs v)

/-- The third implementation compares by address if *either* name is unique (nanotypeinfo.h:200-202), not only if both are, as the comment says
(nanotypeinfo.h:76-80): a name marked unique that does have a copy is unequal to it. -/
theorem c77_arm_false (str : Nat → List Nat) {u v : Nat} (hu : u < 2 ^ 63) (hv : 2 ^ 63 ≤ v) (hv' : v < 2 ^ 64) (_hn : name .arm str u = name .arm str v) :
    eq .arm str u v = false := by
  simp only [eq, isUnique2_iff (lt_trans hu (by norm_num)) hv']
  rw [if_neg (by omega), if_pos (by rw [decide_eq_true hu]; rfl)]

/-- The name is the text at the stored address; in the third implementation the top bit of the word, which says whether the name is unique, is not part
of that address. -/
theorem c77_name (i : Impl) (str : Nat → List Nat) {a : Nat} (ha : a < 2 ^ 63) :
    name i str a = str a ∧ name .arm str (2 ^ 63 + a) = str a := by
  have key : ∀ v, v < 2 ^ 64 → v &&& (2 ^ 64 - 1 - rttiBit) = v % 2 ^ 63 := by
    intro v _
    have : (2 ^ 64 - 1 - rttiBit : Nat) = 2 ^ 63 - 1 := by unfold rttiBit; norm_num
    rw [this, Nat.and_two_pow_sub_one_eq_mod]
  refine ⟨?_, ?_⟩
  · cases i with
    | unique => rfl
    | nonUnique => rfl
    | arm =>
      show str (a &&& (2 ^ 64 - 1 - rttiBit)) = str a
      rw [key a (by omega), Nat.mod_eq_of_lt ha]
  · show str ((2 ^ 63 + a) &&& (2 ^ 64 - 1 - rttiBit)) = str a
    rw [key _ (by omega), Nat.add_mod_left, Nat.mod_eq_of_lt ha]

/-! ### Hypotheses are met -/

example : name .arm (fun a => if a = 32 then [100] else []) (2 ^ 63 + 32) = [100] := (c77_name .arm _ (by norm_num)).2

/-- Names at 16 and, in two copies, at 32 and 48. -/
def demoStr (a : Nat) : List Nat := if a = 16 then [105] else if a = 32 ∨ a = 48 then [100, 105] else []

example : Names demoStr ∧ Promise .arm demoStr (fun v => v = 16 ∨ v = 2 ^ 63 + 32 ∨ v = 2 ^ 63 + 48) ∧
    eq .arm demoStr (2 ^ 63 + 32) (2 ^ 63 + 48) = true ∧ lt .arm demoStr 16 (2 ^ 63 + 32) = true := by
  refine ⟨?_, ?_, by decide +kernel, by decide +kernel⟩
  · intro a c hc; unfold demoStr at hc; split_ifs at hc <;> simp at hc <;> omega
  · intro u v hu hv h
    have hu : u = 16 := by omega
    subst hu
    rcases hv with rfl | rfl | rfl
    · simp
    · intro hc; exact absurd hc (by decide +kernel)
    · intro hc; exact absurd hc (by decide +kernel)

end Nanostl.TypeInfo

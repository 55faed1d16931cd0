import Verif.Map.StrKeys
import Verif.Map.KeysProps
import Verif.Str.Compare
import Mathlib.Data.List.Lex

/-! C132: maps whose keys are strings. -/

namespace Nanostl.Map.Keys.Strs

variable {V : Type}

/-! ### The specification -/

/-- The text of a string: the characters before the first zero. -/
def text (k : Key) : List Nat := k.takeWhile (· != 0)

/-- Strings that end, and whose characters are below 256. -/
def Narrow (k : Key) : Prop := 0 ∈ k ∧ ∀ c ∈ text k, c < 256

theorem compare_defined : ∀ {a b : Key}, 0 ∈ a → 0 ∈ b → ∃ r, compare a b = some r
  | [], _, h, _ => (by cases h)
  | _ :: _, [], _, h => (by cases h)
  | a :: p, b :: q, ha, hb => by
    rw [compare]
    split
    · next h =>
      obtain ⟨h0, rfl⟩ := h
      refine compare_defined ?_ ?_
      · rcases List.mem_cons.mp ha with h | h
        · exact (h0 h.symm).elim
        · exact h
      · rcases List.mem_cons.mp hb with h | h
        · exact (h0 h.symm).elim
        · exact h
    · exact ⟨_, rfl⟩

theorem compare_text : ∀ {a b : Key}, Narrow a → Narrow b → ∃ r, compare a b = some r ∧ (r < 0 ↔ text a < text b) ∧ (r = 0 ↔ text a = text b)
  | [], _, h, _ => (by cases h.1)
  | _ :: _, [], _, h => (by cases h.1)
  | a :: p, b :: q, ha, hb => by
    have small : ∀ {c : Nat} {l : Key}, Narrow (c :: l) → c < 256 := fun {c l} h => by
      by_cases hc : c = 0
      · omega
      · exact h.2 c (by simp [text, hc])
    have tail : ∀ {c : Nat} {l : Key}, c ≠ 0 → Narrow (c :: l) → Narrow l := fun {c l} hc h => by
      refine ⟨?_, fun d hd => h.2 d ?_⟩
      · rcases List.mem_cons.mp h.1 with h | h
        · exact (hc h.symm).elim
        · exact h
      · simp only [text, List.takeWhile_cons, bne_iff_ne, ne_eq, hc, not_false_eq_true, if_true]
        exact List.mem_cons_of_mem _ hd
    rw [compare]
    split
    · next h =>
      obtain ⟨h0, rfl⟩ := h
      obtain ⟨r, h1, h2, h3⟩ := compare_text (tail h0 ha) (tail h0 hb)
      refine ⟨r, h1, ?_, ?_⟩
      · rw [h2]; simp [text, h0]
      · rw [h3]; simp [text, h0]
    · next h =>
      have sa := small ha
      have sb := small hb
      refine ⟨_, rfl, ?_, ?_⟩
      · simp only [first, Nat.mod_eq_of_lt sa, Nat.mod_eq_of_lt sb]
        by_cases a0 : a = 0
        · subst a0
          by_cases b0 : b = 0
          · subst b0; simp [text]
          · simp [text, b0]; omega
        · by_cases b0 : b = 0
          · subst b0; simp [text, a0]
          · have hab : a ≠ b := fun e => h ⟨a0, e⟩
            simp [text, a0, b0, List.cons_lt_cons_iff, hab]
      · simp only [first, Nat.mod_eq_of_lt sa, Nat.mod_eq_of_lt sb]
        by_cases a0 : a = 0
        · subst a0
          by_cases b0 : b = 0
          · subst b0; simp [text]
          · simp [text, b0]
        · by_cases b0 : b = 0
          · subst b0; simp [text, a0]
          · have hab : a ≠ b := fun e => h ⟨a0, e⟩
            simp [text, a0, b0, hab]; omega

/-- **C132, as far as it holds.** The comparisons of narrow strings are all defined, and are those of their texts, in dictionary order. -/
theorem c132_order_partial (dflt : V) (wreck : V → V → V) {a b : Key} (ha : Narrow a) (hb : Narrow b) :
    compare a b ≠ none ∧ ((strCls dflt wreck).eq a b = true ↔ text a = text b) ∧ ((strCls dflt wreck).gt a b = true ↔ text b < text a) ∧
    ((strCls dflt wreck).lt a b = true ↔ text a < text b) := by
  obtain ⟨r, h1, h2, h3⟩ := compare_text ha hb
  refine ⟨by rw [h1]; exact fun h => (by cases h), ?_, ?_, ?_⟩
  · simp [strCls, h1, h3]
  · simp only [strCls, h1, Option.any_some, decide_eq_true_eq]
    constructor
    · intro hr
      rcases lt_trichotomy (text a) (text b) with h | h | h
      · have := h2.mpr h; omega
      · have := h3.mpr h; omega
      · exact h
    · intro h
      have n1 : ¬ r < 0 := fun hr => absurd (h2.mp hr) (not_lt_of_gt h)
      have n2 : r ≠ 0 := fun hr => by rw [h3.mp hr] at h; exact absurd h (lt_irrefl _)
      omega
  · simp [strCls, h1, h2]

theorem eq_decide {p : Prop} (i : Decidable p) {b : Bool} (h : b = true ↔ p) : b = decide p := by
  cases b
  · exact (decide_eq_false fun hp => by simpa using h.mpr hp).symm
  · exact (decide_eq_true (h.mp rfl)).symm

theorem ordered (dflt : V) (wreck : V → V → V) : Ordered (strCls dflt wreck) text Narrow := by
  intro a b ha hb
  obtain ⟨-, h1, h2, -⟩ := c132_order_partial dflt wreck ha hb
  exact ⟨eq_decide _ h1, eq_decide _ h2⟩

/-- **C132, as far as it holds.** A map whose keys are narrow strings gives the results of a map from texts to values, whatever throws. Missing: characters that are not below 256. -/
theorem c132_map_partial (dflt : V) (wreck : V → V → V) (cs : List (Cmd Key V)) (h : ∀ c ∈ cs, Narrow c.key) (fails : Nat → Bool) (rand : Nat → Nat) :
    ∃ s xs, run (strCls dflt wreck) cs (init fails rand) = some (s, xs) ∧ Run text dflt (fun _ => none) cs xs := by
  have e : (instDecidableEqList : DecidableEq (List Nat)) = LinearOrder.toDecidableEq := Subsingleton.elim _ _
  rw [e]
  exact c130_map_partial (ordered dflt wreck) cs h fails rand

/-- **C132, as far as it holds.** In such a map `upper_bound(k)`, if it does not throw, designates the entry whose text is the next after that of `k`, in dictionary order. -/
theorem c132_upper_partial {dflt : V} {wreck : V → V → V} {cs : List (Cmd Key V)} (h : ∀ c ∈ cs, Narrow c.key) {fails : Nat → Bool} {rand : Nat → Nat} {s s' : St Key V}
    {xs : List (Option (Res V))} (e : run (strCls dflt wreck) cs (init fails rand) = some (s, xs)) {k : Key} (hk : Narrow k) {p : Option Nat} (eu : upper (strCls dflt wreck) k s = .ok s' p) :
    (p = none → ∀ a n, s.m.mem a = some n → ¬ text k < text n.key) ∧
    ∀ a, p = some a → ∃ n, s.m.mem a = some n ∧ text k < text n.key ∧ ∀ b m, s.m.mem b = some m → text k < text m.key → text n.key ≤ text m.key :=
  c130_upper_partial (ordered dflt wreck) h e (fun _ ha => eq_decide _ (c132_order_partial dflt wreck hk ha).2.2.2) eu

theorem ofBytes_text {l : List UInt8} (h : 0 ∉ l) : text (ofBytes l) = l.map (·.toNat) := by
  induction l with
  | nil => rfl
  | cons c l ih =>
    have hc : c ≠ 0 := fun e => h (by simp [e])
    have hn : c.toNat ≠ 0 := fun e => hc (UInt8.toNat_inj.mp (by simpa using e))
    have := ih fun e => h (List.mem_cons_of_mem _ e)
    simp only [text, ofBytes, List.map_cons, List.cons_append, List.takeWhile_cons, bne_iff_ne, ne_eq, hn, not_false_eq_true, if_true] at this ⊢
    rw [this]

/-- **C132.** Every `string`, as a key, is narrow; and strings without zeros within are one key only if they are the same. -/
theorem c132_char (dflt : V) (wreck : V → V → V) (l m : List UInt8) : Narrow (ofBytes l) ∧
    (0 ∉ l → 0 ∉ m → ((strCls dflt wreck).eq (ofBytes l) (ofBytes m) = true ↔ l = m)) := by
  have nar : ∀ l, Narrow (ofBytes l) := by
    intro l
    refine ⟨by simp [ofBytes], fun c hc => ?_⟩
    have := (List.takeWhile_prefix _).subset hc
    simp only [ofBytes, List.mem_append, List.mem_map, List.mem_singleton] at this
    rcases this with ⟨b, -, rfl⟩ | rfl
    · exact b.toNat_lt
    · omega
  refine ⟨nar l, fun h1 h2 => ?_⟩
  rw [(c132_order_partial dflt wreck (nar l) (nar m)).2.1, ofBytes_text h1, ofBytes_text h2]
  exact (List.map_injective_iff.mpr fun _ _ => UInt8.toNat_inj.mp).eq_iff

/-- The comparison is that of the model of `string` (C14). -/
theorem compare_str {p q : Nat → Option Str.Byte} {l m : List Str.Byte} (hp : Str.Holds p l) (hq : Str.Holds q m) :
    ∀ (n fuel i : Nat), l.length - i < n → n ≤ fuel → i ≤ l.length → i ≤ m.length → Str.compareLoop p q fuel i = compare (ofBytes (l.drop i)) (ofBytes (m.drop i)) := by
  intro n
  induction n with
  | zero => intro fuel i h; omega
  | succ n ih =>
    intro fuel i hn hf hi hj
    obtain ⟨fuel, rfl⟩ : ∃ k, fuel = k + 1 := ⟨fuel - 1, by omega⟩
    have low : ∀ c : UInt8, first c.toNat = c.toNat := fun c => Nat.mod_eq_of_lt c.toNat_lt
    have zero : ∀ c : UInt8, c.toNat = 0 ↔ c = 0 := fun c => ⟨fun h => UInt8.toNat_inj.mp (by simpa using h), fun h => by simp [h]⟩
    simp only [Str.compareLoop]
    rcases hp.head hi with ⟨a, ha, pa⟩ | ⟨ha, hil, pa⟩ <;> rcases hq.head hj with ⟨b, hb, qb⟩ | ⟨hb, him, qb⟩
    · rw [pa, qb, ha, hb]
      have li : i < l.length := by have := congrArg List.length ha; simp at this; omega
      have mi : i < m.length := by have := congrArg List.length hb; simp at this; omega
      simp only [Option.bind_eq_bind, Option.bind_some, ofBytes, List.map_cons, List.cons_append, compare, low, ne_eq, zero, UInt8.toNat_inj]
      split
      · exact ih fuel (i + 1) (by omega) (by omega) (by omega) (by omega)
      · rfl
    · rw [pa, qb, ha, hb]
      simp only [Option.bind_eq_bind, Option.bind_some, ofBytes, List.map_cons, List.cons_append, List.map_nil, List.nil_append, compare, low, ne_eq, zero]
      rw [if_neg (fun h => h.1 h.2), if_neg (fun h => h.1 (by simpa [zero] using h.2))]
      rfl
    · rw [pa, qb, ha, hb]
      simp [ofBytes, compare, low]
      simp [first]
    · rw [pa, qb, ha, hb]
      simp [ofBytes, compare]

/-- **C132, not so.** The comparison of a key with itself is undefined if the key has no terminating zero, as one made by `basic_string(s, count)` or from two pointers may have none (C12). -/
theorem c132_unended_false {a : Key} (h : 0 ∉ a) : compare a a = none := by
  induction a with
  | nil => rfl
  | cons c a ih =>
    have hc : c ≠ 0 := fun e => h (by simp [e])
    rw [compare, if_pos ⟨hc, rfl⟩]
    exact ih fun e => h (List.mem_cons_of_mem _ e)

/-- **C132, not so.** Whatever follows them, two different characters of more than a byte with the same low byte make strings equal. -/
theorem c132_wide_false (dflt : V) (wreck : V → V → V) {l : List Nat} (hl : 0 ∉ l) {c d : Nat} (hcd : c ≠ d) (h : c % 256 = d % 256) (p q : Key) :
    (strCls dflt wreck).eq (l ++ c :: p) (l ++ d :: q) = true := by
  induction l with
  | nil => simp [strCls, compare, first, hcd, h]
  | cons x l ih =>
    have hx : x ≠ 0 := fun e => hl (by simp [e])
    have := ih fun e => hl (List.mem_cons_of_mem _ e)
    simpa [strCls, compare, hx] using this

/-- **C132, not so.** `basic_string<char16_t>` keys: after `u"Ł"` is inserted, `u"A"` is found and cannot be inserted, nor `u"Ā"` once there is `u""`. -/
theorem c132_wide_map_false : ∃ s, run (strCls 0 fun a _ => a) [.insert [0x141, 0] 1, .find [0x41, 0], .insert [0x41, 0] 2, .insert [0] 3, .insert [0x100, 0] 4, .find [0x100, 0]]
    (init (fun _ => false) prioStream) = some (s, [some (.inserted true), some (.value 1), some (.inserted false), some (.inserted true), some (.inserted false), some (.value 3)]) := by
  have h : ((run (strCls 0 fun a _ => a) [.insert [0x141, 0] 1, .find [0x41, 0], .insert [0x41, 0] 2, .insert [0] 3, .insert [0x100, 0] 4, .find [0x100, 0]]
    (init (fun _ => false) prioStream)).map (·.2)) =
      some [some (.inserted true), some (.value 1), some (.inserted false), some (.inserted true), some (.inserted false), some (.value 3)] := by decide +kernel
  obtain ⟨x, hx, e⟩ := Option.map_eq_some_iff.mp h
  exact ⟨x.1, by rw [hx, ← e]⟩

/-! ### The hypotheses can be met -/

/-- Keys "ab", "" and "ab" with more after a zero: all narrow. -/
example : Narrow [97, 98, 0] ∧ Narrow [0] ∧ Narrow [97, 98, 0, 99, 0] := by
  refine ⟨⟨by decide, ?_⟩, ⟨by decide, ?_⟩, ⟨by decide, ?_⟩⟩ <;> simp [text]

/-- What follows a zero within a string is no part of the key; and an allocation fails on the way. -/
example : ((run (strCls 0 fun a _ => a) [.insert [97, 98, 0] 5, .set [97, 98, 0, 99, 0] 6, .find [97, 98, 0], .find [97, 0], .find [97, 0]]
    (init (fun k => k == 7) prioStream)).map (·.2)) = some [some (.inserted true), some .done, some (.value 6), none, some .absent] := by decide +kernel

/-- The text after "a" is "ab". -/
example : (match run (strCls 0 fun a _ => a) [.insert [97, 98, 0] 1, .insert [98, 0] 2] (init (fun _ => false) prioStream) with
    | some (s, _) => match upper (strCls 0 fun a _ => a) [97, 0] s with
      | .ok _ (some a) => (s.m.mem a).map (·.key) == some [97, 98, 0]
      | _ => false
    | none => false) = true := by decide +kernel

/-- Bytes without a zero; characters without a zero. -/
example : (0 : Nat) ∉ ([97, 98] : Key) ∧ (0 : UInt8) ∉ ([97, 98] : List UInt8) := by decide

end Nanostl.Map.Keys.Strs

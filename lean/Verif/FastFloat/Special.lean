import Verif.FastFloat.FromChars

/-! `parse_infnan`: the longest beginning of a text that names an infinity or a NaN. -/

namespace Nanostl.FastFloat
open Nanostl.Float
open Nanostl.Str (Byte)
open Nanostl.Ryu (some_bind drop_get)

variable [Limb]

/-! ### Specification -/

/-- The small letter of a letter of the ASCII set, any other byte as it is. -/
def lower (c : Byte) : Byte := if 65 ≤ c ∧ c ≤ 90 then c + 32 else c

def infText : List Byte := [105, 110, 102]
def infinityText : List Byte := [105, 110, 102, 105, 110, 105, 116, 121]
def nanText : List Byte := [110, 97, 110]

/-- Characters that may stand in the parentheses: letters, digits, the underscore. -/
def IsWordChar (c : Byte) : Prop := (97 ≤ c ∧ c ≤ 122) ∨ (65 ≤ c ∧ c ≤ 90) ∨ (48 ≤ c ∧ c ≤ 57) ∨ c = 95

instance (c : Byte) : Decidable (IsWordChar c) := by unfold IsWordChar; infer_instance

/-- `inf`, `infinity`, `nan`, `nan(...)` in any case. -/
inductive IsWord : List Byte → Bool → Prop where
  | inf {w : List Byte} (h : w.map lower = infText) : IsWord w false
  | infinity {w : List Byte} (h : w.map lower = infinityText) : IsWord w false
  | nan {w : List Byte} (h : w.map lower = nanText) : IsWord w true
  | nanArg {w cs : List Byte} (h : w.map lower = nanText) (hc : ∀ c ∈ cs, IsWordChar c) : IsWord (w ++ 40 :: (cs ++ [41])) true

/-- The same with an optional minus sign. -/
def IsSpecial (t : List Byte) (neg nan : Bool) : Prop := ∃ w, t = (if neg then [45] else []) ++ w ∧ IsWord w nan

/-! ### Comparison without case -/

omit [Limb] in
theorem case_bit : ∀ a : UInt8, (a == 0 || a == 32) = (a &&& 223 == 0) := by
  have h : ∀ i < 256, (UInt8.ofNat i == 0 || UInt8.ofNat i == 32) = (UInt8.ofNat i &&& 223 == 0) := by decide +kernel
  intro a
  have := h a.toNat a.toNat_lt
  rwa [UInt8.ofNat_toNat] at this

omit [Limb] in
theorem diff_or (a b : UInt8) : ((a ||| b) == 0 || (a ||| b) == 32) = ((a == 0 || a == 32) && (b == 0 || b == 32)) := by
  rw [case_bit, case_bit, case_bit]
  have : (a ||| b) &&& 223 = (a &&& 223) ||| (b &&& 223) := by
    apply UInt8.toNat_inj.1
    simp only [UInt8.toNat_and, UInt8.toNat_or, Nat.and_or_distrib_right]
  rw [this, Bool.eq_iff_iff]
  simp

omit [Limb] in
/-- The letters of the literals. -/
theorem letter_diff : ∀ c ∈ infinityText ++ nanText, ∀ d : UInt8, ((d ^^^ c) == 0 || (d ^^^ c) == 32) = (lower d == c) := by
  have h : ∀ c ∈ infinityText ++ nanText, ∀ i < 256, ((UInt8.ofNat i ^^^ c) == 0 || (UInt8.ofNat i ^^^ c) == 32) = (lower (UInt8.ofNat i) == c) := by decide +kernel
  intro c hc d
  have := h c hc d.toNat d.toNat_lt
  rwa [UInt8.ofNat_toNat] at this

omit [Limb] in
theorem strncasecmp_spec {s : List Byte} (l : List Byte) (hl : ∀ c ∈ l, c ∈ infinityText ++ nanText) (p : Nat) (hp : p + l.length ≤ s.length) (diff : Byte) :
    strncasecmp s p l diff = some ((diff == 0 || diff == 32) && (((s.drop p).take l.length).map lower == l)) := by
  induction l generalizing p diff with
  | nil => simp [strncasecmp]
  | cons c l ih =>
    rw [List.length_cons] at hp
    have hlt : p < s.length := by omega
    have hg : s[p]? = some s[p] := List.getElem?_eq_getElem hlt
    unfold strncasecmp
    rw [hg, some_bind, ih (fun x hx => hl x (List.mem_cons_of_mem _ hx)) (p + 1) (by omega), diff_or, letter_diff c (hl c List.mem_cons_self)]
    rw [List.drop_eq_getElem_cons hlt, List.length_cons, List.take_succ_cons, List.map_cons, Bool.and_assoc]
    rfl

omit [Limb] in
theorem strncasecmp_zero {s : List Byte} (l : List Byte) (hl : ∀ c ∈ l, c ∈ infinityText ++ nanText) {p : Nat} (hp : p + l.length ≤ s.length) :
    strncasecmp s p l 0 = some (decide (((s.drop p).take l.length).map lower = l)) := by
  rw [strncasecmp_spec l hl p hp]
  congr 1
  by_cases h : ((s.drop p).take l.length).map lower = l
  · rw [decide_eq_true h, beq_iff_eq.2 h]; rfl
  · rw [decide_eq_false h, beq_eq_false_iff_ne.2 h]; rfl

/-! ### The parentheses -/

omit [Limb] in
theorem wordChar_iff (c : Byte) : ((decide (97 ≤ c) && decide (c ≤ 122)) || (decide (65 ≤ c) && decide (c ≤ 90)) || (decide (48 ≤ c) && decide (c ≤ 57)) || c == 95) = decide (IsWordChar c) := by
  rw [Bool.eq_iff_iff]
  rw [decide_eq_true_iff]
  unfold IsWordChar
  simp only [Bool.or_eq_true, Bool.and_eq_true, decide_eq_true_eq, beq_iff_eq, or_assoc]

omit [Limb] in
theorem nanLoop_spec {s : List Byte} (f p : Nat) (hp : p ≤ s.length) (hf : s.length < p + f) :
    (∃ cs r, s.drop p = cs ++ 41 :: r ∧ (∀ c ∈ cs, IsWordChar c) ∧ nanLoop s f p = some (some (p + cs.length + 1))) ∨
    ((∀ cs r, s.drop p = cs ++ 41 :: r → ¬∀ c ∈ cs, IsWordChar c) ∧ nanLoop s f p = some none) := by
  induction f generalizing p with
  | zero => omega
  | succ f ih =>
    unfold nanLoop
    by_cases hpe : p = s.length
    · right
      rw [if_neg (by simpa using hpe)]
      refine ⟨fun cs r h => ?_, rfl⟩
      rw [hpe, List.drop_length] at h
      simp at h
    · have hlt : p < s.length := by omega
      rw [if_pos hpe, List.getElem?_eq_getElem hlt, some_bind, wordChar_iff, List.drop_eq_getElem_cons hlt]
      generalize s[p] = c
      by_cases h41 : c = 41
      · left
        rw [if_pos h41]
        exact ⟨[], _, by rw [h41]; rfl, by simp, by simp⟩
      · rw [if_neg h41]
        by_cases hw : IsWordChar c
        · rw [if_neg (by simpa using hw)]
          rcases ih (p + 1) (by omega) (by omega) with ⟨cs, r, h1, h2, h3⟩ | ⟨h1, h2⟩
          · left
            refine ⟨c :: cs, r, by rw [h1]; rfl, ?_, ?_⟩
            · intro x hx
              rcases List.mem_cons.1 hx with rfl | hx
              · exact hw
              · exact h2 x hx
            · rw [h3, List.length_cons]; congr 2; omega
          · right
            refine ⟨fun cs r h => ?_, h2⟩
            cases cs with
            | nil => simp only [List.nil_append, List.cons.injEq] at h; exact absurd h.1 h41
            | cons d cs =>
              rw [List.cons_append, List.cons.injEq] at h
              intro hall
              exact h1 cs r h.2 fun x hx => hall x (List.mem_cons_of_mem _ hx)
        · right
          rw [if_pos (by simpa using hw)]
          refine ⟨fun cs r h hall => ?_, rfl⟩
          cases cs with
          | nil => simp only [List.nil_append, List.cons.injEq] at h; exact h41 h.1
          | cons d cs =>
            rw [List.cons_append, List.cons.injEq] at h
            rw [h.1] at hw
            exact hw (hall d List.mem_cons_self)

/-! ### Words within a text -/

omit [Limb] in
theorem word_start {w : List Byte} {nan : Bool} (h : IsWord w nan) : 3 ≤ w.length ∧ (w.take 3).map lower = if nan then nanText else infText := by
  cases h with
  | inf h =>
    have hl := congrArg List.length h
    simp only [List.length_map, infText, List.length_cons, List.length_nil] at hl
    exact ⟨by omega, by rw [List.take_of_length_le (by omega), h]; rfl⟩
  | infinity h =>
    have hl := congrArg List.length h
    simp only [List.length_map, infinityText, List.length_cons, List.length_nil] at hl
    exact ⟨by omega, by rw [List.map_take, h]; rfl⟩
  | nan h =>
    have hl := congrArg List.length h
    simp only [List.length_map, nanText, List.length_cons, List.length_nil] at hl
    exact ⟨by omega, by rw [List.take_of_length_le (by omega), h]; rfl⟩
  | nanArg h hc =>
    have hl := congrArg List.length h
    simp only [List.length_map, nanText, List.length_cons, List.length_nil] at hl
    exact ⟨by rw [List.length_append]; omega, by rw [List.take_left' (by omega), h]; rfl⟩

omit [Limb] in
theorem word_in {w u : List Byte} {nan : Bool} (h : IsWord w nan) (hp : w <+: u) : 3 ≤ u.length ∧ (u.take 3).map lower = if nan then nanText else infText := by
  obtain ⟨h1, h2⟩ := word_start h
  obtain ⟨z, rfl⟩ := hp
  rw [List.length_append]
  refine ⟨by omega, ?_⟩
  rw [List.take_append_of_le_length h1]; exact h2

/-- Part of `parse_infnan` after the sign. -/
def words (s : List Byte) (first : Nat) (value : Bool → Nat) : Option Result :=
  if s.length - first ≥ 3 then do
    let isNan ← strncasecmp s first [110, 97, 110] 0
    if isNan then do
      let paren ← at1 s (first + 3) 40
      if paren then do
        let e ← nanLoop s (s.length + 1) (first + 3 + 1)
        pure ⟨e.getD (first + 3), some (value true)⟩
      else pure ⟨first + 3, some (value true)⟩
    else do
      let isInf ← strncasecmp s first [105, 110, 102] 0
      if isInf then do
        let long ← if s.length - first ≥ 8 then strncasecmp s (first + 3) [105, 110, 105, 116, 121] 0 else pure false
        pure ⟨if long then first + 8 else first + 3, some (value false)⟩
      else pure ⟨0, none⟩
  else pure ⟨0, none⟩

omit [Limb] in
theorem words_spec {s : List Byte} (first : Nat) (hf : first ≤ s.length) (value : Bool → Nat) :
    let r := words s first value
    (r = some ⟨0, none⟩ ∧ ∀ w nan, w <+: s.drop first → ¬IsWord w nan) ∨
    ∃ n nan, r = some ⟨first + n, some (value nan)⟩ ∧ first + n ≤ s.length ∧ IsWord ((s.drop first).take n) nan ∧ ∀ w nan', w <+: s.drop first → IsWord w nan' → w.length ≤ n ∧ nan' = nan := by
  intro r
  have hul : (s.drop first).length = s.length - first := List.length_drop
  have hnn : nanText ≠ infText := by decide
  by_cases h3 : s.length - first ≥ 3
  swap
  · left
    refine ⟨if_neg h3, fun w nan hw hW => ?_⟩
    have := (word_in hW hw).1
    omega
  have e1 := strncasecmp_zero (s := s) nanText (by decide) (p := first) (by simp only [nanText, List.length_cons, List.length_nil]; omega)
  have e2 := strncasecmp_zero (s := s) infText (by decide) (p := first) (by simp only [infText, List.length_cons, List.length_nil]; omega)
  rw [show nanText.length = 3 from rfl] at e1
  rw [show infText.length = 3 from rfl] at e2
  have hl3 : ((s.drop first).take 3).length = 3 := by rw [List.length_take, hul]; omega
  by_cases hN : ((s.drop first).take 3).map lower = nanText
  · right
    rw [decide_eq_true hN] at e1
    have hr : r = (do
        let paren ← at1 s (first + 3) 40
        if paren then do
          let e ← nanLoop s (s.length + 1) (first + 3 + 1)
          pure ⟨e.getD (first + 3), some (value true)⟩
        else pure ⟨first + 3, some (value true)⟩) := by
      show (if s.length - first ≥ 3 then _ else _) = _
      rw [if_pos h3, show ([110, 97, 110] : List Byte) = nanText from rfl, e1, some_bind]
      rfl
    have huniq : ∀ w nan', w <+: s.drop first → IsWord w nan' → nan' = true := by
      intro w nan' hw hW
      have := (word_in hW hw).2
      rw [hN] at this
      cases nan'
      · exact absurd this hnn
      · rfl
    have hsplit : s.drop first = (s.drop first).take 3 ++ s.drop (first + 3) := by
      rw [← List.drop_drop, List.take_append_drop]
    -- what comes with parentheses
    have harg : ∀ w cs r, (w.map lower = nanText) → w ++ 40 :: (cs ++ [41]) ++ r = s.drop first → s.drop (first + 3) = 40 :: (cs ++ 41 :: r) := by
      intro w cs r hw h
      have hl := congrArg List.length hw
      simp only [List.length_map, nanText, List.length_cons, List.length_nil] at hl
      rw [← List.drop_drop, ← h, List.append_assoc, List.drop_left' (by omega)]
      simp
    have plain : (∀ cs r, s.drop (first + 3) = 40 :: (cs ++ 41 :: r) → ¬∀ c ∈ cs, IsWordChar c) → r = some ⟨first + 3, some (value true)⟩ →
        ∃ n nan, r = some ⟨first + n, some (value nan)⟩ ∧ first + n ≤ s.length ∧ IsWord ((s.drop first).take n) nan ∧ ∀ w nan', w <+: s.drop first → IsWord w nan' → w.length ≤ n ∧ nan' = nan := by
      intro hno hr
      refine ⟨3, true, hr, by omega, .nan hN, fun w nan' hw hW => ?_⟩
      have hu := huniq w nan' hw hW
      refine ⟨?_, hu⟩
      subst hu
      cases hW with
      | nan h =>
        have hl := congrArg List.length h
        simp only [List.length_map, nanText, List.length_cons, List.length_nil] at hl
        omega
      | nanArg h hc =>
        obtain ⟨z, hz⟩ := hw
        exact absurd hc (hno _ z (harg _ _ _ h hz))
    have h40 : at1 s (first + 3) 40 = some (decide ((s.drop (first + 3)).head? = some 40)) := at1_spec (by omega) rfl 40
    by_cases hp : (s.drop (first + 3)).head? = some 40
    · rw [decide_eq_true hp] at h40
      have hlt : first + 3 < s.length := by
        by_contra hc
        rw [List.drop_eq_nil_of_le (by omega)] at hp
        simp at hp
      have hd4 : s.drop (first + 3) = 40 :: s.drop (first + 3 + 1) := by
        rw [List.drop_eq_getElem_cons hlt] at hp ⊢
        simp only [List.head?_cons, Option.some.injEq] at hp
        rw [hp]
      rw [h40, some_bind, if_pos rfl] at hr
      rcases nanLoop_spec (s := s) (s.length + 1) (first + 3 + 1) (by omega) (by omega) with ⟨cs, z, g1, g2, g3⟩ | ⟨g1, g2⟩
      · rw [g3, some_bind] at hr
        have hlen := congrArg List.length g1
        simp only [List.length_drop, List.length_append, List.length_cons] at hlen
        have htext : s.drop first = ((s.drop first).take 3 ++ 40 :: (cs ++ [41])) ++ z := by
          conv_lhs => rw [hsplit, hd4, g1]
          simp
        refine ⟨3 + 1 + cs.length + 1, true, ?_, by omega, ?_, fun w nan' hw hW => ?_⟩
        · rw [hr]
          show some _ = _
          simp only [Option.getD_some]
          congr 2
          omega
        · rw [htext, List.take_left' (by simp only [List.length_append, hl3, List.length_cons, List.length_nil]; omega)]
          exact .nanArg hN g2
        · have hu := huniq w nan' hw hW
          refine ⟨?_, hu⟩
          subst hu
          cases hW with
          | nan h =>
            have hl := congrArg List.length h
            simp only [List.length_map, nanText, List.length_cons, List.length_nil] at hl
            omega
          | nanArg h hc =>
            rename_i w' cs'
            obtain ⟨z', hz'⟩ := hw
            have q := harg _ _ _ h hz'
            rw [hd4, List.cons.injEq, g1] at q
            have hl := congrArg List.length h
            simp only [List.length_map, nanText, List.length_cons, List.length_nil] at hl
            have hcs : cs'.length ≤ cs.length := by
              by_contra hc'
              have h1 : (cs ++ 41 :: z)[cs.length]? = some 41 := by simp
              rw [q.2, List.getElem?_append_left (by omega)] at h1
              have := hc 41 (List.mem_of_getElem? h1)
              revert this; decide
            simp only [List.length_append, List.length_cons, List.length_nil]
            omega
      · rw [g2, some_bind] at hr
        refine plain (fun cs z h => ?_) hr
        rw [hd4, List.cons.injEq] at h
        exact g1 cs z h.2
    · rw [decide_eq_false hp] at h40
      rw [h40, some_bind] at hr
      refine plain (fun cs z h => ?_) hr
      rw [h] at hp
      exact absurd rfl hp
  · rw [decide_eq_false hN] at e1
    by_cases hI : ((s.drop first).take 3).map lower = infText
    · right
      rw [decide_eq_true hI] at e2
      have hr : r = (if s.length - first ≥ 8 then strncasecmp s (first + 3) [105, 110, 105, 116, 121] 0 else pure false).bind
          fun long => pure ⟨if long then first + 8 else first + 3, some (value false)⟩ := by
        show (if s.length - first ≥ 3 then _ else _) = _
        rw [if_pos h3, show ([110, 97, 110] : List Byte) = nanText from rfl, e1, some_bind, show ([105, 110, 102] : List Byte) = infText from rfl, e2]
        by_cases h8 : s.length - first ≥ 8
        · simp only [if_pos h8]; rfl
        · simp only [if_neg h8]; rfl
      have huniq : ∀ w nan', w <+: s.drop first → IsWord w nan' → nan' = false := by
        intro w nan' hw hW
        have := (word_in hW hw).2
        rw [hI] at this
        cases nan'
        · rfl
        · exact absurd this.symm hnn
      have hlen : ∀ w nan', w <+: s.drop first → IsWord w nan' → w.length = 3 ∨ (w.length = 8 ∧ w.map lower = infinityText) := by
        intro w nan' hw hW
        have hu := huniq w nan' hw hW
        subst hu
        cases hW with
        | inf h =>
          have hl := congrArg List.length h
          simp only [List.length_map, infText, List.length_cons, List.length_nil] at hl
          exact Or.inl hl
        | infinity h =>
          have hl := congrArg List.length h
          simp only [List.length_map, infinityText, List.length_cons, List.length_nil] at hl
          exact Or.inr ⟨hl, h⟩
      have hlong : (if s.length - first ≥ 8 then strncasecmp s (first + 3) [105, 110, 105, 116, 121] 0 else pure false) = some (decide (((s.drop first).take 8).map lower = infinityText)) := by
        by_cases h8 : s.length - first ≥ 8
        · rw [if_pos h8, strncasecmp_zero _ (by decide) (by simp only [List.length_cons, List.length_nil]; omega)]
          congr 1
          rw [decide_eq_decide, show (8 : Nat) = 3 + 5 from rfl, List.take_add, List.map_append, hI, List.drop_drop]
          rw [show infinityText = infText ++ [105, 110, 105, 116, 121] from rfl, List.append_cancel_left_eq]
          rfl
        · rw [if_neg h8]
          show some false = _
          rw [decide_eq_false]
          intro h
          have hl := congrArg List.length h
          simp only [List.length_map, List.length_take, List.length_drop, infinityText, List.length_cons, List.length_nil] at hl
          omega
      rw [hlong, Option.bind_some] at hr
      by_cases h8 : ((s.drop first).take 8).map lower = infinityText
      · rw [decide_eq_true h8] at hr
        have hl := congrArg List.length h8
        simp only [List.length_map, List.length_take, List.length_drop, infinityText, List.length_cons, List.length_nil] at hl
        refine ⟨8, false, hr, by omega, .infinity h8, fun w nan' hw hW => ⟨?_, huniq w nan' hw hW⟩⟩
        rcases hlen w nan' hw hW with h | h <;> omega
      · rw [decide_eq_false h8] at hr
        refine ⟨3, false, hr, by omega, .inf hI, fun w nan' hw hW => ⟨?_, huniq w nan' hw hW⟩⟩
        rcases hlen w nan' hw hW with h | ⟨h, h'⟩
        · omega
        · exfalso
          apply h8
          obtain ⟨z, hz⟩ := hw
          rw [← hz, List.take_left' h]; exact h'
    · left
      rw [decide_eq_false hI] at e2
      constructor
      · show (if s.length - first ≥ 3 then _ else _) = _
        rw [if_pos h3, show ([110, 97, 110] : List Byte) = nanText from rfl, e1, some_bind, show ([105, 110, 102] : List Byte) = infText from rfl, e2]
        rfl
      · intro w nan hw hW
        have := (word_in hW hw).2
        cases nan
        · exact hI this
        · exact hN this

omit [Limb] in
theorem word_head {w : List Byte} {nan : Bool} (h : IsWord w nan) : ∃ d u, w = d :: u ∧ d ≠ 45 := by
  obtain ⟨h1, h2⟩ := word_start h
  cases w with
  | nil => simp at h1
  | cons d u =>
    refine ⟨d, u, rfl, ?_⟩
    rintro rfl
    rw [List.take_succ_cons, List.map_cons] at h2
    cases nan <;> simp [nanText, infText] at h2 <;> exact absurd h2.1 (by decide)

omit [Limb] in
/-- `parse_infnan`. -/
theorem infnan_spec {b : Bin} {s : List Byte} (hs : s ≠ []) :
    (parseInfnan b s = some ⟨0, none⟩ ∧ ∀ t neg nan, t <+: s → ¬IsSpecial t neg nan) ∨
    ∃ n neg nan, parseInfnan b s = some ⟨n, some (if neg then b.fmt.neg (if nan then b.fmt.qnan else b.fmt.inf) else (if nan then b.fmt.qnan else b.fmt.inf))⟩ ∧ n ≤ s.length ∧
      IsSpecial (s.take n) neg nan ∧ ∀ t neg' nan', t <+: s → IsSpecial t neg' nan' → t.length ≤ n ∧ neg' = neg ∧ nan' = nan := by
  obtain ⟨c, rest, rfl⟩ := List.exists_cons_of_ne_nil hs
  have go : ∀ (neg : Bool) (body : List Byte) (p : Nat), c :: rest = (if neg then [45] else []) ++ body → (neg = false → c ≠ 45) → p = (if neg then 1 else 0) → (c == 45) = neg →
      (parseInfnan b (c :: rest) = some ⟨0, none⟩ ∧ ∀ t neg nan, t <+: (c :: rest) → ¬IsSpecial t neg nan) ∨
      ∃ n neg nan, parseInfnan b (c :: rest) = some ⟨n, some (if neg then b.fmt.neg (if nan then b.fmt.qnan else b.fmt.inf) else (if nan then b.fmt.qnan else b.fmt.inf))⟩ ∧
        n ≤ (c :: rest).length ∧ IsSpecial ((c :: rest).take n) neg nan ∧ ∀ t neg' nan', t <+: (c :: rest) → IsSpecial t neg' nan' → t.length ≤ n ∧ neg' = neg ∧ nan' = nan := by
    intro neg body p hbody hb hp hc
    have hsl : (if neg then [45] else ([] : List Byte)).length = p := by rw [hp]; cases neg <;> rfl
    have hple : p ≤ (c :: rest).length := by rw [hbody, List.length_append, hsl]; omega
    have hdrop : (c :: rest).drop p = body := by rw [hbody, List.drop_left' hsl]
    have hsign : ∀ t neg' nan, t <+: c :: rest → IsSpecial t neg' nan → neg' = neg ∧ ∃ w, t = (if neg then [45] else []) ++ w ∧ w <+: body ∧ IsWord w nan := by
      rintro t neg' nan ht ⟨w, rfl, hw⟩
      obtain ⟨d, u, hd, hd45⟩ := word_head hw
      have key : neg' = neg := by
        cases neg <;> cases neg'
        · rfl
        · exfalso
          simp only [if_true, List.cons_append, List.cons_prefix_cons] at ht
          exact hb rfl ht.1.symm
        · exfalso
          simp only [Bool.false_eq_true, if_false, List.nil_append] at ht
          rw [hd, List.cons_prefix_cons, eq_of_beq hc] at ht
          exact hd45 ht.1
        · rfl
      subst key
      refine ⟨rfl, w, rfl, ?_, hw⟩
      rw [hbody] at ht
      exact (List.prefix_append_right_inj _).1 ht
    have heq : parseInfnan b (c :: rest) = words (c :: rest) p (fun nan => if neg then b.fmt.neg (if nan then b.fmt.qnan else b.fmt.inf) else (if nan then b.fmt.qnan else b.fmt.inf)) := by
      unfold parseInfnan words
      rw [show (c :: rest)[0]? = some c from rfl, some_bind, hc]
      dsimp only
      rw [← hp]
      rfl
    have hW := words_spec (s := c :: rest) p hple (fun nan => if neg then b.fmt.neg (if nan then b.fmt.qnan else b.fmt.inf) else (if nan then b.fmt.qnan else b.fmt.inf))
    rw [hdrop] at hW
    rcases hW with ⟨h1, h2⟩ | ⟨n, nan, h1, h2, h3, h4⟩
    · left
      refine ⟨heq.trans h1, fun t neg' nan ht hS => ?_⟩
      obtain ⟨-, w, -, hw, hw'⟩ := hsign t neg' nan ht hS
      exact h2 w nan hw hw'
    · right
      refine ⟨p + n, neg, nan, heq.trans h1, h2, ?_, fun t neg' nan' ht hS => ?_⟩
      · refine ⟨_, ?_, h3⟩
        rw [List.take_add, hdrop]
        congr 1
        rw [hbody, List.take_left' hsl]
      · obtain ⟨q1, w, rfl, hw, hw'⟩ := hsign t neg' nan' ht hS
        obtain ⟨q2, q3⟩ := h4 w nan' hw hw'
        rw [List.length_append, hsl]
        exact ⟨by omega, q1, q3⟩
  by_cases hc : c = 45
  · subst hc
    exact go true rest 1 rfl (fun h => absurd h (by decide)) rfl rfl
  · exact go false (c :: rest) 0 rfl (fun _ => hc) rfl (by simpa using hc)

end Nanostl.FastFloat

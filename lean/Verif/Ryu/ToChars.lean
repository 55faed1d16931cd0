import Verif.Ryu.CharsLemmas

/-!
`to_chars` for both formats.
-/

namespace Nanostl.Ryu
open Nanostl.Str (Byte toChar digitsValue)

/-- The digits of the exponent. -/
def expText (e : Nat) : List Byte := if e ≥ 100 then lowDigs e 3 else if e ≥ 10 then lowDigs e 2 else lowDigs e 1

theorem lowDigs_one {e : Nat} (h : e < 10) : lowDigs e 1 = [dig e] := by
  rw [lowDigs, lowDigs, Nat.pow_zero, Nat.div_one, Nat.mod_eq_of_lt h]

theorem lowDigs_pair {e : Nat} (h : e < 100) : lowDigs e 2 = [dig (e / 10), dig (e % 10)] := by
  rw [lowDigs_two, lowDigs, Nat.pow_zero, Nat.div_one, Nat.mod_eq_of_lt h]; rfl

theorem lowDigs_triple {e : Nat} (h : e < 1000) : lowDigs e 3 = [dig (e / 10 / 10), dig (e / 10 % 10), dig (e % 10)] := by
  rw [lowDigs, lowDigs_two, lowDigs, Nat.pow_zero, Nat.div_one]
  have e1 : e / 10 ^ 2 % 10 = e / 10 / 10 := by norm_num; omega
  have e2 : e % 100 / 10 = e / 10 % 10 := by omega
  have e3 : e % 100 % 10 = e % 10 := by omega
  rw [e1, e2, e3]; rfl

/-- The exponent of a float. -/
def expEnd32 (buf : List Byte) (index exp : Nat) : Option (List Byte × Nat) :=
  if exp ≥ 10 then do
    let buf ← poke2 buf index (2 * exp)
    pure (buf, index + 2)
  else do
    let buf ← poke buf index (toChar (48 + exp))
    pure (buf, index + 1)

theorem expEnd32_spec {B : List Byte} {idx e : Nat} (he : e < 100) (hr : idx + 2 < B.length) :
    ∃ B', expEnd32 B idx e = some (B', idx + (expText e).length) ∧ Upd B B' idx B.length ∧ Has B' idx (expText e) := by
  unfold expEnd32
  by_cases h10 : e ≥ 10
  · obtain ⟨B1, e1, u1, g1⟩ := poke2_spec (B := B) (pos := idx) he (by omega) (p := (idx : Int)) rfl rfl
    have ht : expText e = [dig (e / 10), dig (e % 10)] := by rw [expText, if_neg (by omega), if_pos h10, lowDigs_pair he]
    rw [ht, if_pos h10, e1]
    exact ⟨B1, rfl, u1.mono (Nat.le_refl _) (by omega), g1⟩
  · obtain ⟨B1, e1, u1, g1⟩ := poke_spec (B := B) (pos := idx) (toChar (48 + (e : Int))) (by omega) (p := (idx : Int)) rfl
    have ht : expText e = [dig e] := by rw [expText, if_neg (by omega), if_neg h10, lowDigs_one (by omega)]
    rw [ht, if_neg h10, e1]
    rw [toChar_dig (by omega)] at g1
    exact ⟨B1, rfl, u1.mono (Nat.le_refl _) (by omega), g1⟩

/-- The exponent of a double. -/
def expEnd64 (buf : List Byte) (index exp : Nat) : Option (List Byte × Nat) :=
  if exp ≥ 100 then do
    let buf ← poke2 buf index (2 * (exp / 10))
    let buf ← poke buf (index + 2) (toChar (48 + (exp % 10 : Nat)))
    pure (buf, index + 3)
  else expEnd32 buf index exp

theorem expEnd64_spec {B : List Byte} {idx e : Nat} (he : e < 1000) (hr : idx + 3 < B.length) :
    ∃ B', expEnd64 B idx e = some (B', idx + (expText e).length) ∧ Upd B B' idx B.length ∧ Has B' idx (expText e) := by
  unfold expEnd64
  by_cases h100 : e ≥ 100
  · obtain ⟨B1, e1, u1, g1⟩ := poke2_spec (B := B) (pos := idx) (x := e / 10) (by omega) (by omega) (p := (idx : Int)) rfl rfl
    obtain ⟨B2, e2, u2, g2⟩ := poke_spec (B := B1) (pos := idx + 2) (toChar (48 + ((e % 10 : Nat) : Int))) (by rw [u1.1]; omega) (p := (idx : Int) + 2) (by push_cast; ring)
    have ht : expText e = [dig (e / 10 / 10), dig (e / 10 % 10)] ++ [dig (e % 10)] := by rw [expText, if_pos h100, lowDigs_triple he]; rfl
    rw [toChar_dig (by omega)] at g2 e2
    refine ⟨B2, ?_, Upd.trans u1 u2 (by omega) (by omega) (by omega) (by omega), ?_⟩
    · rw [ht, if_pos h100, e1, Option.bind_eq_bind, Option.bind_some, toChar_dig (by omega), e2]; rfl
    · rw [ht]
      exact Has.append (g1.frame u2 (Or.inl (by simp))) g2
  · rw [if_neg h100]
    exact expEnd32_spec (by omega) (by omega)

theorem digStart {B : List Byte} {idx L v : Nat} (hL : Len v L) (hr : idx + L < B.length) : Dig B idx L v v 0 :=
  ⟨hr, by rw [Nat.pow_zero, Nat.div_one], by rw [lowDigs]; exact Has.nil _ _, hL.2.2⟩

/-- From the digits on, for both formats. -/
theorem tail_spec {idx L v output i : Nat} (hL : Len v L) {B : List Byte} (k : Int) {pre : List Byte} (hpre : pre.length = idx) (hB : Has B 0 pre) (hr : idx + L + 3 < B.length)
    (ho : output < 4294967296) (hs : idx + L < 4294967296) (hd : Dig B idx L v output i) :
    ∃ B', (do
      let (output, i, buf) ← digits4 ((idx : Int) + L) 4 output i B
      let buf ← digitsEnd idx L output i buf
      pointAndE idx L k buf) = some (B', (pre ++ (mant v L ++ 69 :: (if k + L - 1 < 0 then [45] else []))).length, (k + L - 1).natAbs) ∧ B'.length = B.length ∧
      Has B' 0 (pre ++ (mant v L ++ 69 :: (if k + L - 1 < 0 then [45] else []))) := by
  obtain ⟨o', i', B1, e1, d1, l1, u1⟩ := digits4_spec hL 4 output i B (Nat.lt_trans ho (by norm_num)) (by decide) hd
  obtain ⟨B2, e2, u2, g2, g2'⟩ := digitsEnd_spec hL hs l1 d1
  obtain ⟨B3, e3, l3, f3, g3⟩ := pointAndE_spec hL k (B := B2) (by rw [u2.1, u1.1]; exact hr) g2 g2'
  refine ⟨B3, ?_, l3.trans (u2.1.trans u1.1), ?_⟩
  · rw [e1, Option.bind_eq_bind, Option.bind_some]
    simp only
    rw [e2, Option.bind_eq_bind, Option.bind_some, e3, List.length_append (as := pre), hpre]
  · refine Has.append (f3 _ ((hB.frame u1 (Or.inl (by omega))).frame u2 (Or.inl (by omega))) (by omega)) ?_
    rw [hpre, Nat.zero_add]; exact g3

theorem toChars32_eq (o : Nat) (k : Int) (neg : Bool) (B : List Byte) : toChars32 o k neg B = (do
    let (buf, index) ← putSign neg B
    let olength ← decimalLength9 o
    let (buf, index, exp) ← (do
      let (output, i, buf) ← digits4 ((index : Int) + olength) 4 o 0 buf
      let buf ← digitsEnd index olength output i buf
      pointAndE index olength k buf)
    expEnd32 buf index exp) := by
  simp only [toChars32, Option.bind_eq_bind, Option.bind_assoc]
  rfl

theorem sign_length (neg : Bool) : (if neg then [(45 : Byte)] else []).length = neg.toNat := by cases neg <;> rfl

theorem esign_length (k : Int) : (if k < 0 then [(45 : Byte)] else []).length ≤ 1 := by split <;> simp

theorem toChars32_spec {o : Nat} {k : Int} (neg : Bool) {B : List Byte} (hB : B.length = 16) (h0 : 0 < o) (ho : o < 1000000000)
    (hk : ∀ L, Len o L → (k + L - 1).natAbs < 100) :
    ∃ L B', Len o L ∧ L ≤ 9 ∧ toChars32 o k neg B = some (B', (sciText neg o L k (expText (k + L - 1).natAbs)).length) ∧ B'.length = 16 ∧
      Has B' 0 (sciText neg o L k (expText (k + L - 1).natAbs)) ∧ (sciText neg o L k (expText (k + L - 1).natAbs)).length < 16 := by
  obtain ⟨L, e2, hL, h9⟩ := decimalLength9_spec h0 ho
  obtain ⟨B1, e1, l1, g1⟩ := putSign_spec neg (B := B) (by omega)
  have hn : neg.toNat ≤ 1 := by cases neg <;> decide
  obtain ⟨B2, e3, l2, g2⟩ := tail_spec hL k (sign_length neg) g1 (by rw [l1]; omega) (by omega) (by omega) (digStart hL (by rw [l1]; omega))
  have hlen : (pre : List Byte) → pre = (if neg then [(45 : Byte)] else []) ++ (mant o L ++ 69 :: (if k + L - 1 < 0 then [45] else [])) → pre.length ≤ 13 := by
    intro pre hp
    have h1 := sign_length neg
    have h2 := esign_length (k + L - 1)
    have h3 := mant_length o hL.2.2
    rw [hp, List.length_append, List.length_append, List.length_cons, h1, h3]
    split <;> omega
  have hx := hk L hL
  obtain ⟨B3, e4, u4, g4⟩ := expEnd32_spec (B := B2) hx (idx := ((if neg then [(45 : Byte)] else []) ++ (mant o L ++ 69 :: (if k + L - 1 < 0 then [45] else []))).length)
    (by have := hlen _ rfl; omega)
  have hexp : (expText (k + L - 1).natAbs).length ≤ 2 := by
    unfold expText; rw [if_neg (by omega)]; split <;> simp [lowDigs_length]
  have htext : sciText neg o L k (expText (k + L - 1).natAbs) =
      ((if neg then [(45 : Byte)] else []) ++ (mant o L ++ 69 :: (if k + L - 1 < 0 then [45] else []))) ++ expText (k + L - 1).natAbs := by
    unfold sciText; simp only [List.append_assoc, List.cons_append]
  refine ⟨L, B3, hL, h9, ?_, u4.1.trans (l2.trans (l1.trans hB)), ?_, ?_⟩
  · rw [toChars32_eq, e1]
    simp only [Option.bind_eq_bind, Option.bind_some]
    rw [e2, Option.bind_some]
    simp only [Option.bind_eq_bind] at e3
    rw [e3, Option.bind_some]
    simp only
    rw [e4, htext, List.length_append (as := (if neg then [(45 : Byte)] else []) ++ (mant o L ++ 69 :: (if k + L - 1 < 0 then [45] else [])))]
  · rw [htext]
    refine Has.append (g2.frame u4 (Or.inl (by omega))) ?_
    rw [Nat.zero_add]; exact g4
  · rw [htext, List.length_append]
    have := hlen _ rfl
    omega

theorem cut8_spec (p : Bool) {idx L v : Nat} (hL : Len v L) (hv : v < 100000000000000000) {B : List Byte} (hr : idx + L < B.length) :
    ∃ output i B', cut8 p ((idx : Int) + L) v B = some (output, i, B') ∧ Dig B' idx L v output i ∧ output < 4294967296 ∧ Upd B B' (idx + 2) (idx + L + 1) := by
  unfold cut8
  by_cases h : v >>> 32 ≠ 0
  · rw [if_pos h]
    rw [Nat.shiftRight_eq_div_pow] at h
    have hbig : 4294967296 ≤ v := by
      by_contra hc
      exact h (Nat.div_eq_of_lt (by norm_num; omega))
    have hi : 0 + 9 < L := hL.lt_of (i := 0) (k := 9) (by norm_num; omega)
    have hq : div1e8 p v = v / 100000000 := div1e8_eq p (by omega)
    have hm : sub32 (w32 v) (w32 (100000000 * w32 (v / 100000000))) = v % 100000000 := rem32 100000000 (by decide) (by decide) v
    simp only [hq, hm]
    have q1 : (v % 100000000 % 10000 % 100) <<< 1 = 2 * (v / 10 ^ 0 % 100) := by rw [Nat.shiftLeft_eq, Nat.pow_zero, Nat.div_one]; omega
    have q2 : (v % 100000000 % 10000 / 100) <<< 1 = 2 * (v / 10 ^ 2 % 100) := by rw [Nat.shiftLeft_eq]; norm_num; omega
    have q3 : (v % 100000000 / 10000 % 10000 % 100) <<< 1 = 2 * (v / 10 ^ 4 % 100) := by rw [Nat.shiftLeft_eq]; norm_num; omega
    have q4 : (v % 100000000 / 10000 % 10000 / 100) <<< 1 = 2 * (v / 10 ^ 6 % 100) := by rw [Nat.shiftLeft_eq]; norm_num; omega
    have d0 := digStart hL hr
    obtain ⟨B1, e1, u1, r1, h1⟩ := dig_two d0.room d0.low (by omega) rfl q1 (p := (idx : Int) + L - 0 - 1) rfl
    obtain ⟨B2, e2, u2, r2, h2⟩ := dig_two r1 h1 (by omega) rfl q2 (p := (idx : Int) + L - 0 - 3) (by push_cast; omega)
    obtain ⟨B3, e3, u3, r3, h3⟩ := dig_two r2 h2 (by omega) rfl q3 (p := (idx : Int) + L - 0 - 5) (by push_cast; omega)
    obtain ⟨B4, e4, u4, r4, h4⟩ := dig_two r3 h3 (by omega) rfl q4 (p := (idx : Int) + L - 0 - 7) (by push_cast; omega)
    refine ⟨v / 100000000, 8, B4, ?_, ⟨r4, by norm_num, h4, by omega⟩, by omega, ?_⟩
    · simp only [Option.bind_eq_bind]
      rw [e1, Option.bind_some, e2, Option.bind_some, e3, Option.bind_some, e4]; rfl
    · have l : ∀ n : Nat, n ≤ n := Nat.le_refl
      exact Upd.trans (Upd.trans (Upd.trans u1 u2 (l _) (l _) (l _) (l _)) u3 (l _) (l _) (l _) (l _)) u4 (l _) (l _) (l _) (l _)
  · rw [if_neg h]
    have hlt : v < 4294967296 := by
      by_contra hc
      refine h ?_
      rw [Nat.shiftRight_eq_div_pow]
      have : 0 < v / 2 ^ 32 := Nat.div_pos (by norm_num; omega) (by decide)
      omega
    exact ⟨v, 0, B, rfl, digStart hL hr, hlt, Upd.refl ..⟩

theorem toChars64_eq (p : Bool) (o : Nat) (k : Int) (neg : Bool) (B : List Byte) : toChars64 p o k neg B = (do
    let (buf, index) ← putSign neg B
    let olength ← decimalLength17 o
    let (output, i, buf) ← cut8 p ((index : Int) + olength) o buf
    let (buf, index, exp) ← (do
      let (output, i, buf) ← digits4 ((index : Int) + olength) 4 (w32 output) i buf
      let buf ← digitsEnd index olength output i buf
      pointAndE index olength k buf)
    expEnd64 buf index exp) := by
  simp only [toChars64, Option.bind_eq_bind, Option.bind_assoc]
  rfl

theorem toChars64_spec (p : Bool) {o : Nat} {k : Int} (neg : Bool) {B : List Byte} (hB : B.length = 25) (h0 : 0 < o) (ho : o < 100000000000000000)
    (hk : ∀ L, Len o L → (k + L - 1).natAbs < 1000) :
    ∃ L B', Len o L ∧ L ≤ 17 ∧ toChars64 p o k neg B = some (B', (sciText neg o L k (expText (k + L - 1).natAbs)).length) ∧ B'.length = 25 ∧
      Has B' 0 (sciText neg o L k (expText (k + L - 1).natAbs)) ∧ (sciText neg o L k (expText (k + L - 1).natAbs)).length < 25 := by
  obtain ⟨L, e2, hL, h17⟩ := decimalLength17_spec h0 ho
  obtain ⟨B1, e1, l1, g1⟩ := putSign_spec neg (B := B) (by omega)
  have hn : neg.toNat ≤ 1 := by cases neg <;> decide
  obtain ⟨output, i, B1', e1', d1', hout, u1'⟩ := cut8_spec p (idx := neg.toNat) hL ho (B := B1) (by rw [l1]; omega)
  have g1' := g1.frame u1' (Or.inl (by rw [sign_length]; omega))
  obtain ⟨B2, e3, l2, g2⟩ := tail_spec hL k (sign_length neg) g1' (by rw [u1'.1, l1]; omega) hout (by omega) d1'
  have hlen : (pre : List Byte) → pre = (if neg then [(45 : Byte)] else []) ++ (mant o L ++ 69 :: (if k + L - 1 < 0 then [45] else [])) → pre.length ≤ 21 := by
    intro pre hp
    have h1 := sign_length neg
    have h2 := esign_length (k + L - 1)
    have h3 := mant_length o hL.2.2
    rw [hp, List.length_append, List.length_append, List.length_cons, h1, h3]
    split <;> omega
  have hx := hk L hL
  obtain ⟨B3, e4, u4, g4⟩ := expEnd64_spec (B := B2) hx (idx := ((if neg then [(45 : Byte)] else []) ++ (mant o L ++ 69 :: (if k + L - 1 < 0 then [45] else []))).length)
    (by have := hlen _ rfl; rw [l2, u1'.1]; omega)
  have hexp : (expText (k + L - 1).natAbs).length ≤ 3 := by
    unfold expText; split
    · simp [lowDigs_length]
    · split <;> simp [lowDigs_length]
  have htext : sciText neg o L k (expText (k + L - 1).natAbs) =
      ((if neg then [(45 : Byte)] else []) ++ (mant o L ++ 69 :: (if k + L - 1 < 0 then [45] else []))) ++ expText (k + L - 1).natAbs := by
    unfold sciText; simp only [List.append_assoc, List.cons_append]
  refine ⟨L, B3, hL, h17, ?_, u4.1.trans (l2.trans (u1'.1.trans (l1.trans hB))), ?_, ?_⟩
  · rw [toChars64_eq, e1]
    simp only [Option.bind_eq_bind, Option.bind_some]
    rw [e2, Option.bind_some, e1', Option.bind_some]
    simp only [Option.bind_eq_bind] at e3
    simp only
    rw [w32_of_lt hout, e3, Option.bind_some]
    simp only
    rw [e4, htext, List.length_append (as := (if neg then [(45 : Byte)] else []) ++ (mant o L ++ 69 :: (if k + L - 1 < 0 then [45] else [])))]
  · rw [htext]
    refine Has.append (g2.frame u4 (Or.inl (by omega))) ?_
    rw [Nat.zero_add]; exact g4
  · rw [htext, List.length_append]
    have := hlen _ rfl
    omega

end Nanostl.Ryu

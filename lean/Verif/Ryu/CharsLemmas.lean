import Verif.Ryu.Chars
import Verif.Ryu.Words
import Verif.Ryu.Sci
import Mathlib.Tactic.Ring
import Mathlib.Tactic.NormNum

/-!
What `to_chars` leaves in the buffer.
-/

namespace Nanostl.Ryu
open Nanostl.Str (Byte toChar digitsValue)

/-- The character of a digit. -/
def dig (d : Nat) : Byte := UInt8.ofNat (48 + d)

theorem dig_toNat {d : Nat} (h : d < 10) : (dig d).toNat = 48 + d := by
  rw [dig, UInt8.toNat_ofNat']; omega

theorem toChar_dig {d : Nat} (h : d < 10) : toChar (48 + (d : Int)) = dig d := by
  rw [← UInt8.toNat_inj, Str.toChar_digit h, dig_toNat h]

/-- `l` stands in the buffer from `pos` on. -/
def Has (B : List Byte) (pos : Nat) (l : List Byte) : Prop := ∀ j, j < l.length → B[pos + j]? = l[j]?

/-- Only the bytes of `[lo, hi)` differ. -/
def Upd (B B' : List Byte) (lo hi : Nat) : Prop := B'.length = B.length ∧ ∀ k, k < lo ∨ hi ≤ k → B'[k]? = B[k]?

theorem Upd.refl (B : List Byte) (lo hi : Nat) : Upd B B lo hi := ⟨rfl, fun _ _ => rfl⟩

theorem Upd.trans {B B' B'' : List Byte} {a b a' b' lo hi : Nat} (h1 : Upd B B' a b) (h2 : Upd B' B'' a' b') (ha : lo ≤ a) (hb : b ≤ hi) (ha' : lo ≤ a')
    (hb' : b' ≤ hi) : Upd B B'' lo hi :=
  ⟨h2.1.trans h1.1, fun k hk => (h2.2 k (by omega)).trans (h1.2 k (by omega))⟩

theorem Upd.mono {B B' : List Byte} {a b lo hi : Nat} (h : Upd B B' a b) (ha : lo ≤ a) (hb : b ≤ hi) : Upd B B' lo hi :=
  ⟨h.1, fun k hk => h.2 k (by omega)⟩

theorem Has.frame {B B' : List Byte} {pos lo hi : Nat} {l : List Byte} (h : Has B pos l) (u : Upd B B' lo hi) (hd : pos + l.length ≤ lo ∨ hi ≤ pos) :
    Has B' pos l := fun j hj => (u.2 (pos + j) (by omega)).trans (h j hj)

theorem Has.nil (B : List Byte) (pos : Nat) : Has B pos [] := fun j hj => absurd hj (by simp)

theorem Has.append {B : List Byte} {pos : Nat} {l1 l2 : List Byte} (h1 : Has B pos l1) (h2 : Has B (pos + l1.length) l2) : Has B pos (l1 ++ l2) := by
  intro j hj
  rw [List.length_append] at hj
  by_cases hlt : j < l1.length
  · rw [List.getElem?_append_left hlt]; exact h1 j hlt
  · rw [List.getElem?_append_right (by omega), ← h2 (j - l1.length) (by omega)]
    congr 1; omega

theorem Has.cons {B : List Byte} {pos : Nat} {c : Byte} {l : List Byte} (h1 : Has B pos [c]) (h2 : Has B (pos + 1) l) : Has B pos (c :: l) :=
  Has.append h1 h2

theorem Has.take {B l : List Byte} (h : Has B 0 l) : B.take l.length = l := by
  refine List.ext_getElem? fun k => ?_
  rw [List.getElem?_take]
  by_cases hk : k < l.length
  · rw [if_pos hk, ← h k hk, Nat.zero_add]
  · rw [if_neg hk, List.getElem?_eq_none (by omega)]

theorem poke_spec {B : List Byte} {pos : Nat} (c : Byte) (h : pos < B.length) {p : Int} (hp : p = pos) :
    ∃ B', poke B p c = some B' ∧ Upd B B' pos (pos + 1) ∧ Has B' pos [c] := by
  subst hp
  refine ⟨B.set pos c, ?_, ⟨by simp, fun k hk => ?_⟩, fun j hj => ?_⟩
  · rw [poke, if_pos ⟨by omega, by omega⟩, Int.toNat_natCast]
  · rw [List.getElem?_set_ne (by omega)]
  · have : j = 0 := by simpa using hj
    subst this
    simp [h]

theorem digitTable_get : ∀ x : Fin 100, digitTable[2 * x.1]? = some (dig (x.1 / 10)) ∧ digitTable[2 * x.1 + 1]? = some (dig (x.1 % 10)) := by
  decide +kernel

theorem tab0 {x : Nat} (h : x < 100) : digitTable[2 * x]? = some (dig (x / 10)) := (digitTable_get ⟨x, h⟩).1
theorem tab1 {x : Nat} (h : x < 100) : digitTable[2 * x + 1]? = some (dig (x % 10)) := (digitTable_get ⟨x, h⟩).2

theorem poke2_spec {B : List Byte} {pos x : Nat} (hx : x < 100) (h : pos + 1 < B.length) {p : Int} (hp : p = pos) {off : Nat} (ho : off = 2 * x) :
    ∃ B', poke2 B p off = some B' ∧ Upd B B' pos (pos + 2) ∧ Has B' pos [dig (x / 10), dig (x % 10)] := by
  subst ho
  obtain ⟨B1, e1, u1, h1⟩ := poke_spec (B := B) (dig (x / 10)) (by omega) hp
  obtain ⟨B2, e2, u2, h2⟩ := poke_spec (B := B1) (pos := pos + 1) (dig (x % 10)) (by rw [u1.1]; exact h) (p := p + 1) (by omega)
  refine ⟨B2, ?_, Upd.trans u1 u2 (by omega) (by omega) (by omega) (by omega), Has.cons (h1.frame u2 (by simp)) h2⟩
  simp only [poke2, tab0 hx, tab1 hx, bind, Option.bind, e1, e2]

/-- The last `i` digits of `v`. -/
def lowDigs (v : Nat) : Nat → List Byte
  | 0 => []
  | i + 1 => dig (v / 10 ^ i % 10) :: lowDigs v i

theorem lowDigs_length (v : Nat) : ∀ i, (lowDigs v i).length = i
  | 0 => rfl
  | i + 1 => by rw [lowDigs, List.length_cons, lowDigs_length v i]

theorem lowDigs_two (v i : Nat) : lowDigs v (i + 2) = [dig (v / 10 ^ i % 100 / 10), dig (v / 10 ^ i % 100 % 10)] ++ lowDigs v i := by
  rw [lowDigs, lowDigs]
  have e : v / 10 ^ (i + 1) % 10 = v / 10 ^ i % 100 / 10 := by
    rw [Nat.pow_succ, ← Nat.div_div_eq_div_mul]; omega
  have e' : v / 10 ^ i % 10 = v / 10 ^ i % 100 % 10 := by omega
  rw [e, e']; rfl

theorem lowDigs_value (v : Nat) : ∀ i, digitsValue (lowDigs v i) = v % 10 ^ i
  | 0 => by simp [lowDigs, digitsValue, Nat.mod_one]
  | i + 1 => by
    rw [lowDigs, digitsValue_cons, dig_toNat (Nat.mod_lt _ (by decide)), lowDigs_length, lowDigs_value v i, Nat.add_sub_cancel_left, Nat.pow_succ,
      Nat.mod_mul, Nat.mul_comm]
    omega

theorem lowDigs_digit (v : Nat) : ∀ i, ∀ c ∈ lowDigs v i, 48 ≤ c.toNat ∧ c.toNat ≤ 57
  | 0, c, h => absurd h (by simp [lowDigs])
  | i + 1, c, h => by
    rw [lowDigs, List.mem_cons] at h
    rcases h with rfl | h
    · rw [dig_toNat (Nat.mod_lt _ (by decide))]
      have := Nat.mod_lt (v / 10 ^ i) (show 0 < 10 by decide)
      omega
    · exact lowDigs_digit v i c h

/-- `v` has exactly `L` digits. -/
def Len (v L : Nat) : Prop := 10 ^ (L - 1) ≤ v ∧ v < 10 ^ L ∧ 0 < L

theorem Len.lt_of {v L i k : Nat} (h : Len v L) (hk : 10 ^ k ≤ v / 10 ^ i) : i + k < L := by
  have h1 : 10 ^ (k + i) ≤ v := by
    rw [Nat.pow_add]
    exact (Nat.le_div_iff_mul_le (Nat.pow_pos (by decide))).1 hk
  have := (Nat.pow_lt_pow_iff_right (a := 10) (by decide)).1 (Nat.lt_of_le_of_lt h1 h.2.1)
  omega

theorem div_pow_add (v i k : Nat) : v / 10 ^ i / 10 ^ k = v / 10 ^ (i + k) := by rw [Nat.div_div_eq_div_mul, Nat.pow_add]

/-- State of the digit loops: `i` digits are written. -/
structure Dig (B : List Byte) (idx L v output i : Nat) : Prop where
  room : idx + L < B.length
  out : output = v / 10 ^ i
  low : Has B (idx + L + 1 - i) (lowDigs v i)
  lt : i < L

theorem dig_two {B : List Byte} {idx L v i : Nat} (hr : idx + L < B.length) (hl : Has B (idx + L + 1 - i) (lowDigs v i)) (hi : i + 2 < L)
    {x off : Nat} (hx : x = v / 10 ^ i % 100) (ho : off = 2 * x) {p : Int} (hp : p = (idx : Int) + L - i - 1) :
    ∃ B', poke2 B p off = some B' ∧ Upd B B' (idx + 2) (idx + L + 1) ∧ idx + L < B'.length ∧ Has B' (idx + L + 1 - (i + 2)) (lowDigs v (i + 2)) := by
  obtain ⟨B', e, u, h⟩ := poke2_spec (B := B) (pos := idx + L - i - 1) (x := x) (by rw [hx]; exact Nat.mod_lt _ (by decide)) (by omega) (p := p) (by omega) ho
  refine ⟨B', e, u.mono (by omega) (by omega), by rw [u.1]; exact hr, ?_⟩
  rw [lowDigs_two, ← hx, show idx + L + 1 - (i + 2) = idx + L - i - 1 by omega]
  refine Has.append h ?_
  rw [show idx + L - i - 1 + [dig (x / 10), dig (x % 10)].length = idx + L + 1 - i by simp; omega]
  exact hl.frame u (Or.inr (by omega))

theorem digits4_spec {idx L v : Nat} (hL : Len v L) : ∀ (f output i : Nat) (B : List Byte), output < 10 ^ (4 * f) → 0 < f → Dig B idx L v output i →
    ∃ output' i' B', digits4 ((idx : Int) + L) f output i B = some (output', i', B') ∧ Dig B' idx L v output' i' ∧ output' < 10000 ∧
      Upd B B' (idx + 2) (idx + L + 1)
  | 0, _, _, _, _, h0, _ => absurd h0 (by decide)
  | f + 1, output, i, B, hf, _, h => by
    rw [digits4]
    by_cases hc : output ≥ 10000
    · rw [if_pos hc]
      have hi : i + 4 < L := hL.lt_of (k := 4) (by rw [← h.out]; norm_num; exact hc)
      have q1 : (output % 10000 % 100) <<< 1 = 2 * (v / 10 ^ i % 100) := by rw [Nat.shiftLeft_eq, h.out]; omega
      have q2 : (output % 10000 / 100) <<< 1 = 2 * (v / 10 ^ (i + 2) % 100) := by
        rw [Nat.shiftLeft_eq, h.out, ← div_pow_add v i 2]; norm_num; omega
      obtain ⟨B1, e1, u1, r1, h1⟩ := dig_two h.room h.low (by omega) rfl q1 rfl
      obtain ⟨B2, e2, u2, r2, h2⟩ := dig_two r1 h1 (by omega) rfl q2 (p := (idx : Int) + L - i - 3) (by push_cast; omega)
      have hf0 : 0 < f := by
        rcases Nat.eq_zero_or_pos f with rfl | h'
        · norm_num at hf; omega
        · exact h'
      have hout : output / 10000 = v / 10 ^ (i + 4) := by rw [h.out, ← div_pow_add]; norm_num
      obtain ⟨o', i', B', e3, d3, l3, u3⟩ := digits4_spec hL f (output / 10000) (i + 4) B2
        (by rw [Nat.div_lt_iff_lt_mul (by decide), show 10000 = 10 ^ 4 by norm_num, ← Nat.pow_add]; exact hf) hf0 ⟨r2, hout, h2, by omega⟩
      refine ⟨o', i', B', ?_, d3, l3, Upd.trans (Upd.trans u1 u2 (Nat.le_refl _) (Nat.le_refl _) (Nat.le_refl _) (Nat.le_refl _)) u3 (Nat.le_refl _)
        (Nat.le_refl _) (Nat.le_refl _) (Nat.le_refl _)⟩
      simp only [bind, Option.bind, e1, e2, e3]
    · rw [if_neg hc]
      exact ⟨output, i, B, rfl, h, by omega, Upd.refl ..⟩

theorem digitsLast_spec {idx L v : Nat} (hL : Len v L) (hsmall : idx + L < 4294967296) {output i : Nat} {B : List Byte} (ho : output < 100)
    (h : Dig B idx L v output i) :
    ∃ B', digitsLast idx L output i B = some B' ∧ Upd B B' idx (idx + L + 1) ∧ Has B' idx [dig (v / 10 ^ (L - 1))] ∧ Has B' (idx + 2) (lowDigs v (L - 1)) := by
    rw [digitsLast]
    have hlt := h.lt
    have hroom := h.room
    by_cases hc : output ≥ 10
    · rw [if_pos hc]
      have hi : i + 1 < L := hL.lt_of (k := 1) (by rw [← h.out]; norm_num; exact hc)
      have hi2 : i + 2 = L := by
        by_contra hne
        have h3 : 10 ^ (i + 2) ≤ v := Nat.le_trans (Nat.pow_le_pow_right (by decide) (by omega)) hL.1
        have : 10 ^ 2 ≤ v / 10 ^ i := by rw [Nat.le_div_iff_mul_le (Nat.pow_pos (by decide)), ← Nat.pow_add, Nat.add_comm]; exact h3
        rw [← h.out] at this
        omega
      have e0 : output <<< 1 = 2 * output := by rw [Nat.shiftLeft_eq]; omega
      have es : sub32 (idx + L) i = idx + 2 := by rw [sub32_of_le (by omega) hsmall]; omega
      obtain ⟨B1, e1, u1, h1⟩ := poke_spec (B := B) (pos := idx + 2) (dig (output % 10)) (by omega) (p := ((idx + 2 : Nat) : Int)) rfl
      obtain ⟨B2, e2, u2, h2⟩ := poke_spec (B := B1) (pos := idx) (dig (output / 10)) (by rw [u1.1]; omega) (p := (idx : Int)) rfl
      have hl := h.low
      rw [show idx + L + 1 - i = idx + 2 + 1 by omega] at hl
      refine ⟨B2, ?_, Upd.trans u1 u2 (by omega) (by omega) (by omega) (by omega), ?_, ?_⟩
      · rw [e0, tab1 ho, tab0 ho, es]
        simp only [Option.bind_eq_bind, Option.bind_some]
        rw [e1, Option.bind_some, e2]
      · rw [show v / 10 ^ (L - 1) = output / 10 by rw [h.out, show L - 1 = i + 1 by omega, Nat.pow_succ, ← Nat.div_div_eq_div_mul]]
        exact h2
      · rw [show L - 1 = i + 1 by omega, lowDigs, ← h.out]
        exact (Has.cons h1 (hl.frame u1 (Or.inr (by omega)))).frame u2 (Or.inr (by omega))
    · rw [if_neg hc]
      have hi2 : i + 1 = L := by
        by_contra hne
        have h3 : 10 ^ (i + 1) ≤ v := Nat.le_trans (Nat.pow_le_pow_right (by decide) (by omega)) hL.1
        have : 10 ^ 1 ≤ v / 10 ^ i := by rw [Nat.le_div_iff_mul_le (Nat.pow_pos (by decide)), ← Nat.pow_add, Nat.add_comm]; exact h3
        rw [← h.out] at this
        omega
      obtain ⟨B1, e1, u1, h1⟩ := poke_spec (B := B) (pos := idx) (toChar (48 + (output : Int))) (by omega) (p := (idx : Int)) rfl
      have hl := h.low
      rw [show idx + L + 1 - i = idx + 2 by omega] at hl
      refine ⟨B1, e1, u1.mono (Nat.le_refl _) (by omega), ?_, ?_⟩
      · rw [toChar_dig (by omega), h.out, show i = L - 1 by omega] at h1
        exact h1
      · rw [show L - 1 = i by omega]
        exact hl.frame u1 (Or.inr (by omega))

theorem digitsEnd_spec {idx L v output i : Nat} (hL : Len v L) (hsmall : idx + L < 4294967296) {B : List Byte} (ho : output < 10000) (h : Dig B idx L v output i) :
    ∃ B', digitsEnd idx L output i B = some B' ∧ Upd B B' idx (idx + L + 1) ∧ Has B' idx [dig (v / 10 ^ (L - 1))] ∧ Has B' (idx + 2) (lowDigs v (L - 1)) := by
  rw [digitsEnd]
  by_cases hc : output ≥ 100
  · have hi : i + 2 < L := hL.lt_of (k := 2) (by rw [← h.out]; norm_num; exact hc)
    have q1 : (output % 100) <<< 1 = 2 * (v / 10 ^ i % 100) := by rw [Nat.shiftLeft_eq, h.out]; omega
    obtain ⟨B1, e1, u1, r1, h1⟩ := dig_two h.room h.low hi rfl q1 rfl
    obtain ⟨B2, e2, u2, h2, h3⟩ := digitsLast_spec hL hsmall (output := output / 100) (i := i + 2) (B := B1) (by omega)
      ⟨r1, by rw [h.out, ← div_pow_add]; norm_num, h1, hi⟩
    refine ⟨B2, ?_, Upd.trans u1 u2 (by omega) (by omega) (Nat.le_refl _) (Nat.le_refl _), h2, h3⟩
    rw [if_pos hc, e1, Option.bind_eq_bind, Option.bind_some, e2]
  · rw [if_neg hc]
    exact digitsLast_spec hL hsmall (by omega) h

/-- Digits with the point. -/
def mant (v L : Nat) : List Byte := dig (v / 10 ^ (L - 1)) :: (if L > 1 then 46 :: lowDigs v (L - 1) else [])

theorem mant_length (v : Nat) {L : Nat} (_ : 0 < L) : (mant v L).length = if L > 1 then L + 1 else 1 := by
  unfold mant
  split
  · simp [lowDigs_length]; omega
  · rfl

theorem pointAndE_spec {idx L v : Nat} (hL : Len v L) {B : List Byte} (k : Int) (hroom : idx + L + 3 < B.length) (h1 : Has B idx [dig (v / 10 ^ (L - 1))])
    (h2 : Has B (idx + 2) (lowDigs v (L - 1))) :
    ∃ B', pointAndE idx L k B = some (B', idx + (mant v L ++ 69 :: (if k + L - 1 < 0 then [45] else [])).length, (k + L - 1).natAbs) ∧
      B'.length = B.length ∧ (∀ l, Has B 0 l → l.length ≤ idx → Has B' 0 l) ∧ Has B' idx (mant v L ++ 69 :: (if k + L - 1 < 0 then [45] else [])) := by
  have hL0 := hL.2.2
  have fin : ∀ (B1 : List Byte), idx + L + 3 < B1.length → Has B1 idx (mant v L) → ∃ B', (do
      let buf ← poke B1 ((idx + (mant v L).length : Nat) : Int) 69
      let exp : Int := k + L - 1
      if exp < 0 then do
        let buf ← poke buf (((idx + (mant v L).length : Nat) : Int) + 1) 45
        pure (buf, idx + (mant v L).length + 2, (-exp).toNat)
      else some (buf, idx + (mant v L).length + 1, exp.toNat)) =
        some (B', idx + (mant v L ++ 69 :: (if k + L - 1 < 0 then [45] else [])).length, (k + L - 1).natAbs) ∧ Upd B1 B' (idx + 1) B.length ∧
        Has B' idx (mant v L ++ 69 :: (if k + L - 1 < 0 then [45] else [])) := by
    intro B1 hr hm
    have hml : 1 ≤ (mant v L).length ∧ (mant v L).length ≤ L + 1 := by rw [mant_length v hL0]; split <;> omega
    obtain ⟨B2, e2, u2, g2⟩ := poke_spec (B := B1) (pos := idx + (mant v L).length) 69 (by omega) rfl
    have hm2 := hm.frame u2 (Or.inl (Nat.le_refl _))
    by_cases hn : k + L - 1 < 0
    · obtain ⟨B3, e3, u3, g3⟩ := poke_spec (B := B2) (pos := idx + (mant v L).length + 1) 45 (by rw [u2.1]; omega)
        (p := ((idx + (mant v L).length : Nat) : Int) + 1) (by push_cast; ring)
      refine ⟨B3, ?_, Upd.trans u2 u3 (by omega) (by omega) (by omega) (by omega), ?_⟩
      · simp only [bind, Option.bind, e2, hn, if_true, e3, pure, List.length_append, List.length_cons, List.length_nil]
        rw [show (-(k + (L : Int) - 1)).toNat = (k + L - 1).natAbs by omega, Nat.add_assoc]
      · rw [if_pos hn]
        exact Has.append (hm2.frame u3 (Or.inl (by omega))) (Has.cons (g2.frame u3 (by simp)) g3)
    · refine ⟨B2, ?_, u2.mono (by omega) (by omega), ?_⟩
      · simp only [bind, Option.bind, e2, hn, if_false, List.length_append, List.length_cons, List.length_nil]
        rw [show (k + (L : Int) - 1).toNat = (k + L - 1).natAbs by omega, Nat.add_assoc]
      · rw [if_neg hn]
        exact Has.append hm2 g2
  rw [pointAndE]
  by_cases hl : L > 1
  · obtain ⟨B1, e1, u1, g1⟩ := poke_spec (B := B) (pos := idx + 1) 46 (by omega) (p := (idx : Int) + 1) (by push_cast; ring)
    have hm : Has B1 idx (mant v L) := by
      rw [mant, if_pos hl]
      exact Has.cons (h1.frame u1 (by simp)) (Has.cons g1 (h2.frame u1 (Or.inr (by omega))))
    obtain ⟨B2, e2, u2, g2⟩ := fin B1 (by rw [u1.1]; exact hroom) hm
    refine ⟨B2, ?_, u2.1.trans u1.1, fun l hl hle => (hl.frame u1 (Or.inl (by omega))).frame u2 (Or.inl (by omega)), g2⟩
    rw [← e2, mant_length v hL0]
    simp only [hl, if_true, e1, bind, Option.bind, pure, ← Nat.add_assoc]
  · have hm : Has B idx (mant v L) := by rw [mant, if_neg hl]; exact h1
    obtain ⟨B2, e2, u2, g2⟩ := fin B hroom hm
    refine ⟨B2, ?_, u2.1, fun l hl hle => hl.frame u2 (Or.inl (by omega)), g2⟩
    rw [← e2, mant_length v hL0]
    simp only [hl, if_false, bind, Option.bind]

/-- The text that `to_chars` writes. -/
def sciText (neg : Bool) (v L : Nat) (k : Int) (xs : List Byte) : List Byte :=
  (if neg then [45] else []) ++ (mant v L ++ 69 :: (if k + L - 1 < 0 then [45] else []) ++ xs)

theorem putSign_spec {B : List Byte} (neg : Bool) (h : 0 < B.length) :
    ∃ B', putSign neg B = some (B', neg.toNat) ∧ B'.length = B.length ∧ Has B' 0 (if neg then [45] else []) := by
  cases neg
  · exact ⟨B, rfl, rfl, Has.nil _ _⟩
  · obtain ⟨B1, e1, u1, g1⟩ := poke_spec (B := B) (pos := 0) 45 h rfl
    refine ⟨B1, ?_, u1.1, g1⟩
    rw [putSign, if_pos rfl]
    simp only [Int.natCast_zero] at e1
    rw [show (0 : Int) = ((0 : Nat) : Int) by rfl]
    rw [show poke B ((0 : Nat) : Int) 45 = some B1 from e1]; rfl

theorem decimalLength9_spec {v : Nat} (h0 : 0 < v) (h : v < 1000000000) : ∃ L, decimalLength9 v = some L ∧ Len v L ∧ L ≤ 9 := by
  rw [decimalLength9, chk, if_pos h]
  simp only [bind, Option.bind, pure]
  refine ⟨_, rfl, ?_⟩
  unfold Len
  split_ifs <;> norm_num <;> omega

theorem len_of {v : Nat} (L : Nat) {a b : Nat} (ha : a = 10 ^ (L - 1)) (hb : b = 10 ^ L) (hL : 0 < L) (h1 : a ≤ v) (h2 : v < b) : Len v L := ⟨ha ▸ h1, hb ▸ h2, hL⟩

theorem decimalLength17_spec {v : Nat} (h0 : 0 < v) (h : v < 100000000000000000) : ∃ L, decimalLength17 v = some L ∧ Len v L ∧ L ≤ 17 := by
  rw [decimalLength17, chk, if_pos h]
  simp only [Option.bind_eq_bind, Option.bind_some]
  by_cases h17 : v ≥ 10000000000000000
  · rw [if_pos h17]; exact ⟨17, rfl, len_of 17 (by norm_num) (by norm_num) (by decide) h17 h, by decide⟩
  rw [if_neg h17]
  by_cases h16 : v ≥ 1000000000000000
  · rw [if_pos h16]; exact ⟨16, rfl, len_of 16 (b := 10000000000000000) (by norm_num) (by norm_num) (by decide) h16 (by omega), by decide⟩
  rw [if_neg h16]
  by_cases h15 : v ≥ 100000000000000
  · rw [if_pos h15]; exact ⟨15, rfl, len_of 15 (b := 1000000000000000) (by norm_num) (by norm_num) (by decide) h15 (by omega), by decide⟩
  rw [if_neg h15]
  by_cases h14 : v ≥ 10000000000000
  · rw [if_pos h14]; exact ⟨14, rfl, len_of 14 (b := 100000000000000) (by norm_num) (by norm_num) (by decide) h14 (by omega), by decide⟩
  rw [if_neg h14]
  by_cases h13 : v ≥ 1000000000000
  · rw [if_pos h13]; exact ⟨13, rfl, len_of 13 (b := 10000000000000) (by norm_num) (by norm_num) (by decide) h13 (by omega), by decide⟩
  rw [if_neg h13]
  by_cases h12 : v ≥ 100000000000
  · rw [if_pos h12]; exact ⟨12, rfl, len_of 12 (b := 1000000000000) (by norm_num) (by norm_num) (by decide) h12 (by omega), by decide⟩
  rw [if_neg h12]
  by_cases h11 : v ≥ 10000000000
  · rw [if_pos h11]; exact ⟨11, rfl, len_of 11 (b := 100000000000) (by norm_num) (by norm_num) (by decide) h11 (by omega), by decide⟩
  rw [if_neg h11]
  by_cases h10 : v ≥ 1000000000
  · rw [if_pos h10]; exact ⟨10, rfl, len_of 10 (b := 10000000000) (by norm_num) (by norm_num) (by decide) h10 (by omega), by decide⟩
  rw [if_neg h10]
  by_cases h9 : v ≥ 100000000
  · rw [if_pos h9]; exact ⟨9, rfl, len_of 9 (b := 1000000000) (by norm_num) (by norm_num) (by decide) h9 (by omega), by decide⟩
  rw [if_neg h9]
  by_cases h8 : v ≥ 10000000
  · rw [if_pos h8]; exact ⟨8, rfl, len_of 8 (b := 100000000) (by norm_num) (by norm_num) (by decide) h8 (by omega), by decide⟩
  rw [if_neg h8]
  by_cases h7 : v ≥ 1000000
  · rw [if_pos h7]; exact ⟨7, rfl, len_of 7 (b := 10000000) (by norm_num) (by norm_num) (by decide) h7 (by omega), by decide⟩
  rw [if_neg h7]
  by_cases h6 : v ≥ 100000
  · rw [if_pos h6]; exact ⟨6, rfl, len_of 6 (b := 1000000) (by norm_num) (by norm_num) (by decide) h6 (by omega), by decide⟩
  rw [if_neg h6]
  by_cases h5 : v ≥ 10000
  · rw [if_pos h5]; exact ⟨5, rfl, len_of 5 (b := 100000) (by norm_num) (by norm_num) (by decide) h5 (by omega), by decide⟩
  rw [if_neg h5]
  by_cases h4 : v ≥ 1000
  · rw [if_pos h4]; exact ⟨4, rfl, len_of 4 (b := 10000) (by norm_num) (by norm_num) (by decide) h4 (by omega), by decide⟩
  rw [if_neg h4]
  by_cases h3 : v ≥ 100
  · rw [if_pos h3]; exact ⟨3, rfl, len_of 3 (b := 1000) (by norm_num) (by norm_num) (by decide) h3 (by omega), by decide⟩
  rw [if_neg h3]
  by_cases h2 : v ≥ 10
  · rw [if_pos h2]; exact ⟨2, rfl, len_of 2 (b := 100) (by norm_num) (by norm_num) (by decide) h2 (by omega), by decide⟩
  rw [if_neg h2]
  exact ⟨1, rfl, len_of 1 (a := 1) (b := 10) (by norm_num) (by norm_num) (by decide) (by omega) (by omega), by decide⟩

end Nanostl.Ryu

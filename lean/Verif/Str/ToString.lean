import Verif.Str.Lemmas

/-!
Model of `to_string(int)` and `to_string(int64_t)` (nanostring.h:273-369). `none` is undefined behaviour: signed overflow or a
write outside the local buffer. `int` has 32 bits, `int64_t` is `long long` with 64 bits.
-/

namespace Nanostl.Str

/-- `buffer[i] = c`. -/
def put (buf : List Byte) (i : Nat) (c : Byte) : Option (List Byte) := if i < buf.length then some (buf.set i c) else none

/-- Conversion of an `int` to `char`, as a byte. -/
def toChar (r : Int) : Byte := UInt8.ofNat (r % 256).toNat

/-- The digit loop (nanostring.h:296-306, 344-354); `%` and `/` of C++ truncate. `r >= 10` never holds and is modelled all the
same. The number of iterations is at most 10, so 33 units of fuel are never used up. -/
def digitLoop : Nat → Int → Nat → List Byte → Option (List Byte × Nat)
  | 0, _, _, _ => none
  | f + 1, n, i, buf =>
    if n = 0 then some (buf, i)
    else
      let r := n.tmod 10
      (put buf i (if 10 ≤ r then toChar (65 + (r - 10)) else toChar (48 + r))).bind fun buf =>
        digitLoop f (n.tdiv 10) (i + 1) buf

/-- The lambda `myreverse` (nanostring.h:278-288, 327-336). -/
def reverseLoop : Nat → Nat → Nat → List Byte → Option (List Byte)
  | 0, _, _, _ => none
  | f + 1, i, j, buf =>
    if i < j then
      match buf[i]?, buf[j]? with
      | some a, some b => reverseLoop f (i + 1) (j - 1) ((buf.set j a).set i b)
      | _, _ => none
    else some buf

/-- The common rest of both functions after `n` has been computed (nanostring.h:292-319, 340-367). The uninitialised buffer is
represented by zero bytes; the code reads only what it has written. -/
def itoa (B : Nat) (neg : Bool) (n : Int) : Option (List Byte) :=
  (digitLoop 33 n 0 (List.replicate B 0)).bind fun (buf, i) =>
  (if i = 0 then (put buf i 48).map (·, i + 1) else some (buf, i)).bind fun (buf, i) =>
  (if neg then (put buf i 45).map (·, i + 1) else some (buf, i)).bind fun (buf, i) =>
  (put buf i 0).bind fun buf => reverseLoop (i + 1) 0 (i - 1) buf

/-- `to_string(int)` up to the final `string(buffer)` (nanostring.h:273-319): the buffer has `digits10 + 2 = 11` bytes. -/
def toStringInt (value : Int) : Option (List Byte) :=
  if value < 0 then (if value = -2 ^ 31 then none else itoa 11 true (-value)) else itoa 11 false value

/-- Conversion of a 64-bit value to `int` (modulo 2^32, as all compilers and C++20 do). -/
def wrap32 (x : Int) : Int := (x + 2 ^ 31) % 2 ^ 32 - 2 ^ 31

/-- `to_string(int64_t)` (nanostring.h:322-368): the buffer has `18 + 2 = 20` bytes and `n` is declared `int`. -/
def toStringInt64 (value : Int) : Option (List Byte) :=
  if value < 0 then (if value = -2 ^ 63 then none else itoa 20 true (wrap32 (-value))) else itoa 20 false (wrap32 value)

/-! Specification. -/

def digitsValue (ds : List Byte) : Nat := ds.foldl (fun a c => 10 * a + (c.toNat - 48)) 0

/-- `s` is the decimal numeral of `v`: a minus sign exactly if negative, then digits, no leading zero. -/
def IsDecimal (v : Int) (s : List Byte) : Prop :=
  ∃ ds, s = (if v < 0 then [45] else []) ++ ds ∧ ds ≠ [] ∧ (∀ c ∈ ds, 48 ≤ c.toNat ∧ c.toNat ≤ 57) ∧
    (ds.head? = some 48 → ds = [48]) ∧ digitsValue ds = v.natAbs

/-! Lemmas. -/

theorem put_ok {buf : List Byte} {i : Nat} {c : Byte} (h : i < buf.length) : put buf i c = some (buf.set i c) := by
  simp [put, h]

theorem take_put {buf : List Byte} {i : Nat} {c : Byte} (h : i < buf.length) :
    (buf.set i c).take (i + 1) = buf.take i ++ [c] := by
  rw [List.take_succ_eq_append_getElem (by simpa using h), List.take_set_of_le (Nat.le_refl _)]
  simp

theorem toChar_digit {d : Nat} (h : d < 10) : (toChar (48 + (d : Int))).toNat = 48 + d := by
  have : ((48 + (d : Int)) % 256).toNat = 48 + d := by omega
  simp only [toChar, this]
  rw [UInt8.toNat_ofNat']
  omega

theorem digitLoop_nat : ∀ (k f n i : Nat) (buf : List Byte), n < 10 ^ k → i + k ≤ buf.length → k < f →
    ∃ buf' ds, digitLoop f n i buf = some (buf', i + ds.length) ∧ buf'.length = buf.length ∧
      buf'.take (i + ds.length) = buf.take i ++ ds ∧ (∀ c ∈ ds, 48 ≤ c.toNat ∧ c.toNat ≤ 57) ∧
      ds.foldr (fun c a => 10 * a + (c.toNat - 48)) 0 = n ∧ ds.getLast? ≠ some 48 ∧ n < 10 ^ ds.length ∧
      (0 < n → 10 ^ ds.length ≤ 10 * n) ∧ (n = 0 → ds = []) ∧ ds.length ≤ k := by
  intro k
  induction k with
  | zero =>
    intro f n i buf hn hb hf
    have : n = 0 := by omega
    subst this
    obtain ⟨f, rfl⟩ : ∃ g, f = g + 1 := ⟨f - 1, by omega⟩
    exact ⟨buf, [], by simp [digitLoop], rfl, by simp, by simp, rfl, by simp, by simp, by simp, by simp, by simp⟩
  | succ k ih =>
    intro f n i buf hn hb hf
    obtain ⟨f, rfl⟩ : ∃ g, f = g + 1 := ⟨f - 1, by omega⟩
    by_cases h0 : n = 0
    · subst h0
      exact ⟨buf, [], by simp [digitLoop], rfl, by simp, by simp, rfl, by simp, by simp, by simp, by simp, by simp⟩
    have hlt : i < buf.length := by omega
    have hmod : n % 10 < 10 := Nat.mod_lt _ (by decide)
    have e1 : ((n : Int).tmod 10) = ((n % 10 : Nat) : Int) := by rw [Int.tmod_eq_emod_of_nonneg (by omega)]; rfl
    have e2 : ((n : Int).tdiv 10) = ((n / 10 : Nat) : Int) := by rw [Int.tdiv_eq_ediv_of_nonneg (by omega)]; rfl
    have e3 : ¬ ((n : Int) = 0) := by omega
    have e4 : ¬ (10 : Int) ≤ ((n % 10 : Nat) : Int) := by omega
    have hdl : digitLoop (f + 1) n i buf = digitLoop f ((n / 10 : Nat) : Int) (i + 1) (buf.set i (toChar (48 + ((n % 10 : Nat) : Int)))) := by
      rw [digitLoop]
      simp only [e3, e1, e2, e4, if_false, put_ok hlt, Option.bind_some]
    have hp : n / 10 < 10 ^ k := by rw [Nat.pow_succ] at hn; omega
    obtain ⟨buf', ds, g1, g2, g3, g4, g5, g6, g7, g8, g9, g10⟩ :=
      ih f (n / 10) (i + 1) (buf.set i (toChar (48 + ((n % 10 : Nat) : Int)))) hp (by simp; omega) (by omega)
    have hc := toChar_digit hmod
    refine ⟨buf', toChar (48 + ((n % 10 : Nat) : Int)) :: ds, ?_, by simpa using g2, ?_, ?_, ?_, ?_, ?_, ?_, ?_, ?_⟩
    · rw [hdl, g1, List.length_cons, show i + 1 + ds.length = i + (ds.length + 1) by omega]
    · rw [List.length_cons, show i + (ds.length + 1) = i + 1 + ds.length by omega, g3, take_put hlt]; simp
    · intro c hcm
      rcases List.mem_cons.mp hcm with rfl | h
      · omega
      · exact g4 c h
    · rw [List.foldr_cons, g5, hc]; omega
    · intro hl
      rw [List.getLast?_cons] at hl
      cases hds : ds.getLast? with
      | some z => rw [hds] at hl g6; simp at hl; exact g6 (by rw [hl])
      | none =>
        rw [hds] at hl
        simp only [Option.getD_none, Option.some.injEq] at hl
        have : ds = [] := by simpa using hds
        rw [this] at g7
        simp at g7
        have e : (toChar (48 + ((n % 10 : Nat) : Int))).toNat = 48 := by rw [hl]; rfl
        omega
    · rw [List.length_cons, Nat.pow_succ]; omega
    · intro _
      rw [List.length_cons, Nat.pow_succ]
      by_cases hz : n / 10 = 0
      · rw [g9 hz]; simp; omega
      · have := g8 (by omega); omega
    · intro h; omega
    · simp; omega

theorem reverseLoop_ok : ∀ (n f : Nat) (a m b : List Byte), m.length ≤ n → 0 < m.length → n < f →
    reverseLoop f a.length (a.length + m.length - 1) (a ++ m ++ b) = some (a ++ m.reverse ++ b) := by
  intro n
  induction n using Nat.strongRecOn with
  | ind n ih =>
    intro f a m b hn hm hf
    obtain ⟨f, rfl⟩ : ∃ g, f = g + 1 := ⟨f - 1, by omega⟩
    match m, hm with
    | [x], _ => simp [reverseLoop]
    | x :: x2 :: m', _ =>
      have hne : x2 :: m' ≠ [] := by simp
      obtain ⟨m1, y, hm1⟩ : ∃ m1 y, x2 :: m' = m1 ++ [y] := ⟨_, _, (List.dropLast_concat_getLast hne).symm⟩
      rw [hm1]
      have hl : (x :: (m1 ++ [y])).length = m1.length + 2 := by simp
      have hl2 : (x :: x2 :: m').length = m1.length + 2 := by rw [hm1, hl]
      rw [reverseLoop, hl]
      have c1 : a.length < a.length + (m1.length + 2) - 1 := by omega
      have c2 : (a ++ x :: (m1 ++ [y]) ++ b)[a.length]? = some x := by simp
      have c3 : (a ++ x :: (m1 ++ [y]) ++ b)[a.length + (m1.length + 2) - 1]? = some y := by
        rw [show a ++ x :: (m1 ++ [y]) ++ b = (a ++ x :: m1) ++ (y :: b) by simp,
          List.getElem?_append_right (by simp)]
        simp
      rw [if_pos c1, c2, c3]
      simp only
      have e1 : (a ++ x :: (m1 ++ [y]) ++ b).set (a.length + (m1.length + 2) - 1) x = (a ++ x :: m1) ++ (x :: b) := by
        rw [show a ++ x :: (m1 ++ [y]) ++ b = (a ++ x :: m1) ++ (y :: b) by simp,
          List.set_append_right _ _ (by simp)]
        simp
      have e2 : ((a ++ x :: m1) ++ (x :: b)).set a.length y = (a ++ [y]) ++ m1 ++ (x :: b) := by
        rw [show (a ++ x :: m1) ++ (x :: b) = a ++ (x :: (m1 ++ x :: b)) by simp, List.set_append_right _ _ (Nat.le_refl _)]
        simp
      rw [e1, e2]
      by_cases h0 : m1 = []
      · subst h0
        obtain ⟨f, rfl⟩ : ∃ g, f = g + 1 := ⟨f - 1, by omega⟩
        rw [reverseLoop, if_neg (by simp)]
        simp
      · have hpos : 0 < m1.length := List.length_pos_iff.mpr h0
        have := ih m1.length (by omega) f (a ++ [y]) m1 (x :: b) (Nat.le_refl _) hpos (by omega)
        rw [show (a ++ [y]).length = a.length + 1 by simp,
          show a.length + 1 + m1.length - 1 = a.length + (m1.length + 2) - 1 - 1 by omega] at this
        rw [this]
        simp

theorem foldr_reverse (ds : List Byte) : ds.foldr (fun c a => 10 * a + (c.toNat - 48)) 0 = digitsValue ds.reverse := by
  rw [digitsValue, List.foldl_reverse]

theorem take_set_of_ge (buf : List Byte) (i : Nat) (c : Byte) (h : i < buf.length) :
    (buf.set i c).take (i + 1) = buf.take i ++ [c] := take_put h

/-- The part of `itoa` after the digits. -/
theorem itoa_post {B : Nat} {neg : Bool} {n : Int} {buf0 buf1 ds0 ds1 : List Byte}
    (h0 : digitLoop 33 n 0 (List.replicate B 0) = some (buf0, ds0.length))
    (s1 : (if ds0.length = 0 then (put buf0 ds0.length 48).map (·, ds0.length + 1) else some (buf0, ds0.length)) =
      some (buf1, ds1.length)) (s2 : buf1.length = B) (s3 : buf1.take ds1.length = ds1) (s4 : 0 ∉ ds1) (s5 : ds1 ≠ [])
    (hB : ds1.length + (if neg then 1 else 0) < B) :
    ∃ buf, itoa B neg n = some buf ∧ buf.length = B ∧ 0 ∈ buf ∧
      buf.takeWhile (· != 0) = (if neg then [45] else []) ++ ds1.reverse := by
  have hd1 : 0 < ds1.length := List.length_pos_iff.mpr s5
  have step2 : ∃ buf2, (if neg = true then (put buf1 ds1.length 45).map (·, ds1.length + 1) else some (buf1, ds1.length)) =
      some (buf2, (ds1 ++ if neg then [45] else []).length) ∧ buf2.length = B ∧
      buf2.take (ds1 ++ if neg then [45] else []).length = ds1 ++ if neg then [45] else [] := by
    cases neg with
    | false => exact ⟨buf1, by simp, s2, by simpa using s3⟩
    | true =>
      simp at hB
      refine ⟨buf1.set ds1.length 45, by simp [put, show ds1.length < buf1.length by omega], by simpa using s2, ?_⟩
      simp only [if_true, List.length_append, List.length_singleton]
      rw [take_put (by omega), s3]
  obtain ⟨buf2, t1, t2, t3⟩ := step2
  generalize hm : (ds1 ++ if neg = true then [45] else []) = m at t1 t3
  have hml : m.length < B := by rw [← hm]; cases neg <;> simp at hB ⊢ <;> omega
  have hm0 : 0 < m.length := by rw [← hm, List.length_append]; omega
  have hsplit : buf2.set m.length 0 = [] ++ m ++ (0 :: buf2.drop (m.length + 1)) := by
    rw [List.nil_append, List.set_eq_take_append_cons_drop, if_pos (by omega), t3]
  have hrev := reverseLoop_ok m.length (m.length + 1) [] m (0 :: buf2.drop (m.length + 1)) (Nat.le_refl _) hm0 (by omega)
  simp only [List.length_nil, Nat.zero_add, List.nil_append] at hrev
  refine ⟨m.reverse ++ (0 :: buf2.drop (m.length + 1)), ?_, ?_, by simp, ?_⟩
  · simp only [itoa]
    rw [h0]
    simp only [Option.bind_some]
    rw [s1]
    simp only [Option.bind_some]
    rw [t1]
    simp only [Option.bind_some]
    rw [put_ok (by omega)]
    simp only [Option.bind_some]
    rw [hsplit, List.nil_append, hrev]
  · simp; omega
  · have hmr : m.reverse = (if neg = true then [45] else []) ++ ds1.reverse := by
      rw [← hm]; cases neg <;> simp
    rw [hmr]
    rw [List.takeWhile_append_of_pos]
    · simp
    · intro c hc
      rcases List.mem_append.mp hc with h | h
      · cases neg with
        | false => simp at h
        | true => simp at h; rw [h]; decide
      · simp only [bne_iff_ne, ne_eq]
        rintro rfl
        exact s4 (by simpa using h)

/-- Outcome of `itoa` for a non-negative number. -/
theorem itoa_nat (B n k : Nat) (neg : Bool) (hn : n < 10 ^ k) (hk : k < 33) (hk0 : 0 < k)
    (hB : k + (if neg then 1 else 0) < B) :
    ∃ buf ds, itoa B neg n = some buf ∧ buf.length = B ∧ 0 ∈ buf ∧
      buf.takeWhile (· != 0) = (if neg then [45] else []) ++ ds ∧ ds ≠ [] ∧ (∀ c ∈ ds, 48 ≤ c.toNat ∧ c.toNat ≤ 57) ∧
      (ds.head? = some 48 → ds = [48]) ∧ digitsValue ds = n := by
  have hkB : k < B := by split at hB <;> omega
  obtain ⟨buf, ds, g1, g2, g3, g4, g5, g6, g7, g8, g9, g10⟩ := digitLoop_nat k 33 n 0 (List.replicate B 0) hn (by simp; omega) hk
  simp only [List.length_replicate, Nat.zero_add, List.take_zero, List.nil_append] at g1 g2 g3
  -- the digits including the "0" case
  have step1 : ∃ buf1 ds1, (if ds.length = 0 then (put buf ds.length 48).map (·, ds.length + 1) else some (buf, ds.length)) =
      some (buf1, ds1.length) ∧ buf1.length = B ∧ buf1.take ds1.length = ds1 ∧ (∀ c ∈ ds1, 48 ≤ c.toNat ∧ c.toNat ≤ 57) ∧
      ds1 ≠ [] ∧ (ds1.getLast? = some 48 → ds1 = [48]) ∧ digitsValue ds1.reverse = n ∧ ds1.length ≤ k := by
    by_cases h0 : ds.length = 0
    · have hd : ds = [] := List.eq_nil_of_length_eq_zero h0
      subst hd
      refine ⟨buf.set 0 48, [48], ?_, by simpa using g2, ?_, ?_, by simp, by simp, ?_, by simp; omega⟩
      · simp [put, show 0 < buf.length by omega]
      · have := take_put (buf := buf) (i := 0) (c := 48) (by omega)
        simpa using this
      · simp
      · simp at g7 g5; subst g7; rfl
    · refine ⟨buf, ds, by simp [h0], g2, g3, g4, ?_, fun h => absurd h g6, by rw [← foldr_reverse]; exact g5, g10⟩
      intro h; rw [h] at h0; simp at h0
  obtain ⟨buf1, ds1, s1, s2, s3, s4, s5, s6, s7, s8⟩ := step1
  have n0 : (0 : Byte) ∉ ds1 := by
    intro h
    have := s4 0 h
    simp at this
  obtain ⟨b, p1, p2, p3, p4⟩ := itoa_post g1 s1 s2 s3 n0 s5 (neg := neg) (by omega)
  refine ⟨b, ds1.reverse, p1, p2, p3, p4, by simpa using s5, ?_, ?_, s7⟩
  · intro c hc; exact s4 c (by simpa using hc)
  · intro h
    rw [List.head?_reverse] at h
    rw [s6 h]; rfl

theorem toChar_neg_digit {d : Nat} (h : d < 10) : (toChar (48 + -(d : Int))).toNat = 48 - d := by
  have : ((48 + -(d : Int)) % 256).toNat = 48 - d := by omega
  simp only [toChar, this]
  rw [UInt8.toNat_ofNat']
  omega

/-- The digit loop on a negative number writes characters below '0'. -/
theorem digitLoop_neg : ∀ (k f n i : Nat) (buf : List Byte), n < 10 ^ k → i + k ≤ buf.length → k < f →
    ∃ buf' ds, digitLoop f (-(n : Int)) i buf = some (buf', i + ds.length) ∧ buf'.length = buf.length ∧
      buf'.take (i + ds.length) = buf.take i ++ ds ∧ (∀ c ∈ ds, 0 < c.toNat) ∧
      (0 < n → ∃ c, ds.getLast? = some c ∧ 39 ≤ c.toNat ∧ c.toNat < 48) ∧ (n = 0 → ds = []) ∧ ds.length ≤ k := by
  intro k
  induction k with
  | zero =>
    intro f n i buf hn hb hf
    have : n = 0 := by omega
    subst this
    obtain ⟨f, rfl⟩ : ∃ g, f = g + 1 := ⟨f - 1, by omega⟩
    exact ⟨buf, [], by simp [digitLoop], rfl, by simp, by simp, by simp, by simp, by simp⟩
  | succ k ih =>
    intro f n i buf hn hb hf
    obtain ⟨f, rfl⟩ : ∃ g, f = g + 1 := ⟨f - 1, by omega⟩
    by_cases h0 : n = 0
    · subst h0
      exact ⟨buf, [], by simp [digitLoop], rfl, by simp, by simp, by simp, by simp, by simp⟩
    have hlt : i < buf.length := by omega
    have hmod : n % 10 < 10 := Nat.mod_lt _ (by decide)
    have e1 : ((-(n : Int)).tmod 10) = -((n % 10 : Nat) : Int) := by
      rw [Int.neg_tmod, Int.tmod_eq_emod_of_nonneg (by omega)]; rfl
    have e2 : ((-(n : Int)).tdiv 10) = -((n / 10 : Nat) : Int) := by
      rw [Int.neg_tdiv, Int.tdiv_eq_ediv_of_nonneg (by omega)]; rfl
    have e3 : ¬ (-(n : Int) = 0) := by omega
    have e4 : ¬ (10 : Int) ≤ -((n % 10 : Nat) : Int) := by omega
    have hdl : digitLoop (f + 1) (-(n : Int)) i buf =
        digitLoop f (-((n / 10 : Nat) : Int)) (i + 1) (buf.set i (toChar (48 + -((n % 10 : Nat) : Int)))) := by
      rw [digitLoop]
      simp only [e3, e1, e2, e4, if_false, put_ok hlt, Option.bind_some]
    have hp : n / 10 < 10 ^ k := by rw [Nat.pow_succ] at hn; omega
    obtain ⟨buf', ds, g1, g2, g3, g4, g5, g6, g7⟩ :=
      ih f (n / 10) (i + 1) (buf.set i (toChar (48 + -((n % 10 : Nat) : Int)))) hp (by simp; omega) (by omega)
    have hc := toChar_neg_digit hmod
    refine ⟨buf', toChar (48 + -((n % 10 : Nat) : Int)) :: ds, ?_, by simpa using g2, ?_, ?_, ?_, ?_, ?_⟩
    · rw [hdl, g1, List.length_cons, show i + 1 + ds.length = i + (ds.length + 1) by omega]
    · rw [List.length_cons, show i + (ds.length + 1) = i + 1 + ds.length by omega, g3, take_put hlt]; simp
    · intro c hcm
      rcases List.mem_cons.mp hcm with rfl | h
      · omega
      · exact g4 c h
    · intro _
      by_cases hz : n / 10 = 0
      · rw [g6 hz]
        exact ⟨toChar (48 + -((n % 10 : Nat) : Int)), rfl, by omega, by omega⟩
      · obtain ⟨c, c1, c2⟩ := g5 (by omega)
        exact ⟨c, by rw [List.getLast?_cons, c1]; rfl, c2⟩
    · intro h; omega
    · simp; omega

/-- Outcome of `itoa` for a negative number: the first character after the sign is not a digit. -/
theorem itoa_neg (B n k : Nat) (neg : Bool) (hn : n < 10 ^ k) (hk : k < 33) (h0 : 0 < n)
    (hB : k + (if neg then 1 else 0) < B) :
    ∃ buf c ds, itoa B neg (-(n : Int)) = some buf ∧
      buf.takeWhile (· != 0) = (if neg then [45] else []) ++ c :: ds ∧ c.toNat < 48 := by
  have hkB : k < B := by split at hB <;> omega
  obtain ⟨buf, ds, g1, g2, g3, g4, g5, g6, g7⟩ := digitLoop_neg k 33 n 0 (List.replicate B 0) hn (by simp; omega) hk
  simp only [List.length_replicate, Nat.zero_add, List.take_zero, List.nil_append] at g1 g2 g3
  obtain ⟨c, c1, c2, c3⟩ := g5 h0
  have hne : ds ≠ [] := by rintro rfl; simp at c1
  have hl : 0 < ds.length := List.length_pos_iff.mpr hne
  obtain ⟨b, p1, p2, p3, p4⟩ := itoa_post (neg := neg) g1 (if_neg (by omega)) g2 g3
    (fun h => by have := g4 0 h; simp at this) hne (by omega)
  have hh : ds.reverse.head? = some c := by rw [List.head?_reverse, c1]
  obtain ⟨es, hes⟩ : ∃ es, ds.reverse = c :: es := by
    cases hr : ds.reverse with
    | nil => rw [hr] at hh; cases hh
    | cons x xs => rw [hr] at hh; cases hh; exact ⟨xs, rfl⟩
  exact ⟨b, c, es, p1, by rw [p4, hes], c3⟩

/-- Ten digits and a minus sign do not fit into 11 bytes together with the terminator. -/
theorem itoa_overflow (n : Nat) (h1 : 10 ^ 9 ≤ n) (h2 : n < 10 ^ 10) : itoa 11 true n = none := by
  obtain ⟨buf, ds, g1, g2, g3, g4, g5, g6, g7, g8, g9, g10⟩ := digitLoop_nat 10 33 n 0 (List.replicate 11 0) h2 (by simp) (by decide)
  simp only [List.length_replicate, Nat.zero_add] at g1 g2
  have hl : ds.length = 10 := by
    have hlt : 9 < ds.length := by
      rcases Nat.lt_or_ge 9 ds.length with h | h
      · exact h
      · have := Nat.pow_le_pow_right (n := 10) (by decide) h; omega
    omega
  simp only [itoa]
  rw [g1, hl]
  simp only [Option.bind_some]
  rw [if_neg (by decide)]
  simp only [Option.bind_some, if_true]
  rw [put_ok (by omega)]
  simp only [Option.map_some, Option.bind_some]
  simp [put, g2]

end Nanostl.Str

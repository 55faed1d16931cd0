import Verif.Ryu.ToChars
import Verif.Ryu.F2dBest
import Verif.Ryu.D2dInt

/-!
`to_string(float)` and `to_string(double)`: the text for every pattern.
-/

namespace Nanostl.Ryu
open Nanostl.Float
open Nanostl.Str (Byte toChar digitsValue IsDecimal)

theorem pow_cancel {a b c : Nat} (h : 10 ^ a * b ≤ c * b) (hb : 0 < b) : 10 ^ a ≤ c := Nat.le_of_mul_le_mul_right h hb

/-- Decimals read as finite nonzero values have exponents of few digits. -/
theorem exp_bound {φ : Fmt} {W t o L : Nat} {k : Int} (h1 : φ.mag φ.inf < 10 ^ W * φ.one) (h2 : 2 * φ.one < 10 ^ (W - 1)) (hW : 0 < W) (ht : 0 < t)
    (hinf : t < φ.inf) (hn : DecNearest φ o k t) (hL : Len o L) : (k + L - 1).natAbs < W := by
  rw [DecNearest, nearest_interval φ (decDen_pos k) ht] at hn
  have hn' : (φ.mag (t - 1) + φ.mag t) * decDen k ≤ 2 * decNum φ o k ∧ 2 * decNum φ o k ≤ (φ.mag t + φ.mag (t + 1)) * decDen k := by
    split at hn
    · exact hn
    · exact ⟨hn.1.le, hn.2.le⟩
  have m1 : 0 < φ.mag t := by have := φ.mag_lt_iff.2 ht; omega
  have m2 : φ.mag t + φ.mag (t + 1) ≤ 2 * φ.mag φ.inf := by
    have a1 := φ.mag_le_iff.2 (show t ≤ φ.inf by omega)
    have a2 := φ.mag_le_iff.2 (show t + 1 ≤ φ.inf by omega)
    omega
  have lo : decDen k ≤ 2 * decNum φ o k := Nat.le_trans (by
    have := Nat.mul_le_mul_right (decDen k) (show 1 ≤ φ.mag (t - 1) + φ.mag t by omega); omega) hn'.1
  have hi : decNum φ o k ≤ φ.mag φ.inf * decDen k := by
    have := Nat.mul_le_mul_right (decDen k) m2
    rw [Nat.mul_assoc] at this
    omega
  have hone := one_pos φ
  by_contra hc
  have hL0 := hL.2.2
  rcases Int.lt_or_le (k + L - 1) 0 with hs | hs
  · -- too small
    have e : (-k).toNat = (W - 1) + (L + k.toNat) + ((-k).toNat - (W - 1) - (L + k.toNat)) := by omega
    have q1 : 10 ^ (W - 1) * 10 ^ (L + k.toNat) ≤ decDen k := by
      unfold decDen; rw [← Nat.pow_add]; exact Nat.pow_le_pow_right (by decide) (by omega)
    have q2 : decNum φ o k ≤ φ.one * 10 ^ (L + k.toNat) := by
      unfold decNum
      rw [Nat.mul_comm, Nat.pow_add]
      exact Nat.mul_le_mul_left _ (Nat.mul_le_mul_right _ hL.2.1.le)
    have q3 : 10 ^ (W - 1) * 10 ^ (L + k.toNat) ≤ (2 * φ.one) * 10 ^ (L + k.toNat) := by
      rw [Nat.mul_assoc 2]; omega
    exact absurd (pow_cancel q3 (Nat.pow_pos (by decide))) (by omega)
  · have q1 : 10 ^ W * φ.one * decDen k ≤ decNum φ o k := by
      unfold decNum decDen
      calc 10 ^ W * φ.one * 10 ^ (-k).toNat = (10 ^ W * 10 ^ (-k).toNat) * φ.one := by ring
        _ ≤ (10 ^ (L - 1) * 10 ^ k.toNat) * φ.one := by
          refine Nat.mul_le_mul_right _ ?_
          rw [← Nat.pow_add, ← Nat.pow_add]; exact Nat.pow_le_pow_right (by decide) (by omega)
        _ ≤ _ := Nat.mul_le_mul_right _ (Nat.mul_le_mul_right _ hL.1)
    have q2 := Nat.lt_of_lt_of_le (Nat.mul_lt_mul_of_pos_right h1 (decDen_pos k)) (q1.trans hi)
    exact absurd q2 (Nat.lt_irrefl _)

theorem expText_digit (e : Nat) : ∀ c ∈ expText e, IsDigit c := by
  unfold expText IsDigit
  split
  · exact lowDigs_digit e 3
  · split
    · exact lowDigs_digit e 2
    · exact lowDigs_digit e 1

theorem expText_decimal {x : Int} (hx : x.natAbs < 1000) : IsDecimal x ((if x < 0 then [45] else []) ++ expText x.natAbs) := by
  refine ⟨expText x.natAbs, rfl, ?_, expText_digit _, ?_, ?_⟩
  · unfold expText; split_ifs <;> simp [lowDigs]
  · generalize x.natAbs = e at *
    unfold expText
    have hd : ∀ d, d < 10 → dig d = 48 → d = 0 := by decide
    by_cases h1 : e ≥ 100
    · rw [if_pos h1, lowDigs_triple hx]
      intro h
      have := hd (e / 10 / 10) (by omega) (by simpa using h)
      omega
    · rw [if_neg h1]
      by_cases h2 : e ≥ 10
      · rw [if_pos h2, lowDigs_pair (by omega)]
        intro h
        have := hd (e / 10) (by omega) (by simpa using h)
        omega
      · rw [if_neg h2, lowDigs_one (by omega)]
        intro h
        simpa using h
  · generalize x.natAbs = e at *
    unfold expText
    split
    · rw [lowDigs_value]; exact Nat.mod_eq_of_lt (by norm_num; omega)
    · split
      · rw [lowDigs_value]; exact Nat.mod_eq_of_lt (by norm_num; omega)
      · rw [lowDigs_value]; exact Nat.mod_eq_of_lt (by norm_num; omega)

theorem top_digit {v L : Nat} (hL : Len v L) : 0 < v / 10 ^ (L - 1) ∧ v / 10 ^ (L - 1) < 10 := by
  have hp : 0 < 10 ^ (L - 1) := Nat.pow_pos (by decide)
  refine ⟨Nat.div_pos hL.1 hp, ?_⟩
  rw [Nat.div_lt_iff_lt_mul hp, Nat.mul_comm, ← Nat.pow_succ, show (L - 1).succ = L by have := hL.2.2; omega]
  exact hL.2.1

/-- The text is scientific notation of the digits and the exponent. -/
theorem sciText_isSci (neg : Bool) {v L : Nat} {k : Int} (hL : Len v L) (hk : (k + L - 1).natAbs < 1000) :
    IsSci (sciText neg v L k (expText (k + L - 1).natAbs)) neg v k := by
  have ht := top_digit hL
  have hL0 := hL.2.2
  refine ⟨dig (v / 10 ^ (L - 1)), lowDigs v (L - 1), _, k + L - 1, ?_, ?_, ?_, ?_, expText_decimal hk, ?_⟩
  · have : (if L > 1 then (46 : Byte) :: lowDigs v (L - 1) else []) = if lowDigs v (L - 1) = [] then [] else 46 :: lowDigs v (L - 1) := by
      by_cases h : L > 1
      · rw [if_pos h, if_neg]
        intro e
        have := congrArg List.length e
        rw [lowDigs_length] at this
        simp at this; omega
      · rw [if_neg h, show L - 1 = 0 by omega, lowDigs, if_pos rfl]
    unfold sciText mant
    rw [this]
    simp only [List.cons_append, List.append_assoc]
  · intro c hc
    rcases List.mem_cons.1 hc with rfl | hc
    · unfold IsDigit; rw [dig_toNat ht.2]; omega
    · exact lowDigs_digit v _ c hc
  · intro h
    have h1 := dig_toNat ht.2
    rw [h] at h1
    exact absurd h1 (by show ¬(48 = _); omega)
  · rw [digitsValue_cons, dig_toNat ht.2, lowDigs_length, lowDigs_value, Nat.add_sub_cancel_left, Nat.mul_comm]
    exact Nat.div_add_mod _ _
  · rw [lowDigs_length]; omega

theorem isSci_nonzero {s : List Byte} {neg : Bool} {c : Nat} {k : Int} (h : IsSci s neg c k) : ∀ b ∈ s, b ≠ 0 := by
  obtain ⟨d, ds, xs, x, hs, hd, _, _, hx, _⟩ := h
  obtain ⟨es, hes, _, hed, _⟩ := hx
  rw [hs, hes]
  intro b hb
  rw [List.mem_append, List.mem_cons, List.mem_append, List.mem_cons, List.mem_append] at hb
  rcases hb with h | rfl | h | rfl | h | h
  · cases neg <;> simp at h
    rw [h]; decide
  · exact (digit_ne (hd _ List.mem_cons_self)).2.2.2
  · by_cases hn : ds = []
    · rw [if_pos hn] at h; simp at h
    · rw [if_neg hn, List.mem_cons] at h
      rcases h with rfl | h
      · decide
      · exact (digit_ne (hd _ (List.mem_cons_of_mem _ h))).2.2.2
  · decide
  · split at h <;> simp at h
    rw [h]; decide
  · exact (digit_ne (hed _ h)).2.2.2

theorem cstr_append : ∀ (s r : List Byte), (∀ b ∈ s, b ≠ 0) → cstr (s ++ 0 :: r) = some s
  | [], r, _ => by rw [List.nil_append, cstr, if_pos rfl]
  | c :: s, r, h => by
    rw [List.cons_append, cstr, if_neg (h c List.mem_cons_self), cstr_append s r fun b hb => h b (List.mem_cons_of_mem _ hb)]; rfl

theorem finish {B s : List Byte} (h : Has B 0 s) (hlt : s.length < B.length) (hz : ∀ b ∈ s, b ≠ 0) : (terminate (B, s.length)).bind cstr = some s := by
  obtain ⟨B1, e1, u1, g1⟩ := poke_spec (B := B) (pos := s.length) 0 hlt (p := (s.length : Int)) rfl
  rw [terminate]
  show (poke B (s.length : Int) 0).bind cstr = some s
  rw [e1, Option.bind_some]
  have h2 : Has B1 0 (s ++ [0]) := Has.append (h.frame u1 (Or.inl (by omega))) (by rw [Nat.zero_add]; exact g1)
  have h3 := h2.take
  rw [← List.take_append_drop (s ++ [(0 : Byte)]).length B1, h3, List.append_assoc]
  exact cstr_append s _ hz

theorem pokeStr_spec : ∀ (l B : List Byte) (pos : Nat) (p : Int), p = pos → pos + l.length ≤ B.length →
    ∃ B', pokeStr B p l = some B' ∧ Upd B B' pos (pos + l.length) ∧ Has B' pos l
  | [], B, pos, p, _, _ => ⟨B, rfl, Upd.refl .., Has.nil _ _⟩
  | c :: l, B, pos, p, hp, h => by
    rw [List.length_cons] at h
    obtain ⟨B1, e1, u1, g1⟩ := poke_spec (B := B) (pos := pos) c (by omega) hp
    obtain ⟨B2, e2, u2, g2⟩ := pokeStr_spec l B1 (pos + 1) (p + 1) (by omega) (by rw [u1.1]; omega)
    refine ⟨B2, ?_, Upd.trans u1 u2 (by omega) (by simp) (by omega) (by simp; omega), Has.cons (g1.frame u2 (by simp)) g2⟩
    rw [pokeStr, e1, Option.bind_some, e2]

/-- The texts of NaN, infinity and zero. -/
def specialText (sign exponent mantissa : Bool) : List Byte :=
  if mantissa then [78, 97, 78] else (if sign then [45] else []) ++ if exponent then [73, 110, 102, 105, 110, 105, 116, 121] else [48, 69, 48]

theorem copySpecial_spec {B : List Byte} (hB : 10 ≤ B.length) (sign exponent mantissa : Bool) :
    ∃ B', copySpecial B sign exponent mantissa = some (B', (specialText sign exponent mantissa).length) ∧ B'.length = B.length ∧
      Has B' 0 (specialText sign exponent mantissa) := by
  have word : ∀ (B : List Byte) (w : List Byte), 10 ≤ B.length → w.length ≤ 8 → ∃ B', (do
      let buf ← if sign then poke B 0 45 else some B
      (pokeStr buf (sign.toNat : Nat) w).map (·, sign.toNat + w.length)) = some (B', ((if sign then [45] else []) ++ w).length) ∧ B'.length = B.length ∧
      Has B' 0 ((if sign then [45] else []) ++ w) := by
    intro B w hB hw
    cases sign
    · obtain ⟨B1, e1, u1, g1⟩ := pokeStr_spec w B 0 ((0 : Nat) : Int) rfl (by omega)
      refine ⟨B1, ?_, u1.1, g1⟩
      simp only [Bool.false_eq_true, if_false, Option.bind_eq_bind, Option.bind_some, Bool.toNat_false, List.nil_append, Nat.zero_add]
      rw [e1]; rfl
    · obtain ⟨B0, e0, u0, g0⟩ := poke_spec (B := B) (pos := 0) 45 (by omega) (p := 0) rfl
      obtain ⟨B1, e1, u1, g1⟩ := pokeStr_spec w B0 1 ((1 : Nat) : Int) rfl (by rw [u0.1]; omega)
      refine ⟨B1, ?_, u1.1.trans u0.1, Has.append (g0.frame u1 (by simp)) g1⟩
      simp only [if_true, Option.bind_eq_bind]
      rw [e0, Option.bind_some]
      simp only [Bool.toNat_true]
      rw [e1, List.length_append]; rfl
  cases mantissa
  · cases exponent
    · obtain ⟨B1, e1, l1, g1⟩ := word B [48, 69, 48] hB (by decide)
      exact ⟨B1, e1, l1, g1⟩
    · obtain ⟨B1, e1, l1, g1⟩ := word B [73, 110, 102, 105, 110, 105, 116, 121] hB (by decide)
      exact ⟨B1, e1, l1, g1⟩
  · obtain ⟨B1, e1, u1, g1⟩ := pokeStr_spec [78, 97, 78] B 0 ((0 : Nat) : Int) rfl (by simp; omega)
    refine ⟨B1, ?_, u1.1, g1⟩
    rw [copySpecial, if_pos rfl]
    rw [show pokeStr B 0 [78, 97, 78] = some B1 from e1]; rfl

/-- Zero is best written as zero. -/
theorem decBest_zero (φ : Fmt) : DecBest φ 0 0 0 := by
  have h : φ.dist (decNum φ 0 0) (decDen 0) 0 = 0 := by unfold Fmt.dist decNum; rw [φ.mag_zero]; simp
  refine ⟨?_, fun _ _ n _ _ => Nat.pow_pos (by decide), fun c k _ _ => ?_⟩
  · exact φ.nearest_exact (decDen_pos 0) (by unfold decNum; rw [φ.mag_zero]; simp)
  · unfold DecCloser; rw [h, Nat.zero_mul]; exact Nat.zero_le _

theorem zero_isSci (neg : Bool) : IsSci ((if neg then [45] else []) ++ [48, 69, 48]) neg 0 0 :=
  ⟨48, [], [48], 0, rfl, by decide, fun _ => rfl, rfl, ⟨[48], rfl, by decide, by decide, by decide, rfl⟩, rfl⟩

/-- The fields of a pattern as the code computes them. -/
theorem fields (mb eb x : Nat) :
    ((x >>> (mb + eb)) &&& 1 != 0) = Fmt.sign ⟨mb, eb⟩ x ∧ x &&& (2 ^ mb - 1) = Fmt.frac ⟨mb, eb⟩ x ∧ (x >>> mb) &&& (2 ^ eb - 1) = Fmt.expo ⟨mb, eb⟩ x := by
  refine ⟨?_, ?_, ?_⟩
  · rw [Nat.shiftRight_eq_div_pow, Nat.and_one_is_mod, Fmt.sign, Fmt.half]
    rcases Nat.mod_two_eq_zero_or_one (x / 2 ^ (mb + eb)) with h | h <;> simp [h]
  · rw [Nat.and_two_pow_sub_one_eq_mod, Fmt.frac, Fmt.low, Fmt.half]
    exact (Nat.mod_mod_of_dvd _ ⟨2 ^ eb, Nat.pow_add ..⟩).symm
  · rw [Nat.and_two_pow_sub_one_eq_mod, Nat.shiftRight_eq_div_pow, Fmt.expo, Fmt.low, Fmt.half]
    show x / 2 ^ mb % 2 ^ eb = x % 2 ^ (mb + eb) / 2 ^ mb
    rw [Nat.pow_add, Nat.mod_mul_right_div_self]

theorem mag_inf32 : f32.mag f32.inf < 10 ^ 100 * f32.one := by decide +kernel
theorem one32 : 2 * f32.one < 10 ^ (100 - 1) := by decide +kernel
theorem mag_inf64 : f64.mag f64.inf < 10 ^ 1000 * f64.one := by decide +kernel
theorem one64 : 2 * f64.one < 10 ^ (1000 - 1) := by decide +kernel

theorem f2sBufferedN_eq (p : Bool) (bits : Nat) (B : List Byte) (f1 : ((bits >>> (23 + 8)) &&& 1 != 0) = f32.sign bits) (f2 : bits &&& (2 ^ 23 - 1) = f32.frac bits)
    (f3 : (bits >>> 23) &&& (2 ^ 8 - 1) = f32.expo bits) :
    f2sBufferedN p bits B = if f32.expo bits = 255 ∨ (f32.expo bits = 0 ∧ f32.frac bits = 0) then copySpecial B (f32.sign bits) (f32.expo bits != 0) (f32.frac bits != 0)
      else (f2d p (f32.frac bits) (f32.expo bits)).bind fun v => toChars32 v.1 v.2 (f32.sign bits) B := by
  rw [← f1, ← f2, ← f3]; rfl

theorem d2sBufferedN_eq (p : Bool) (bits : Nat) (B : List Byte) (f1 : ((bits >>> (52 + 11)) &&& 1 != 0) = f64.sign bits) (f2 : bits &&& (2 ^ 52 - 1) = f64.frac bits)
    (f3 : (bits >>> 52) &&& (2 ^ 11 - 1) = f64.expo bits) :
    d2sBufferedN p bits B = if f64.expo bits = 2047 ∨ (f64.expo bits = 0 ∧ f64.frac bits = 0) then copySpecial B (f64.sign bits) (f64.expo bits != 0) (f64.frac bits != 0)
      else (d2sDecimal p (f64.frac bits) (f64.expo bits)).bind fun v => toChars64 p v.1 v.2 (f64.sign bits) B := by
  rw [← f1, ← f2, ← f3]; rfl

theorem toStringFloat_special (p : Bool) {bits : Nat} {B : List Byte} (hB : B.length = 16) (h : f32.expo bits = 255) :
    toStringFloat p bits B = some (specialText (f32.sign bits) true (f32.frac bits != 0)) := by
  obtain ⟨f1, f2, f3⟩ := fields 23 8 bits
  change _ = f32.sign bits at f1
  change _ = f32.frac bits at f2
  change _ = f32.expo bits at f3
  obtain ⟨B1, e1, l1, g1⟩ := copySpecial_spec (B := B) (by omega) (f32.sign bits) true (f32.frac bits != 0)
  have e2 : f2sBufferedN p bits B = some (B1, (specialText (f32.sign bits) true (f32.frac bits != 0)).length) := by
    rw [f2sBufferedN_eq p bits B f1 f2 f3, if_pos (Or.inl h), ← e1, h]; rfl
  rw [toStringFloat, e2, Option.bind_eq_bind, Option.bind_some]
  refine finish g1 ?_ ?_
  · rw [l1, hB]; cases f32.sign bits <;> cases (f32.frac bits != 0) <;> decide
  · cases f32.sign bits <;> cases (f32.frac bits != 0) <;> decide

theorem toStringFloat_best (p : Bool) {bits : Nat} {B : List Byte} (hB : B.length = 16) (h : f32.expo bits ≠ 255) :
    ∃ s c k, toStringFloat p bits B = some s ∧ IsSci s (f32.sign bits) c k ∧ DecBest f32 (f32.low bits) c k ∧ s.length < 16 ∧
      (f32.low bits ≠ 0 → f2d p (f32.frac bits) (f32.expo bits) = some (c, k)) := by
  obtain ⟨f1, f2, f3⟩ := fields 23 8 bits
  change _ = f32.sign bits at f1
  change _ = f32.frac bits at f2
  change _ = f32.expo bits at f3
  have hlow : f32.low bits = f32.expo bits * 8388608 + f32.frac bits := f32.low_eq bits
  have hm : f32.frac bits < 8388608 := f32.frac_lt bits
  have he : f32.expo bits < 255 := by
    have : f32.expo bits ≤ 255 := f32.expo_le bits
    omega
  by_cases h0 : f32.expo bits = 0 ∧ f32.frac bits = 0
  · obtain ⟨B1, e1, l1, g1⟩ := copySpecial_spec (B := B) (by omega) (f32.sign bits) false false
    refine ⟨specialText (f32.sign bits) false false, 0, 0, ?_, zero_isSci _, ?_, ?_, fun hn => absurd hn (by rw [hlow, h0.1, h0.2]; simp)⟩
    · have e2 : f2sBufferedN p bits B = some (B1, (specialText (f32.sign bits) false false).length) := by
        rw [f2sBufferedN_eq p bits B f1 f2 f3, if_pos (Or.inr h0), ← e1, h0.1, h0.2]; rfl
      rw [toStringFloat, e2, Option.bind_eq_bind, Option.bind_some]
      refine finish g1 ?_ ?_
      · rw [l1, hB]; cases f32.sign bits <;> decide
      · cases f32.sign bits <;> decide
    · rw [hlow, h0.1, h0.2]; exact decBest_zero f32
    · cases f32.sign bits <;> decide
  · have hpos : 0 < f32.expo bits * 8388608 + f32.frac bits := by omega
    obtain ⟨o, k, e1, hb, ho⟩ := f2d_best p hm he hpos
    rw [← hlow] at hb hpos
    have ho0 : 0 < o := by
      rcases Nat.eq_zero_or_pos o with rfl | h
      · exact absurd hb.near (dec_zero hpos)
      · exact h
    have hinf : f32.low bits < f32.inf := by
      rw [hlow]; show _ < 255 * 8388608
      omega
    have hk : ∀ L, Len o L → (k + L - 1).natAbs < 100 := fun L hL => exp_bound mag_inf32 one32 (by decide) hpos hinf hb.near hL
    obtain ⟨L, B', hL, _, e2, l2, g2, hlt⟩ := toChars32_spec (f32.sign bits) hB ho0 ho hk
    have hsci := sciText_isSci (f32.sign bits) (k := k) hL (by have := hk L hL; omega)
    refine ⟨_, o, k, ?_, hsci, hb, hlt, fun _ => e1⟩
    have e3 : f2sBufferedN p bits B = some (B', (sciText (f32.sign bits) o L k (expText (k + L - 1).natAbs)).length) := by
      rw [f2sBufferedN_eq p bits B f1 f2 f3, if_neg (by omega), e1, Option.bind_some]
      exact e2
    rw [toStringFloat, e3, Option.bind_eq_bind, Option.bind_some]
    exact finish g2 (by rw [l2]; exact hlt) (isSci_nonzero hsci)

theorem toStringDouble_special (p : Bool) {bits : Nat} {B : List Byte} (hB : B.length = 25) (h : f64.expo bits = 2047) :
    toStringDouble p bits B = some (specialText (f64.sign bits) true (f64.frac bits != 0)) := by
  obtain ⟨f1, f2, f3⟩ := fields 52 11 bits
  change _ = f64.sign bits at f1
  change _ = f64.frac bits at f2
  change _ = f64.expo bits at f3
  obtain ⟨B1, e1, l1, g1⟩ := copySpecial_spec (B := B) (by omega) (f64.sign bits) true (f64.frac bits != 0)
  have e2 : d2sBufferedN p bits B = some (B1, (specialText (f64.sign bits) true (f64.frac bits != 0)).length) := by
    rw [d2sBufferedN_eq p bits B f1 f2 f3, if_pos (Or.inl h), ← e1, h]; rfl
  rw [toStringDouble, e2, Option.bind_eq_bind, Option.bind_some]
  refine finish g1 ?_ ?_
  · rw [l1, hB]; cases f64.sign bits <;> cases (f64.frac bits != 0) <;> decide
  · cases f64.sign bits <;> cases (f64.frac bits != 0) <;> decide

theorem toStringDouble_best (p : Bool) {bits : Nat} {B : List Byte} (hB : B.length = 25) (h : f64.expo bits ≠ 2047) :
    ∃ s c k, toStringDouble p bits B = some s ∧ IsSci s (f64.sign bits) c k ∧ DecBest f64 (f64.low bits) c k ∧ s.length < 25 ∧
      (f64.low bits ≠ 0 → d2sDecimal p (f64.frac bits) (f64.expo bits) = some (c, k)) := by
  obtain ⟨f1, f2, f3⟩ := fields 52 11 bits
  change _ = f64.sign bits at f1
  change _ = f64.frac bits at f2
  change _ = f64.expo bits at f3
  have hlow : f64.low bits = f64.expo bits * 4503599627370496 + f64.frac bits := f64.low_eq bits
  have hm : f64.frac bits < 4503599627370496 := f64.frac_lt bits
  have he : f64.expo bits < 2047 := by
    have : f64.expo bits ≤ 2047 := f64.expo_le bits
    omega
  by_cases h0 : f64.expo bits = 0 ∧ f64.frac bits = 0
  · obtain ⟨B1, e1, l1, g1⟩ := copySpecial_spec (B := B) (by omega) (f64.sign bits) false false
    refine ⟨specialText (f64.sign bits) false false, 0, 0, ?_, zero_isSci _, ?_, ?_, fun hn => absurd hn (by rw [hlow, h0.1, h0.2]; simp)⟩
    · have e2 : d2sBufferedN p bits B = some (B1, (specialText (f64.sign bits) false false).length) := by
        rw [d2sBufferedN_eq p bits B f1 f2 f3, if_pos (Or.inr h0), ← e1, h0.1, h0.2]; rfl
      rw [toStringDouble, e2, Option.bind_eq_bind, Option.bind_some]
      refine finish g1 ?_ ?_
      · rw [l1, hB]; cases f64.sign bits <;> decide
      · cases f64.sign bits <;> decide
    · rw [hlow, h0.1, h0.2]; exact decBest_zero f64
    · cases f64.sign bits <;> decide
  · have hpos : 0 < f64.expo bits * 4503599627370496 + f64.frac bits := by omega
    obtain ⟨o, k, e1, hb, ho⟩ := d2sDecimal_best p hm he hpos
    rw [← hlow] at hb hpos
    have ho0 : 0 < o := by
      rcases Nat.eq_zero_or_pos o with rfl | h
      · exact absurd hb.near (dec_zero hpos)
      · exact h
    have hinf : f64.low bits < f64.inf := by
      rw [hlow]; show _ < 2047 * 4503599627370496
      omega
    have hk : ∀ L, Len o L → (k + L - 1).natAbs < 1000 := fun L hL => exp_bound mag_inf64 one64 (by decide) hpos hinf hb.near hL
    obtain ⟨L, B', hL, _, e2, l2, g2, hlt⟩ := toChars64_spec p (f64.sign bits) hB ho0 ho hk
    have hsci := sciText_isSci (f64.sign bits) (k := k) hL (by have := hk L hL; omega)
    refine ⟨_, o, k, ?_, hsci, hb, hlt, fun _ => e1⟩
    have e3 : d2sBufferedN p bits B = some (B', (sciText (f64.sign bits) o L k (expText (k + L - 1).natAbs)).length) := by
      rw [d2sBufferedN_eq p bits B f1 f2 f3, if_neg (by omega), e1, Option.bind_some]
      exact e2
    rw [toStringDouble, e3, Option.bind_eq_bind, Option.bind_some]
    exact finish g2 (by rw [l2]; exact hlt) (isSci_nonzero hsci)

theorem toStringFloat_zero (p : Bool) {bits : Nat} {B s : List Byte} (hB : B.length = 16) (h0 : f32.low bits = 0) (hs : toStringFloat p bits B = some s) : IsSci s (f32.sign bits) 0 0 := by
  have hl := f32.low_eq bits
  rw [h0] at hl
  have hp : 0 < 2 ^ f32.mb := by decide
  have he : f32.expo bits = 0 := by
    rcases Nat.eq_zero_or_pos (f32.expo bits) with h | h
    · exact h
    · have := Nat.mul_pos h hp; omega
  have hf : f32.frac bits = 0 := by omega
  obtain ⟨f1, f2, f3⟩ := fields 23 8 bits
  obtain ⟨B1, e1, l1, g1⟩ := copySpecial_spec (B := B) (by omega) (f32.sign bits) false false
  have e2 : f2sBufferedN p bits B = some (B1, (specialText (f32.sign bits) false false).length) := by
    rw [f2sBufferedN_eq p bits B f1 f2 f3, if_pos (Or.inr ⟨he, hf⟩), ← e1, he, hf]; rfl
  have e3 : toStringFloat p bits B = some (specialText (f32.sign bits) false false) := by
    rw [toStringFloat, e2, Option.bind_eq_bind, Option.bind_some]
    refine finish g1 ?_ ?_
    · rw [l1, hB]; cases f32.sign bits <;> decide
    · cases f32.sign bits <;> decide
  rw [e3] at hs
  rw [← Option.some.inj hs]
  exact zero_isSci _

theorem toStringDouble_zero (p : Bool) {bits : Nat} {B s : List Byte} (hB : B.length = 25) (h0 : f64.low bits = 0) (hs : toStringDouble p bits B = some s) : IsSci s (f64.sign bits) 0 0 := by
  have hl := f64.low_eq bits
  rw [h0] at hl
  have hp : 0 < 2 ^ f64.mb := by decide
  have he : f64.expo bits = 0 := by
    rcases Nat.eq_zero_or_pos (f64.expo bits) with h | h
    · exact h
    · have := Nat.mul_pos h hp; omega
  have hf : f64.frac bits = 0 := by omega
  obtain ⟨f1, f2, f3⟩ := fields 52 11 bits
  obtain ⟨B1, e1, l1, g1⟩ := copySpecial_spec (B := B) (by omega) (f64.sign bits) false false
  have e2 : d2sBufferedN p bits B = some (B1, (specialText (f64.sign bits) false false).length) := by
    rw [d2sBufferedN_eq p bits B f1 f2 f3, if_pos (Or.inr ⟨he, hf⟩), ← e1, he, hf]; rfl
  have e3 : toStringDouble p bits B = some (specialText (f64.sign bits) false false) := by
    rw [toStringDouble, e2, Option.bind_eq_bind, Option.bind_some]
    refine finish g1 ?_ ?_
    · rw [l1, hB]; cases f64.sign bits <;> decide
    · cases f64.sign bits <;> decide
  rw [e3] at hs
  rw [← Option.some.inj hs]
  exact zero_isSci _

end Nanostl.Ryu

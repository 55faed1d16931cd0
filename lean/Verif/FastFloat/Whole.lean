import Verif.FastFloat.Special

/-! `from_chars` as a whole. -/

namespace Nanostl.FastFloat
open Nanostl.Float
open Nanostl.Str (Byte digitsValue)
open Nanostl.Ryu (IsDigit digitsValue_lt some_bind)

variable [Limb]

/-- The formats reach at most as far as `double`. -/
structure WholeOK (b : Bin) : Prop extends FastOK b where
  lo : -342 ≤ b.smallestPowerOfTen
  hi : b.largestPowerOfTen ≤ 308

omit [Limb] in
theorem wholeOK64 : WholeOK bin64 := ⟨fastOK64, by decide, by decide⟩
omit [Limb] in
theorem wholeOK32 : WholeOK bin32 := ⟨fastOK32, by decide, by decide⟩

theorem fromChars_valid {b : Bin} {s : List Byte} {o : Options} {pns : PNS} {v : Nat} (hs : s ≠ []) (h : parseNumberString s o = some (some pns))
    (hv : (if b.minFast ≤ pns.exponent ∧ pns.exponent ≤ b.maxFast ∧ pns.mantissa ≤ b.maxMantissaFast ∧ pns.tooManyDigits = false then fastPath b pns else slowPath b s pns) = some v) :
    fromChars b s o = some ⟨pns.lastmatch, some v⟩ := by
  unfold fromChars
  rw [if_neg (fun h => hs (List.length_eq_zero_iff.1 h)), h, some_bind]
  by_cases hc : b.minFast ≤ pns.exponent ∧ pns.exponent ≤ b.maxFast ∧ pns.mantissa ≤ b.maxMantissaFast ∧ pns.tooManyDigits = false
  · rw [if_pos hc] at hv
    show (if _ then _ else _) = _
    rw [if_pos hc, hv, some_bind]; rfl
  · rw [if_neg hc] at hv
    show (if _ then _ else _) = _
    rw [if_neg hc, hv, some_bind]; rfl

theorem fromChars_invalid {b : Bin} {s : List Byte} {o : Options} (hs : s ≠ []) (h : parseNumberString s o = some none) : fromChars b s o = parseInfnan b s := by
  unfold fromChars
  rw [if_neg (fun h => hs (List.length_eq_zero_iff.1 h)), h, some_bind]

/-- The longest beginning that is a number. -/
structure LongestNumber (o : Options) (s : List Byte) (n : Nat) (neg : Bool) (c : Nat) (k : Int) : Prop where
  le : n ≤ s.length
  number : IsNumber o (s.take n) neg c k
  longest : ∀ m, n < m → m ≤ s.length → ∀ neg c k, ¬IsNumber o (s.take m) neg c k

omit [Limb] in
theorem isNumber_ne {o : Options} {t : List Byte} {neg : Bool} {c : Nat} {k : Int} (h : IsNumber o t neg c k) : t ≠ [] := by
  obtain ⟨u, rfl, hu⟩ := h
  obtain ⟨d, w, rfl, -⟩ := isBody_head hu
  simp

/-- A number is read. -/
theorem number_read {b : Bin} (g : WholeOK b) {o : Options} (ok : PointOK o) {s : List Byte} {n : Nat} {neg : Bool} {c : Nat} {k : Int} (h : LongestNumber o s n neg c k) :
    ∃ t k', DecNearest b.fmt c k' t ∧ fromChars b s o = some ⟨n, some (b.fmt.withSign neg (min t b.fmt.inf))⟩ ∧
      (s.length + 343 ≤ 2 ^ 28 → ∃ u, DecNearest b.fmt c k u ∧ min u b.fmt.inf = min t b.fmt.inf) := by
  have hs : s ≠ [] := by
    rintro rfl
    exact isNumber_ne h.number (by simp)
  rcases parse_spec ok hs with ⟨-, h2⟩ | ⟨pns, a, bb, v, v', h1, h2, h3, h4, h5, h6, h7⟩
  · exact absurd h.number (h2 _ _ _ _ (List.take_prefix n s))
  · obtain ⟨q1, q2⟩ := h7 _ _ _ _ (List.take_prefix n s) h.number
    rw [List.length_take, Nat.min_eq_left h.le] at q1 q2
    have hn : n = pns.lastmatch := by
      by_contra hc
      exact h.longest pns.lastmatch (by omega) h2 _ _ _ h6
    obtain ⟨rfl, rfl, rfl⟩ := q2 hn
    obtain ⟨t, ht, hv⟩ := convert_spec g.toFastOK h3
    refine ⟨t, _, ht, by rw [hn]; exact fromChars_valid hs h1 hv, fun hl => ?_⟩
    have hm : bb.length ≤ (a ++ bb).length := by rw [List.length_append]; omega
    exact sat_transfer g.toFastOK g.lo g.hi (digitsValue_lt _ h3.digits) hm (by omega) h4 ht

omit [Limb] in
/-- Whatever the text, `parse_number_string` stays in it. -/
theorem parse_total {o : Options} (hdp : ¬IsDigit o.decimalPoint) {s : List Byte} (hs : s ≠ []) :
    parseNumberString s o = some none ∨ ∃ pns a b k, parseNumberString s o = some (some pns) ∧ pns.lastmatch ≤ s.length ∧ Reads s pns a b k := by
  have go : ∀ (neg : Bool) (p : Nat), p ≤ s.length →
      parseDigits s o neg p = some none ∨ ∃ pns a b k, parseDigits s o neg p = some (some pns) ∧ pns.lastmatch ≤ s.length ∧ Reads s pns a b k := by
    intro neg p hp
    obtain ⟨a, f, b, r, P⟩ := parts_exist o.decimalPoint (s.drop p)
    have hlen := congrArg List.length P.text
    rw [List.length_drop, List.length_append, List.length_append] at hlen
    obtain ⟨p1, p2, p3⟩ := parseDigits_spec (neg := neg) hp hdp P
    have hsr : s.drop (p + a.length + f.length) = r := by
      rw [← List.drop_drop, ← List.drop_drop, P.text, List.drop_left, List.drop_left]
    by_cases hab : a ++ b = []
    · exact Or.inl (p1 hab)
    have he : expPart s o (p + a.length + f.length) = some none ∨ ∃ n e, n ≤ s.length ∧ expPart s o (p + a.length + f.length) = some (some (n, e)) := by
      by_cases hsc : o.scientific = true
      · rcases exp_cases r with ⟨x, en, ds, rest, hr, hx, hst⟩ | hno
        · right
          have hrl : r.length = x.length + rest.length := by rw [hr, List.length_append]
          exact ⟨_, _, by omega, expPart_some (by omega) (by rw [hsr, hr]) hx hst hsc⟩
        · have := expPart_none (o := o) (by omega) hsr hno hsc
          by_cases hf : o.fixed = true
          · rw [if_pos hf] at this
            exact Or.inr ⟨_, _, by omega, this⟩
          · rw [if_neg hf] at this
            exact Or.inl this
      · exact Or.inr ⟨_, _, by omega, expPart_off (by simpa using hsc)⟩
    rcases he with he | ⟨n, e, hn, he⟩
    · exact Or.inl (p2 hab he)
    · obtain ⟨pns, g1, g2, -, g4⟩ := p3 hab n e he
      exact Or.inr ⟨pns, a, b, _, g1, by omega, g4⟩
  obtain ⟨c, rest, rfl⟩ := List.exists_cons_of_ne_nil hs
  have hp : parseNumberString (c :: rest) o = (if c = 45 then (if 1 = (c :: rest).length then pure none else do
    let d ← (c :: rest)[1]?
    if !isInteger d && d != o.decimalPoint then pure none else parseDigits (c :: rest) o true 1) else parseDigits (c :: rest) o false 0) := rfl
  rw [hp]
  by_cases hc : c = 45
  · rw [if_pos hc]
    cases rest with
    | nil => exact Or.inl rfl
    | cons d rest =>
      rw [if_neg (by simp), show (c :: d :: rest)[1]? = some d from rfl, some_bind]
      by_cases h : (!isInteger d && d != o.decimalPoint) = true
      · rw [if_pos h]; exact Or.inl rfl
      · rw [if_neg h]; exact go true 1 (by simp)
  · rw [if_neg hc]; exact go false 0 (Nat.zero_le _)

/-! ### An exponent that is cut short -/

/-- A number in front of which the digits are too many. -/
theorem cut_short {b : Bin} (g : WholeOK b) {o : Options} (ok : PointOK o) (hsc : o.scientific = true) {bb ds : List Byte} (hd : ∀ c ∈ bb, IsDigit c) (hb0 : bb ≠ [])
    (hds : ∀ c ∈ ds, IsDigit c) (hds0 : ds ≠ []) :
    IsNumber o (o.decimalPoint :: (bb ++ 101 :: ds)) false (digitsValue bb) (digitsValue ds - bb.length) ∧
    ∃ t, DecNearest b.fmt (digitsValue bb) ((ds.foldl satStep 0 : Nat) - bb.length) t ∧
      fromChars b (o.decimalPoint :: (bb ++ 101 :: ds)) o = some ⟨(o.decimalPoint :: (bb ++ 101 :: ds)).length, some (min t b.fmt.inf)⟩ := by
  have hx : IsExp (101 :: ds) false ds := ⟨⟨101, [], rfl, Or.inl rfl, Or.inl ⟨rfl, Or.inl rfl⟩⟩, hds, hds0⟩
  constructor
  · exact ⟨_, rfl, [], o.decimalPoint :: bb, bb, 101 :: ds, _, by simp, by simpa using hd, by simpa using hb0, Or.inr rfl, .some hsc hx, rfl, rfl⟩
  · obtain ⟨s, hs⟩ : ∃ s, s = o.decimalPoint :: (bb ++ 101 :: ds) := ⟨_, rfl⟩
    rw [← hs]
    have hlen : s.length = 1 + bb.length + (1 + ds.length) := by rw [hs]; simp only [List.length_cons, List.length_append]; omega
    have P : Parts o.decimalPoint (s.drop 0) [] (o.decimalPoint :: bb) bb (101 :: ds) :=
      ⟨by rw [hs]; simp, by simpa using hd, Or.inr rfl, Or.inr ⟨by simp, by rw [cons_stops]; decide⟩⟩
    have hdr : s.drop (0 + ([] : List Byte).length + (o.decimalPoint :: bb).length) = (101 :: ds) ++ [] := by
      rw [hs, ← List.cons_append, List.append_nil, List.drop_left' (by simp)]
    have he := expPart_some (o := o) (s := s) (p := 0 + ([] : List Byte).length + (o.decimalPoint :: bb).length)
      (by rw [hlen]; simp only [List.length_cons, List.length_nil]; omega) hdr hx (by simp [Stops]) hsc
    obtain ⟨pns, g1, g2, g3, g4⟩ := (parseDigits_spec (neg := false) (Nat.zero_le _) ok.digit P).2.2 (by simpa using hb0) _ _ he
    have hne : s ≠ [] := by rw [hs]; simp
    have hp : parseNumberString s o = some (some pns) := by
      rw [← g1, hs]
      show (if o.decimalPoint = 45 then _ else _) = _
      rw [if_neg ok.minus]
    obtain ⟨t, ht, hv⟩ := convert_spec g.toFastOK g4
    refine ⟨t, by simpa using ht, ?_⟩
    rw [fromChars_valid hne hp hv, g2, g3]
    have e1 : 0 + ([] : List Byte).length + (o.decimalPoint :: bb).length + ((101 : Byte) :: ds).length = s.length := by
      rw [hlen]; simp only [List.length_cons, List.length_nil]; omega
    rw [e1]
    rfl

end Nanostl.FastFloat

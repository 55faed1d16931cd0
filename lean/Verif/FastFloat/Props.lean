import Verif.FastFloat.Whole
import Verif.Ryu.ParseProps
import Verif.Ryu.PrintProps

/-!
Properties C84 to C90: `fast_float::from_chars` (through `from_chars_advanced`), its conversion and its big integers. Specifications: `IsNumber`
(FromChars.lean), `IsSpecial` (Special.lean), `LongestNumber` (Whole.lean), `DecNearest` (Float/Decimal.lean), `Big` (Big.lean).
-/

namespace Nanostl.FastFloat
open Nanostl.Float
open Nanostl.Str (Byte digitsValue)
open Nanostl.Ryu (IsDigit bytes some_bind)

variable [Limb]

omit [Limb] in
/-- Both widths of limbs at once. -/
instance decideLimb {p : Limb → Prop} [∀ L, Decidable (p L)] : Decidable (∀ L, p L) :=
  decidable_of_iff (∀ b, p ⟨b⟩) ⟨fun h L => by cases L; exact h _, fun h b => h ⟨b⟩⟩

/-! ### C84: the nearest value -/

theorem nearest_read {b : Bin} (g : WholeOK b) {o : Options} (ok : PointOK o) {s : List Byte} (hlen : s.length + 343 ≤ 2 ^ 28) {n : Nat} {neg : Bool} {c : Nat} {k : Int}
    (h : LongestNumber o s n neg c k) : ∃ t, DecNearest b.fmt c k t ∧ fromChars b s o = some ⟨n, some (b.fmt.withSign neg (min t b.fmt.inf))⟩ := by
  obtain ⟨t, k', -, h2, h3⟩ := number_read g ok h
  obtain ⟨u, hu, e⟩ := h3 hlen
  exact ⟨u, hu, by rw [h2, e]⟩

/-- C84 (`double`), except for texts of about `2^28` bytes and more: the value stored for the longest number at the beginning of a text is the nearest
one, ties to even, infinity beyond the range. -/
theorem c84_double_nearest_partial (s : List Byte) (o : Options) (ok : PointOK o) (hlen : s.length + 343 ≤ 2 ^ 28) (n : Nat) (neg : Bool) (c : Nat) (k : Int)
    (h : LongestNumber o s n neg c k) : ∃ t, DecNearest f64 c k t ∧ fromChars bin64 s o = some ⟨n, some (f64.withSign neg (min t f64.inf))⟩ := nearest_read wholeOK64 ok hlen h

/-- C84 (`float`). -/
theorem c84_float_nearest_partial (s : List Byte) (o : Options) (ok : PointOK o) (hlen : s.length + 343 ≤ 2 ^ 28) (n : Nat) (neg : Bool) (c : Nat) (k : Int)
    (h : LongestNumber o s n neg c k) : ∃ t, DecNearest f32 c k t ∧ fromChars bin32 s o = some ⟨n, some (f32.withSign neg (min t f32.inf))⟩ := nearest_read wholeOK32 ok hlen h

omit [Limb] in
theorem pointOK_general : PointOK general := ⟨by decide, by decide, by decide, by decide⟩

/-- The digits of the long text: `2^28` zeros and a one. -/
def longFraction : List Byte := List.replicate (2 ^ 28) 48 ++ [49]

/-- `.00...01e2684354560`. -/
def longText : List Byte := 46 :: (longFraction ++ 101 :: [50, 54, 56, 52, 51, 53, 52, 53, 54, 48])

omit [Limb] in
theorem longFraction_digits : ∀ c ∈ longFraction, IsDigit c := by
  intro c hc
  rw [longFraction, List.mem_append] at hc
  rcases hc with h | h
  · rw [List.eq_of_mem_replicate h]; decide
  · rw [List.mem_singleton.1 h]; decide

omit [Limb] in
theorem longFraction_value : digitsValue longFraction = 1 := by
  rw [longFraction, value_zeros (fun c hc => List.eq_of_mem_replicate hc)]
  rfl

omit [Limb] in
theorem longFraction_length : longFraction.length = 268435457 := by
  rw [longFraction, List.length_append, List.length_replicate]
  rfl

/-- C84 is false without the bound: the exponent of this text is cut short, and a number beyond the range is read as 0.1. -/
theorem c84_double_not_nearest : IsNumber general longText false 1 2415919103 ∧ (∀ t, DecNearest f64 1 2415919103 t → f64.inf ≤ t) ∧
    ∃ t, DecNearest f64 1 (-1) t ∧ t < f64.inf ∧ fromChars bin64 longText general = some ⟨longText.length, some t⟩ := by
  have hne : longFraction ≠ [] := by
    intro h
    have := longFraction_length
    rw [h] at this
    simp at this
  obtain ⟨h1, t, h2, h3⟩ := cut_short wholeOK64 (o := general) pointOK_general rfl (bb := longFraction) (ds := [50, 54, 56, 52, 51, 53, 52, 53, 54, 48])
    longFraction_digits hne (by decide) (by decide)
  rw [longFraction_value, longFraction_length] at h1 h2
  have e1 : ((digitsValue [50, 54, 56, 52, 51, 53, 52, 53, 54, 48] : Nat) : Int) - (268435457 : Nat) = 2415919103 := by decide +kernel
  have e2 : ((([50, 54, 56, 52, 51, 53, 52, 53, 54, 48] : List Byte).foldl satStep 0 : Nat) : Int) - (268435457 : Nat) = -1 := by decide +kernel
  rw [e1] at h1
  rw [e2] at h2
  refine ⟨h1, fun t ht => ?_, ?_⟩
  · obtain ⟨u, hu, hi⟩ := over_spec wholeOK64.toFastOK.toBinOK (q := 2415919103) (w := 1) (by decide) (by decide)
    exact le_trans hi (dec_mono wholeOK64.good.mb (le_refl 1) hu ht)
  · have hone : DecNearest f64 1 0 0x3FF0000000000000 := f64.nearest_exact (decDen_pos 0) (by decide +kernel)
    have h10 : DecNearest f64 (1 * 10 ^ 1) (-1) 0x3FF0000000000000 := decNearest_shift.2 hone
    have hle := dec_mono wholeOK64.good.mb (by decide) h2 h10
    have hlt : t < f64.inf := lt_of_le_of_lt hle (by decide)
    refine ⟨t, h2, hlt, ?_⟩
    have : min t bin64.fmt.inf = t := Nat.min_eq_left (le_of_lt hlt)
    rw [this] at h3
    exact h3

/-! ### C85: nothing outside the text -/

theorem read_total {b : Bin} (g : WholeOK b) (s : List Byte) {o : Options} (hdp : ¬IsDigit o.decimalPoint) : ∃ r, fromChars b s o = some r ∧ r.ptr ≤ s.length := by
  by_cases hs : s = []
  · exact ⟨⟨0, none⟩, by unfold fromChars; rw [if_pos (by rw [hs]; rfl)]; rfl, Nat.zero_le _⟩
  · rcases parse_total hdp hs with h | ⟨pns, a, bb, k, h1, h2, h3⟩
    · rw [fromChars_invalid hs h]
      rcases infnan_spec (b := b) hs with ⟨h1, -⟩ | ⟨n, neg, nan, h1, h2, -⟩
      · exact ⟨_, h1, Nat.zero_le _⟩
      · exact ⟨_, h1, h2⟩
    · obtain ⟨t, -, hv⟩ := convert_spec g.toFastOK h3
      exact ⟨_, fromChars_valid hs h1 hv, h2⟩

/-- C85: whatever the bytes, no byte outside of `[first, last)` is read, no table or big integer is overrun, no shift is out of range, no loop fails to
end, and the returned pointer is in `[first, last]`. -/
theorem c85_double_total (s : List Byte) (o : Options) (hdp : ¬IsDigit o.decimalPoint) : ∃ r, fromChars bin64 s o = some r ∧ r.ptr ≤ s.length := read_total wholeOK64 s hdp

/-- C85 (`float`). -/
theorem c85_float_total (s : List Byte) (o : Options) (hdp : ¬IsDigit o.decimalPoint) : ∃ r, fromChars bin32 s o = some r ∧ r.ptr ≤ s.length := read_total wholeOK32 s hdp

/-! ### C86: how far the text is read -/

/-- No beginning of the text is a number. -/
def NoNumber (o : Options) (s : List Byte) : Prop := ∀ m, m ≤ s.length → ∀ neg c k, ¬IsNumber o (s.take m) neg c k

omit [Limb] in
theorem longest_exists {o : Options} (ok : PointOK o) {s : List Byte} : (parseNumberString s o = some none ∨ s = []) ∧ NoNumber o s ∨ ∃ n neg c k, LongestNumber o s n neg c k := by
  by_cases hs : s = []
  · left
    refine ⟨Or.inr hs, fun m _ neg c k h => isNumber_ne h (by rw [hs]; simp)⟩
  · rcases parse_spec ok hs with ⟨h1, h2⟩ | ⟨pns, a, bb, v, v', h1, h2, h3, h4, h5, h6, h7⟩
    · exact Or.inl ⟨Or.inl h1, fun m _ neg c k => h2 _ _ _ _ (List.take_prefix m s)⟩
    · refine Or.inr ⟨_, _, _, _, h2, h6, fun m hm hm' neg c k h => ?_⟩
      have := (h7 _ _ _ _ (List.take_prefix m s) h).1
      rw [List.length_take, Nat.min_eq_left hm'] at this
      omega

omit [Limb] in
theorem no_number {o : Options} (ok : PointOK o) {s : List Byte} (h : NoNumber o s) : parseNumberString s o = some none ∨ s = [] := by
  rcases longest_exists (s := s) ok with ⟨h1, -⟩ | ⟨n, neg, c, k, L⟩
  · exact h1
  · exact absurd L.number (h n L.le _ _ _)

/-- C86: the longest number at the beginning of the text is read, to its end, whatever the length of the text; the sign is kept, also of a zero. -/
theorem c86_number (b : Bin) (hb : b = bin64 ∨ b = bin32) (s : List Byte) (o : Options) (ok : PointOK o) (n : Nat) (neg : Bool) (c : Nat) (k : Int)
    (h : LongestNumber o s n neg c k) : ∃ v, fromChars b s o = some ⟨n, some v⟩ ∧ b.fmt.sign v = neg ∧ b.fmt.val v ≠ .nan ∧ (c = 0 → v = b.fmt.withSign neg 0) := by
  have g : WholeOK b := by rcases hb with rfl | rfl; exacts [wholeOK64, wholeOK32]
  obtain ⟨t, k', h1, h2, -⟩ := number_read g ok h
  have hi : b.fmt.inf < b.fmt.half := by rcases hb with rfl | rfl <;> decide
  have hlt : min t b.fmt.inf < b.fmt.half := lt_of_le_of_lt (Nat.min_le_right _ _) hi
  refine ⟨_, h2, b.fmt.sign_withSign hlt, ?_, fun h0 => ?_⟩
  · rcases Nat.lt_or_ge t b.fmt.inf with ht | ht
    · rw [Nat.min_eq_left (le_of_lt ht), b.fmt.val_withSign_fin ht]
      simp
    · rw [Nat.min_eq_right ht]
      rcases hb with rfl | rfl <;> cases neg <;> decide +kernel
  · subst h0
    have : t = 0 := by
      by_contra hc
      exact dec_zero (by omega) h1
    rw [this, Nat.zero_min]

/-- C86: where no number begins, the longest of `inf`, `infinity`, `nan`, `nan(...)` is read, in any case, with an optional minus sign. -/
theorem c86_special (b : Bin) (hb : b = bin64 ∨ b = bin32) (s : List Byte) (o : Options) (ok : PointOK o) (hno : NoNumber o s) (n : Nat) (neg nan : Bool) (hn : n ≤ s.length)
    (h : IsSpecial (s.take n) neg nan) (hlong : ∀ m, n < m → m ≤ s.length → ∀ neg nan, ¬IsSpecial (s.take m) neg nan) :
    ∃ v, fromChars b s o = some ⟨n, some v⟩ ∧ b.fmt.sign v = neg ∧ b.fmt.val v = if nan then .nan else .inf neg := by
  have hs : s ≠ [] := by
    rintro rfl
    obtain ⟨w, hw, hW⟩ := h
    have := (word_start hW).1
    rw [List.take_nil] at hw
    have hw' := congrArg List.length hw
    rw [List.length_append, List.length_nil] at hw'
    omega
  rcases no_number ok hno with h1 | h1
  swap
  · exact absurd h1 hs
  rw [fromChars_invalid hs h1]
  rcases infnan_spec (b := b) hs with ⟨-, h2⟩ | ⟨n', neg', nan', h2, h3, h4, h5⟩
  · exact absurd h (h2 _ _ _ (List.take_prefix n s))
  · obtain ⟨q1, rfl, rfl⟩ := h5 _ _ _ (List.take_prefix n s) h
    rw [List.length_take, Nat.min_eq_left hn] at q1
    have : n = n' := by
      by_contra hc
      exact hlong n' (by omega) h3 _ _ h4
    subst this
    refine ⟨_, h2, ?_⟩
    rcases hb with rfl | rfl <;> cases neg <;> cases nan <;> decide +kernel

/-- C86: any other text is refused, with `ptr` at its beginning, and nothing is stored. -/
theorem c86_invalid (b : Bin) (s : List Byte) (o : Options) (ok : PointOK o) (hno : NoNumber o s) (hsp : ∀ m, m ≤ s.length → ∀ neg nan, ¬IsSpecial (s.take m) neg nan) :
    fromChars b s o = some ⟨0, none⟩ := by
  by_cases hs : s = []
  · unfold fromChars; rw [if_pos (by rw [hs]; rfl)]; rfl
  · rcases no_number ok hno with h1 | h1
    swap
    · exact absurd h1 hs
    rw [fromChars_invalid hs h1]
    rcases infnan_spec (b := b) hs with ⟨h2, -⟩ | ⟨n', neg', nan', h2, h3, h4, h5⟩
    · exact h2
    · exact absurd h4 (hsp _ h3 _ _)

omit [Limb] in
/-- A whole text that is a number. -/
theorem whole {o : Options} {s : List Byte} {neg : Bool} {c : Nat} {k : Int} (h : IsNumber o s neg c k) : LongestNumber o s s.length neg c k :=
  ⟨le_refl _, by rwa [List.take_length], fun m h1 h2 => by omega⟩

/-! ### C87: what `to_string` writes is read back -/

omit [Limb] in
theorem isSci_number {s : List Byte} {neg : Bool} {c : Nat} {k : Int} (h : Ryu.IsSci s neg c k) : IsNumber general s neg c k := by
  obtain ⟨d, ds, xs, x, rfl, hd, -, rfl, ⟨es, rfl, hes, hed, -, hev⟩, rfl⟩ := h
  refine ⟨_, rfl, [d], if ds = [] then [] else 46 :: ds, ds, 69 :: ((if x < 0 then [45] else []) ++ es), x, rfl, by simpa using hd, by simp, ?_, ?_, rfl, rfl⟩
  · by_cases h : ds = []
    · rw [if_pos h]; exact Or.inl ⟨rfl, h⟩
    · rw [if_neg h]; exact Or.inr rfl
  · have hx : IsExp (69 :: ((if x < 0 then [45] else []) ++ es)) (decide (x < 0)) es := by
      refine ⟨⟨69, _, rfl, Or.inr rfl, ?_⟩, hed, hes⟩
      by_cases h : x < 0
      · exact Or.inr ⟨by simpa using h, by rw [if_pos h]⟩
      · exact Or.inl ⟨by simpa using h, Or.inl (by rw [if_neg h])⟩
    have := ExpText.some (o := general) rfl hx
    rw [hev] at this
    by_cases h : x < 0
    · rw [decide_eq_true h] at this
      simp only [if_true] at this
      rwa [show -((x.natAbs : Nat) : Int) = x by omega] at this
    · rw [decide_eq_false h] at this
      simp only [Bool.false_eq_true, if_false] at this
      rwa [show ((x.natAbs : Nat) : Int) = x by omega] at this

/-- C87 (`double`): reading the text of `to_string` gives every value back, bit by bit, also infinities and the sign of zero; of a NaN it gives a NaN. -/
theorem c87_double_roundtrip (p : Bool) (bits : Nat) (hbits : bits < 2 ^ 64) (buf : List Byte) (hbuf : buf.length = 25) :
    ∃ s v, Ryu.toStringDouble p bits buf = some s ∧ fromChars bin64 s general = some ⟨s.length, some v⟩ ∧ (f64.val bits ≠ .nan → v = bits) ∧ (f64.val bits = .nan → f64.val v = .nan) := by
  obtain ⟨s, h1, h2, h3, h4, h5, -⟩ := Ryu.c51_double_text p bits buf hbuf
  have hself : f64.withSign (f64.sign bits) (f64.low bits) = bits := f64.withSign_self hbits
  by_cases hfin : f64.expo bits = f64.emax
  · by_cases hfr : f64.frac bits = 0
    · have hval : f64.val bits = .inf (f64.sign bits) := by unfold Fmt.val; rw [if_pos hfin, if_pos hfr]
      have hlow : f64.low bits = f64.inf := by rw [f64.low_eq bits, hfin, hfr]; decide
      rw [hlow] at hself
      refine ⟨s, bits, h1, ?_, fun _ => rfl, fun h => h⟩
      rw [← hself]
      rcases hsg : f64.sign bits with _ | _
      · rw [h4 (by rw [hval, hsg])]; decide +kernel +revert
      · rw [h5 (by rw [hval, hsg])]; decide +kernel +revert
    · have hval : f64.val bits = .nan := by unfold Fmt.val; rw [if_pos hfin, if_neg hfr]
      refine ⟨s, f64.qnan, h1, ?_, fun h => absurd hval h, fun _ => by decide +kernel⟩
      rw [h3 hval]; decide +kernel +revert
  · obtain ⟨s', c, k, q1, q2, q3⟩ := Ryu.c49_double_roundtrip p bits buf hbuf hfin
    obtain rfl : s' = s := by rw [h1] at q1; exact (Option.some.inj q1).symm
    obtain ⟨t, t1, t2⟩ := c84_double_nearest_partial s' general pointOK_general (by omega) _ _ _ _ (whole (isSci_number q2))
    have ht := (q3 t).1 t1
    have hlt := Ryu.low_lt_inf f64 hfin
    refine ⟨s', bits, h1, ?_, fun _ => rfl, fun h => h⟩
    rw [t2, ht, Nat.min_eq_left (le_of_lt hlt), hself]

/-- C87 (`float`). -/
theorem c87_float_roundtrip (p : Bool) (bits : Nat) (hbits : bits < 2 ^ 32) (buf : List Byte) (hbuf : buf.length = 16) :
    ∃ s v, Ryu.toStringFloat p bits buf = some s ∧ fromChars bin32 s general = some ⟨s.length, some v⟩ ∧ (f32.val bits ≠ .nan → v = bits) ∧ (f32.val bits = .nan → f32.val v = .nan) := by
  obtain ⟨s, h1, h2, h3, h4, h5, -⟩ := Ryu.c51_float_text p bits buf hbuf
  have hself : f32.withSign (f32.sign bits) (f32.low bits) = bits := f32.withSign_self hbits
  by_cases hfin : f32.expo bits = f32.emax
  · by_cases hfr : f32.frac bits = 0
    · have hval : f32.val bits = .inf (f32.sign bits) := by unfold Fmt.val; rw [if_pos hfin, if_pos hfr]
      have hlow : f32.low bits = f32.inf := by rw [f32.low_eq bits, hfin, hfr]; decide
      rw [hlow] at hself
      refine ⟨s, bits, h1, ?_, fun _ => rfl, fun h => h⟩
      rw [← hself]
      rcases hsg : f32.sign bits with _ | _
      · rw [h4 (by rw [hval, hsg])]; decide +kernel +revert
      · rw [h5 (by rw [hval, hsg])]; decide +kernel +revert
    · have hval : f32.val bits = .nan := by unfold Fmt.val; rw [if_pos hfin, if_neg hfr]
      refine ⟨s, f32.qnan, h1, ?_, fun h => absurd hval h, fun _ => by decide +kernel⟩
      rw [h3 hval]; decide +kernel +revert
  · obtain ⟨s', c, k, q1, q2, q3⟩ := Ryu.c47_float_roundtrip p bits buf hbuf hfin
    obtain rfl : s' = s := by rw [h1] at q1; exact (Option.some.inj q1).symm
    obtain ⟨t, t1, t2⟩ := c84_float_nearest_partial s' general pointOK_general (by omega) _ _ _ _ (whole (isSci_number q2))
    have ht := (q3 t).1 t1
    have hlt := Ryu.low_lt_inf f32 hfin
    refine ⟨s', bits, h1, ?_, fun _ => rfl, fun h => h⟩
    rw [t2, ht, Nat.min_eq_left (le_of_lt hlt), hself]

/-! ### C88: order -/

/-- Two decimals in order. -/
def DecLe (c : Nat) (k : Int) (c' : Nat) (k' : Int) : Prop := (c : ℚ) * 10 ^ k ≤ c' * 10 ^ k'

omit [Limb] in
theorem nearest_order {φ : Fmt} (hmb : 1 ≤ φ.mb) {c c' : Nat} {k k' : Int} {t u : Nat} (h : DecLe c k c' k') (h1 : DecNearest φ c k t) (h2 : DecNearest φ c' k' u) : t ≤ u := by
  -- bring both to the smaller exponent
  obtain ⟨m, hm⟩ : ∃ m, m = min k k' := ⟨_, rfl⟩
  have e1 : k = m + ((k - m).toNat : Nat) := by omega
  have e2 : k' = m + ((k' - m).toNat : Nat) := by omega
  rw [e1, ← decNearest_shift] at h1
  rw [e2, ← decNearest_shift] at h2
  refine dec_mono hmb ?_ h1 h2
  have hp : (0 : ℚ) < 10 ^ m := zpow_pos (by norm_num) m
  unfold DecLe at h
  rw [e1, e2, zpow_add₀ (by norm_num), zpow_add₀ (by norm_num), zpow_natCast, zpow_natCast] at h
  have h' : (c : ℚ) * 10 ^ (k - m).toNat ≤ c' * 10 ^ (k' - m).toNat := by
    refine le_of_mul_le_mul_right ?_ hp
    calc (c : ℚ) * 10 ^ (k - m).toNat * 10 ^ m = c * (10 ^ m * 10 ^ (k - m).toNat) := by ring
      _ ≤ _ := h
      _ = _ := by ring
  exact_mod_cast h'

/-- C88: numbers in order are read as values in order, and different texts of one number as one value. -/
theorem c88_double_monotone (s s' : List Byte) (o : Options) (ok : PointOK o) (hlen : s.length + 343 ≤ 2 ^ 28) (hlen' : s'.length + 343 ≤ 2 ^ 28) (c c' : Nat) (k k' : Int)
    (h : IsNumber o s false c k) (h' : IsNumber o s' false c' k') (hle : DecLe c k c' k') :
    ∃ v v', fromChars bin64 s o = some ⟨s.length, some v⟩ ∧ fromChars bin64 s' o = some ⟨s'.length, some v'⟩ ∧ v ≤ v' ∧ v' ≤ f64.inf ∧ (DecLe c' k' c k → v = v') := by
  obtain ⟨t, t1, t2⟩ := c84_double_nearest_partial s o ok hlen _ _ _ _ (whole h)
  obtain ⟨u, u1, u2⟩ := c84_double_nearest_partial s' o ok hlen' _ _ _ _ (whole h')
  have a1 := nearest_order (by decide) hle t1 u1
  refine ⟨_, _, t2, u2, ?_, ?_, fun hge => ?_⟩
  · simp only [Fmt.withSign, Bool.false_eq_true, if_false]; omega
  · simp only [Fmt.withSign, Bool.false_eq_true, if_false]; omega
  · have a2 := nearest_order (by decide) hge u1 t1
    rw [show t = u by omega]

/-- C88 (`float`). -/
theorem c88_float_monotone (s s' : List Byte) (o : Options) (ok : PointOK o) (hlen : s.length + 343 ≤ 2 ^ 28) (hlen' : s'.length + 343 ≤ 2 ^ 28) (c c' : Nat) (k k' : Int)
    (h : IsNumber o s false c k) (h' : IsNumber o s' false c' k') (hle : DecLe c k c' k') :
    ∃ v v', fromChars bin32 s o = some ⟨s.length, some v⟩ ∧ fromChars bin32 s' o = some ⟨s'.length, some v'⟩ ∧ v ≤ v' ∧ v' ≤ f32.inf ∧ (DecLe c' k' c k → v = v') := by
  obtain ⟨t, t1, t2⟩ := c84_float_nearest_partial s o ok hlen _ _ _ _ (whole h)
  obtain ⟨u, u1, u2⟩ := c84_float_nearest_partial s' o ok hlen' _ _ _ _ (whole h')
  have a1 := nearest_order (by decide) hle t1 u1
  refine ⟨_, _, t2, u2, ?_, ?_, fun hge => ?_⟩
  · simp only [Fmt.withSign, Bool.false_eq_true, if_false]; omega
  · simp only [Fmt.withSign, Bool.false_eq_true, if_false]; omega
  · have a2 := nearest_order (by decide) hge u1 t1
    rw [show t = u by omega]

/-! ### C89: both parsers agree -/

omit [Limb] in
/-- One exponent has one value. -/
theorem exp_agree {x ds' : List Byte} {neg' : Bool} {v : Int} (h : Ryu.ExpText x v) (h' : IsExp x neg' ds') : v = if neg' then -(digitsValue ds' : Int) else digitsValue ds' := by
  obtain ⟨⟨e', sg, hx, -, hsg⟩, hd', hne'⟩ := h'
  obtain ⟨c', t', rfl⟩ := List.exists_cons_of_ne_nil hne'
  have hc' := hd' c' List.mem_cons_self
  have d43 : ¬IsDigit 43 := by decide
  have d45 : ¬IsDigit 45 := by decide
  cases h with
  | none => simp at hx
  | plain e ds he hd _ =>
    rw [List.cons.injEq] at hx
    rcases hsg with ⟨rfl, rfl | rfl⟩ | ⟨rfl, rfl⟩
    · rw [hx.2]; rfl
    · exact absurd (hd 43 (by rw [hx.2]; simp)) d43
    · exact absurd (hd 45 (by rw [hx.2]; simp)) d45
  | plus e ds he hd _ =>
    rw [List.cons.injEq] at hx
    rcases hsg with ⟨rfl, rfl | rfl⟩ | ⟨rfl, rfl⟩ <;> simp only [List.nil_append, List.cons_append, List.cons.injEq] at hx
    · rw [← hx.2.1] at hc'; exact absurd hc' d43
    · rw [hx.2.2]; rfl
    · exact absurd hx.2.1 (by decide)
  | minus e ds he hd _ =>
    rw [List.cons.injEq] at hx
    rcases hsg with ⟨rfl, rfl | rfl⟩ | ⟨rfl, rfl⟩ <;> simp only [List.nil_append, List.cons_append, List.cons.injEq] at hx
    · rw [← hx.2.1] at hc'; exact absurd hc' d45
    · exact absurd hx.2.1 (by decide)
    · rw [hx.2.2]; rfl

omit [Limb] in
theorem denotes_agree {m : Nat} {s : List Byte} {neg neg' : Bool} {c c' : Nat} {k k' : Int} (h : Ryu.Denotes m s neg c k) (h' : IsNumber general s neg' c' k') :
    neg' = neg ∧ c' = c ∧ k' = k := by
  obtain ⟨a, f, b, x, v, hs, hd, hf, hx, -, rfl, rfl, -⟩ := h
  have hxs : ∀ e y, x = e :: y → e = 101 ∨ e = 69 := by
    intro e y he
    cases hx with
    | none => simp at he
    | plain e ds hh _ _ => rw [List.cons.injEq] at he; rw [← he.1]; exact hh
    | plus e ds hh _ _ => rw [List.cons.injEq] at he; rw [← he.1]; exact hh
    | minus e ds hh _ _ => rw [List.cons.injEq] at he; rw [← he.1]; exact hh
  have hst : Stops x := by
    cases x with
    | nil => simp [Stops]
    | cons e y => rw [cons_stops]; rcases hxs e y rfl with rfl | rfl <;> decide
  have hx46 : x.head? ≠ some 46 := by
    cases x with
    | nil => simp
    | cons e y =>
      simp only [List.head?_cons, ne_eq, Option.some.injEq]
      rcases hxs e y rfl with rfl | rfl <;> decide
  have hf' : FracText general.decimalPoint f b := by
    cases hf with
    | none => exact Or.inl ⟨rfl, rfl⟩
    | some => exact Or.inr rfl
  have P : Parts general.decimalPoint (a ++ (f ++ x)) a f b x := by
    refine ⟨rfl, hd, hf', ?_⟩
    by_cases h : f = []
    · exact Or.inl ⟨h, hst, hx46⟩
    · exact Or.inr ⟨h, hst⟩
  have hb : neg = false → (a ++ (f ++ x)).head? ≠ some 45 := by
    intro _
    cases a with
    | cons d a =>
      simp only [List.cons_append, List.head?_cons, ne_eq, Option.some.injEq]
      rintro rfl
      exact absurd (hd 45 (by simp)) (by decide)
    | nil =>
      cases hf with
      | some => simp
      | none =>
        cases x with
        | nil => simp
        | cons e y =>
          simp only [List.nil_append, List.head?_cons, ne_eq, Option.some.injEq]
          rcases hxs e y rfl with rfl | rfl <;> decide
  obtain ⟨rfl, u, hu, hup, a', f', b', x', v', rfl, hd', hne', hff', hx', rfl, rfl⟩ := number_sign pointOK_general hs hb (List.prefix_refl s) h'
  have hlen : (a' ++ (f' ++ x')).length = (a ++ (f ++ x)).length := by
    have := congrArg List.length (hu.symm.trans hs)
    simp only [List.length_append] at this ⊢
    omega
  have hxe : x' ≠ [] → ∃ e y, x' = e :: y ∧ (e = 101 ∨ e = 69) := by
    intro hxn
    cases hx' with
    | none _ => exact absurd rfl hxn
    | some _ hx => exact isExp_cons hx
  refine ⟨rfl, ?_⟩
  rcases body_prefix pointOK_general P hup hd' hff' (expText_stops hx') hxe with ⟨q1, q2, q3⟩ | ⟨q1, rfl, rfl, rfl, q2⟩
  · simp only [q1, List.length_append, List.length_nil] at hlen q2 q3
    have hx0 : x = [] := List.length_eq_zero_iff.1 (by omega)
    obtain ⟨rfl, rfl⟩ := q3 (by omega)
    subst hx0 q1
    have hv : v = 0 := by cases hx; rfl
    have hv' : v' = 0 := by
      cases hx' with
      | none _ => rfl
      | some _ hx => obtain ⟨e, y, h, -⟩ := isExp_cons hx; simp at h
    rw [hv, hv']
    exact ⟨rfl, rfl⟩
  · have hxx : x' = x := q2.eq_of_length (by simp only [List.length_append] at hlen; omega)
    subst hxx
    refine ⟨rfl, ?_⟩
    cases hx' with
    | none _ => exact absurd rfl q1
    | some _ hx2 => rw [exp_agree hx hx2]

/-- C89 (`double`): where Ryu's `s2d` and `from_chars` both take the whole text for a number, they give the same bits. -/
theorem c89_double_agree (p : Bool) (s : List Byte) (hlen : s.length + 343 ≤ 2 ^ 28) (neg : Bool) (c : Nat) (k : Int) (h : IsNumber general s neg c k) (v : Nat)
    (hv : Ryu.s2d p s = some (.success v)) : fromChars bin64 s general = some ⟨s.length, some v⟩ := by
  obtain ⟨neg', c', k', hD⟩ := (Ryu.c53_double_grammar p s (by omega)).1.1 ⟨v, hv⟩
  obtain ⟨rfl, rfl, rfl⟩ := denotes_agree hD h
  obtain ⟨t, t1, t2⟩ := Ryu.c52_double_nearest p s (by omega) _ _ _ hD
  obtain ⟨u, u1, u2⟩ := c84_double_nearest_partial s general pointOK_general hlen _ _ _ _ (whole h)
  rw [hv] at t2
  injection t2 with t2
  injection t2 with t2
  rw [u2, t2, f64.nearest_unique u1 t1 (decDen_pos _)]

/-- C89 (`float`). -/
theorem c89_float_agree (p : Bool) (s : List Byte) (hlen : s.length + 343 ≤ 2 ^ 28) (neg : Bool) (c : Nat) (k : Int) (h : IsNumber general s neg c k) (v : Nat)
    (hv : Ryu.s2f p s = some (.success v)) : fromChars bin32 s general = some ⟨s.length, some v⟩ := by
  obtain ⟨neg', c', k', hD⟩ := (Ryu.c53_float_grammar p s (by omega)).1.1 ⟨v, hv⟩
  obtain ⟨rfl, rfl, rfl⟩ := denotes_agree hD h
  obtain ⟨t, t1, t2⟩ := Ryu.c52_float_nearest p s (by omega) _ _ _ hD
  obtain ⟨u, u1, u2⟩ := c84_float_nearest_partial s general pointOK_general hlen _ _ _ _ (whole h)
  rw [hv] at t2
  injection t2 with t2
  injection t2 with t2
  rw [u2, t2, f32.nearest_unique u1 t1 (decDen_pos _)]

/-! ### C90: the conversion of a significand and a power of ten -/

omit [Limb] in
/-- C90: `compute_float` gives, for every significand of 64 bits and every power of ten, the fields of the nearest value, or a negative power: then
the significand is within four units of its last place, and the slow path decides. -/
theorem c90_compute_float (b : Bin) (hb : b = bin64 ∨ b = bin32) (q : Int) (w : Nat) (hw : w < 2 ^ 64) :
    ∃ am, computeFloat b q w = some am ∧
      (0 ≤ am.power2 → ∃ t, DecNearest b.fmt w q t ∧ ∀ neg, toFloat b neg am = b.fmt.withSign neg (min t b.fmt.inf)) ∧
      (am.power2 < 0 → 0 < w ∧ 2 ^ 63 ≤ am.mantissa ∧ am.mantissa < 2 ^ 64 ∧
        (am.mantissa : ℚ) * 2 ^ (am.power2 - invalidBias - 1) ≤ decQ b.fmt w q ∧ decQ b.fmt w q < (am.mantissa + 4) * 2 ^ (am.power2 - invalidBias - 1)) := by
  have g : WholeOK b := by rcases hb with rfl | rfl; exacts [wholeOK64, wholeOK32]
  obtain ⟨am, h1, h2⟩ := computeFloat_spec g.toFastOK.toBinOK q hw
  refine ⟨am, h1, ?_, ?_⟩
  · intro hp
    rcases h2 with ⟨t, h3, h4⟩ | ⟨h3, -⟩
    · exact ⟨t, h3, fun neg => toFloat_packed g.toFastOK.toSlowOK h4 neg⟩
    · exact absurd h3.neg (by omega)
  · intro hp
    rcases h2 with ⟨t, -, h4⟩ | ⟨h3, h0, -⟩
    · exact absurd h4.pow (by omega)
    · exact ⟨h0, h3.ge, h3.lt, h3.low, by exact_mod_cast h3.high⟩

/-! ### C91: the big integers -/

/-- What the `bigint_limbs` limbs hold: 4000 bits for limbs of 32 bits, 3968 for limbs of 64. -/
theorem cap_bound {n : Nat} : n < cap ↔ n < 2 ^ (limbBits * (4000 / limbBits)) := by unfold cap bigintLimbs; rfl

/-- C91: the product with a word. -/
theorem c91_mul (v : Limbs) (n y : Nat) (h : Big v n) (h0 : 0 < y) (hy : y < 2 ^ limbBits) :
    (n * y < 2 ^ (limbBits * (4000 / limbBits)) → ∃ v', smallMul v y = (true, v') ∧ Big v' (n * y)) ∧
    (2 ^ (limbBits * (4000 / limbBits)) ≤ n * y → (smallMul v y).1 = false) := by
  refine ⟨fun hn => smallMul_spec h h0 hy (cap_bound.2 hn), fun hn => ?_⟩
  obtain ⟨a, b, c, d⟩ := mulCarry_spec v y 0 h.wf hy pos_limb
  rw [h.val, Nat.add_zero] at d
  have hl := val_lt a
  rw [b] at hl
  have hcap : ∀ k, k ≤ bigintLimbs → 2 ^ (limbBits * k) ≤ 2 ^ (limbBits * (4000 / limbBits)) := fun k hk => Nat.pow_le_pow_right (by decide) (Nat.mul_le_mul_left _ hk)
  unfold smallMul
  dsimp only
  have hc : (mulCarry v y 0).2 ≠ 0 := by
    intro hc
    rw [hc, Nat.mul_zero, Nat.add_zero] at d
    have := hcap _ h.len
    omega
  rw [if_pos hc, tryPush, if_neg]
  rw [b]
  intro hlt
  have h1 := hcap (v.length + 1) (by omega)
  have h2 : 2 ^ (limbBits * v.length) * ((mulCarry v y 0).2 + 1) ≤ 2 ^ (limbBits * v.length) * 2 ^ limbBits := Nat.mul_le_mul_left _ c
  have h3 : 2 ^ (limbBits * (v.length + 1)) = 2 ^ (limbBits * v.length) * 2 ^ limbBits := by rw [← Nat.pow_add]; rfl
  rw [Nat.mul_add, Nat.mul_one] at h2
  omega

/-- C91: the sum with a word. -/
theorem c91_add (v : Limbs) (n y : Nat) (h : Big v n) (hy : y < 2 ^ limbBits) (hn : n + y < 2 ^ (limbBits * (4000 / limbBits))) :
    ∃ v', smallAdd v y = (true, v') ∧ Big v' (n + y) :=
  smallAdd_spec h hy (cap_bound.2 hn)

/-- C91: powers of two, five and ten. -/
theorem c91_pow (v : Limbs) (n e : Nat) (h : Big v n) (h0 : 0 < n) :
    (n * 2 ^ e < 2 ^ (limbBits * (4000 / limbBits)) → ∃ v', pow2 v e = some (true, v') ∧ Big v' (n * 2 ^ e)) ∧
    (n * 5 ^ e < 2 ^ (limbBits * (4000 / limbBits)) → ∃ v', pow5 v e = some (true, v') ∧ Big v' (n * 5 ^ e)) ∧
    (n * 10 ^ e < 2 ^ (limbBits * (4000 / limbBits)) → ∃ v', pow10 v e = some (true, v') ∧ Big v' (n * 10 ^ e)) :=
  ⟨fun hn => pow2_spec h h0 (cap_bound.2 hn), fun hn => pow5_spec h h0 (cap_bound.2 hn), fun hn => pow10_spec h h0 (cap_bound.2 hn)⟩

/-- C91: a big integer made from a word of 64 bits. -/
theorem c91_of (x : Nat) (hx : x < 2 ^ 64) : Big (ofU64 x) x := ofU64_spec hx

/-- C91: comparison. -/
theorem c91_compare (x y : Limbs) (n m : Nat) (hx : Big x n) (hy : Big y m) : compare x y = some (if n > m then 1 else if n < m then -1 else 0) := compare_spec hx hy

/-- C91: the leading 64 bits, whether others are set, and the number of bits. -/
theorem c91_hi64 (v : Limbs) (n : Nat) (h : Big v n) (h0 : 0 < n) :
    ∃ (bl m : Nat) (tr : Bool), bitLength v = some (bl : Int) ∧ hi64 v = some (m, tr) ∧ 1 ≤ bl ∧ 2 ^ (bl - 1) ≤ n ∧ n < 2 ^ bl ∧
      m = n * 2 ^ 64 / 2 ^ bl ∧ tr = decide (n * 2 ^ 64 % 2 ^ bl ≠ 0) := by
  obtain ⟨bl, m, tr, h1, h2, L⟩ := hi64_spec h h0
  obtain ⟨r, e, hr, ht⟩ : ∃ r, n * 2 ^ 64 = 2 ^ bl * m + r ∧ r < 2 ^ bl ∧ tr = decide (r ≠ 0) := by
    cases tr with
    | false => exact ⟨0, by rw [L.exact rfl, Nat.mul_comm, Nat.add_zero], Nat.two_pow_pos _, rfl⟩
    | true =>
      obtain ⟨q1, q2⟩ := L.trunc rfl
      rw [Nat.add_mul, Nat.one_mul] at q2
      rw [Nat.mul_comm m] at q1 q2
      exact ⟨n * 2 ^ 64 - 2 ^ bl * m, by omega, by omega, by symm; rw [decide_eq_true_iff]; omega⟩
  refine ⟨bl, m, tr, h1, h2, L.pos, L.ge, L.lt, ?_, ?_⟩
  · rw [e, Nat.mul_add_div (Nat.two_pow_pos _), Nat.div_eq_of_lt hr, Nat.add_zero]
  · rw [e, Nat.mul_add_mod, Nat.mod_eq_of_lt hr]; exact ht

/-! Concrete cases. -/

omit [Limb] in
/-- The characters of numbers. -/
theorem number_chars {o : Options} {t : List Byte} {neg : Bool} {c : Nat} {k : Int} (h : IsNumber o t neg c k) :
    ∀ d ∈ t, IsDigit d ∨ d = o.decimalPoint ∨ d = 45 ∨ d = 43 ∨ d = 101 ∨ d = 69 := by
  obtain ⟨u, rfl, a, f, b, x, v, rfl, hd, -, hf, hx, -⟩ := h
  intro d h
  simp only [List.mem_append] at h
  rcases h with h | h | h | h
  · cases neg
    · simp at h
    · exact Or.inr (Or.inr (Or.inl (by simpa using h)))
  · exact Or.inl (hd d (List.mem_append_left _ h))
  · rcases hf with ⟨rfl, rfl⟩ | rfl
    · simp at h
    · rcases List.mem_cons.1 h with h | h
      · exact Or.inr (Or.inl h)
      · exact Or.inl (hd d (List.mem_append_right _ h))
  · cases hx with
    | none _ => simp at h
    | some _ hx =>
      obtain ⟨⟨e, sg, rfl, he, hsg⟩, hds, -⟩ := hx
      rcases List.mem_cons.1 h with rfl | h
      · rcases he with rfl | rfl <;> simp
      · rcases List.mem_append.1 h with h | h
        · rcases hsg with ⟨-, rfl | rfl⟩ | ⟨-, rfl⟩ <;> simp at h <;> subst h <;> simp
        · exact Or.inl (hds d h)

omit [Limb] in
theorem example_number : IsNumber general (bytes "3.14e2") false 314 0 := by
  refine ⟨_, rfl, [51], [46, 49, 52], [49, 52], [101, 50], 2, by decide, by decide, by decide, Or.inr rfl, ?_, by decide, by decide⟩
  exact ExpText.some (x := [101, 50]) (ds := [50]) (neg := false) rfl ⟨⟨101, [], rfl, Or.inl rfl, Or.inl ⟨rfl, Or.inl rfl⟩⟩, by decide, by decide⟩

example : LongestNumber general (bytes "3.14e2,") 6 false 314 0 := by
  refine ⟨by decide, example_number, fun m h1 h2 neg c k h => ?_⟩
  have hm : m = 7 := by
    have : (bytes "3.14e2,").length = 7 := by decide
    omega
  subst hm
  have := number_chars h 44 (by decide)
  revert this
  decide
example : @Big ⟨false⟩ [5, 7] (7 * 2 ^ 64 + 5) := @Big.mk ⟨false⟩ _ _ (by unfold WF; decide) (by decide) (by decide) (fun _ => by decide)
example : @Big ⟨true⟩ [5, 7] (7 * 2 ^ 32 + 5) := @Big.mk ⟨true⟩ _ _ (by unfold WF; decide) (by decide) (by decide) (fun _ => by decide)
example : @hi64 ⟨true⟩ [1, 0, 1, 3] = some (3 * 2 ^ 62 + 2 ^ 30, true) ∧ @bitLength ⟨true⟩ [1, 0, 1, 3] = some 98 := by decide +kernel
example : DecLe 314 0 (314 * 10) (-1) ∧ DecLe (314 * 10) (-1) 314 0 := by constructor <;> norm_num [DecLe]
example : NoNumber general (bytes "x") := fun m hm neg c k h => by
  have hne := isNumber_ne h
  have hm' : m = 0 ∨ m = 1 := by
    have : (bytes "x").length = 1 := by decide
    omega
  rcases hm' with rfl | rfl
  · exact hne rfl
  · have := number_chars h 120 (by decide)
    revert this
    decide
example : IsSpecial (bytes "-InfiniTY") true false := ⟨bytes "InfiniTY", by decide, .infinity (by decide)⟩
example : IsSpecial (bytes "nan(a_1)") false true := ⟨_, rfl, .nanArg (w := bytes "nan") (cs := bytes "a_1") (by decide) (by decide)⟩
example : Ryu.s2d true (bytes "3.14e2") = some (.success 0x4073A00000000000) := by decide +kernel
example : ∃ am, computeFloat bin64 (-1) 1 = some am ∧ 0 ≤ am.power2 := ⟨⟨2702159776422298, 1019⟩, by decide +kernel, by decide⟩
example : ∀ b, @fromChars ⟨b⟩ bin64 (bytes "3.14e2,") general = some ⟨6, some 0x4073A00000000000⟩ := by decide +kernel
example : ∀ b, @fromChars ⟨b⟩ bin64 (bytes "-0x") general = some ⟨2, some 0x8000000000000000⟩ := by decide +kernel
example : ∀ b, @fromChars ⟨b⟩ bin32 (bytes "1e39") general = some ⟨4, some 0x7F800000⟩ := by decide +kernel
example : ∀ b, @fromChars ⟨b⟩ bin64 (bytes "9007199254740993.0000000000000000000000000000001") general = some ⟨48, some 0x4340000000000001⟩ := by decide +kernel
example : ∀ b, @fromChars ⟨b⟩ bin64 (bytes "9007199254740993.0000000000000000000000000000000") general = some ⟨48, some 0x4340000000000000⟩ := by decide +kernel
example : ∀ b, @fromChars ⟨b⟩ bin64 (bytes "-INFinit") general = some ⟨4, some 0xFFF0000000000000⟩ := by decide +kernel
example : ∀ b, @fromChars ⟨b⟩ bin64 (bytes "nan(a_1)x") general = some ⟨8, some 0x7FF8000000000000⟩ := by decide +kernel
example : ∀ b, @fromChars ⟨b⟩ bin64 (bytes "+1") general = some ⟨0, none⟩ := by decide +kernel
example : ∀ b, @fromChars ⟨b⟩ bin64 (bytes "1e") ⟨true, false, 46⟩ = some ⟨0, none⟩ := by decide +kernel

end Nanostl.FastFloat

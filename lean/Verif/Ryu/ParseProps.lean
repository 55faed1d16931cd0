import Verif.Ryu.ParseBack
import Verif.Ryu.ParseConv
import Verif.Ryu.PrintProps

/-!
Properties C52 to C54: parsing decimal numbers. Specifications: `Denotes` (ParseText.lean), `DecNearest` (Float/Decimal.lean).
-/

namespace Nanostl.Ryu
open Nanostl.Float
open Nanostl.Str (Byte)

theorem w32_id : ∀ x < 10 ^ 9, w32 x = x := fun x h => Nat.mod_eq_of_lt (Nat.lt_trans h (by norm_num))
theorem w64_id : ∀ x < 10 ^ 17, w64 x = x := fun x h => Nat.mod_eq_of_lt (Nat.lt_trans h (by norm_num))

/-- C52 (`double`): a text that denotes `± c * 10^k` is read as the nearest double, ties to even; patterns from that of infinity on are overflow. -/
theorem c52_double_nearest (p : Bool) (s : List Byte) (hlen : s.length < 2 ^ 31 - 10000) (neg : Bool) (c : Nat) (k : Int) (h : Denotes 17 s neg c k) :
    ∃ t, DecNearest f64 c k t ∧ s2d p s = some (.success (f64.withSign neg (min t f64.inf))) := by
  obtain ⟨d, h1, h2⟩ := parse_complete (by decide) w64_id hlen h
  rcases Nat.eq_zero_or_pos c with h0 | h0
  · refine ⟨0, ?_, ?_⟩
    · rw [h0]
      refine f64.nearest_exact (decDen_pos k) ?_
      rw [f64.mag_zero, decNum, Nat.zero_mul, Nat.zero_mul, Nat.zero_mul]
    · rw [s2d, h1, some_bind]
      show (convert64 p _ >>= _) = _
      rw [convert64_zero p _ h0, some_bind, Nat.zero_min]; rfl
  · obtain ⟨g1, g2, g3, g4⟩ := h2 h0
    obtain ⟨t, t1, t2⟩ := convert64_spec p ⟨neg, c, d, k⟩ h0 g1 g2 g3 g4
    refine ⟨t, t1, ?_⟩
    rw [s2d, h1, some_bind]
    show (convert64 p _ >>= _) = _
    rw [t2, some_bind]; rfl

/-- C52 (`float`). -/
theorem c52_float_nearest (p : Bool) (s : List Byte) (hlen : s.length < 2 ^ 31 - 10000) (neg : Bool) (c : Nat) (k : Int) (h : Denotes 9 s neg c k) :
    ∃ t, DecNearest f32 c k t ∧ s2f p s = some (.success (f32.withSign neg (min t f32.inf))) := by
  obtain ⟨d, h1, h2⟩ := parse_complete (by decide) w32_id hlen h
  rcases Nat.eq_zero_or_pos c with h0 | h0
  · refine ⟨0, ?_, ?_⟩
    · rw [h0]
      refine f32.nearest_exact (decDen_pos k) ?_
      rw [f32.mag_zero, decNum, Nat.zero_mul, Nat.zero_mul, Nat.zero_mul]
    · rw [s2f, h1, some_bind]
      show (convert32 p _ >>= _) = _
      rw [convert32_zero p _ h0, some_bind, Nat.zero_min]; rfl
  · obtain ⟨g1, g2, g3, g4⟩ := h2 h0
    obtain ⟨t, t1, t2⟩ := convert32_spec p ⟨neg, c, d, k⟩ h0 g1 g2 g3 g4
    refine ⟨t, t1, ?_⟩
    rw [s2f, h1, some_bind]
    show (convert32 p _ >>= _) = _
    rw [t2, some_bind]; rfl

/-- C53 (`double`): every text is accepted or refused, without reading outside it; exactly the texts of the grammar are accepted, the empty text is
too short, and all others are malformed or too long. -/
theorem c53_double_grammar (p : Bool) (s : List Byte) (hlen : s.length < 2 ^ 31 - 10000) :
    ((∃ b, s2d p s = some (.success b)) ↔ ∃ neg c k, Denotes 17 s neg c k) ∧
    (s2d p s = some .tooShort ↔ s = []) ∧
    ((¬∃ neg c k, Denotes 17 s neg c k) → s ≠ [] → s2d p s = some .tooLong ∨ s2d p s = some .malformed) := by
  have acc : ∀ neg c k, Denotes 17 s neg c k → ∃ b, s2d p s = some (.success b) := fun neg c k h => by
    obtain ⟨t, _, h⟩ := c52_double_nearest p s hlen neg c k h
    exact ⟨_, h⟩
  have err : ∀ e, parseText w64 17 s = some (.error e) → s2d p s = some e := fun e h => by rw [s2d, h, some_bind]; rfl
  have hne : ∀ neg c k, Denotes 17 s neg c k → s ≠ [] := fun neg c k h => by
    obtain ⟨_, _, _, _, _, _, _, _, _, _, _, _, h⟩ := h; exact h
  have hnil : s = [] → s2d p s = some .tooShort := by rintro rfl; cases p <;> rfl
  rcases parse_sound (by decide) w64_id hlen with ⟨neg, c, k, h⟩ | ⟨e, he, h⟩
  · obtain ⟨b, hb⟩ := acc neg c k h
    refine ⟨⟨fun _ => ⟨neg, c, k, h⟩, fun _ => ⟨b, hb⟩⟩, ⟨fun h' => ?_, fun h' => absurd h' (hne _ _ _ h)⟩, fun h' => absurd ⟨neg, c, k, h⟩ h'⟩
    rw [hb] at h'; exact absurd h' (by simp)
  · have hs := err e h
    refine ⟨⟨fun ⟨b, hb⟩ => ?_, fun ⟨neg, c, k, h⟩ => acc neg c k h⟩, ⟨fun h' => ?_, hnil⟩, fun _ hn => ?_⟩
    · rw [hs] at hb
      rcases he with ⟨rfl, _⟩ | rfl | rfl <;> exact absurd hb (by simp)
    · rcases he with ⟨_, he⟩ | rfl | rfl
      · exact he
      · rw [hs] at h'; exact absurd h' (by simp)
      · rw [hs] at h'; exact absurd h' (by simp)
    · rcases he with ⟨_, he⟩ | rfl | rfl
      · exact absurd he hn
      · exact Or.inl hs
      · exact Or.inr hs

/-- C53 (`float`). -/
theorem c53_float_grammar (p : Bool) (s : List Byte) (hlen : s.length < 2 ^ 31 - 10000) :
    ((∃ b, s2f p s = some (.success b)) ↔ ∃ neg c k, Denotes 9 s neg c k) ∧
    (s2f p s = some .tooShort ↔ s = []) ∧
    ((¬∃ neg c k, Denotes 9 s neg c k) → s ≠ [] → s2f p s = some .tooLong ∨ s2f p s = some .malformed) := by
  have acc : ∀ neg c k, Denotes 9 s neg c k → ∃ b, s2f p s = some (.success b) := fun neg c k h => by
    obtain ⟨t, _, h⟩ := c52_float_nearest p s hlen neg c k h
    exact ⟨_, h⟩
  have err : ∀ e, parseText w32 9 s = some (.error e) → s2f p s = some e := fun e h => by rw [s2f, h, some_bind]; rfl
  have hne : ∀ neg c k, Denotes 9 s neg c k → s ≠ [] := fun neg c k h => by
    obtain ⟨_, _, _, _, _, _, _, _, _, _, _, _, h⟩ := h; exact h
  have hnil : s = [] → s2f p s = some .tooShort := by rintro rfl; cases p <;> rfl
  rcases parse_sound (by decide) w32_id hlen with ⟨neg, c, k, h⟩ | ⟨e, he, h⟩
  · obtain ⟨b, hb⟩ := acc neg c k h
    refine ⟨⟨fun _ => ⟨neg, c, k, h⟩, fun _ => ⟨b, hb⟩⟩, ⟨fun h' => ?_, fun h' => absurd h' (hne _ _ _ h)⟩, fun h' => absurd ⟨neg, c, k, h⟩ h'⟩
    rw [hb] at h'; exact absurd h' (by simp)
  · have hs := err e h
    refine ⟨⟨fun ⟨b, hb⟩ => ?_, fun ⟨neg, c, k, h⟩ => acc neg c k h⟩, ⟨fun h' => ?_, hnil⟩, fun _ hn => ?_⟩
    · rw [hs] at hb
      rcases he with ⟨rfl, _⟩ | rfl | rfl <;> exact absurd hb (by simp)
    · rcases he with ⟨_, he⟩ | rfl | rfl
      · exact he
      · rw [hs] at h'; exact absurd h' (by simp)
      · rw [hs] at h'; exact absurd h' (by simp)
    · rcases he with ⟨_, he⟩ | rfl | rfl
      · exact absurd he hn
      · exact Or.inl hs
      · exact Or.inr hs

/-! ### Printing and reading back -/

theorem low_lt_inf (φ : Fmt) {x : Nat} (h : φ.expo x ≠ φ.emax) : φ.low x < φ.inf := by
  have h1 := φ.expo_le x
  have h2 := φ.frac_lt x
  rw [φ.low_eq x]
  unfold Fmt.inf
  have h3 : (φ.expo x + 1) * 2 ^ φ.mb ≤ φ.emax * 2 ^ φ.mb := Nat.mul_le_mul_right _ (by omega)
  rw [Nat.add_mul, Nat.one_mul] at h3
  omega

/-- C54, the parser: reading what `to_string(double)` prints for a finite value gives its bits back. -/
theorem c54_s2d_inverts (p q : Bool) (bits : Nat) (hb : bits < 2 ^ 64) (buf : List Byte) (hbuf : buf.length = 25) (hfin : f64.expo bits ≠ f64.emax) :
    ∃ s, toStringDouble p bits buf = some s ∧ s2d q s = some (.success bits) := by
  obtain ⟨s, c, k, h1, h2, h3, h4⟩ := double_denotes p hbuf hfin
  refine ⟨s, h1, ?_⟩
  obtain ⟨t, t1, t2⟩ := c52_double_nearest q s (by omega) _ c k h3
  have ht := f64.nearest_unique t1 h4 (decDen_pos k)
  rw [t2, ht, Nat.min_eq_left (Nat.le_of_lt (low_lt_inf f64 hfin)), f64.withSign_self (show bits < f64.size from hb)]

/-- C54, the parser, `float`. -/
theorem c54_s2f_inverts (p q : Bool) (bits : Nat) (hb : bits < 2 ^ 32) (buf : List Byte) (hbuf : buf.length = 16) (hfin : f32.expo bits ≠ f32.emax) :
    ∃ s, toStringFloat p bits buf = some s ∧ s2f q s = some (.success bits) := by
  obtain ⟨s, c, k, h1, h2, h3, h4⟩ := float_denotes p hbuf hfin
  refine ⟨s, h1, ?_⟩
  obtain ⟨t, t1, t2⟩ := c52_float_nearest q s (by omega) _ c k h3
  have ht := f32.nearest_unique t1 h4 (decDen_pos k)
  rw [t2, ht, Nat.min_eq_left (Nat.le_of_lt (low_lt_inf f32 hfin)), f32.withSign_self (show bits < f32.size from hb)]

/-- C54 for `stod`, as far as it holds: `stod(to_string(x))` is the *float* nearest to `x`. Missing: it is not `x` itself, because `stod` returns
`float` (`c54_stod_not_inverse`). -/
theorem c54_stod_partial (p q : Bool) (bits : Nat) (hb : bits < 2 ^ 64) (buf : List Byte) (hbuf : buf.length = 25) (hfin : f64.expo bits ≠ f64.emax) :
    ∃ s t, toStringDouble p bits buf = some s ∧ f32.Nearest (f64.mag (f64.low bits) * f32.one) f64.one t ∧
      stod q s = some (f32.withSign (f64.sign bits) (min t f32.inf)) := by
  obtain ⟨s, h1, h2⟩ := c54_s2d_inverts p q bits hb buf hbuf hfin
  refine ⟨s, _, h1, f32.roundMag_nearest (by decide) (one_pos f64), ?_⟩
  rw [stod, h2, some_bind]
  show some (convertFmt f64 f32 bits) = _
  rw [convertFmt, if_neg hfin]
  rfl

/-- C54 for `stod`, as far as it holds: if the value of `x` is that of the finite float `g`, then `stod(to_string(x))` is `g`. -/
theorem c54_stod_float_partial (p q : Bool) (bits g : Nat) (hb : bits < 2 ^ 64) (hg : g < 2 ^ 32) (buf : List Byte) (hbuf : buf.length = 25)
    (hfin : f64.expo bits ≠ f64.emax) (hgf : f32.expo g ≠ f32.emax) (hs : f64.sign bits = f32.sign g)
    (hv : f64.mag (f64.low bits) * f32.one = f32.mag (f32.low g) * f64.one) :
    ∃ s, toStringDouble p bits buf = some s ∧ stod q s = some g := by
  obtain ⟨s, t, h1, h2, h3⟩ := c54_stod_partial p q bits hb buf hbuf hfin
  refine ⟨s, h1, ?_⟩
  have ht := f32.nearest_unique h2 (f32.nearest_exact (one_pos f64) hv) (one_pos f64)
  rw [h3, ht, hs, Nat.min_eq_left (Nat.le_of_lt (low_lt_inf f32 hgf)), f32.withSign_self (show g < f32.size from hg)]

/-- C54 is false for `stod`: for `x = 0.1` the result, converted back to `double`, is not equal to `x`. -/
theorem c54_stod_not_inverse : ∃ bits < 2 ^ 64, f64.expo bits ≠ f64.emax ∧ ∀ (p q : Bool) (buf : List Byte), buf.length = 25 →
    ∃ s f, toStringDouble p bits buf = some s ∧ stod q s = some f ∧ f64.eq (convertFmt f32 f64 f) bits = false := by
  refine ⟨0x3FB999999999999A, by decide, by decide +kernel, fun p q buf hbuf => ?_⟩
  obtain ⟨s, h1, h2⟩ := c54_s2d_inverts p q 0x3FB999999999999A (by decide) buf hbuf (by decide +kernel)
  refine ⟨s, convertFmt f64 f32 0x3FB999999999999A, h1, ?_, by decide +kernel⟩
  rw [stod, h2, some_bind]; rfl

/-- C54, errors: a text outside the grammar gives a NaN. -/
theorem c54_stod_error (q : Bool) (s : List Byte) (hlen : s.length < 2 ^ 31 - 10000) (h : ¬∃ neg c k, Denotes 17 s neg c k) :
    ∃ f, stod q s = some f ∧ f32.val f = .nan := by
  obtain ⟨_, h2, h3⟩ := c53_double_grammar q s hlen
  refine ⟨f32.qnan, ?_, by decide +kernel⟩
  rcases eq_or_ne s [] with e | e
  · rw [stod, h2.2 e, some_bind]; rfl
  · rcases h3 h e with h | h <;> (rw [stod, h, some_bind]; rfl)

/-! Concrete cases: texts of the grammar, accepted and refused texts, and the values. -/

example : Denotes 17 (bytes "-12.50e-3") true 1250 (-5) := by
  refine ⟨bytes "12", bytes ".50", bytes "50", bytes "e-3", -3, by decide +kernel, by decide +kernel, ?_, ?_, by decide +kernel, by decide +kernel, by decide +kernel,
    by decide +kernel⟩
  · exact FracText.some (bytes "50")
  · exact ExpText.minus 101 (bytes "3") (Or.inl rfl) (by decide +kernel) (by decide +kernel)

example : s2d true (bytes "-12.50e-3") = some (.success 0xBF8999999999999A) := by decide +kernel
example : s2d false (bytes "9007199254740993") = some (.success 0x4340000000000000) ∧ s2d false (bytes "2.4703282292062327e-324") = some (.success 0) ∧
    s2d false (bytes "2.4703282292062328e-324") = some (.success 1) ∧ s2d false (bytes "1.7976931348623159e308") = some (.success 0x7FF0000000000000) := by
  decide +kernel
example : s2f true (bytes "614426533e-25") = some (.success 613264727) ∧ s2f true (bytes "16777217") = some (.success 0x4B800000) := by decide +kernel
example : s2d true (bytes "1e5x") = some .malformed ∧ s2d true (bytes "+1") = some .malformed ∧ s2d true (bytes "123456789012345678") = some .tooLong ∧
    s2d true (bytes "1e12345") = some .tooLong ∧ s2d true [] = some .tooShort := by decide +kernel
/-- Texts without a digit are accepted as zero. -/
example : s2d true (bytes "-") = some (.success 0x8000000000000000) ∧ s2d true (bytes ".") = some (.success 0) ∧ s2d true (bytes "e5") = some (.success 0) := by
  decide +kernel
example : stod true (bytes "0.1") = some 0x3DCCCCCD := by decide +kernel

end Nanostl.Ryu

import Verif.Str.ToString

/-! Property theorems for `to_string` of integers (C17, C18). -/

namespace Nanostl.Str

/-! ### C17 -/

/-- C17 (part). For `-999999999 <= v < 2^31`, `to_string(v)` builds a terminated C string in its buffer, without undefined
behaviour, that is the decimal numeral of `v`. Missing: `v <= -10^9`, see `c17_to_string_false`. -/
theorem c17_to_string_partial (v : Int) (h1 : -999999999 ≤ v) (h2 : v < 2 ^ 31) :
    ∃ buf, toStringInt v = some buf ∧ 0 ∈ buf ∧ IsDecimal v (Spec.cchars (some buf)) := by
  by_cases hneg : v < 0
  · obtain ⟨buf, ds, g1, g2, g3, g4, g5, g6, g7, g8⟩ := itoa_nat 11 v.natAbs 9 true (by omega) (by decide) (by decide)
      (by decide)
    refine ⟨buf, ?_, g3, ds, ?_, g5, g6, g7, g8⟩
    · simp only [toStringInt, hneg, if_true]
      rw [if_neg (by omega), ← g1, show -v = (v.natAbs : Int) by omega]
    · simpa [Spec.cchars, hneg] using g4
  · obtain ⟨buf, ds, g1, g2, g3, g4, g5, g6, g7, g8⟩ := itoa_nat 11 v.natAbs 10 false (by omega) (by decide) (by decide)
      (by decide)
    refine ⟨buf, ?_, g3, ds, ?_, g5, g6, g7, g8⟩
    · simp only [toStringInt, hneg, if_false]
      rw [← g1, show (v.natAbs : Int) = v by omega]
    · simpa [Spec.cchars, hneg] using g4

example : (-999999999 : Int) ≤ -120 ∧ (-120 : Int) < 2 ^ 31 ∧ IsDecimal (-120) [45, 49, 50, 48] :=
  ⟨by decide, by decide, [49, 50, 48], by decide, by decide, by decide, by decide, by decide⟩

/-- C17 fails for every `int` from INT_MIN to -10^9: the terminator is written past the 11-byte buffer,
or (INT_MIN) the negation overflows. -/
theorem c17_to_string_false (v : Int) (h1 : -2 ^ 31 ≤ v) (h2 : v ≤ -10 ^ 9) : toStringInt v = none := by
  simp only [toStringInt]
  rw [if_pos (by omega)]
  split
  · rfl
  · rw [show -v = (v.natAbs : Int) by omega]
    exact itoa_overflow _ (by omega) (by omega)

/-- The string built by `string(buffer)` then holds the characters of the buffer before the NUL. -/
theorem c17_string {h : Vector.Heap Byte} (hb : Vector.Bnd h) (v : Int) (h1 : -999999999 ≤ v) (h2 : v < 2 ^ 31) :
    ∃ buf s, toStringInt v = some buf ∧ IsDecimal v s ∧
      MOut h Vector.init (s.map some ++ [some 0]) (ctorCStr (some buf) (h, Vector.init)) := by
  obtain ⟨buf, g1, g2, g3⟩ := c17_to_string_partial v h1 h2
  exact ⟨buf, _, g1, g3, m_ctorCStr (some buf) (.inl ⟨rfl, rfl, rfl⟩) hb (by intro b hb; cases hb; exact g2)⟩

/-- Numerals are unique, so `to_string` is injective on that range. -/
theorem c17_injective (u v : Int) (s : List Byte) (hu : IsDecimal u s) (hv : IsDecimal v s) : u = v := by
  obtain ⟨ds, rfl, h2, h3, h4, h5⟩ := hu
  obtain ⟨es, g1, g2, g3, g4, g5⟩ := hv
  match ds, es, h2, g2 with
  | d :: ds, e :: es, _, _ =>
    have hd := h3 d (by simp)
    have he := g3 e (by simp)
    by_cases hu : u < 0 <;> by_cases hv : v < 0
    · simp [hu, hv] at g1; obtain ⟨rfl, rfl⟩ := g1; omega
    · simp [hu, hv] at g1; obtain ⟨rfl, _⟩ := g1; simp at he
    · simp [hu, hv] at g1; obtain ⟨rfl, _⟩ := g1; simp at hd
    · simp [hu, hv] at g1; obtain ⟨rfl, rfl⟩ := g1; omega

/-! ### C18 -/

/-- C18 (part). `to_string(int64_t)` is right for `|v| < 2^31`. Missing: all other values, see `c18_to_string64_false`. -/
theorem c18_to_string64_partial (v : Int) (h1 : -2 ^ 31 < v) (h2 : v < 2 ^ 31) :
    ∃ buf, toStringInt64 v = some buf ∧ 0 ∈ buf ∧ IsDecimal v (Spec.cchars (some buf)) := by
  by_cases hneg : v < 0
  · obtain ⟨buf, ds, g1, g2, g3, g4, g5, g6, g7, g8⟩ := itoa_nat 20 v.natAbs 10 true (by omega) (by decide) (by decide)
      (by decide)
    refine ⟨buf, ?_, g3, ds, ?_, g5, g6, g7, g8⟩
    · simp only [toStringInt64, hneg, if_true]
      rw [if_neg (by omega), ← g1, show wrap32 (-v) = (v.natAbs : Int) by unfold wrap32; omega]
    · simpa [Spec.cchars, hneg] using g4
  · obtain ⟨buf, ds, g1, g2, g3, g4, g5, g6, g7, g8⟩ := itoa_nat 20 v.natAbs 10 false (by omega) (by decide) (by decide)
      (by decide)
    refine ⟨buf, ?_, g3, ds, ?_, g5, g6, g7, g8⟩
    · simp only [toStringInt64, hneg, if_false]
      rw [← g1, show wrap32 v = (v.natAbs : Int) by unfold wrap32; omega]
    · simpa [Spec.cchars, hneg] using g4

/-- C18 fails for every `int64_t` outside that range: the function overflows (INT64_MIN) or returns a string that is not the
numeral of `v`. -/
theorem c18_to_string64_false (v : Int) (h0 : -2 ^ 63 ≤ v) (h1 : v < 2 ^ 63) (h2 : v ≤ -2 ^ 31 ∨ 2 ^ 31 ≤ v) :
    toStringInt64 v = none ∨ ∃ buf, toStringInt64 v = some buf ∧ ¬ IsDecimal v (Spec.cchars (some buf)) := by
  by_cases hmin : v = -2 ^ 63
  · left; subst hmin; decide +kernel
  right
  have hgo : toStringInt64 v = itoa 20 (decide (v < 0)) (wrap32 v.natAbs) := by
    simp only [toStringInt64]
    by_cases hneg : v < 0
    · simp only [hneg, hmin, if_true, if_false, decide_true]
      rw [show -v = (v.natAbs : Int) by omega]
    · simp only [hneg, if_false, decide_false]
      rw [show (v.natAbs : Int) = v by omega]
  have hw : wrap32 v.natAbs < 2 ^ 31 ∧ -2 ^ 31 ≤ wrap32 v.natAbs := by unfold wrap32; omega
  rcases Int.lt_or_le (wrap32 v.natAbs) 0 with hs | hs
  · obtain ⟨buf, c, ds, g1, g2, g3⟩ := itoa_neg 20 (wrap32 v.natAbs).natAbs 10 (decide (v < 0)) (by omega) (by decide) (by omega)
      (by split <;> omega)
    rw [show -((wrap32 v.natAbs).natAbs : Int) = wrap32 v.natAbs by omega] at g1
    refine ⟨buf, by rw [hgo, g1], ?_⟩
    rintro ⟨es, k1, k2, k3, k4, k5⟩
    simp only [Spec.cchars] at k1
    rw [g2] at k1
    have : c :: ds = es := by
      by_cases hneg : v < 0 <;> simpa [hneg] using k1
    have := k3 c (by simp [← this])
    omega
  · obtain ⟨buf, ds, g1, g2, g3, g4, g5, g6, g7, g8⟩ := itoa_nat 20 (wrap32 v.natAbs).natAbs 10 (decide (v < 0)) (by omega)
      (by decide) (by decide) (by split <;> omega)
    rw [show ((wrap32 v.natAbs).natAbs : Int) = wrap32 v.natAbs by omega] at g1
    refine ⟨buf, by rw [hgo, g1], ?_⟩
    rintro ⟨es, k1, k2, k3, k4, k5⟩
    simp only [Spec.cchars] at k1
    rw [g4] at k1
    have : ds = es := by
      by_cases hneg : v < 0 <;> simpa [hneg] using k1
    subst this
    rw [g8] at k5
    omega

/-- For instance 2^32 prints as "0", and 3000000000 as characters that are not digits. -/
example : (toStringInt64 (2 ^ 32)).map (fun b => Spec.cchars (some b)) = some [48] ∧
    (toStringInt64 3000000000).map (fun b => Spec.cchars (some b)) = some [47, 46, 39, 44, 39, 42, 41, 46, 39, 42] := by
  decide +kernel

end Nanostl.Str

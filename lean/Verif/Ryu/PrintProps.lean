import Verif.Ryu.Print

/-!
Properties C47 to C51: the texts of `to_string(float)` and `to_string(double)`. Specifications: `IsSci` and `sigDigits` (Sci.lean), `DecNearest` and
`DecCloser` (Float/Decimal.lean). `buf` is the uninitialised local array.
-/

namespace Nanostl.Ryu
open Nanostl.Float
open Nanostl.Str (Byte)

/-- The bytes of an ASCII text. -/
def bytes (s : String) : List Byte := s.toList.map fun c => UInt8.ofNat c.toNat

theorem best_shortest {φ : Fmt} {t c : Nat} {k : Int} {s : List Byte} {neg : Bool} (h2 : IsSci s neg c k) (h3 : DecBest φ t c k) {c' : Nat} {k' : Int} {n : Nat}
    (h : DecNearest φ c' k' t) (hc : c' < 10 ^ n) (hn : 0 < n) : sigDigits s ≤ n := by
  obtain ⟨_, _, d3, d4⟩ := sigDigits_eq h2
  rcases Nat.eq_zero_or_pos c with h0 | h0
  · rw [d3 h0]; exact hn
  · have := (Nat.pow_lt_pow_iff_right (a := 10) (by decide)).1 (Nat.lt_of_le_of_lt (d4 h0) (h3.shortest c' k' n h hc))
    omega

theorem best_closest {φ : Fmt} {t c : Nat} {k : Int} {s : List Byte} {neg : Bool} (h2 : IsSci s neg c k) (h3 : DecBest φ t c k) {c' : Nat} {k' : Int}
    (h : DecNearest φ c' k' t) (hc : c' < 10 ^ sigDigits s) : DecCloser φ c k c' k' t := by
  obtain ⟨_, _, _, d4⟩ := sigDigits_eq h2
  rcases Nat.eq_zero_or_pos c with h0 | h0
  · have ht : t = 0 := by
      rcases Nat.eq_zero_or_pos t with h | h
      · exact h
      · exact absurd (h0 ▸ h3.near) (dec_zero h)
    have hd : φ.dist (decNum φ c k) (decDen k) t = 0 := by rw [h0, ht]; unfold Fmt.dist decNum; rw [φ.mag_zero]; simp
    unfold DecCloser; rw [hd, Nat.zero_mul]; exact Nat.zero_le _
  · refine h3.closest c' k' h fun n hn => Nat.lt_of_lt_of_le hc (Nat.pow_le_pow_right (by decide) ?_)
    have := (Nat.pow_lt_pow_iff_right (a := 10) (by decide)).1 (Nat.lt_of_le_of_lt (d4 h0) hn)
    omega

/-- C47 (`float`): the text of every finite value is a decimal number, and the one pattern nearest to that number is the given one. -/
theorem c47_float_roundtrip (p : Bool) (bits : Nat) (buf : List Byte) (hbuf : buf.length = 16) (hfin : f32.expo bits ≠ f32.emax) :
    ∃ s c k, toStringFloat p bits buf = some s ∧ IsSci s (f32.sign bits) c k ∧ ∀ t, DecNearest f32 c k t ↔ t = f32.low bits := by
  obtain ⟨s, c, k, h1, h2, h3, _⟩ := toStringFloat_best p hbuf hfin
  exact ⟨s, c, k, h1, h2, fun t => ⟨fun h => f32.nearest_unique h h3.near (decDen_pos k), fun h => h ▸ h3.near⟩⟩

/-- C48 (`float`): no decimal number with fewer digits is nearest to the given value, and none with at most as many digits is closer. -/
theorem c48_float_shortest_closest (p : Bool) (bits : Nat) (buf : List Byte) (hbuf : buf.length = 16) (hfin : f32.expo bits ≠ f32.emax) :
    ∃ s c k, toStringFloat p bits buf = some s ∧ IsSci s (f32.sign bits) c k ∧
      (∀ c' k' n, DecNearest f32 c' k' (f32.low bits) → c' < 10 ^ n → 0 < n → sigDigits s ≤ n) ∧
      (∀ c' k', DecNearest f32 c' k' (f32.low bits) → c' < 10 ^ sigDigits s → DecCloser f32 c k c' k' (f32.low bits)) := by
  obtain ⟨s, c, k, h1, h2, h3, _⟩ := toStringFloat_best p hbuf hfin
  exact ⟨s, c, k, h1, h2, fun c' k' n => best_shortest h2 h3, fun c' k' => best_closest h2 h3⟩

/-- C51 (`float`): whatever the local buffer held, nothing is written outside it, and the text is scientific notation of the computed digits and exponent,
`Infinity` with its sign, or `NaN`. -/
theorem c51_float_text (p : Bool) (bits : Nat) (buf : List Byte) (hbuf : buf.length = 16) :
    ∃ s, toStringFloat p bits buf = some s ∧ s.length + 1 ≤ 16 ∧
      (f32.val bits = .nan → s = bytes "NaN") ∧
      (f32.val bits = .inf false → s = bytes "Infinity") ∧ (f32.val bits = .inf true → s = bytes "-Infinity") ∧
      (f32.low bits = 0 → IsSci s (f32.sign bits) 0 0) ∧
      (f32.low bits ≠ 0 → f32.expo bits ≠ f32.emax → ∃ c k, f2d p (f32.frac bits) (f32.expo bits) = some (c, k) ∧ IsSci s (f32.sign bits) c k) := by
  by_cases h : f32.expo bits = f32.emax
  · have hs := toStringFloat_special p hbuf h
    have hlow : f32.low bits ≠ 0 := by
      rw [f32.low_eq bits, h]
      have : 0 < f32.emax * 2 ^ f32.mb := by decide
      omega
    refine ⟨_, hs, ?_, ?_, ?_, ?_, fun h0 => absurd h0 hlow, fun _ h1 => absurd h h1⟩
    · cases f32.sign bits <;> cases (f32.frac bits != 0) <;> decide
    all_goals
      unfold Fmt.val
      rw [if_pos h]
      by_cases hf : f32.frac bits = 0 <;> rcases hsg : f32.sign bits <;> simp [hf, specialText] <;> decide +kernel
  · obtain ⟨s, c, k, h1, h2, h3, h4, h5⟩ := toStringFloat_best p hbuf h
    have hv : ∀ w, f32.val bits = w → (w = .nan ∨ w = .inf false ∨ w = .inf true) → False := by
      intro w hw hc
      rw [Fmt.val, if_neg h] at hw
      rcases hc with rfl | rfl | rfl <;> exact absurd hw (by simp)
    refine ⟨s, h1, h4, fun e => (hv _ e (by simp)).elim, fun e => (hv _ e (by simp)).elim, fun e => (hv _ e (by simp)).elim, fun h0 => ?_, fun h0 _ => ⟨c, k, h5 h0, h2⟩⟩
    exact toStringFloat_zero p hbuf h0 h1

/-- C49 (`double`): the text of every finite value is a decimal number, and the one pattern nearest to that number is the given one. -/
theorem c49_double_roundtrip (p : Bool) (bits : Nat) (buf : List Byte) (hbuf : buf.length = 25) (hfin : f64.expo bits ≠ f64.emax) :
    ∃ s c k, toStringDouble p bits buf = some s ∧ IsSci s (f64.sign bits) c k ∧ ∀ t, DecNearest f64 c k t ↔ t = f64.low bits := by
  obtain ⟨s, c, k, h1, h2, h3, _⟩ := toStringDouble_best p hbuf hfin
  exact ⟨s, c, k, h1, h2, fun t => ⟨fun h => f64.nearest_unique h h3.near (decDen_pos k), fun h => h ▸ h3.near⟩⟩

/-- C50 (`double`): no decimal number with fewer digits is nearest to the given value, and none with at most as many digits is closer. -/
theorem c50_double_shortest_closest (p : Bool) (bits : Nat) (buf : List Byte) (hbuf : buf.length = 25) (hfin : f64.expo bits ≠ f64.emax) :
    ∃ s c k, toStringDouble p bits buf = some s ∧ IsSci s (f64.sign bits) c k ∧
      (∀ c' k' n, DecNearest f64 c' k' (f64.low bits) → c' < 10 ^ n → 0 < n → sigDigits s ≤ n) ∧
      (∀ c' k', DecNearest f64 c' k' (f64.low bits) → c' < 10 ^ sigDigits s → DecCloser f64 c k c' k' (f64.low bits)) := by
  obtain ⟨s, c, k, h1, h2, h3, _⟩ := toStringDouble_best p hbuf hfin
  exact ⟨s, c, k, h1, h2, fun c' k' n => best_shortest h2 h3, fun c' k' => best_closest h2 h3⟩

/-- C51 (`double`): whatever the local buffer held, nothing is written outside it, and the text is scientific notation of the computed digits and exponent,
`Infinity` with its sign, or `NaN`. -/
theorem c51_double_text (p : Bool) (bits : Nat) (buf : List Byte) (hbuf : buf.length = 25) :
    ∃ s, toStringDouble p bits buf = some s ∧ s.length + 1 ≤ 25 ∧
      (f64.val bits = .nan → s = bytes "NaN") ∧
      (f64.val bits = .inf false → s = bytes "Infinity") ∧ (f64.val bits = .inf true → s = bytes "-Infinity") ∧
      (f64.low bits = 0 → IsSci s (f64.sign bits) 0 0) ∧
      (f64.low bits ≠ 0 → f64.expo bits ≠ f64.emax → ∃ c k, d2sDecimal p (f64.frac bits) (f64.expo bits) = some (c, k) ∧ IsSci s (f64.sign bits) c k) := by
  by_cases h : f64.expo bits = f64.emax
  · have hs := toStringDouble_special p hbuf h
    have hlow : f64.low bits ≠ 0 := by
      rw [f64.low_eq bits, h]
      have : 0 < f64.emax * 2 ^ f64.mb := by decide
      omega
    refine ⟨_, hs, ?_, ?_, ?_, ?_, fun h0 => absurd h0 hlow, fun _ h1 => absurd h h1⟩
    · cases f64.sign bits <;> cases (f64.frac bits != 0) <;> decide
    all_goals
      unfold Fmt.val
      rw [if_pos h]
      by_cases hf : f64.frac bits = 0 <;> rcases hsg : f64.sign bits <;> simp [hf, specialText] <;> decide +kernel
  · obtain ⟨s, c, k, h1, h2, h3, h4, h5⟩ := toStringDouble_best p hbuf h
    have hv : ∀ w, f64.val bits = w → (w = .nan ∨ w = .inf false ∨ w = .inf true) → False := by
      intro w hw hc
      rw [Fmt.val, if_neg h] at hw
      rcases hc with rfl | rfl | rfl <;> exact absurd hw (by simp)
    refine ⟨s, h1, h4, fun e => (hv _ e (by simp)).elim, fun e => (hv _ e (by simp)).elim, fun e => (hv _ e (by simp)).elim, fun h0 => ?_, fun h0 _ => ⟨c, k, h5 h0, h2⟩⟩
    exact toStringDouble_zero p hbuf h0 h1

/-! Concrete cases: the hypotheses hold, and what is printed. -/

example : toStringFloat true 0x40490FDB (List.replicate 16 170) = some (bytes "3.1415927E0") ∧ f32.expo 0x40490FDB ≠ f32.emax := by decide +kernel
example : toStringFloat false 0x80000001 (List.replicate 16 170) = some (bytes "-1E-45") := by decide +kernel
example : toStringFloat false 0xFF7FFFFF (List.replicate 16 170) = some (bytes "-3.4028235E38") := by decide +kernel
example : toStringDouble false 0xBFF3C0CA428C59FB (List.replicate 25 170) = some (bytes "-1.2345678901234567E0") ∧ f64.expo 0xBFF3C0CA428C59FB ≠ f64.emax := by
  decide +kernel
example : toStringDouble true 1 (List.replicate 25 170) = some (bytes "5E-324") := by decide +kernel
example : toStringDouble true 0x4341C37937E08000 (List.replicate 25 170) = some (bytes "1E16") := by decide +kernel
example : toStringDouble true 0x7FF0000000000000 (List.replicate 25 170) = some (bytes "Infinity") ∧ f64.val 0x7FF0000000000000 = .inf false := by decide +kernel

end Nanostl.Ryu

import Verif.Ryu.Logs

/-!
C45, C46 and C55: the tables, the logarithms and the word arithmetic of ryu.
-/

namespace Nanostl.Ryu

/-! ### C45 -/

/-- `n` has exactly `b` binary digits. -/
def Bits (n b : Nat) : Prop := 0 < b ∧ 2 ^ (b - 1) ≤ n ∧ n < 2 ^ b

theorem bits_unique {n a b : Nat} (ha : Bits n a) (hb : Bits n b) : a = b := by
  obtain ⟨ha0, ha1, ha2⟩ := ha
  obtain ⟨hb0, hb1, hb2⟩ := hb
  have h1 : a - 1 < b := (Nat.pow_lt_pow_iff_right (a := 2) (by decide)).mp (by omega)
  have h2 : b - 1 < a := (Nat.pow_lt_pow_iff_right (a := 2) (by decide)).mp (by omega)
  omega

theorem bits_pow5 {i : Nat} (h : i ≤ 3528) : Bits (5 ^ i) (i * 1217359 / 2 ^ 19 + 1) := by
  have h := of_decide_eq_true (allBelow_sound log2pow5_chk i (by omega))
  exact ⟨by omega, by rw [Nat.add_sub_cancel]; exact h.2.1, h.2.2⟩

theorem ceil_spec {v a b : Nat} (h : v = a / b + 1) (hb : 0 < b) : (v - 1) * b ≤ a ∧ a < v * b := by
  subst h
  refine ⟨?_, ?_⟩
  · rw [Nat.add_sub_cancel]; exact Nat.div_mul_le_self _ _
  · rw [Nat.mul_comm (_ + 1)]; exact Nat.lt_mul_div_succ _ hb

theorem floor_spec {v a b : Nat} (h : v = a / b) (hb : 0 < b) : v * b ≤ a ∧ a < (v + 1) * b := by
  subst h
  refine ⟨Nat.div_mul_le_self _ _, ?_⟩
  rw [Nat.mul_comm (_ + 1)]; exact Nat.lt_mul_div_succ _ hb

/-- C45: both tables have the documented sizes; read as 128-bit numbers (second word high), entry `i` of the inverse table is
`⌊2^(b-1+125) / 5^i⌋ + 1` and entry `i` of the other table is `⌊5^i / 2^(b-125)⌋`, where `b` is the number of bits of `5^i`. -/
theorem c45_tables :
    invSplit.length = 342 ∧ powSplit.length = 326 ∧
    (∀ i t b, invSplit[i]? = some t → Bits (5 ^ i) b →
      t.1 < 2 ^ 64 ∧ t.2 < 2 ^ 64 ∧ (t.2 * 2 ^ 64 + t.1 - 1) * 5 ^ i ≤ 2 ^ (b - 1 + 125) ∧ 2 ^ (b - 1 + 125) < (t.2 * 2 ^ 64 + t.1) * 5 ^ i) ∧
    (∀ i t b, powSplit[i]? = some t → Bits (5 ^ i) b →
      t.1 < 2 ^ 64 ∧ t.2 < 2 ^ 64 ∧ (t.2 * 2 ^ 64 + t.1) * 2 ^ b ≤ 5 ^ i * 2 ^ 125 ∧ 5 ^ i * 2 ^ 125 < (t.2 * 2 ^ 64 + t.1 + 1) * 2 ^ b) := by
  refine ⟨inv_length, pow_length, ?_, ?_⟩
  · intro i t b ht hb
    have hi : i < 342 := by
      have := (List.getElem?_eq_some_iff.mp ht).1
      rwa [inv_length] at this
    obtain ⟨t', ht', h1, h2, h3⟩ := inv_get hi
    obtain rfl : t = t' := Option.some.inj (ht.symm.trans ht')
    have hb' : b - 1 = i * 1217359 / 2 ^ 19 := by rw [bits_unique hb (bits_pow5 (by omega)), Nat.add_sub_cancel]
    rw [invEntry, ← hb'] at h3
    exact ⟨h1, h2, ceil_spec h3 (Nat.pow_pos (n := i) (show 0 < 5 by decide))⟩
  · intro i t b ht hb
    have hi : i < 326 := by
      have := (List.getElem?_eq_some_iff.mp ht).1
      rwa [pow_length] at this
    obtain ⟨t', ht', h1, h2, h3⟩ := pow_get hi
    obtain rfl : t = t' := Option.some.inj (ht.symm.trans ht')
    rw [powEntry, ← bits_unique hb (bits_pow5 (by omega))] at h3
    exact ⟨h1, h2, floor_spec h3 (Nat.two_pow_pos b)⟩

example : invSplit[1]? = some (11068046444225730970, 1844674407370955161) ∧ Bits (5 ^ 1) 3 := by
  constructor
  · decide +kernel
  · exact ⟨by decide, by decide, by decide⟩

example : powSplit[3]? = some (0, 2251799813685248000) ∧ Bits (5 ^ 3) 7 := by
  constructor
  · decide +kernel
  · exact ⟨by decide, by decide, by decide⟩

/-! ### C46 -/

/-- C46: over the documented ranges the functions return (no assertion fails, nothing overflows) the exact floors of `log2 5^e`,
`log10 2^e` and `log10 5^e`, and `pow5bits`, `ceil_log2pow5` the number of bits of `5^e`, which is the ceiling of its logarithm for
`e ≥ 1`; outside these ranges the assertion fails. -/
theorem c46_logs (e : Int) :
    (0 ≤ e → e ≤ 3528 →
      (∃ r : Nat, log2pow5 e = some r ∧ 2 ^ r ≤ 5 ^ e.toNat ∧ 5 ^ e.toNat < 2 ^ (r + 1)) ∧
      (∃ r : Nat, pow5bits e = some r ∧ ceilLog2pow5 e = some r ∧ Bits (5 ^ e.toNat) r ∧
        (1 ≤ e → 2 ^ (r - 1) < 5 ^ e.toNat ∧ 5 ^ e.toNat ≤ 2 ^ r))) ∧
    (0 ≤ e → e ≤ 1650 → ∃ r, log10Pow2 e = some r ∧ 10 ^ r ≤ 2 ^ e.toNat ∧ 2 ^ e.toNat < 10 ^ (r + 1)) ∧
    (0 ≤ e → e ≤ 2620 → ∃ r, log10Pow5 e = some r ∧ 10 ^ r ≤ 5 ^ e.toNat ∧ 5 ^ e.toNat < 10 ^ (r + 1)) ∧
    (e < 0 ∨ 3528 < e → log2pow5 e = none ∧ pow5bits e = none ∧ ceilLog2pow5 e = none) ∧
    (e < 0 ∨ 1650 < e → log10Pow2 e = none) ∧
    (e < 0 ∨ 2620 < e → log10Pow5 e = none) := by
  have chk2 : ∀ k : Int, e < 0 ∨ k < e → ∀ (β : Type) (x : Option β), (chk (0 ≤ e) >>= fun _ => chk (e ≤ k) >>= fun _ => x) = none := by
    intro k h β x
    by_cases h0 : 0 ≤ e
    · rw [chk_pos h0, some_bind, chk_neg (by omega)]; rfl
    · rw [chk_neg h0]; rfl
  refine ⟨?_, ?_, ?_, ?_, ?_, ?_⟩
  · intro h0 h1
    obtain ⟨a, b, c⟩ := log2pow5_val h0 h1
    have hb := bits_pow5 (i := e.toNat) (by omega)
    refine ⟨⟨_, a, b, c⟩, ⟨_, pow5bits_val h0 h1, ?_, hb, ?_⟩⟩
    · rw [ceilLog2pow5, a]; rfl
    · intro he
      refine ⟨?_, Nat.le_of_lt hb.2.2⟩
      rcases Nat.lt_or_eq_of_le hb.2.1 with h | h
      · exact h
      · exfalso
        rw [Nat.add_sub_cancel] at h
        have hodd : 5 ^ e.toNat % 2 = 1 := by rw [Nat.pow_mod]; simp
        have hpos : e.toNat * 1217359 / 2 ^ 19 ≠ 0 := by
          intro hz
          rw [hz] at h
          have : 1 < 5 ^ e.toNat := Nat.one_lt_pow (by omega) (by decide)
          omega
        rw [← h] at hodd
        obtain ⟨k, hk⟩ := Nat.exists_eq_succ_of_ne_zero hpos
        rw [hk, Nat.pow_succ] at hodd
        omega
  · intro h0 h1; exact ⟨_, log10Pow2_val h0 h1⟩
  · intro h0 h1; exact ⟨_, log10Pow5_val h0 h1⟩
  · intro h
    refine ⟨chk2 _ h _ _, chk2 _ h _ _, ?_⟩
    rw [ceilLog2pow5, show log2pow5 e = none from chk2 _ h _ _]; rfl
  · intro h; exact chk2 _ h _ _
  · intro h; exact chk2 _ h _ _

example : log2pow5 100 = some 232 ∧ pow5bits 100 = some 233 ∧ log10Pow2 100 = some 30 ∧ log10Pow5 100 = some 69 := by decide

/-! ### C55 -/

/-- C55: for all 64-bit arguments, on both kinds of platform, the division helpers give the true quotients and remainder, the product of
`umul128` is the true 128-bit product, `umulh` its upper word, and `shiftright128` the shifted number truncated to 64 bits. -/
theorem c55_words (p32 : Bool) (x y : Nat) (hx : x < 2 ^ 64) (hy : y < 2 ^ 64) :
    div5 p32 x = x / 5 ∧ div10 p32 x = x / 10 ∧ div100 p32 x = x / 100 ∧ div1e8 p32 x = x / 10 ^ 8 ∧ div1e9 p32 x = x / 10 ^ 9 ∧
    mod1e9 p32 x = x % 10 ^ 9 ∧
    (umul128 x y).1 < 2 ^ 64 ∧ (umul128 x y).2 < 2 ^ 64 ∧ (umul128 x y).2 * 2 ^ 64 + (umul128 x y).1 = x * y ∧
    umulh x y = x * y / 2 ^ 64 ∧
    (∀ d : Int, 0 < d → d < 64 → shiftright128 x y d = some ((y * 2 ^ 64 + x) / 2 ^ d.toNat % 2 ^ 64)) := by
  have e64 : (2 : Nat) ^ 64 = 18446744073709551616 := by norm_num
  have e8 : (10 : Nat) ^ 8 = 100000000 := by norm_num
  have e9 : (10 : Nat) ^ 9 = 1000000000 := by norm_num
  rw [e64] at *
  rw [e8, e9]
  refine ⟨div5_eq p32 hx, div10_eq p32 hx, div100_eq p32 hx, div1e8_eq p32 hx, div1e9_eq p32 hx, mod1e9_eq p32 hx, ?_, ?_, ?_, umulh_eq hx hy,
    fun d h0 h1 => shiftright128_eq hx h0 h1⟩
  · rw [umul128_aux x y hx hy]; exact Nat.mod_lt _ (by norm_num)
  · rw [umul128_aux x y hx hy]
    have : x * y < 18446744073709551616 * 18446744073709551616 := Nat.mul_lt_mul'' hx hy
    exact Nat.div_lt_of_lt_mul this
  · rw [umul128_aux x y hx hy]
    simp only
    have := Nat.div_add_mod (x * y) 18446744073709551616
    omega

example : umul128 (2 ^ 64 - 1) (2 ^ 64 - 1) = (1, 2 ^ 64 - 2) := by decide +kernel
example : div10 true (2 ^ 64 - 1) = 1844674407370955161 ∧ mod1e9 true (2 ^ 64 - 1) = 709551615 := by decide +kernel

end Nanostl.Ryu

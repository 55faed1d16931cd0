import Verif.Ryu.Model
import Mathlib.Tactic.Common
import Mathlib.Tactic.Ring
import Mathlib.Tactic.NormNum

/-!
Word arithmetic of ryu: 128-bit products and shifts, division by multiplication.
-/

namespace Nanostl.Ryu

theorem w32_eq (x : Nat) : w32 x = x % 4294967296 := rfl
theorem w64_eq (x : Nat) : w64 x = x % 18446744073709551616 := rfl
theorem sub32_eq (x y : Nat) : sub32 x y = (x + 4294967296 - y) % 4294967296 := rfl
theorem sub64_eq (x y : Nat) : sub64 x y = (x + 18446744073709551616 - y) % 18446744073709551616 := rfl

theorem w32_lt (x : Nat) : w32 x < 4294967296 := Nat.mod_lt _ (by decide)
theorem w64_lt (x : Nat) : w64 x < 18446744073709551616 := Nat.mod_lt _ (by decide)
theorem w32_of_lt {x : Nat} (h : x < 4294967296) : w32 x = x := Nat.mod_eq_of_lt h
theorem w64_of_lt {x : Nat} (h : x < 18446744073709551616) : w64 x = x := Nat.mod_eq_of_lt h

theorem sub32_of_le {x y : Nat} (h : y ≤ x) (hx : x < 4294967296) : sub32 x y = x - y := by
  rw [sub32_eq]; omega
theorem sub64_of_le {x y : Nat} (h : y ≤ x) (hx : x < 18446744073709551616) : sub64 x y = x - y := by
  rw [sub64_eq]; omega

theorem shr32 (x : Nat) : x >>> 32 = x / 4294967296 := Nat.shiftRight_eq_div_pow x 32

theorem divB {B q r : Nat} (h : r < B) : (q * B + r) / B = q := by
  rw [Nat.add_comm, Nat.add_mul_div_right _ _ (by omega), Nat.div_eq_of_lt h, Nat.zero_add]

theorem modB {B q r : Nat} (h : r < B) : (q * B + r) % B = r := by
  rw [Nat.add_comm, Nat.add_mul_mod_self_right, Nat.mod_eq_of_lt h]

theorem umul128_aux (a b : Nat) (ha : a < 18446744073709551616) (hb : b < 18446744073709551616) :
    umul128 a b = (a * b % 18446744073709551616, a * b / 18446744073709551616) := by
  obtain ⟨ah, al, ha', hah, hal⟩ : ∃ ah al, a = ah * 4294967296 + al ∧ ah < 4294967296 ∧ al < 4294967296 :=
    ⟨a / 4294967296, a % 4294967296, by omega, by omega, by omega⟩
  obtain ⟨bh, bl, hb', hbh, hbl⟩ : ∃ bh bl, b = bh * 4294967296 + bl ∧ bh < 4294967296 ∧ bl < 4294967296 :=
    ⟨b / 4294967296, b % 4294967296, by omega, by omega, by omega⟩
  have e1 : w32 a = al := by rw [w32_eq]; omega
  have e2 : w32 (a >>> 32) = ah := by rw [w32_eq, shr32]; omega
  have e3 : w32 b = bl := by rw [w32_eq]; omega
  have e4 : w32 (b >>> 32) = bh := by rw [w32_eq, shr32]; omega
  have mulb : ∀ x y, x < 4294967296 → y < 4294967296 → x * y ≤ 18446744065119617025 := by
    intro x y hx hy
    calc x * y ≤ 4294967295 * 4294967295 := Nat.mul_le_mul (by omega) (by omega)
      _ = _ := by norm_num
  have h00 := mulb al bl hal hbl
  have h01 := mulb al bh hal hbh
  have h10 := mulb ah bl hah hbl
  have h11 := mulb ah bh hah hbh
  have key : a * b = ah * bh * 18446744073709551616 + (al * bh + ah * bl) * 4294967296 + al * bl := by
    subst ha' hb'; ring
  simp only [umul128, e1, e2, e3, e4]
  rw [key]
  generalize al * bl = p00 at *
  generalize al * bh = p01 at *
  generalize ah * bl = p10 at *
  generalize ah * bh = p11 at *
  rw [w64_of_lt (x := p00) (by omega), w64_of_lt (x := p01) (by omega), w64_of_lt (x := p10) (by omega), w64_of_lt (x := p11) (by omega)]
  have or_eq : ∀ x y, x < 4294967296 → y < 4294967296 → w64 (x <<< 32) ||| y = x * 4294967296 + y := by
    intro x y hx hy
    have hs : x <<< 32 = x * 4294967296 := Nat.shiftLeft_eq x 32
    rw [w64_of_lt (by rw [hs]; omega), ← Nat.shiftLeft_add_eq_or_of_lt (i := 32) hy x, hs]
  simp only [shr32]
  rw [or_eq _ _ (w32_lt _) (w32_lt _)]
  simp only [w32_eq, w64_eq]
  obtain ⟨c, r, hc, hr, rfl⟩ : ∃ c r, c < 4294967296 ∧ r < 4294967296 ∧ p00 = c * 4294967296 + r :=
    ⟨p00 / 4294967296, p00 % 4294967296, by omega, by omega, by omega⟩
  have q1 : (c * 4294967296 + r) / 4294967296 = c := divB hr
  have q2 : (c * 4294967296 + r) % 4294967296 = r := modB hr
  rw [q1, q2, Nat.mod_eq_of_lt hc, Nat.mod_eq_of_lt (a := p10 + c) (by omega)]
  obtain ⟨d, e, hd, he, hde⟩ : ∃ d e, d < 4294967296 ∧ e < 4294967296 ∧ p10 + c = d * 4294967296 + e :=
    ⟨(p10 + c) / 4294967296, (p10 + c) % 4294967296, by omega, by omega, by omega⟩
  rw [hde]
  have q3 : (d * 4294967296 + e) / 4294967296 = d := divB he
  have q4 : (d * 4294967296 + e) % 4294967296 = e := modB he
  rw [q3, q4, Nat.mod_eq_of_lt hd, Nat.mod_eq_of_lt (a := p01 + e) (by omega)]
  obtain ⟨f, g, hf, hg, hfg⟩ : ∃ f g, f < 4294967296 ∧ g < 4294967296 ∧ p01 + e = f * 4294967296 + g :=
    ⟨(p01 + e) / 4294967296, (p01 + e) % 4294967296, by omega, by omega, by omega⟩
  rw [hfg]
  have q5 : (f * 4294967296 + g) / 4294967296 = f := divB hg
  have q6 : (f * 4294967296 + g) % 4294967296 = g := modB hg
  rw [q5, q6, Nat.mod_eq_of_lt hf]
  have tot : p11 * 18446744073709551616 + (p01 + p10) * 4294967296 + (c * 4294967296 + r)
      = (p11 + d + f) * 18446744073709551616 + (g * 4294967296 + r) := by omega
  have hi : p11 + d + f < 18446744073709551616 := by
    have : a * b < 18446744073709551616 * 18446744073709551616 := Nat.mul_lt_mul'' ha hb
    rw [key, tot] at this
    omega
  rw [tot, Nat.mod_eq_of_lt hi]
  have lo : g * 4294967296 + r < 18446744073709551616 := by omega
  rw [divB lo, modB lo]

theorem umulh_eq {a b : Nat} (ha : a < 18446744073709551616) (hb : b < 18446744073709551616) :
    umulh a b = a * b / 18446744073709551616 := by
  rw [umulh, umul128_aux a b ha hb]

theorem shr_eq (x k : Nat) : x >>> k = x / 2 ^ k := Nat.shiftRight_eq_div_pow x k

theorem div5_eq (p : Bool) {x : Nat} (hx : x < 18446744073709551616) : div5 p x = x / 5 := by
  cases p
  · rfl
  · simp only [div5, if_true]
    rw [umulh_eq hx (by norm_num), shr_eq]
    omega

theorem div10_eq (p : Bool) {x : Nat} (hx : x < 18446744073709551616) : div10 p x = x / 10 := by
  cases p
  · rfl
  · simp only [div10, if_true]
    rw [umulh_eq hx (by norm_num), shr_eq]
    omega

theorem div100_eq (p : Bool) {x : Nat} (hx : x < 18446744073709551616) : div100 p x = x / 100 := by
  cases p
  · rfl
  · simp only [div100, if_true]
    rw [shr_eq x, umulh_eq (by omega) (by norm_num), shr_eq]
    omega

theorem div1e8_eq (p : Bool) {x : Nat} (hx : x < 18446744073709551616) : div1e8 p x = x / 100000000 := by
  cases p
  · rfl
  · simp only [div1e8, if_true]
    rw [umulh_eq hx (by norm_num), shr_eq]
    omega

theorem div1e9_eq (p : Bool) {x : Nat} (hx : x < 18446744073709551616) : div1e9 p x = x / 1000000000 := by
  cases p
  · rfl
  · simp only [div1e9, if_true]
    rw [shr_eq x, umulh_eq (by omega) (by norm_num), shr_eq]
    omega

theorem mod1e9_eq (p : Bool) {x : Nat} (hx : x < 18446744073709551616) : mod1e9 p x = x % 1000000000 := by
  simp only [mod1e9, div1e9_eq _ hx]
  cases p <;> simp only [if_true, if_false, Bool.false_eq_true, w32_eq, w64_eq, sub32_eq, sub64_eq] <;> omega

/-- The remainders taken in 32 bits. -/
theorem rem32 (k : Nat) (hk : 0 < k) (hk' : k < 4294967296) (x : Nat) : sub32 (w32 x) (w32 (k * w32 (x / k))) = x % k := by
  have h1 := Nat.div_add_mod x k
  have h2 := Nat.mod_lt x hk
  have h3 : k * w32 (x / k) % 4294967296 = k * (x / k) % 4294967296 := by
    rw [w32_eq, Nat.mul_mod, Nat.mod_mod, ← Nat.mul_mod]
  simp only [w32_eq, sub32_eq] at h3 ⊢
  rw [h3]
  generalize k * (x / k) = y at *
  omega

theorem shiftright128_eq {lo hi : Nat} {d : Int} (hlo : lo < 18446744073709551616) (h0 : 0 < d) (h1 : d < 64) :
    shiftright128 lo hi d = some ((hi * 18446744073709551616 + lo) / 2 ^ d.toNat % 18446744073709551616) := by
  have hd : d.toNat < 64 ∧ 0 < d.toNat := by omega
  simp only [shiftright128, chk, h1, h0, if_true]
  show some _ = some _
  congr 1
  generalize d.toNat = k at hd
  obtain ⟨hk, hk0⟩ := hd
  have e64 : (18446744073709551616 : Nat) = 2 ^ k * 2 ^ (64 - k) := by
    rw [← Nat.pow_add, show k + (64 - k) = 64 by omega]
  have hlo' : lo >>> k < 2 ^ (64 - k) := by
    rw [shr_eq, Nat.div_lt_iff_lt_mul (Nat.two_pow_pos k), Nat.mul_comm, ← e64]; exact hlo
  have e1 : w64 (hi <<< (64 - k)) = (hi % 2 ^ k) <<< (64 - k) := by
    rw [w64, Nat.shiftLeft_eq, Nat.shiftLeft_eq]
    show hi * 2 ^ (64 - k) % 18446744073709551616 = _
    rw [e64, Nat.mul_mod_mul_right]
  rw [e1, ← Nat.shiftLeft_add_eq_or_of_lt hlo', Nat.shiftLeft_eq, shr_eq]
  have e2 : (hi * 18446744073709551616 + lo) / 2 ^ k = hi * 2 ^ (64 - k) + lo / 2 ^ k := by
    rw [e64, show hi * (2 ^ k * 2 ^ (64 - k)) + lo = lo + 2 ^ k * (hi * 2 ^ (64 - k)) by ring, Nat.add_mul_div_left _ _ (Nat.two_pow_pos k)]
    omega
  rw [e2]
  rw [shr_eq] at hlo'
  have e3 : hi * 2 ^ (64 - k) + lo / 2 ^ k = (hi % 2 ^ k * 2 ^ (64 - k) + lo / 2 ^ k) + 18446744073709551616 * (hi / 2 ^ k) := by
    conv_lhs => rw [← Nat.div_add_mod hi (2 ^ k)]
    rw [e64]; ring
  rw [e3, Nat.add_mul_mod_self_left]
  symm
  apply Nat.mod_eq_of_lt
  have := Nat.mod_lt hi (Nat.two_pow_pos k)
  calc hi % 2 ^ k * 2 ^ (64 - k) + lo / 2 ^ k < hi % 2 ^ k * 2 ^ (64 - k) + 2 ^ (64 - k) := by omega
    _ = (hi % 2 ^ k + 1) * 2 ^ (64 - k) := by ring
    _ ≤ 2 ^ k * 2 ^ (64 - k) := Nat.mul_le_mul_right _ this
    _ = _ := e64.symm

end Nanostl.Ryu

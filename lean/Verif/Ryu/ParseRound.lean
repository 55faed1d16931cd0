import Verif.Ryu.Parse
import Verif.Ryu.Words
import Verif.Ryu.Logs
import Verif.Float.Arith
import Verif.Float.Decimal
import Mathlib.Data.Nat.Log
import Mathlib.Data.Nat.Bitwise

/-!
The end of the decimal parsers: logarithms, rounding, packing.
-/

namespace Nanostl.Ryu
open Nanostl.Float

/-! ### Logarithms -/

theorem log2_shr {x k : Nat} (h : x >>> k ≠ 0) : Nat.log2 (x >>> k) + k = Nat.log2 x ∧ x ≠ 0 := by
  have hx : x ≠ 0 := by rintro rfl; simp at h
  refine ⟨?_, hx⟩
  rw [shr_eq] at h ⊢
  have hle : 2 ^ k ≤ x := by
    by_contra hc
    exact h (Nat.div_eq_of_lt (by omega))
  have h1 := Nat.log2_self_le hx
  have h2 := Nat.lt_log2_self (n := x)
  have hk : k ≤ Nat.log2 x := (Nat.le_log2 hx).2 hle
  have : Nat.log2 (x / 2 ^ k) = Nat.log2 x - k := by
    rw [Nat.log2_eq_iff h]
    constructor
    · rw [Nat.le_div_iff_mul_le (Nat.two_pow_pos _), ← Nat.pow_add, Nat.sub_add_cancel hk]; exact h1
    · rw [Nat.div_lt_iff_lt_mul (Nat.two_pow_pos _), ← Nat.pow_add, show Nat.log2 x - k + 1 + k = Nat.log2 x + 1 by omega]; exact h2
  omega

theorem clzStep_spec {k b L n x : Nat} (hx : x ≠ 0) (hn : L + n = Nat.log2 x + 32) (hb : x < 2 ^ (k + b)) (hbk : b ≤ k) (hkn : 2 * k ≤ n) :
    (clzStep k (n, x)).2 ≠ 0 ∧ L + (clzStep k (n, x)).1 = Nat.log2 (clzStep k (n, x)).2 + 32 ∧ (clzStep k (n, x)).2 < 2 ^ k ∧ k ≤ (clzStep k (n, x)).1 := by
  unfold clzStep
  by_cases h : x >>> k ≠ 0
  · simp only [if_pos h]
    obtain ⟨h1, _⟩ := log2_shr h
    refine ⟨h, by omega, ?_, by omega⟩
    rw [shr_eq, Nat.div_lt_iff_lt_mul (Nat.two_pow_pos _), ← Nat.pow_add]
    exact Nat.lt_of_lt_of_le hb (Nat.pow_le_pow_right (by decide) (by omega))
  · simp only [if_neg h]
    refine ⟨hx, hn, ?_, by omega⟩
    rw [not_not, shr_eq, Nat.div_eq_zero_iff] at h
    rcases h with h | h
    · exact absurd h (Nat.ne_of_gt (Nat.two_pow_pos _))
    · exact h

theorem floorLog2_32_eq {v : Nat} (h0 : v ≠ 0) (h : v < 2 ^ 32) : floorLog2_32 v = some (Nat.log2 v) := by
  rw [floorLog2_32, if_neg h0, myclzi, if_neg h0]
  simp only
  have hlog : Nat.log2 v < 32 := (Nat.log2_lt h0).2 h
  obtain ⟨a1, a2, a3, a4⟩ := clzStep_spec (k := 16) (b := 16) (L := Nat.log2 v) (n := 32) h0 rfl h (by decide) (by decide)
  generalize e1 : clzStep 16 (32, v) = s1 at *
  obtain ⟨n1, x1⟩ := s1
  have g1 : Nat.log2 x1 < 16 := (Nat.log2_lt a1).2 a3
  simp only at a1 a2 a3 a4
  obtain ⟨b1, b2, b3, b4⟩ := clzStep_spec (k := 8) (b := 8) (L := Nat.log2 v) (n := n1) a1 a2 a3 (by decide) (by omega)
  generalize e2 : clzStep 8 (n1, x1) = s2 at *
  obtain ⟨n2, x2⟩ := s2
  have g2 : Nat.log2 x2 < 8 := (Nat.log2_lt b1).2 b3
  simp only at b1 b2 b3 b4
  obtain ⟨c1, c2, c3, c4⟩ := clzStep_spec (k := 4) (b := 4) (L := Nat.log2 v) (n := n2) b1 b2 b3 (by decide) (by omega)
  generalize e3 : clzStep 4 (n2, x2) = s3 at *
  obtain ⟨n3, x3⟩ := s3
  have g3 : Nat.log2 x3 < 4 := (Nat.log2_lt c1).2 c3
  simp only at c1 c2 c3 c4
  obtain ⟨d1, d2, d3, d4⟩ := clzStep_spec (k := 2) (b := 2) (L := Nat.log2 v) (n := n3) c1 c2 c3 (by decide) (by omega)
  generalize e4 : clzStep 2 (n3, x3) = s4 at *
  obtain ⟨n4, x4⟩ := s4
  simp only at d1 d2 d3 d4
  show some (sub32 31 (if x4 >>> 1 ≠ 0 then n4 - 2 else n4 - x4)) = _
  congr 1
  rw [shr_eq]
  have hx4 : x4 = 1 ∨ x4 = 2 ∨ x4 = 3 := by omega
  rcases hx4 with rfl | rfl | rfl
  · have : Nat.log2 1 = 0 := by decide
    rw [if_neg (by decide), sub32_of_le (by omega) (by decide)]; omega
  · have : Nat.log2 2 = 1 := by decide
    rw [if_pos (by decide), sub32_of_le (by omega) (by decide)]; omega
  · have : Nat.log2 3 = 1 := by decide
    rw [if_pos (by decide), sub32_of_le (by omega) (by decide)]; omega

theorem clzllLoop_spec : ∀ f x r, x ≠ 0 → x < 2 ^ 64 → 64 ≤ Nat.log2 x + f → clzllLoop f x r = some (r + 63 - Nat.log2 x) := by
  intro f
  induction f with
  | zero =>
    intro x r h0 h1 h2
    have := (Nat.log2_lt h0).2 h1
    omega
  | succ f ih =>
    intro x r h0 h1 h2
    have hl := (Nat.log2_lt h0).2 h1
    rw [clzllLoop]
    have hbit : x &&& (1 <<< 63) = 0 ↔ x < 2 ^ 63 := by
      rw [Nat.one_shiftLeft, Nat.and_two_pow]
      constructor
      · intro h
        by_contra hc
        have : x.testBit 63 = true := by
          rw [Nat.testBit_eq_decide_div_mod_eq, decide_eq_true_eq]; omega
        rw [this] at h
        exact absurd h (by decide)
      · intro h
        rw [Nat.testBit_lt_two_pow h]; rfl
    by_cases hb : x < 2 ^ 63
    · rw [if_pos (hbit.2 hb)]
      have e : w64 (x <<< 1) = 2 * x := by rw [Nat.shiftLeft_eq, w64_eq]; omega
      have hlog : Nat.log2 (2 * x) = Nat.log2 x + 1 := Nat.log2_two_mul h0
      rw [e, ih (2 * x) (r + 1) (by omega) (by omega) (by omega), hlog]
      congr 1; omega
    · rw [if_neg (fun h => hb (hbit.1 h))]
      have : 63 ≤ Nat.log2 x := (Nat.le_log2 h0).2 (by omega)
      congr 1; omega

theorem floorLog2_64_eq {v : Nat} (h0 : v ≠ 0) (h : v < 2 ^ 64) : floorLog2_64 v = some (Nat.log2 v) := by
  have hl := (Nat.log2_lt h0).2 h
  rw [floorLog2_64, myclzll, if_neg h0, clzllLoop_spec 64 v 0 h0 h (by omega), some_bind]
  show some _ = some _
  rw [sub32_of_le (by omega) (by decide)]
  congr 1; omega

theorem i32_id {x : Int} (h1 : -2 ^ 31 ≤ x) (h2 : x < 2 ^ 31) : i32 x = x := by
  unfold i32; omega

/-! ### Rounding -/

theorem round_core (φ : Fmt) (hmb : 1 ≤ φ.mb) {n d N D s k : Nat} (hD : 0 < D) (hd : 0 < d) (hX : n * (D * 2 ^ (k + 1)) = N * 2 ^ s * d)
    (hq1 : N / D / 2 ^ (k + 1) + 1 ≤ 2 ^ (φ.mb + 1)) (hq2 : s ≠ 0 → 2 ^ φ.mb ≤ N / D / 2 ^ (k + 1)) (up : Bool)
    (hup : up = true ↔ N / D / 2 ^ k % 2 = 1 ∧ (¬(D ∣ N ∧ N / D % 2 ^ k = 0) ∨ N / D / 2 ^ (k + 1) % 2 = 1)) :
    φ.Nearest n d (s * 2 ^ φ.mb + (N / D / 2 ^ (k + 1) + up.toNat)) := by
  have hB : 0 < 2 ^ k := Nat.two_pow_pos k
  have hs := Nat.two_pow_pos s
  have hd' : 0 < D * 2 ^ (k + 1) := Nat.mul_pos hD (Nat.two_pow_pos _)
  rw [nearest_cross φ hd hd' hX]
  have hm1 := Nat.div_mul_le_self N D
  have hm2 := Nat.lt_mul_div_succ N hD
  have hdvd : D ∣ N ↔ N = D * (N / D) := ⟨fun h => (Nat.mul_div_cancel' h).symm, fun h => ⟨_, h⟩⟩
  rw [hdvd] at hup
  generalize N / D = m at *
  have e2 : (2 : Nat) ^ (k + 1) = 2 * 2 ^ k := by rw [Nat.pow_succ, Nat.mul_comm]
  have hqB : m / 2 ^ (k + 1) = m / 2 ^ k / 2 := by rw [Nat.pow_succ, Nat.div_div_eq_div_mul]
  have hpar : (s * 2 ^ φ.mb + m / 2 ^ (k + 1)) % 2 = m / 2 ^ (k + 1) % 2 := by
    rw [show φ.mb = φ.mb - 1 + 1 by omega, Nat.pow_succ, ← Nat.mul_assoc]; omega
  have hg1 := φ.mag_of (m / 2 ^ (k + 1)) s (by omega) hq2
  have hg2 := φ.mag_of (m / 2 ^ (k + 1) + 1) s hq1 (fun h => Nat.le_succ_of_le (hq2 h))
  rw [← Nat.add_assoc] at hg2
  -- m = (2 q + b) B + r
  have hr := Nat.div_add_mod m (2 ^ k)
  have hrlt := Nat.mod_lt m hB
  rw [hqB] at hup hpar hg1 hg2 ⊢
  rw [e2] at *
  generalize hq : m / 2 ^ k = h at *
  generalize hrr : m % 2 ^ k = r at *
  generalize hBB : (2 : Nat) ^ k = B at *
  -- bounds for N
  have lo1 : h / 2 * 2 ^ s * (D * (2 * B)) ≤ N * 2 ^ s := by
    have : h / 2 * (2 * B) * D ≤ m * D := Nat.mul_le_mul_right _ (by
      calc h / 2 * (2 * B) = B * (2 * (h / 2)) := by ring
        _ ≤ B * h := Nat.mul_le_mul_left _ (by omega)
        _ ≤ m := by omega)
    calc h / 2 * 2 ^ s * (D * (2 * B)) = h / 2 * (2 * B) * D * 2 ^ s := by ring
      _ ≤ N * 2 ^ s := Nat.mul_le_mul_right _ (by omega)
  have hi1 : N * 2 ^ s ≤ (h / 2 + 1) * 2 ^ s * (D * (2 * B)) := by
    have : D * (m + 1) ≤ D * ((h / 2 + 1) * (2 * B)) := Nat.mul_le_mul_left _ (by
      calc m + 1 ≤ B * (h + 1) := by rw [← hr]; rw [Nat.mul_add]; omega
        _ ≤ B * (2 * (h / 2 + 1)) := Nat.mul_le_mul_left _ (by omega)
        _ = _ := by ring)
    calc N * 2 ^ s ≤ D * ((h / 2 + 1) * (2 * B)) * 2 ^ s := Nat.mul_le_mul_right _ (by omega)
      _ = _ := by ring
  have hsum : h / 2 * 2 ^ s * (D * (2 * B)) + (h / 2 + 1) * 2 ^ s * (D * (2 * B)) = 2 * (D * (B * (2 * (h / 2) + 1)) * 2 ^ s) := by ring
  have hN2 : 2 * (N * 2 ^ s) = 2 * (N * 2 ^ s) := rfl
  cases up with
  | false =>
    rw [Bool.toNat_false, Nat.add_zero]
    refine φ.nearest_lo (by rw [hg1]; exact lo1) (by rw [hg2]; exact hi1) ?_
    rw [hg1, hg2, hsum, hpar]
    by_cases hb : h % 2 = 1
    · have hc : ¬(¬(N = D * m ∧ r = 0) ∨ h / 2 % 2 = 1) := fun hc => by
        have := hup.2 ⟨hb, hc⟩; simp at this
      rw [not_or, not_not] at hc
      obtain ⟨⟨c1, c2⟩, c3⟩ := hc
      right
      refine ⟨?_, by omega⟩
      have : B * (2 * (h / 2) + 1) = m := by rw [show 2 * (h / 2) + 1 = h by omega]; omega
      rw [this, ← c1]
    · left
      have : D * (m + 1) ≤ D * (B * (2 * (h / 2) + 1)) := Nat.mul_le_mul_left _ (by
        rw [show 2 * (h / 2) + 1 = h + 1 by omega, Nat.mul_add]; omega)
      have := Nat.mul_lt_mul_of_pos_right (show N < D * (B * (2 * (h / 2) + 1)) by omega) hs
      omega
  | true =>
    have hu := hup.1 rfl
    rw [Bool.toNat_true, ← Nat.add_assoc]
    refine φ.nearest_hi (by rw [hg1]; exact lo1) (by rw [hg2]; exact hi1) ?_
    rw [hg1, hg2, hsum, hpar]
    obtain ⟨u1, u2⟩ := hu
    rw [show 2 * (h / 2) + 1 = h by omega]
    by_cases hex : N = D * m ∧ r = 0
    · right
      refine ⟨?_, u2.resolve_left (fun h => h hex)⟩
      rw [show B * h = m by omega, ← hex.1]
    · left
      have hle : D * (B * h) ≤ N := by
        have : D * (B * h) ≤ D * m := Nat.mul_le_mul_left _ (by omega)
        have : D * m = m * D := Nat.mul_comm _ _
        omega
      have hlt : D * (B * h) < N := by
        rcases Nat.lt_or_eq_of_le hle with hl | hl
        · exact hl
        · exfalso
          have e3 : m * D ≤ D * (B * h) := by omega
          rw [Nat.mul_comm m D] at e3
          have e4 := Nat.le_of_mul_le_mul_left e3 hD
          have e5 : B * h = m := by omega
          exact hex ⟨by rw [← hl, e5], by omega⟩
      have := Nat.mul_lt_mul_of_pos_right hlt hs
      omega

theorem pack_eq (φ : Fmt) {neg : Bool} {e m : Nat} (he : e < 2 ^ φ.eb) (hm : m < 2 ^ φ.mb) :
    (((neg.toNat <<< φ.eb) ||| e) <<< φ.mb) ||| m = φ.withSign neg (e * 2 ^ φ.mb + m) := by
  rw [← Nat.shiftLeft_add_eq_or_of_lt he, ← Nat.shiftLeft_add_eq_or_of_lt hm, Nat.shiftLeft_eq, Nat.shiftLeft_eq]
  unfold Fmt.withSign Fmt.half
  cases neg with
  | false => simp
  | true => rw [if_pos rfl, Bool.toNat_true, Nat.pow_add]; ring

theorem zero_eq (φ : Fmt) {neg : Bool} : neg.toNat <<< (φ.eb + φ.mb) = φ.withSign neg 0 := by
  rw [Nat.shiftLeft_eq]
  unfold Fmt.withSign Fmt.half
  cases neg with
  | false => simp
  | true => rw [if_pos rfl, Bool.toNat_true, Nat.add_comm φ.eb]; omega

theorem inf_eq (φ : Fmt) {neg : Bool} : neg.toNat <<< (φ.eb + φ.mb) ||| ((2 ^ φ.eb - 1) <<< φ.mb) = φ.withSign neg φ.inf := by
  have h := pack_eq φ (neg := neg) (e := 2 ^ φ.eb - 1) (m := 0) (by have := Nat.two_pow_pos φ.eb; omega) (Nat.two_pow_pos _)
  rw [Nat.or_zero, Nat.shiftLeft_or_distrib, ← Nat.shiftLeft_add] at h
  rw [h]; rfl

/-- Carry of the rounded significand into the exponent. -/
theorem carry {B q E : Nat} {up : Bool} (hq : E ≠ 0 → B ≤ q ∧ q < 2 * B) (hq0 : E = 0 → q < B) :
    (if (q + up.toNat) % B = 0 ∧ up = true then E + 1 else E) * B + (q + up.toNat) % B = (E - 1) * B + (q + up.toNat) := by
  by_cases hE : E = 0
  · have h := hq0 hE
    subst hE
    cases up with
    | false => rw [if_neg (by simp), Bool.toNat_false, Nat.add_zero, Nat.mod_eq_of_lt h]
    | true =>
      rw [Bool.toNat_true]
      by_cases hc : q + 1 = B
      · rw [hc, Nat.mod_self, if_pos ⟨rfl, rfl⟩]; omega
      · rw [Nat.mod_eq_of_lt (by omega), if_neg (by simp)]
  · obtain ⟨h1, h2⟩ := hq hE
    obtain ⟨E, rfl⟩ : ∃ k, E = k + 1 := ⟨E - 1, by omega⟩
    rw [Nat.add_sub_cancel]
    cases up with
    | false =>
      rw [if_neg (by simp), Bool.toNat_false, Nat.add_zero q, Nat.mod_eq_sub_mod h1, Nat.mod_eq_of_lt (by omega), Nat.add_mul]; omega
    | true =>
      rw [Bool.toNat_true]
      by_cases hc : q + 1 = 2 * B
      · rw [hc, Nat.mul_mod_left, if_pos ⟨rfl, rfl⟩]; ring
      · rw [Nat.mod_eq_sub_mod (by omega), Nat.mod_eq_of_lt (by omega), if_neg (by omega), Nat.add_mul]; omega

theorem mod2_ne {x : Nat} : x % 2 ≠ 0 ↔ x % 2 = 1 := by omega

theorem packBits_spec (φ : Fmt) (g : φ.Good) {fl : Nat → Option Nat} {W n d N D : Nat} {e2 : Int} (neg : Bool) (hbias : φ.bias ≤ 2 ^ 20) (hmb20 : φ.mb ≤ 2 ^ 20)
    (hW : φ.mb + 3 ≤ W)
    (hfl : fl (N / D) = some (Nat.log2 (N / D))) (hD : 0 < D) (hd : 0 < d) (h1 : 2 ^ (φ.mb + 1) ≤ N / D) (h2 : N / D < 2 ^ (φ.mb + 3))
    (hX : ∀ s k : Nat, (s : Int) - k = e2 + φ.bias + φ.mb - 1 → n * (D * 2 ^ k) = N * 2 ^ s * d) (he1 : -2 ^ 20 ≤ e2) (he2 : e2 ≤ 2 ^ 20)
    (hsh : 1 - e2 - φ.bias - φ.mb < W) :
    ∃ t, φ.Nearest n d t ∧ packBits ⟨φ.mb, φ.eb, φ.bias, W⟩ fl neg e2 (N / D) (decide (D ∣ N)) = some (φ.withSign neg (min t φ.inf)) := by
  have hm0 : N / D ≠ 0 := by have := Nat.two_pow_pos (φ.mb + 1); omega
  have hl1 : φ.mb + 1 ≤ Nat.log2 (N / D) := (Nat.le_log2 hm0).2 h1
  have hl2 : Nat.log2 (N / D) < φ.mb + 3 := (Nat.log2_lt hm0).2 h2
  have hlo := Nat.log2_self_le hm0
  have hhi := Nat.lt_log2_self (n := N / D)
  have hmb := g.mb
  have hbmb := g.le
  have hem : 2 ^ φ.eb = 2 * φ.bias + 2 := by
    have h3 := g.emax; unfold Fmt.emax at h3; have := Nat.two_pow_pos φ.eb; omega
  have hinf : φ.inf = (2 * φ.bias + 1) * 2 ^ φ.mb := by rw [Fmt.inf, g.emax]
  have hBpos := Nat.two_pow_pos φ.mb
  generalize hl : Nat.log2 (N / D) = l at *
  rw [packBits, hfl, some_bind]
  simp only
  rw [i32_id (by omega) (by omega)]
  -- the rounded value, for the exponent `E` and the shift `k + 1`
  have core : ∀ E k : Nat, ((E - 1 : Nat) : Int) - (k + 1 : Nat) = e2 + φ.bias + φ.mb - 1 →
      (E ≠ 0 → l = φ.mb + (k + 1)) → (E = 0 → l < φ.mb + (k + 1)) → ∀ up : Bool,
      (up = true ↔ N / D / 2 ^ k % 2 = 1 ∧ (¬(D ∣ N ∧ N / D % 2 ^ k = 0) ∨ N / D / 2 ^ (k + 1) % 2 = 1)) →
      φ.Nearest n d ((E - 1) * 2 ^ φ.mb + (N / D / 2 ^ (k + 1) + up.toNat)) ∧
      (E ≠ 0 → 2 ^ φ.mb ≤ N / D / 2 ^ (k + 1) ∧ N / D / 2 ^ (k + 1) < 2 * 2 ^ φ.mb) ∧ (E = 0 → N / D / 2 ^ (k + 1) < 2 ^ φ.mb) := by
    intro E k hE hE1 hE0 up hup
    have b1 : E ≠ 0 → 2 ^ φ.mb ≤ N / D / 2 ^ (k + 1) ∧ N / D / 2 ^ (k + 1) < 2 * 2 ^ φ.mb := by
      intro h
      rw [Nat.le_div_iff_mul_le (Nat.two_pow_pos _), Nat.div_lt_iff_lt_mul (Nat.two_pow_pos _), ← Nat.pow_add, ← hE1 h]
      refine ⟨hlo, ?_⟩
      rw [Nat.mul_assoc, ← Nat.pow_add, ← hE1 h, Nat.mul_comm, ← Nat.pow_succ]; exact hhi
    have b0 : E = 0 → N / D / 2 ^ (k + 1) < 2 ^ φ.mb := by
      intro h
      rw [Nat.div_lt_iff_lt_mul (Nat.two_pow_pos _), ← Nat.pow_add]
      exact Nat.lt_of_lt_of_le hhi (Nat.pow_le_pow_right (by decide) (hE0 h))
    refine ⟨round_core φ hmb hD hd (hX _ _ hE) ?_ ?_ up hup, b1, b0⟩
    · rw [Nat.pow_succ (m := φ.mb)]
      by_cases h : E = 0
      · have := b0 h; omega
      · have := b1 h; omega
    · intro h
      exact (b1 (by omega)).1
  by_cases hbig : (max 0 (e2 + φ.bias + l)).toNat > 2 ^ φ.eb - 2
  · rw [if_pos hbig]
    obtain ⟨c1, c2, _⟩ := core (e2 + φ.bias + l).toNat (l - φ.mb - 1) (by omega) (by omega) (by omega)
      (decide (N / D / 2 ^ (l - φ.mb - 1) % 2 = 1 ∧ (¬(D ∣ N ∧ N / D % 2 ^ (l - φ.mb - 1) = 0) ∨ N / D / 2 ^ (l - φ.mb - 1 + 1) % 2 = 1))) decide_eq_true_iff
    refine ⟨_, c1, ?_⟩
    show some _ = some _
    rw [Consts.infinity, inf_eq φ, Nat.min_eq_right]
    have := (c2 (by omega)).1
    have h3 : (2 * φ.bias) * 2 ^ φ.mb ≤ ((e2 + φ.bias + l).toNat - 1) * 2 ^ φ.mb := Nat.mul_le_mul_right _ (by omega)
    rw [hinf, Nat.add_mul]
    omega
  · rw [if_neg hbig]
    generalize hE : (max 0 (e2 + φ.bias + l)).toNat = E at *
    obtain ⟨k, hk, hkW, hc1, hc2, hc3⟩ : ∃ k : Nat, (if E = 0 then 1 else (E : Int)) - e2 - φ.bias - φ.mb = ((k + 1 : Nat) : Int) ∧ k + 1 < W ∧
        ((E - 1 : Nat) : Int) - (k + 1 : Nat) = e2 + φ.bias + φ.mb - 1 ∧
        (E ≠ 0 → l = φ.mb + (k + 1)) ∧ (E = 0 → l < φ.mb + (k + 1)) := by
      by_cases h : E = 0
      · refine ⟨(-(e2 + φ.bias + φ.mb)).toNat, ?_, ?_, ?_, fun h' => absurd h h', fun _ => ?_⟩ <;> try simp only [h, if_true]
        all_goals omega
      · refine ⟨l - φ.mb - 1, ?_, ?_, ?_, fun _ => ?_, fun h' => absurd h' h⟩ <;> try simp only [h, if_false]
        all_goals omega
    rw [hk, i32_id (by omega) (by omega), chk_pos (by omega), some_bind, chk_pos (by omega), some_bind]
    rw [show (((k + 1 : Nat) : Int) - 1).toNat = k by omega, Int.toNat_natCast]
    simp only [Nat.one_shiftLeft, Nat.and_two_pow_sub_one_eq_mod, Nat.and_one_is_mod, shr_eq]
    generalize hup : (N / D / 2 ^ k % 2 != 0 && (!(decide (D ∣ N) && N / D % 2 ^ k == 0) || N / D / 2 ^ (k + 1) % 2 != 0)) = up
    obtain ⟨c1, c2, c3⟩ := core E k hc1 hc2 hc3 up (by
      rw [← hup]
      simp only [Bool.and_eq_true, Bool.or_eq_true, bne_iff_ne, Bool.not_eq_true', Bool.and_eq_false_iff, decide_eq_false_iff_not, beq_eq_false_iff_ne]
      rw [mod2_ne, mod2_ne, not_and_or])
    refine ⟨_, c1, ?_⟩
    have hRle : N / D / 2 ^ (k + 1) + up.toNat ≤ 2 ^ (φ.mb + 1) := by
      have hu : up.toNat ≤ 1 := by cases up <;> decide
      rw [Nat.pow_succ (m := φ.mb)]
      by_cases h : E = 0
      · have := c3 h; omega
      · have := c2 h; omega
    have hWp : 2 ^ (φ.mb + 1) < 2 ^ W := Nat.pow_lt_pow_right (by decide) (by omega)
    rw [Nat.mod_eq_of_lt (a := N / D / 2 ^ (k + 1) + up.toNat) (by omega), chk_pos hRle, some_bind]
    show some _ = some _
    rw [pack_eq φ _ (Nat.mod_lt _ hBpos), carry c2 c3, Nat.min_eq_left]
    · rw [hinf, Nat.add_mul]
      have h3 : (E - 1) * 2 ^ φ.mb ≤ (2 * φ.bias - 1) * 2 ^ φ.mb := Nat.mul_le_mul_right _ (by omega)
      rw [Nat.pow_succ (m := φ.mb)] at hRle
      rw [Nat.sub_mul (2 * φ.bias)] at h3
      have : 1 * 2 ^ φ.mb ≤ 2 * φ.bias * 2 ^ φ.mb := Nat.mul_le_mul_right _ (by omega)
      omega
    · split <;> omega

end Nanostl.Ryu

import Verif.Float.Approx
import Verif.Math.FloorProps

/-!
More about patterns as real numbers: sizes of results, conversions from and to `int`, clamping, and multiplication by a power of two by addition to the
exponent.
-/

namespace Nanostl.Float
namespace Fmt
variable {φ : Fmt}

theorem size_eq (φ : Fmt) : φ.size = 2 * φ.half := by unfold size; omega

theorem round_lt (s : Bool) (n d : Nat) : φ.round s n d < φ.size :=
  φ.withSign_lt (Nat.lt_of_le_of_lt (Nat.min_le_right _ _) φ.inf_lt_half)

theorem qnan_lt (g : φ.Good) : φ.qnan < φ.size := by
  have h1 := φ.inf_lt_half
  have hmb := g.mb
  have h2 : φ.inf + 2 ^ φ.mb = φ.half := by
    unfold inf emax half
    rw [Nat.pow_add, Nat.sub_mul, Nat.one_mul, Nat.mul_comm (2 ^ φ.mb)]
    have : 2 ^ φ.mb ≤ 2 ^ φ.eb * 2 ^ φ.mb := Nat.le_mul_of_pos_left _ (Nat.two_pow_pos _)
    omega
  have h3 : 2 ^ (φ.mb - 1) ≤ 2 ^ φ.mb := Nat.pow_le_pow_right (by decide) (by omega)
  rw [size_eq]
  unfold qnan
  have := φ.half_pos
  omega

theorem neg_lt (x : Nat) : φ.neg x < φ.size := φ.withSign_lt (φ.low_lt x)

theorem add_lt (g : φ.Good) {x y : Nat} (hx : x < φ.size) (hy : y < φ.size) : φ.add x y < φ.size := by
  unfold add
  split <;> try exact qnan_lt g
  · split
    · exact hx
    · exact qnan_lt g
  · exact hx
  · exact hy
  · split
    · exact φ.withSign_lt φ.half_pos
    · exact round_lt _ _ _

theorem sub_lt (g : φ.Good) {x y : Nat} (hx : x < φ.size) : φ.sub x y < φ.size := add_lt g hx (neg_lt y)

theorem mul_lt (g : φ.Good) (x y : Nat) : φ.mul x y < φ.size := by
  unfold mul
  split <;> try exact qnan_lt g
  · exact round_lt _ _ _
  · exact φ.withSign_lt φ.inf_lt_half

/-- A pattern with a positive value. -/
theorem is_pos {x : Nat} {a : ℝ} (hx : x < φ.size) (h : φ.Is x a) (ha : 0 < a) : x < φ.inf ∧ (φ.mag x : ℝ) = a * φ.one := by
  obtain ⟨v, h1, h2⟩ := h
  obtain ⟨h3, h4⟩ := φ.val_eq_fin h1
  have ho := φ.one_posR
  have hv : 0 < v := by
    have : (0 : ℝ) < v := by rw [h2]; exact mul_pos ha ho
    exact_mod_cast this
  have hs : φ.sign x = false := by
    by_contra hc
    rw [Bool.not_eq_false] at hc
    rw [hc] at h4
    simp only [signed, if_true] at h4
    omega
  have hxl : φ.low x = x := by
    have := φ.withSign_self hx
    rw [hs] at this
    simpa [withSign] using this
  rw [hxl] at h3 h4
  rw [hs] at h4
  simp only [signed, Bool.false_eq_true, if_false] at h4
  refine ⟨h3, ?_⟩
  rw [← h2, h4]
  push_cast
  rfl

theorem is_of_lt {x : Nat} (h : x < φ.inf) : φ.Is x (φ.mag x / φ.one) := by
  have := is_pattern (s := false) h
  simpa [withSign, signed] using this

/-- Truncation. -/
theorem toInt_real {x : Nat} {a : ℝ} (h : φ.Is x a) (hb : |a| < 2 ^ 31) : ∃ m : ℤ, φ.toInt x = some m ∧ |a - m| < 1 ∧ |(m : ℝ)| ≤ |a| ∧
    (0 ≤ a → (m : ℝ) ≤ a) ∧ (a ≤ 0 → a ≤ m) := by
  obtain ⟨v, h1, h2⟩ := h
  have ho := φ.one_posR
  have hon : 0 < φ.one := Nat.two_pow_pos _
  have hav : a = v / φ.one := by rw [h2]; field_simp
  have hd := Int.mul_tdiv_add_tmod v φ.one
  have key : ((φ.one * Int.tdiv v φ.one + Int.tmod v φ.one : ℤ) : ℝ) = v := by exact_mod_cast hd
  push_cast at key
  have hr : a - (Int.tdiv v φ.one : ℤ) = (Int.tmod v φ.one : ℤ) / φ.one := by
    rw [hav, eq_div_iff (ne_of_gt ho), sub_mul, div_mul_cancel₀ _ (ne_of_gt ho)]
    linarith
  have hlt : |Int.tmod v φ.one| < φ.one := by
    rw [Int.abs_eq_natAbs, Int.natAbs_tmod]
    exact_mod_cast Nat.mod_lt _ (by simpa using hon)
  have hmod : |((Int.tmod v φ.one : ℤ) : ℝ)| < φ.one := by
    rw [← Int.cast_abs]; exact_mod_cast hlt
  have hfrac : |a - (Int.tdiv v φ.one : ℤ)| < 1 := by
    rw [hr, abs_div, abs_of_pos ho, div_lt_one ho]; exact hmod
  have hpos : 0 ≤ v → 0 ≤ Int.tmod v φ.one := fun h => Int.tmod_nonneg _ h
  have hneg : v ≤ 0 → Int.tmod v φ.one ≤ 0 := by
    intro h
    have := Int.tmod_nonneg (φ.one : ℤ) (a := -v) (by omega)
    rw [Int.neg_tmod] at this
    omega
  have hsgn : (0 ≤ a → 0 ≤ v) ∧ (a ≤ 0 → v ≤ 0) := by
    constructor
    · intro h
      have : (0 : ℝ) ≤ v := by rw [h2]; exact mul_nonneg h (le_of_lt ho)
      exact_mod_cast this
    · intro h
      have : (v : ℝ) ≤ 0 := by rw [h2]; exact mul_nonpos_of_nonpos_of_nonneg h (le_of_lt ho)
      exact_mod_cast this
  have hA : 0 ≤ a → ((Int.tdiv v φ.one : ℤ) : ℝ) ≤ a := by
    intro h
    have : (0 : ℝ) ≤ (Int.tmod v φ.one : ℤ) := by exact_mod_cast hpos (hsgn.1 h)
    have : 0 ≤ a - (Int.tdiv v φ.one : ℤ) := by rw [hr]; exact div_nonneg this (le_of_lt ho)
    linarith
  have hB : a ≤ 0 → a ≤ ((Int.tdiv v φ.one : ℤ) : ℝ) := by
    intro h
    have : ((Int.tmod v φ.one : ℤ) : ℝ) ≤ 0 := by exact_mod_cast hneg (hsgn.2 h)
    have : a - (Int.tdiv v φ.one : ℤ) ≤ 0 := by rw [hr]; exact div_nonpos_of_nonpos_of_nonneg this (le_of_lt ho)
    linarith
  have habs : |((Int.tdiv v φ.one : ℤ) : ℝ)| ≤ |a| := by
    rcases le_total 0 a with h | h
    · have h0 : (0 : ℝ) ≤ (Int.tdiv v φ.one : ℤ) := by exact_mod_cast Int.tdiv_nonneg (hsgn.1 h) (by omega)
      rw [abs_of_nonneg h0, abs_of_nonneg h]; exact hA h
    · have h0 : ((Int.tdiv v φ.one : ℤ) : ℝ) ≤ 0 := by
        have : Int.tdiv v φ.one ≤ 0 := by
          have := Int.tdiv_nonneg (a := -v) (b := φ.one) (by have := hsgn.2 h; omega) (by omega)
          rw [Int.neg_tdiv] at this; omega
        exact_mod_cast this
      rw [abs_of_nonpos h0, abs_of_nonpos h]; linarith [hB h]
  refine ⟨Int.tdiv v φ.one, ?_, hfrac, habs, hA, hB⟩
  have hi : |((Int.tdiv v φ.one : ℤ) : ℝ)| < 2 ^ 31 := lt_of_le_of_lt habs hb
  rw [abs_lt] at hi
  exact Math.toInt_eq h1 (by have := hi.1; exact_mod_cast (le_of_lt this)) (by exact_mod_cast hi.2)

/-- Small integers are exact. -/
theorem is_ofInt (g : φ.Good) (hlt : φ.mb < φ.bias) {i : ℤ} (h : i.natAbs ≤ 2 ^ (φ.mb + 1)) : φ.Is (φ.ofInt i) i := by
  have hmb := g.mb
  obtain ⟨t, h1, h2⟩ := g.exists_pattern (m := i.natAbs) (s := φ.bias + φ.mb - 1) h (by
    rw [← Nat.pow_add]
    refine lt_of_le_of_lt (Nat.mul_le_mul_right _ h) ?_
    rw [← Nat.pow_add]
    exact Nat.pow_lt_pow_right (by decide) (by omega))
  exact ⟨_, g.val_ofInt h1 h2, by push_cast; rfl⟩

end Fmt
end Nanostl.Float

namespace Nanostl.Math
open Nanostl.Float Nanostl.Float.Fmt

/-- `clamp` returns a number of the range, the argument itself if that is one. -/
theorem clamp_spec {z lo hi : Nat} {L H : ℝ} (hl : f32.Is lo L) (hh : f32.Is hi H) (hLH : L ≤ H) : ∃ a, f32.Is (clamp32 z lo hi) a ∧ L ≤ a ∧ a ≤ H ∧
    (∀ b, f32.Is z b → L ≤ b → b ≤ H → a = b) ∧ (∀ b, f32.Is z b → H ≤ b → a = H) ∧ (∀ b, f32.Is z b → b ≤ L → a = L) ∧
    ((f32.val z = .nan ∨ f32.val z = .inf false) → a = H) ∧ (f32.val z = .inf true → a = L) ∧
    (z < f32.size → lo < f32.size → hi < f32.size → clamp32 z lo hi < f32.size) := by
  have hsz : z < f32.size → lo < f32.size → hi < f32.size → clamp32 z lo hi < f32.size := by
    intro h1 h2 h3
    unfold clamp32 max32 min32
    split <;> split <;> assumption
  have hlv := hl
  obtain ⟨l, l1, l2⟩ := hlv
  have hhv := hh
  obtain ⟨k, k1, k2⟩ := hhv
  have hlh : f32.lt lo hi = true ↔ L < H := is_lt hl hh
  have caseHi : f32.lt z hi = false → f32.Is (clamp32 z lo hi) H := by
    intro h
    unfold clamp32 min32
    rw [h]
    simp only [Bool.not_false, if_true, max32]
    by_cases hc : f32.lt lo hi = true
    · rw [hc]; exact hh
    · rw [Bool.not_eq_true] at hc
      rw [hc]
      have : L = H := le_antisymm hLH (by
        by_contra h'
        rw [not_le] at h'
        rw [hlh.2 h'] at hc
        cases hc)
      rw [← this]
      exact hl
  cases hv : f32.val z with
  | nan =>
    have : f32.lt z hi = false := by unfold Fmt.lt; rw [hv]; rfl
    refine ⟨H, caseHi this, hLH, le_rfl, ?_, fun _ _ _ => rfl, ?_, fun _ => rfl, by simp, hsz⟩ <;>
      · rintro b ⟨v, h1, _⟩; rw [hv] at h1; cases h1
  | inf s =>
    cases s with
    | false =>
      have : f32.lt z hi = false := by unfold Fmt.lt; rw [hv, k1]; rfl
      refine ⟨H, caseHi this, hLH, le_rfl, ?_, fun _ _ _ => rfl, ?_, fun _ => rfl, by simp, hsz⟩ <;>
        · rintro b ⟨v, h1, _⟩; rw [hv] at h1; cases h1
    | true =>
      have h1 : f32.lt z hi = true := by unfold Fmt.lt; rw [hv, k1]; rfl
      have h2 : f32.lt lo z = false := by unfold Fmt.lt; rw [hv, l1]; rfl
      refine ⟨L, ?_, le_rfl, hLH, ?_, ?_, fun _ _ _ => rfl, by simp, fun _ => rfl, hsz⟩
      · unfold clamp32 min32 max32; rw [h1]; simp only [Bool.not_true, Bool.false_eq_true, if_false]; rw [h2]; exact hl
      all_goals
        rintro b ⟨v, h1, _⟩; rw [hv] at h1; cases h1
  | fin v =>
    have hz : f32.Is z (v / f32.one) := ⟨v, hv, by rw [div_mul_cancel₀ _ (ne_of_gt f32.one_posR)]⟩
    generalize hb : (v : ℝ) / f32.one = b at hz
    have hzh := is_lt hz hh
    have hlz := is_lt hl hz
    by_cases h1 : b < H
    · have e1 := hzh.2 h1
      by_cases h2 : L < b
      · have e2 := hlz.2 h2
        refine ⟨b, ?_, le_of_lt h2, le_of_lt h1, ?_, ?_, ?_, by simp, by simp, hsz⟩
        · unfold clamp32 min32 max32; rw [e1]; simp only [Bool.not_true, Bool.false_eq_true, if_false]; rw [e2]; exact hz
        · intro b' hb' _ _; exact hz.unique hb'
        · intro b' hb' h; rw [← hz.unique hb'] at h; linarith
        · intro b' hb' h; rw [← hz.unique hb'] at h; linarith
      · have e2 : f32.lt lo z = false := by rw [Bool.eq_false_iff]; exact fun h => h2 (hlz.1 h)
        refine ⟨L, ?_, le_rfl, hLH, ?_, ?_, fun _ _ _ => rfl, by simp, by simp, hsz⟩
        · unfold clamp32 min32 max32; rw [e1]; simp only [Bool.not_true, Bool.false_eq_true, if_false]; rw [e2]; exact hl
        · intro b' hb' h _; rw [← hz.unique hb'] at h ⊢; linarith
        · intro b' hb' h; rw [← hz.unique hb'] at h; linarith
    · have e1 : f32.lt z hi = false := by rw [Bool.eq_false_iff]; exact fun h => h1 (hzh.1 h)
      refine ⟨H, caseHi e1, hLH, le_rfl, ?_, fun _ _ _ => rfl, ?_, by simp, by simp, hsz⟩
      · intro b' hb' _ h; rw [← hz.unique hb'] at h ⊢; linarith
      · intro b' hb' h; rw [← hz.unique hb'] at h; linarith

theorem one32_val : (f32.one : ℝ) = 2 ^ 149 := by
  have : f32.one = 2 ^ 149 := by decide +kernel
  rw [this, Nat.cast_pow, Nat.cast_ofNat]

theorem inf32 : f32.inf = 2139095040 := by decide +kernel
theorem size32 : f32.size = 4294967296 := by decide +kernel

/-- Adding to the exponent field multiplies by a power of two. -/
theorem mag_scale {t t' : Nat} {m : ℤ} (h : (t' : ℤ) = t + m * 2 ^ 23) (h1 : 2 ^ 23 ≤ t) (h2 : 2 ^ 23 ≤ t') :
    (f32.mag t' : ℝ) = f32.mag t * (2 : ℝ) ^ m := by
  have hmb : f32.mb = 23 := rfl
  have hmod : t' % 2 ^ 23 = t % 2 ^ 23 := by omega
  have hdiv : ((t' / 2 ^ 23 : Nat) : ℤ) = (t / 2 ^ 23 : Nat) + m := by omega
  have e1 : 1 ≤ t / 2 ^ 23 := by omega
  have e2 : 1 ≤ t' / 2 ^ 23 := by omega
  unfold mag
  rw [hmb, hmod, if_neg (by omega), if_neg (by omega)]
  push_cast
  rw [mul_assoc]
  congr 1
  rw [← zpow_natCast, ← zpow_natCast, ← zpow_add₀ (by norm_num)]
  congr 1
  omega

end Nanostl.Math

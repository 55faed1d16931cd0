import Verif.Math.Hyper

/-! Lower and upper bounds that also admit an infinite result. -/

namespace Nanostl.Float.Fmt
open Nanostl.Math

/-- A number at least `L`, or infinity. -/
def Ge (L : ℝ) (z : Nat) : Prop := (∃ c, f32.Is z c ∧ L ≤ c) ∨ f32.val z = .inf false
/-- A number at most `-L`, or negative infinity. -/
def Ln (L : ℝ) (z : Nat) : Prop := (∃ c, f32.Is z c ∧ c ≤ -L) ∨ f32.val z = .inf true

theorem Ge.weaken {K L : ℝ} {z : Nat} (h : Ge K z) (hL : L ≤ K) : Ge L z := by
  rcases h with ⟨c, h1, h2⟩ | h
  · exact .inl ⟨c, h1, le_trans hL h2⟩
  · exact .inr h

theorem inf_parts {x : Nat} {s : Bool} (hv : f32.val x = .inf s) : f32.sign x = s ∧ f32.low x = f32.inf := by
  unfold Fmt.val at hv
  split at hv
  · rename_i h1
    split at hv
    · rename_i h2
      refine ⟨Val.inf.inj hv, ?_⟩
      have := Nat.div_add_mod (f32.low x) (2 ^ f32.mb)
      unfold Fmt.expo at h1
      unfold Fmt.frac at h2
      rw [h1, h2] at this
      rw [← this]; rfl
    · cases hv
  · cases hv

theorem val_neg_inf {x : Nat} {s : Bool} (hv : f32.val x = .inf s) : f32.val (f32.neg x) = .inf (!s) := by
  obtain ⟨h1, h2⟩ := inf_parts hv
  unfold Fmt.neg
  rw [h1, h2]
  exact val_inf _

theorem Ge.neg {L : ℝ} {z : Nat} (h : Ge L z) : Ln L (f32.neg z) := by
  rcases h with ⟨c, h1, h2⟩ | h
  · exact .inl ⟨-c, h1.neg, by linarith⟩
  · exact .inr (val_neg_inf h)

theorem Ln.neg {L : ℝ} {z : Nat} (h : Ln L z) : Ge L (f32.neg z) := by
  rcases h with ⟨c, h1, h2⟩ | h
  · exact .inl ⟨-c, h1.neg, by linarith⟩
  · exact .inr (val_neg_inf h)

/-- Rounding of something from 2^127 on. -/
theorem round_big {s : Bool} {n d : Nat} (hd : 0 < d) (h : f32.mag 0x7f000000 * d ≤ n) :
    (∃ c, f32.Is (f32.round s n d) c ∧ if s then c ≤ -2 ^ 127 else 2 ^ 127 ≤ c) ∨ f32.val (f32.round s n d) = .inf s := by
  have hr := le_roundMag (by decide) hd h
  have ho := f32.one_posR
  unfold Fmt.round
  generalize f32.roundMag n d = t at *
  rcases Nat.lt_or_ge t f32.inf with hi | hi
  · left
    rw [show Nat.min t f32.inf = t from Nat.min_eq_left hi.le]
    have hmag : (2 : ℝ) ^ 127 ≤ f32.mag t / f32.one := by
      have h5 : f32.mag 0x7f000000 ≤ f32.mag t := f32.mag_le_iff.2 hr
      have h6 : f32.mag 0x7f000000 = 2 ^ 127 * f32.one := by decide +kernel
      rw [h6] at h5
      rw [le_div_iff₀ ho]
      exact_mod_cast h5
    refine ⟨((signed s (f32.mag t) : ℤ) : ℝ) / f32.one, ⟨_, f32.val_withSign_fin hi, by field_simp⟩, ?_⟩
    unfold signed
    cases s
    · simp only [Bool.false_eq_true, if_false]; push_cast; exact hmag
    · simp only [if_true]; push_cast; rw [neg_div]; linarith
  · right
    rw [show Nat.min t f32.inf = f32.inf from Nat.min_eq_right hi]
    exact val_inf _

theorem mag_big : (f32.mag 0x7f000000 : ℝ) = 2 ^ 127 * f32.one := by
  have h6 : f32.mag 0x7f000000 = 2 ^ 127 * f32.one := by decide +kernel
  rw [h6]; push_cast; ring

/-- The sum of two numbers. -/
theorem add_fin {x y : Nat} {a b : ℝ} (hx : f32.Is x a) (hy : f32.Is y b) :
    (∃ c, f32.Is (f32.add x y) c ∧ f32.Rnd (a + b) c) ∨ (2 ^ 127 ≤ a + b ∧ Ge (2 ^ 127) (f32.add x y)) ∨ (a + b ≤ -2 ^ 127 ∧ Ln (2 ^ 127) (f32.add x y)) := by
  rcases le_or_gt |a + b| (2 ^ 127) with hs | hs
  · obtain ⟨c, h1, h2, -⟩ := is_add good32 hx hy (by rw [bias32]; exact hs)
    exact .inl ⟨c, h1, h2⟩
  · right
    obtain ⟨v, h1, h2⟩ := hx
    obtain ⟨w, h3, h4⟩ := hy
    have ho := f32.one_posR
    have hsum : ((v + w : ℤ) : ℝ) = (a + b) * f32.one := by push_cast; rw [h2, h4]; ring
    have habs : (((v + w).natAbs : ℕ) : ℝ) = |a + b| * f32.one := by
      rw [← abs_of_pos ho, ← abs_mul, ← hsum, Nat.cast_natAbs, Int.cast_abs]
    have hm : f32.mag 0x7f000000 * 1 ≤ (v + w).natAbs := by
      have : ((f32.mag 0x7f000000 * 1 : ℕ) : ℝ) ≤ ((v + w).natAbs : ℕ) := by
        rw [Nat.mul_one, mag_big, habs]
        exact mul_le_mul_of_nonneg_right hs.le ho.le
      exact_mod_cast this
    have h0 : v + w ≠ 0 := by
      intro h0
      rw [h0] at hm
      revert hm
      decide +kernel
    have hadd : f32.add x y = f32.round (decide (v + w < 0)) (v + w).natAbs 1 := by
      unfold Fmt.add; rw [h1, h3]; simp only [if_neg h0]
    have hb := round_big (s := decide (v + w < 0)) Nat.one_pos hm
    rw [← hadd] at hb
    rcases lt_abs.1 hs with hp | hp
    · left
      have hneg : ¬(v + w < 0) := by
        intro hn
        have : ((v + w : ℤ) : ℝ) < 0 := by exact_mod_cast hn
        rw [hsum] at this
        have h9 : 0 < a + b := lt_trans (by norm_num) hp
        linarith [mul_pos h9 ho]
      rw [decide_eq_false hneg] at hb
      refine ⟨hp.le, ?_⟩
      rcases hb with ⟨c, h5, h6⟩ | h5
      · exact .inl ⟨c, h5, by simpa using h6⟩
      · exact .inr h5
    · right
      have hneg : v + w < 0 := by
        have : ((v + w : ℤ) : ℝ) < 0 := by
          rw [hsum]
          have h9 : a + b < 0 := by
            have : (0 : ℝ) < 2 ^ 127 := by norm_num
            linarith
          exact mul_neg_of_neg_of_pos h9 ho
        exact_mod_cast this
      rw [decide_eq_true hneg] at hb
      refine ⟨by linarith, ?_⟩
      rcases hb with ⟨c, h5, h6⟩ | h5
      · exact .inl ⟨c, h5, by simpa using h6⟩
      · exact .inr h5

theorem add_ge {x y w : Nat} {K M L : ℝ} (hx : Ge K x) (hy : Ge M y) (hw : f32.Is w L) (hL : L ≤ K + M) (hL1 : L ≤ 2 ^ 127) (hL0 : -2 ^ 127 < L) : Ge L (f32.add x y) := by
  rcases hx with ⟨a, h1, h2⟩ | hx
  · rcases hy with ⟨b, h3, h4⟩ | hy
    · rcases add_fin h1 h3 with ⟨c, h5, h6⟩ | ⟨-, h6⟩ | ⟨h5, -⟩
      · exact .inl ⟨c, h5, h6.ge _ _ hw (by linarith)⟩
      · exact h6.weaken hL1
      · linarith
    · obtain ⟨v, hv, -⟩ := h1
      right
      unfold Fmt.add
      rw [hv, hy]
      exact hy
  · right
    rcases hy with ⟨b, ⟨v, hv, -⟩, -⟩ | hy
    · unfold Fmt.add
      rw [hx, hv]
      exact hx
    · unfold Fmt.add
      rw [hx, hy]
      exact hx

theorem add_ln {x y w : Nat} {k M L : ℝ} (hx : f32.Is x k) (hy : Ln M y) (hw : f32.Is w (-L)) (hL : L ≤ M - k) (hL1 : L ≤ 2 ^ 127) (hL0 : -2 ^ 127 < L) : Ln L (f32.add x y) := by
  rcases hy with ⟨b, h3, h4⟩ | hy
  · rcases add_fin hx h3 with ⟨c, h5, h6⟩ | ⟨h5, -⟩ | ⟨-, h6⟩
    · exact .inl ⟨c, h5, h6.le _ _ hw (by linarith)⟩
    · linarith
    · rcases h6 with ⟨c, h7, h8⟩ | h7
      · exact .inl ⟨c, h7, by linarith⟩
      · exact .inr h7
  · obtain ⟨v, hv, -⟩ := hx
    right
    unfold Fmt.add
    rw [hv, hy]
    exact hy

theorem sign_pos {x : Nat} {a : ℝ} (hx : f32.Is x a) (ha : 0 < a) : f32.sign x = false := by
  by_contra h
  have := (sign_cases hx).1 (by simpa using h)
  linarith

theorem mul_ge {x y w : Nat} {K M L : ℝ} (hx : Ge K x) (hy : Ge M y) (hK : 0 < K) (hM : 0 < M) (hw : f32.Is w L) (hL : L ≤ K * M) (hL1 : L ≤ 2 ^ 127) :
    Ge L (f32.mul x y) := by
  have ho := f32.one_posR
  have fin0 : ∀ {x : Nat} {a : ℝ} {v : ℤ}, 0 < a → (v : ℝ) = a * f32.one → 0 < v := by
    intro x a v h1 h2
    have : (0 : ℝ) < v := by rw [h2]; positivity
    exact_mod_cast this
  rcases hx with ⟨a, hx, h2⟩ | hx
  · have ha : 0 < a := lt_of_lt_of_le hK h2
    rcases hy with ⟨b, hy, h4⟩ | hy
    · have hb : 0 < b := lt_of_lt_of_le hM h4
      have hab : K * M ≤ a * b := mul_le_mul h2 h4 hM.le ha.le
      rcases le_or_gt (a * b) (2 ^ 127) with hs | hs
      · obtain ⟨c, hc, hr⟩ := is_mul good32 hx hy (by rw [bias32, abs_of_pos (mul_pos ha hb)]; exact hs)
        exact .inl ⟨c, hc, hr.ge _ _ hw (by linarith)⟩
      · have hsx := sign_pos hx ha
        have hsy := sign_pos hy hb
        obtain ⟨v, h5, h6⟩ := hx
        obtain ⟨u, h7, h8⟩ := hy
        have hv := fin0 (x := 0) ha h6
        have hu := fin0 (x := 0) hb h8
        have hmul : f32.mul x y = f32.round false (v.natAbs * u.natAbs) f32.one := by
          unfold Fmt.mul; rw [h5, h7, hsx, hsy]; rfl
        have hm : f32.mag 0x7f000000 * f32.one ≤ v.natAbs * u.natAbs := by
          have : ((f32.mag 0x7f000000 * f32.one : ℕ) : ℝ) ≤ ((v.natAbs * u.natAbs : ℕ) : ℝ) := by
            push_cast
            rw [mag_big, Nat.cast_natAbs, Nat.cast_natAbs, abs_of_pos hv, abs_of_pos hu, h6, h8]
            have := mul_le_mul_of_nonneg_right hs.le (show (0 : ℝ) ≤ f32.one * f32.one by positivity)
            linarith
          exact_mod_cast this
        have hb := round_big (s := false) (Nat.two_pow_pos _) hm
        rw [hmul]
        rcases hb with ⟨c, h5, h6⟩ | h5
        · exact .inl ⟨c, h5, le_trans hL1 (by simpa using h6)⟩
        · exact .inr h5
    · have hsx := sign_pos hx ha
      obtain ⟨v, h5, h6⟩ := hx
      have hv := fin0 (x := 0) ha h6
      right
      unfold Fmt.mul
      rw [h5, hy, hsx, (inf_parts hy).1]
      split <;> simp_all
      exact val_inf false
  · rcases hy with ⟨b, hy, h4⟩ | hy
    · have hb : 0 < b := lt_of_lt_of_le hM h4
      have hsy := sign_pos hy hb
      obtain ⟨v, h5, h6⟩ := hy
      have hv := fin0 (x := 0) hb h6
      right
      unfold Fmt.mul
      rw [h5, hx, hsy, (inf_parts hx).1]
      split <;> simp_all
      exact val_inf false
    · right
      unfold Fmt.mul
      rw [hx, hy, (inf_parts hx).1, (inf_parts hy).1]
      exact val_inf false

/-- `1 / v` for a number `v` that is not small. -/
theorem recip_ge {v w : Nat} {V L : ℝ} (hv : Ge V v) (hV : 1 ≤ V) (hw : f32.Is w L) (hL : 1 / V ≤ L) :
    ∃ q, f32.Is (f32.div one32 v) q ∧ 0 ≤ q ∧ q ≤ L := by
  rcases hv with ⟨c, h1, h2⟩ | hv
  · have hc : 0 < c := by linarith
    obtain ⟨q, h3, h4⟩ := is_div good32 is_one32 h1 hc.ne' (by
      rw [bias32, abs_of_pos (by positivity), div_le_iff₀ hc]
      have : (1 : ℝ) ≤ 2 ^ 127 := by norm_num
      nlinarith)
    refine ⟨q, h3, h4.ge _ _ (is_zero good32) (by positivity), h4.le _ _ hw (le_trans (one_div_le_one_div_of_le (by linarith) h2) hL)⟩
  · have hd : f32.div one32 v = f32.withSign (f32.sign one32 != f32.sign v) 0 := by
      obtain ⟨u, h1, -⟩ := is_one32
      unfold Fmt.div
      rw [h1, hv]
    rw [hd, (inf_parts hv).1]
    refine ⟨0, ⟨0, by decide +kernel, by simp⟩, le_rfl, le_trans (by positivity) hL⟩

/-! NaN. -/

theorem add_nan {x y : Nat} (h : f32.val x = .nan ∨ f32.val y = .nan) : f32.val (f32.add x y) = .nan := by
  unfold Fmt.add
  rcases h with h | h
  · rw [h]; exact val_qnan32
  · rw [h]
    generalize f32.val x = v
    cases v <;> exact val_qnan32

theorem mul_nan {x y : Nat} (h : f32.val x = .nan ∨ f32.val y = .nan) : f32.val (f32.mul x y) = .nan := by
  unfold Fmt.mul
  rcases h with h | h
  · rw [h]; exact val_qnan32
  · rw [h]
    generalize f32.val x = v
    cases v <;> exact val_qnan32

theorem div_nan {x y : Nat} (h : f32.val x = .nan ∨ f32.val y = .nan) : f32.val (f32.div x y) = .nan := by
  unfold Fmt.div
  rcases h with h | h
  · rw [h]; exact val_qnan32
  · rw [h]
    generalize f32.val x = v
    cases v <;> exact val_qnan32

end Nanostl.Float.Fmt

import Verif.Ryu.F2dNeg
import Verif.Ryu.Step4
import Verif.Ryu.Pattern

/-!
`f2d` finds the best decimal of every positive finite float.
-/

namespace Nanostl.Ryu
open Nanostl.Float

def smallChk32 (p : Bool) (m : Nat) : Bool :=
  match f2d p m 0 with
  | some (o, e) => decide (SmallOK f32 m o e)
  | none => false

theorem smallChk32_all : allBelow 9 (fun m => smallChk32 true (m + 1) && smallChk32 false (m + 1)) = true := by decide +kernel

theorem small32 {p : Bool} {m o : Nat} {e : Int} (h0 : 0 < m) (h : m ≤ 9) (hf : f2d p m 0 = some (o, e)) : SmallOK f32 m o e := by
  have := allBelow_sound smallChk32_all (m - 1) (by omega)
  rw [show m - 1 + 1 = m by omega, Bool.and_eq_true] at this
  have h1 : smallChk32 p m = true := by cases p; exact this.2; exact this.1
  rw [smallChk32, hf] at h1
  simpa using h1

theorem f2d_start (p : Bool) {m e : Nat} (hm : m < 8388608) (he : e < 255) (h0 : 0 < e * 8388608 + m) :
    ∃ N D e10 s, Scaled f32 (e - 1) N D e10 ∧ 0 < D ∧
      Start (decide (sig 23 m e % 2 = 0)) ((4 * sig 23 m e - 1 - shOf m e) * N) (4 * sig 23 m e * N) ((4 * sig 23 m e + 2) * N) D s ∧
      s.vp < 900000000 ∧ s.vm < 900000000 ∧
      f2d p m e = (f2dStep4 (decide (sig 23 m e % 2 = 0)) s).map fun y => (y.1, e10 + y.2) := by
  have hsig : (if e = 0 then m else (1 <<< 23) ||| m) = sig 23 m e := by
    unfold sig
    split
    · rfl
    · have := Nat.two_pow_add_eq_or_of_lt (i := 23) (b := m) (by norm_num; omega) 1
      rw [Nat.shiftLeft_eq, Nat.one_mul, ← Nat.mul_one (2 ^ 23), ← this]
  have hs1 : 0 < sig 23 m e ∧ sig 23 m e < 16777216 := by
    unfold sig; split
    · subst_vars; omega
    · norm_num; omega
  have hmt : Mant32 (decide (sig 23 m e % 2 = 0)) (sig 23 m e) (4 * sig 23 m e - 1 - shOf m e) (4 * sig 23 m e) (4 * sig 23 m e + 2) (shOf m e) := by
    refine ⟨hs1.1, hs1.2, rfl, rfl, rfl, ?_, rfl⟩
    unfold shOf
    split
    · exact Or.inl rfl
    · right; refine ⟨rfl, ?_⟩
      unfold sig; rw [if_neg (by omega)]; norm_num; omega
  have hone : f32.one = 2 ^ 149 := rfl
  have heven : ((sig 23 m e &&& 1 == 0) : Bool) = decide (sig 23 m e % 2 = 0) := by
    rw [Nat.and_one_is_mod]; by_cases h : sig 23 m e % 2 = 0 <;> simp [h]
  have hshle : shOf m e ≤ 1 := by unfold shOf; split <;> omega
  have hw1 : w32 (4 * sig 23 m e) = 4 * sig 23 m e := w32_of_lt (by omega)
  have hw2 : w32 (4 * sig 23 m e + 2) = 4 * sig 23 m e + 2 := w32_of_lt (by omega)
  have hw3 : sub32 (sub32 (4 * sig 23 m e) 1) (shOf m e) = 4 * sig 23 m e - 1 - shOf m e := by
    rw [sub32_of_le (x := 4 * sig 23 m e) (by omega) (by omega), sub32_of_le (by omega) (by omega)]
  have hf : f2d p m e = (do
      let e2 : Int := if e = 0 then 1 - 127 - 23 - 2 else (e : Int) - 127 - 23 - 2
      let x ← if e2 ≥ 0 then f2dPos p e2 (4 * sig 23 m e) (4 * sig 23 m e + 2) (4 * sig 23 m e - 1 - shOf m e) (decide (sig 23 m e % 2 = 0))
        else f2dNeg p e2 (4 * sig 23 m e) (4 * sig 23 m e + 2) (4 * sig 23 m e - 1 - shOf m e) (shOf m e) (decide (sig 23 m e % 2 = 0))
      let y ← f2dStep4 (decide (sig 23 m e % 2 = 0)) x.1
      pure (y.1, x.2 + y.2)) := by
    rw [f2d]
    simp only
    rw [hsig, heven, hw1, hw2, show (if m ≠ 0 ∨ e ≤ 1 then 1 else 0) = shOf m e from rfl, hw3]
  rw [hf]
  have hmap : ∀ (s : Red) (k : Int) (a : Bool), (do
      let y ← f2dStep4 a s
      pure (y.1, k + y.2)) = (f2dStep4 a s).map fun y => (y.1, k + (y.2 : Int)) := by
    intro s k a
    cases f2dStep4 a s <;> rfl
  by_cases hE : 152 ≤ e
  · obtain ⟨q, s, h1, h2, h3, h4, h5⟩ := f2dPos_start p (e := e - 152) (by omega) (by unfold sig; rw [if_neg (by omega)]; norm_num) hmt
    refine ⟨_, _, (q : Int), s, scaled_pos f32 hone (e := e - 152) (by omega) h1, Nat.pow_pos (by decide), h3, h4, h5, ?_⟩
    have hk : (if e = 0 then (1 : Int) - 127 - 23 - 2 else (e : Int) - 127 - 23 - 2) = ((e - 152 : Nat) : Int) := by
      rw [if_neg (by omega)]; omega
    simp only
    rw [hk, if_pos (by omega), h2, some_bind]
    exact hmap _ _ _
  · have hk : (if e = 0 then (1 : Int) - 127 - 23 - 2 else (e : Int) - 127 - 23 - 2) = -((151 - (e - 1) : Nat) : Int) := by
      split <;> omega
    obtain ⟨q, s, h1, h2, h3, h4, h5⟩ := f2dNeg_start p (e := 151 - (e - 1)) (by omega) (by omega) hmt
    refine ⟨_, _, (q : Int) + -((151 - (e - 1) : Nat) : Int), s, scaled_neg f32 hone (e := 151 - (e - 1)) (by omega) (by omega), Nat.two_pow_pos _, h3,
      h4, h5, ?_⟩
    simp only
    rw [hk, if_neg (by omega), h2, some_bind]
    exact hmap _ _ _

theorem f2d_best (p : Bool) {m e : Nat} (hm : m < 8388608) (he : e < 255) (h0 : 0 < e * 8388608 + m) :
    ∃ o k, f2d p m e = some (o, k) ∧ DecBest f32 (e * 8388608 + m) o k ∧ o < 1000000000 := by
  obtain ⟨N, D, e10, s, hs, hD, hst, hvp, hvm, hf⟩ := f2d_start p hm he h0
  obtain ⟨o, r, h1, h2, h3⟩ := step4_best (f := 19) hst (Nat.lt_of_lt_of_le hvp (by norm_num)) (Nat.lt_of_lt_of_le hvm (by norm_num))
  have ho : o < 1000000000 := by
    have : upper (decide (sig 23 m e % 2 = 0)) ((4 * sig 23 m e + 2) * N) D / 10 = s.vp / 10 := hst.hvp.symm
    have h4 : o ≤ upper (decide (sig 23 m e % 2 = 0)) ((4 * sig 23 m e + 2) * N) D := Nat.le_trans h3 (Nat.div_le_self _ _)
    omega
  have hres : f2d p m e = some (o, e10 + r) := by
    rw [hf, f2dStep4_eq, h1]
    simp only [Option.map_some]
    rw [w32_of_lt (by omega)]
  have hpat := pat_of f32 (m := m) (e := e) (t := e * 8388608 + m) (by exact hm) rfl h0
  refine ⟨o, e10 + r, hres, decBest_of_best hpat ?_ hs hD h2 ?_, ho⟩
  · rw [parity_of f32 (by decide) (m := m) (e := e) (t := e * 8388608 + m) rfl]; rfl
  · intro h9
    have h9 : sig 23 m e ≤ 9 := h9
    have he0 : e = 0 := by
      by_contra hc
      unfold sig at h9; rw [if_neg hc] at h9; norm_num at h9; omega
    subst he0
    rw [sig, if_pos rfl] at h9
    rw [Nat.zero_mul, Nat.zero_add] at *
    exact small32 h0 h9 hres

end Nanostl.Ryu

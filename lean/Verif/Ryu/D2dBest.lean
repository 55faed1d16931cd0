import Verif.Ryu.D2d
import Verif.Ryu.Pattern

/-!
`d2d` finds the best decimal of every positive finite double; so does the short cut for small integers.
-/

namespace Nanostl.Ryu
open Nanostl.Float

def smallChk64 (p : Bool) (m : Nat) : Bool :=
  match d2d p m 0 with
  | some (o, e) => decide (SmallOK f64 m o e)
  | none => false

theorem smallChk64_all : allBelow 9 (fun m => smallChk64 true (m + 1) && smallChk64 false (m + 1)) = true := by decide +kernel

theorem small64 {p : Bool} {m o : Nat} {e : Int} (h0 : 0 < m) (h : m ≤ 9) (hf : d2d p m 0 = some (o, e)) : SmallOK f64 m o e := by
  have := allBelow_sound smallChk64_all (m - 1) (by omega)
  rw [show m - 1 + 1 = m by omega, Bool.and_eq_true] at this
  have h1 : smallChk64 p m = true := by cases p; exact this.2; exact this.1
  rw [smallChk64, hf] at h1
  simpa using h1

/-- The interval is too narrow to need many digits. -/
theorem digits_le {acc : Bool} {mm mp N D o r vN : Nat} (hD : 0 < D) (hN : 0 < N) (hb : Best acc (mm * N) vN (mp * N) D o r) : o * (mp - mm) ≤ 10 * mp := by
  have h1 : (mp - mm) * N ≤ D * 10 ^ (r + 1) := by
    by_contra hc
    have hG : 0 < D * 10 ^ (r + 1) := Nat.mul_pos hD (Nat.pow_pos (by decide))
    refine hb.shortest (mm * N / (D * 10 ^ (r + 1)) + 1) ?_
    rw [Nat.sub_mul] at hc
    have h2 := Nat.div_mul_le_self (mm * N) (D * 10 ^ (r + 1))
    have h3 := Nat.lt_mul_div_succ (mm * N) hG
    rw [Nat.mul_comm (D * 10 ^ (r + 1))] at h3
    have h4 : (mm * N / (D * 10 ^ (r + 1)) + 1) * (D * 10 ^ (r + 1)) = mm * N / (D * 10 ^ (r + 1)) * (D * 10 ^ (r + 1)) + D * 10 ^ (r + 1) := by ring
    unfold InI
    cases acc <;> simp only [Bool.false_eq_true, if_false, if_true] <;> omega
  have h2 : o * (D * 10 ^ r) ≤ mp * N := by
    have := hb.mem
    unfold InI at this
    cases acc <;> simp only [Bool.false_eq_true, if_false, if_true] at this <;> omega
  refine Nat.le_of_mul_le_mul_right ?_ hN
  calc o * (mp - mm) * N = o * ((mp - mm) * N) := by ring
    _ ≤ o * (D * 10 ^ (r + 1)) := Nat.mul_le_mul_left _ h1
    _ = 10 * (o * (D * 10 ^ r)) := by rw [Nat.pow_succ]; ring
    _ ≤ 10 * (mp * N) := Nat.mul_le_mul_left _ h2
    _ = 10 * mp * N := by ring

theorem sig_or64 {m : Nat} (hm : m < 4503599627370496) : (1 <<< 52) ||| m = 2 ^ 52 + m := by
  have := Nat.two_pow_add_eq_or_of_lt (i := 52) (b := m) (by norm_num; omega) 1
  rw [Nat.shiftLeft_eq, Nat.one_mul, ← Nat.mul_one (2 ^ 52), ← this]

theorem sig_bound64 {m e : Nat} (hm : m < 4503599627370496) (h0 : 0 < e * 4503599627370496 + m) : 0 < sig 52 m e ∧ sig 52 m e < 9007199254740992 := by
  unfold sig; split
  · subst_vars; omega
  · norm_num; omega

set_option exponentiation.threshold 1100 in
theorem d2d_start (p : Bool) {m e : Nat} (hm : m < 4503599627370496) (he : e < 2047) (h0 : 0 < e * 4503599627370496 + m) :
    ∃ N D e10 s, Scaled f64 (e - 1) N D e10 ∧ 0 < D ∧ 0 < N ∧
      Start (decide (sig 52 m e % 2 = 0)) ((4 * sig 52 m e - 1 - shOf m e) * N) (4 * sig 52 m e * N) ((4 * sig 52 m e + 2) * N) D s ∧
      s.vp < 9223372036854775808 ∧ s.vm < 9223372036854775808 ∧ s.vr < 9223372036854775808 ∧ s.last = 0 ∧
      d2d p m e = (d2dStep4 p (decide (sig 52 m e % 2 = 0)) s).map fun y => (y.1, e10 + y.2) := by
  have hsig : (if e = 0 then m else (1 <<< 52) ||| m) = sig 52 m e := by
    unfold sig
    split
    · rfl
    · exact sig_or64 hm
  have hs1 := sig_bound64 hm h0
  have hmt : Mant64 (decide (sig 52 m e % 2 = 0)) (sig 52 m e) (shOf m e) := by
    refine ⟨hs1.1, hs1.2, ?_, rfl⟩
    unfold shOf
    split
    · exact Or.inl rfl
    · right; refine ⟨rfl, ?_⟩
      unfold sig; rw [if_neg (by omega)]; norm_num; omega
  have hone : f64.one = 2 ^ 1074 := rfl
  have heven : ((sig 52 m e &&& 1 == 0) : Bool) = decide (sig 52 m e % 2 = 0) := by
    rw [Nat.and_one_is_mod]; by_cases h : sig 52 m e % 2 = 0 <;> simp [h]
  have hw1 : w64 (4 * sig 52 m e) = 4 * sig 52 m e := w64_of_lt (by omega)
  have hf : d2d p m e = (do
      let e2 : Int := if e = 0 then 1 - 1023 - 52 - 2 else (e : Int) - 1023 - 52 - 2
      let x ← if e2 ≥ 0 then d2dPos p e2 (sig 52 m e) (4 * sig 52 m e) (shOf m e) (decide (sig 52 m e % 2 = 0))
        else d2dNeg e2 (sig 52 m e) (4 * sig 52 m e) (shOf m e) (decide (sig 52 m e % 2 = 0))
      let y ← d2dStep4 p (decide (sig 52 m e % 2 = 0)) x.1
      pure (y.1, x.2 + y.2)) := by
    rw [d2d]
    simp only
    rw [hsig, heven, hw1, show (if m ≠ 0 ∨ e ≤ 1 then 1 else 0) = shOf m e from rfl]
  rw [hf]
  have hmap : ∀ (s : Red) (k : Int) (a : Bool), (do
      let y ← d2dStep4 p a s
      pure (y.1, k + y.2)) = (d2dStep4 p a s).map fun y => (y.1, k + (y.2 : Int)) := by
    intro s k a
    cases d2dStep4 p a s <;> rfl
  by_cases hE : 1077 ≤ e
  · obtain ⟨q, s, h1, h2, h3, h4, h5, h6, h7⟩ := d2dPos_start p (e := e - 1077) (by omega) hmt
    refine ⟨_, _, (q : Int), s, scaled_pos f64 hone (e := e - 1077) (by omega) h1, Nat.pow_pos (by decide), Nat.two_pow_pos _, h3, h4, h5, h6, h7, ?_⟩
    have hk : (if e = 0 then (1 : Int) - 1023 - 52 - 2 else (e : Int) - 1023 - 52 - 2) = ((e - 1077 : Nat) : Int) := by
      rw [if_neg (by omega)]; omega
    simp only
    rw [hk, if_pos (by omega), h2, some_bind]
    exact hmap _ _ _
  · have hk : (if e = 0 then (1 : Int) - 1023 - 52 - 2 else (e : Int) - 1023 - 52 - 2) = -((1076 - (e - 1) : Nat) : Int) := by
      split <;> omega
    obtain ⟨q, s, h1, h2, h3, h4, h5, h6, h7⟩ := d2dNeg_start (e := 1076 - (e - 1)) (by omega) (by omega) hmt
    refine ⟨_, _, (q : Int) + -((1076 - (e - 1) : Nat) : Int), s, scaled_neg f64 hone (e := 1076 - (e - 1)) (by omega) (by omega), Nat.two_pow_pos _,
      Nat.pow_pos (by decide), h3, h4, h5, h6, h7, ?_⟩
    simp only
    rw [hk, if_neg (by omega), h2, some_bind]
    exact hmap _ _ _

theorem d2d_best (p : Bool) {m e : Nat} (hm : m < 4503599627370496) (he : e < 2047) (h0 : 0 < e * 4503599627370496 + m) :
    ∃ o k, d2d p m e = some (o, k) ∧ DecBest f64 (e * 4503599627370496 + m) o k ∧ o < 100000000000000000 := by
  obtain ⟨N, D, e10, s, hs, hD, hN, hst, hvp, hvm, hvr, hl, hf⟩ := d2d_start p hm he h0
  obtain ⟨o, r, h1, h2, h3⟩ := step4_best (f := 29) hst (Nat.lt_of_lt_of_le hvp (by norm_num)) (Nat.lt_of_lt_of_le hvm (by norm_num))
  have hs1 := sig_bound64 hm h0
  have ho : o < 100000000000000000 := by
    have h4 := digits_le hD hN h2
    by_cases hc : m ≠ 0 ∨ e ≤ 1
    · rw [shOf, if_pos hc, show 4 * sig 52 m e + 2 - (4 * sig 52 m e - 1 - 1) = 4 by omega] at h4
      omega
    · have : sig 52 m e = 4503599627370496 := by unfold sig; rw [if_neg (by omega)]; norm_num; omega
      rw [shOf, if_neg hc, show 4 * sig 52 m e + 2 - (4 * sig 52 m e - 1 - 0) = 3 by omega, this] at h4
      omega
  have hres : d2d p m e = some (o, e10 + r) := by
    rw [hf, d2dStep4_eq p _ s (by unfold W64; omega) (by unfold W64; omega) (by unfold W64; omega) hl hst.hrem, h1]
    simp only [Option.map_some]
    rw [w64_of_lt (by omega)]
  have hpat := pat_of f64 (m := m) (e := e) (t := e * 4503599627370496 + m) (by exact hm) rfl h0
  refine ⟨o, e10 + r, hres, decBest_of_best hpat ?_ hs hD h2 ?_, ho⟩
  · rw [parity_of f64 (by decide) (m := m) (e := e) (t := e * 4503599627370496 + m) rfl]; rfl
  · intro h9
    have h9 : sig 52 m e ≤ 9 := h9
    have he0 : e = 0 := by
      by_contra hc
      unfold sig at h9; rw [if_neg hc] at h9; norm_num at h9; omega
    subst he0
    rw [sig, if_pos rfl] at h9
    rw [Nat.zero_mul, Nat.zero_add] at *
    exact small64 h0 h9 hres

end Nanostl.Ryu

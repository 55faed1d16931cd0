import Verif.FastFloat.Big
import Verif.FastFloat.ComputeProps

/-!
The leading 64 bits and the length in bits of a big integer.
-/

namespace Nanostl.FastFloat
open Nanostl.Ryu (w64 chk some_bind chk_pos)

variable [Limb]

omit [Limb] in
theorem rindex_append {v : Limbs} {x : Nat} : rindex (v ++ [x]) 0 = some x := by
  rw [rindex, chk_pos (by simp), some_bind]
  simp

theorem nonzeroFrom_spec (v : Limbs) : ∀ (f i : Nat), v.length - i < f → i ≤ v.length → nonzeroFrom v f i = some (decide (val (v.take (v.length - i)) ≠ 0))
  | 0, _, h, _ => by omega
  | f + 1, i, h, hi => by
    rw [nonzeroFrom]
    by_cases hlt : i < v.length
    · rw [if_pos hlt, rindex, chk_pos hlt, some_bind]
      have hj : v.length - i - 1 < v.length := by omega
      rw [List.getElem?_eq_getElem hj, some_bind]
      have ht : v.take (v.length - i) = v.take (v.length - i - 1) ++ [v[v.length - i - 1]] := by
        conv_lhs => rw [show v.length - i = (v.length - i - 1) + 1 by omega, List.take_add_one, List.getElem?_eq_getElem hj]
        rfl
      have hv : val (v.take (v.length - i)) = val (v.take (v.length - i - 1)) +
          2 ^ (limbBits * (v.take (v.length - i - 1)).length) * v[v.length - i - 1] := by
        rw [ht, val_append]
        simp [val]
      by_cases h0 : v[v.length - i - 1] ≠ 0
      · rw [if_pos h0]
        have : 0 < 2 ^ (limbBits * (v.take (v.length - i - 1)).length) * v[v.length - i - 1] := Nat.mul_pos (Nat.two_pow_pos _) (by omega)
        rw [decide_eq_true (by omega)]
        rfl
      · rw [if_neg h0, nonzeroFrom_spec v f (i + 1) (by omega) hlt]
        rw [show v[v.length - i - 1] = 0 by omega, Nat.mul_zero, Nat.add_zero] at hv
        rw [hv, show v.length - (i + 1) = v.length - i - 1 by omega]
    · rw [if_neg hlt, show v.length - i = 0 by omega]
      simp [val]

/-- What the leading bits say about the number. -/
structure Lead (n bl m : Nat) (tr : Bool) : Prop where
  ge : 2 ^ (bl - 1) ≤ n
  lt : n < 2 ^ bl
  pos : 1 ≤ bl
  m_ge : 2 ^ 63 ≤ m
  m_lt : m < 2 ^ 64
  exact : tr = false → n * 2 ^ 64 = m * 2 ^ bl
  trunc : tr = true → m * 2 ^ bl < n * 2 ^ 64 ∧ n * 2 ^ 64 < (m + 1) * 2 ^ bl

omit [Limb] in
theorem lead_of {n bl m rem : Nat} {tr : Bool} (hm : 2 ^ 63 ≤ m) (hm' : m < 2 ^ 64) (h : n * 2 ^ 64 = m * 2 ^ bl + rem) (hr : rem < 2 ^ bl)
    (ht : tr = decide (rem ≠ 0)) (hp : 1 ≤ bl) : Lead n bl m tr := by
  refine ⟨?_, ?_, hp, hm, hm', ?_, ?_⟩
  · have h1 : 2 ^ 63 * 2 ^ bl ≤ m * 2 ^ bl := Nat.mul_le_mul_right _ hm
    have h2 : 2 ^ 63 * 2 ^ bl = 2 ^ (bl - 1) * 2 ^ 64 := by rw [← Nat.pow_add, ← Nat.pow_add]; congr 1; omega
    have h3 : 2 ^ (bl - 1) * 2 ^ 64 ≤ n * 2 ^ 64 := by omega
    exact Nat.le_of_mul_le_mul_right h3 (by decide)
  · have h1 : (m + 1) * 2 ^ bl ≤ 2 ^ 64 * 2 ^ bl := Nat.mul_le_mul_right _ hm'
    rw [Nat.add_mul, Nat.one_mul] at h1
    have h3 : n * 2 ^ 64 < 2 ^ bl * 2 ^ 64 := by rw [Nat.mul_comm (2 ^ bl)]; omega
    exact Nat.lt_of_mul_lt_mul_right h3
  · intro h0
    rw [h0] at ht
    have : rem = 0 := by simpa using ht
    omega
  · intro h0
    rw [h0] at ht
    have : rem ≠ 0 := by simpa using ht
    rw [Nat.add_mul, Nat.one_mul]
    omega

omit [Limb] in
theorem lz_unique {x s t : Nat} (h1 : 2 ^ 63 ≤ x * 2 ^ s) (h2 : x * 2 ^ s < 2 ^ 64) (h3 : 2 ^ 63 ≤ x * 2 ^ t) (h4 : x * 2 ^ t < 2 ^ 64) : s = t := by
  have key : ∀ {a b : Nat}, a < b → 2 ^ 63 ≤ x * 2 ^ a → x * 2 ^ b < 2 ^ 64 → False := by
    intro a b hab ha hb
    have e1 : 2 ^ (a + 1) ≤ 2 ^ b := Nat.pow_le_pow_right (by decide) hab
    have e2 := Nat.mul_le_mul_left x e1
    rw [Nat.pow_succ, ← Nat.mul_assoc] at e2
    omega
  rcases Nat.lt_trichotomy s t with h | h | h
  · exact (key h h1 h4).elim
  · exact h
  · exact (key h h3 h2).elim

omit [Limb] in
/-- One word. -/
theorem hi64One_spec {r0 s : Nat} (l1 : leadingZeroes r0 = some s) (l2 : s ≤ 63) (l3 : w64 (r0 <<< s) = r0 * 2 ^ s) (l4 : 2 ^ 63 ≤ r0 * 2 ^ s) (l5 : r0 * 2 ^ s < 2 ^ 64) :
    hi64One r0 = some (r0 * 2 ^ s, false) ∧ Lead r0 (64 - s) (r0 * 2 ^ s) false := by
  have e64 : (2 : Nat) ^ 64 = 2 ^ s * 2 ^ (64 - s) := by rw [← Nat.pow_add]; congr 1; omega
  refine ⟨by rw [hi64One, l1, some_bind, l3]; rfl, ?_⟩
  refine lead_of (rem := 0) l4 l5 ?_ (Nat.two_pow_pos _) (by simp) (by omega)
  rw [e64, Nat.add_zero, Nat.mul_assoc]

omit [Limb] in
/-- Two words, and `R` below them. -/
theorem hi64Two_spec {r0 r1 s p R : Nat} (hr1 : r1 < 2 ^ 64) (l1 : leadingZeroes r0 = some s) (l2 : s ≤ 63) (l4 : 2 ^ 63 ≤ r0 * 2 ^ s) (l5 : r0 * 2 ^ s < 2 ^ 64)
    (hR : R < 2 ^ p) : ∃ m t, hi64Two r0 r1 = some (m, t) ∧ Lead (R + 2 ^ p * r1 + 2 ^ 64 * 2 ^ p * r0) (p + 128 - s) m (t || decide (R ≠ 0)) := by
  have e64 : (2 : Nat) ^ 64 = 2 ^ s * 2 ^ (64 - s) := by rw [← Nat.pow_add]; congr 1; omega
  have hm : hi64Two r0 r1 = some (r0 * 2 ^ s + r1 / 2 ^ (64 - s), decide (r1 * 2 ^ s % 2 ^ 64 ≠ 0)) := by
    rw [hi64Two, l1, some_bind]
    by_cases hs : s = 0
    · rw [if_pos hs, hs, Nat.pow_zero, Nat.mul_one, Nat.mul_one, Nat.sub_zero, Nat.div_eq_of_lt hr1, Nat.mod_eq_of_lt hr1]
      rfl
    · rw [if_neg hs]
      simp only
      rw [w64, shl_or hr1 (by omega), Nat.shiftLeft_eq, w64]
      have : r0 < 2 ^ (64 - s) := by
        rw [e64, Nat.mul_comm (2 ^ s)] at l5
        exact Nat.lt_of_mul_lt_mul_right l5
      rw [Nat.mod_eq_of_lt this]
      rfl
  refine ⟨_, _, hm, ?_⟩
  have hr1' : r1 / 2 ^ (64 - s) < 2 ^ s := by
    rw [Nat.div_lt_iff_lt_mul (Nat.two_pow_pos _), ← e64]; exact hr1
  -- the part of the second word below the leading bits
  have e1 : r1 * 2 ^ s = r1 / 2 ^ (64 - s) * 2 ^ 64 + r1 * 2 ^ s % 2 ^ 64 := by
    have h1 : r1 * 2 ^ s / 2 ^ 64 = r1 / 2 ^ (64 - s) := by
      rw [e64, Nat.mul_comm (2 ^ s), Nat.mul_div_mul_right _ _ (Nat.two_pow_pos _)]
    rw [← h1, Nat.mul_comm (_ / _)]
    exact (Nat.div_add_mod _ _).symm
  have e2 : r1 * 2 ^ s % 2 ^ 64 + 2 ^ s ≤ 2 ^ 64 := by
    rw [e64, Nat.mul_comm (2 ^ s), Nat.mul_mod_mul_right]
    have h1 : r1 % 2 ^ (64 - s) + 1 ≤ 2 ^ (64 - s) := Nat.mod_lt _ (Nat.two_pow_pos _)
    have h2 := Nat.mul_le_mul_right (2 ^ s) h1
    rw [Nat.add_mul, Nat.one_mul] at h2
    exact h2
  have ebl : 2 ^ (p + 128 - s) = 2 ^ p * 2 ^ 64 * 2 ^ (64 - s) := by
    rw [← Nat.pow_add, ← Nat.pow_add]; congr 1; omega
  refine lead_of (rem := (2 ^ p * (r1 * 2 ^ s % 2 ^ 64) + R * 2 ^ s) * 2 ^ (64 - s)) ?_ ?_ ?_ ?_ ?_ (by omega)
  · omega
  · have h1 : r0 < 2 ^ (64 - s) := by
      rw [e64, Nat.mul_comm (2 ^ s)] at l5
      exact Nat.lt_of_mul_lt_mul_right l5
    have h2 := Nat.mul_le_mul_right (2 ^ s) h1
    rw [Nat.succ_eq_add_one, Nat.add_mul, Nat.one_mul, Nat.mul_comm (2 ^ (64 - s)), ← e64] at h2
    omega
  · rw [ebl]
    generalize hP : 2 ^ p = P
    generalize r1 * 2 ^ s % 2 ^ 64 = ρ at *
    generalize r1 / 2 ^ (64 - s) = c at *
    have hh : (R + P * r1 + 2 ^ 64 * P * r0) * 2 ^ s = P * 2 ^ 64 * (r0 * 2 ^ s + c) + P * ρ + R * 2 ^ s := by
      calc (R + P * r1 + 2 ^ 64 * P * r0) * 2 ^ s = R * 2 ^ s + P * (r1 * 2 ^ s) + 2 ^ 64 * P * (r0 * 2 ^ s) := by
            generalize (2 : Nat) ^ 64 = B
            ring
        _ = _ := by
            rw [e1]
            generalize (2 : Nat) ^ 64 = B
            ring
    calc (R + P * r1 + 2 ^ 64 * P * r0) * 2 ^ 64 = (R + P * r1 + 2 ^ 64 * P * r0) * 2 ^ s * 2 ^ (64 - s) := by
          rw [Nat.mul_assoc _ (2 ^ s), ← e64]
      _ = _ := by
          rw [hh]
          generalize (2 : Nat) ^ 64 = B
          ring
  · rw [ebl]
    refine Nat.mul_lt_mul_of_pos_right ?_ (Nat.two_pow_pos _)
    calc 2 ^ p * (r1 * 2 ^ s % 2 ^ 64) + R * 2 ^ s
        < 2 ^ p * (r1 * 2 ^ s % 2 ^ 64) + 2 ^ p * 2 ^ s :=
          Nat.add_lt_add_left (Nat.mul_lt_mul_of_pos_right hR (Nat.two_pow_pos _)) _
      _ = 2 ^ p * (r1 * 2 ^ s % 2 ^ 64 + 2 ^ s) := by rw [Nat.mul_add]
      _ ≤ _ := Nat.mul_le_mul_left _ e2
  · have p1 := Nat.two_pow_pos p
    have p2 := Nat.two_pow_pos s
    have p3 := Nat.two_pow_pos (64 - s)
    rw [← Bool.decide_or]
    rw [decide_eq_decide]
    simp only [ne_eq, Nat.mul_eq_zero, Nat.add_eq_zero_iff]
    omega

omit [Limb] in
theorem two_halves {a b : Nat} (ha : a < 2 ^ 32) (hb : b < 2 ^ 32) : w64 (a <<< 32) ||| b = a * 2 ^ 32 + b := by
  have h1 : w64 (a <<< 32) = a <<< 32 := by
    rw [w64, Nat.shiftLeft_eq, Nat.mod_eq_of_lt (by omega)]
  rw [h1, ← Nat.shiftLeft_add_eq_or_of_lt hb, Nat.shiftLeft_eq]

omit [Limb] in
theorem pair_lz {a b s : Nat} (hs : s ≤ 31) (hb : b < 2 ^ 32) (h1 : 2 ^ 63 ≤ a * 2 ^ 32 * 2 ^ s) (h2 : a * 2 ^ 32 * 2 ^ s < 2 ^ 64) :
    2 ^ 63 ≤ (a * 2 ^ 32 + b) * 2 ^ s ∧ (a * 2 ^ 32 + b) * 2 ^ s < 2 ^ 64 := by
  have e64 : (2 : Nat) ^ 64 = 2 ^ (64 - s) * 2 ^ s := by rw [← Nat.pow_add]; congr 1; omega
  have e32 : (2 : Nat) ^ (64 - s) = 2 ^ (32 - s) * 2 ^ 32 := by rw [← Nat.pow_add]; congr 1; omega
  constructor
  · rw [Nat.add_mul]; omega
  · rw [e64] at h2 ⊢
    have g1 := Nat.lt_of_mul_lt_mul_right h2
    rw [e32] at g1
    have g2 : a + 1 ≤ 2 ^ (32 - s) := Nat.lt_of_mul_lt_mul_right g1
    have g3 := Nat.mul_le_mul_right (2 ^ 32) g2
    rw [← e32, Nat.add_mul, Nat.one_mul] at g3
    have g4 : a * 2 ^ 32 + b < 2 ^ (64 - s) := Nat.lt_of_lt_of_le (Nat.add_lt_add_left hb _) g3
    exact Nat.mul_lt_mul_of_pos_right g4 (Nat.two_pow_pos _)

theorem bitLength_append {v : Limbs} {x lz : Nat} (h : leadingZeroes (if Limb.narrow then w64 (x <<< 32) else x) = some lz) :
    bitLength (v ++ [x]) = some (limbBits * ((v.length : Int) + 1) - lz) := by
  rw [bitLength, ctlz, if_neg (by simp), rindex_append, some_bind, h, some_bind]
  simp

/-- Limbs of 32 bits. -/
theorem hi64_narrow {u : Limbs} {n r0 s : Nat} (hN : Limb.narrow = true) (hB : limbBits = 32) (wu : WF u) (hr0 : r0 < 2 ^ limbBits) (hr0' : 0 < r0)
    (hval : val u + 2 ^ (limbBits * u.length) * r0 = n) (l1 : leadingZeroes r0 = some s) (l2 : s ≤ 63) (l3 : w64 (r0 <<< s) = r0 * 2 ^ s) (l4 : 2 ^ 63 ≤ r0 * 2 ^ s)
    (l5 : r0 * 2 ^ s < 2 ^ 64) : ∃ (bl m : Nat) (tr : Bool), bitLength (u ++ [r0]) = some (bl : Int) ∧ hi64 (u ++ [r0]) = some (m, tr) ∧ Lead n bl m tr := by
  have hi : hi64 (u ++ [r0]) = hi64Narrow (u ++ [r0]) := by rw [hi64, if_pos hN]
  rw [hi]
  rw [hB] at hr0 hval
  have hsh : w64 (r0 <<< 32) = r0 * 2 ^ 32 := by rw [w64, Nat.shiftLeft_eq, Nat.mod_eq_of_lt (by omega)]
  obtain ⟨s', k1, k2, k3, k4, k5⟩ := normalise (w := r0 * 2 ^ 32) (by omega) (by omega)
  have hss : s = 32 + s' := by
    rw [Nat.mul_assoc, ← Nat.pow_add] at k4 k5
    exact lz_unique l4 l5 k4 k5
  have hbl := bitLength_append (v := u) (x := r0) (lz := s') (by rw [if_pos hN, hsh]; exact k1)
  rw [hB] at hbl
  rcases List.eq_nil_or_concat u with hu | ⟨w, r1, hu⟩
  · subst hu
    obtain ⟨a1, a2⟩ := hi64One_spec l1 l2 l3 l4 l5
    refine ⟨64 - s, r0 * 2 ^ s, false, ?_, ?_, ?_⟩
    · rw [hbl]; refine congrArg some ?_; simp only [List.length_nil]; omega
    · simp only [List.nil_append]
      rw [hi64Narrow, if_neg (by simp), if_pos (by simp)]
      have := rindex_append (v := []) (x := r0)
      rw [List.nil_append] at this
      rw [this, some_bind, a1]
    · simp [val] at hval
      rw [← hval]; exact a2
  · rw [List.concat_eq_append] at hu
    subst hu
    obtain ⟨ww, wr1⟩ := wf_append.1 wu
    have hr1 := (wf_cons.1 wr1).1
    rw [hB] at hr1
    have hlen : (w ++ [r1] ++ [r0]).length = w.length + 2 := by simp
    have hi1 : rindex (w ++ [r1] ++ [r0]) 1 = some r1 := by
      rw [rindex, chk_pos (by rw [hlen]; omega), some_bind, hlen]
      simp
    rw [val_append, List.length_append, List.length_singleton, hB] at hval
    simp only [val, Nat.mul_zero, Nat.add_zero] at hval
    rcases List.eq_nil_or_concat w with hw | ⟨z, r2, hw⟩
    · -- two limbs
      subst hw
      simp only [val, List.length_nil, Nat.mul_zero, Nat.zero_add, Nat.pow_zero, Nat.one_mul, Nat.mul_one] at hval
      obtain ⟨t, q1, q2, q3, q4, q5⟩ := normalise (w := r0 * 2 ^ 32 + r1) (by omega) (by omega)
      obtain ⟨a1, a2⟩ := hi64One_spec q1 q2 q3 q4 q5
      obtain ⟨g1, g2⟩ := pair_lz (by omega) hr1 k4 k5
      have hts : t = s' := lz_unique q4 q5 g1 g2
      refine ⟨64 - t, (r0 * 2 ^ 32 + r1) * 2 ^ t, false, ?_, ?_, ?_⟩
      · rw [hbl, hts]; refine congrArg some ?_; simp only [List.length_append, List.length_cons, List.length_nil]; omega
      · rw [hi64Narrow, if_neg (by rw [hlen]; omega), if_neg (by rw [hlen]; simp), if_pos (by rw [hlen]; rfl), rindex_append, some_bind, hi1, some_bind,
          hi64Pair, two_halves hr0 hr1, a1]
      · rw [← hval, show r1 + 2 ^ 32 * r0 = r0 * 2 ^ 32 + r1 by omega]; exact a2
    · -- three limbs and more
      rw [List.concat_eq_append] at hw
      subst hw
      obtain ⟨wz, wr2⟩ := wf_append.1 ww
      have hr2 := (wf_cons.1 wr2).1
      rw [hB] at hr2
      have hlen3 : (z ++ [r2] ++ [r1] ++ [r0]).length = z.length + 3 := by simp
      have hi2 : rindex (z ++ [r2] ++ [r1] ++ [r0]) 2 = some r2 := by
        rw [rindex, chk_pos (by rw [hlen3]; omega), some_bind, hlen3]
        simp
      have hnz := nonzeroFrom_spec (z ++ [r2] ++ [r1] ++ [r0]) ((z ++ [r2] ++ [r1] ++ [r0]).length + 1) 3 (by omega) (by omega)
      have htk : (z ++ [r2] ++ [r1] ++ [r0]).take ((z ++ [r2] ++ [r1] ++ [r0]).length - 3) = z := by rw [hlen3]; simp
      rw [htk] at hnz
      have hR := val_lt wz
      rw [hB] at hR
      obtain ⟨m, t, a1, a2⟩ := hi64Two_spec (r0 := r0) (r1 := r1 * 2 ^ 32 + r2) (by omega) l1 l2 l4 l5 hR
      refine ⟨32 * z.length + 128 - s, m, t || decide (val z ≠ 0), ?_, ?_, ?_⟩
      · rw [hbl, hss]; refine congrArg some ?_; simp only [List.length_append, List.length_cons, List.length_nil]; omega
      · rw [hi64Narrow, if_neg (by rw [hlen3]; omega), if_neg (by rw [hlen3]; omega), if_neg (by rw [hlen3]; omega), rindex_append, some_bind, hi1, some_bind,
          hi2, some_bind, hi64Three, two_halves hr1 hr2, a1, some_bind, hnz, some_bind]
        rfl
      · have e : n = val z + 2 ^ (32 * z.length) * (r1 * 2 ^ 32 + r2) + 2 ^ 64 * 2 ^ (32 * z.length) * r0 := by
          rw [← hval, val_append, hB, List.length_append, List.length_singleton]
          simp only [val, Nat.mul_zero, Nat.add_zero]
          rw [show 32 * (z.length + 1 + 1) = 64 + 32 * z.length by omega, show 32 * (z.length + 1) = 32 + 32 * z.length by omega, Nat.pow_add, Nat.pow_add]
          generalize 2 ^ (32 * z.length) = P
          ring
        rw [e]
        exact a2

/-- Limbs of 64 bits. -/
theorem hi64_wide {u : Limbs} {n r0 s : Nat} (hN : Limb.narrow = false) (hB : limbBits = 64) (wu : WF u)
    (hval : val u + 2 ^ (limbBits * u.length) * r0 = n) (l1 : leadingZeroes r0 = some s) (l2 : s ≤ 63) (l3 : w64 (r0 <<< s) = r0 * 2 ^ s) (l4 : 2 ^ 63 ≤ r0 * 2 ^ s)
    (l5 : r0 * 2 ^ s < 2 ^ 64) : ∃ (bl m : Nat) (tr : Bool), bitLength (u ++ [r0]) = some (bl : Int) ∧ hi64 (u ++ [r0]) = some (m, tr) ∧ Lead n bl m tr := by
  have hi : hi64 (u ++ [r0]) = hi64Wide (u ++ [r0]) := by rw [hi64, if_neg (by rw [hN]; decide)]
  rw [hi]
  rw [hB] at hval
  have hbl := bitLength_append (v := u) (x := r0) (lz := s) (by rw [if_neg (by rw [hN]; decide)]; exact l1)
  rw [hB] at hbl
  rcases List.eq_nil_or_concat u with hu | ⟨w, r1, hu⟩
  · subst hu
    obtain ⟨a1, a2⟩ := hi64One_spec l1 l2 l3 l4 l5
    refine ⟨64 - s, r0 * 2 ^ s, false, ?_, ?_, ?_⟩
    · rw [hbl]; refine congrArg some ?_; simp only [List.length_nil]; omega
    · simp only [List.nil_append]
      rw [hi64Wide, if_neg (by simp), if_pos (by simp)]
      have := rindex_append (v := []) (x := r0)
      rw [List.nil_append] at this
      rw [this, some_bind, a1]
    · simp [val] at hval
      rw [← hval]; exact a2
  · rw [List.concat_eq_append] at hu
    subst hu
    obtain ⟨ww, wr1⟩ := wf_append.1 wu
    have hr1 := (wf_cons.1 wr1).1
    rw [hB] at hr1
    have hlen : (w ++ [r1] ++ [r0]).length = w.length + 2 := by simp
    have hi1 : rindex (w ++ [r1] ++ [r0]) 1 = some r1 := by
      rw [rindex, chk_pos (by rw [hlen]; omega), some_bind, hlen]
      simp
    have hnz := nonzeroFrom_spec (w ++ [r1] ++ [r0]) ((w ++ [r1] ++ [r0]).length + 1) 2 (by omega) (by omega)
    have htk : (w ++ [r1] ++ [r0]).take ((w ++ [r1] ++ [r0]).length - 2) = w := by rw [hlen]; simp
    rw [htk] at hnz
    have hR := val_lt ww
    rw [hB] at hR
    obtain ⟨m, t, a1, a2⟩ := hi64Two_spec (r0 := r0) (r1 := r1) hr1 l1 l2 l4 l5 hR
    refine ⟨64 * w.length + 128 - s, m, t || decide (val w ≠ 0), ?_, ?_, ?_⟩
    · rw [hbl]; refine congrArg some ?_; simp only [List.length_append, List.length_cons, List.length_nil]; omega
    · rw [hi64Wide, if_neg (by rw [hlen]; omega), if_neg (by rw [hlen]; omega), rindex_append, some_bind, hi1, some_bind, a1, some_bind, hnz, some_bind]
      rfl
    · have e : n = val w + 2 ^ (64 * w.length) * r1 + 2 ^ 64 * 2 ^ (64 * w.length) * r0 := by
        rw [← hval, val_append, hB, List.length_append, List.length_singleton]
        simp only [val, Nat.mul_zero, Nat.add_zero]
        rw [show 64 * (w.length + 1) = 64 + 64 * w.length by omega, Nat.pow_add]
      rw [e]
      exact a2

/-- `hi64` and `bit_length`. -/
theorem hi64_spec {v : Limbs} {n : Nat} (h : Big v n) (h0 : 0 < n) :
    ∃ (bl m : Nat) (tr : Bool), bitLength v = some (bl : Int) ∧ hi64 v = some (m, tr) ∧ Lead n bl m tr := by
  have hne := h.ne_nil h0
  obtain ⟨u, r0, rfl⟩ : ∃ u r0, v = u ++ [r0] := ⟨v.dropLast, v.getLast hne, (List.dropLast_append_getLast hne).symm⟩
  obtain ⟨wu, wr⟩ := wf_append.1 h.wf
  have hr0 := (wf_cons.1 wr).1
  have hval := h.val
  rw [val_append] at hval
  simp only [val, Nat.mul_zero, Nat.add_zero] at hval
  have hr0' : 0 < r0 := by
    rcases Nat.eq_zero_or_pos r0 with hz | hz
    · exfalso
      have h1 := h.norm hne
      rw [List.length_append, List.length_singleton, Nat.add_sub_cancel] at h1
      rw [hz, Nat.mul_zero, Nat.add_zero] at hval
      have := val_lt wu
      omega
    · exact hz
  have hn : (Limb.narrow = true ∧ limbBits = 32) ∨ (Limb.narrow = false ∧ limbBits = 64) := by
    unfold limbBits
    cases Limb.narrow <;> simp
  have hr64 : r0 < 2 ^ 64 := by rcases hn with ⟨-, h2⟩ | ⟨-, h2⟩ <;> rw [h2] at hr0 <;> omega
  obtain ⟨s, l1, l2, l3, l4, l5⟩ := normalise hr0' hr64
  rcases hn with ⟨hN, hB⟩ | ⟨hN, hB⟩
  · exact hi64_narrow hN hB wu hr0 hr0' hval l1 l2 l3 l4 l5
  · exact hi64_wide hN hB wu hval l1 l2 l3 l4 l5

end Nanostl.FastFloat

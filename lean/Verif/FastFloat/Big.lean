import Verif.FastFloat.BigModel
import Verif.Ryu.Logs
import Mathlib.Tactic.Ring
import Mathlib.Tactic.Linarith

/-!
The big integers compute: every operation on a vector that holds `n` leaves one that holds the result, as long as that is within the capacity.
-/

namespace Nanostl.FastFloat
open Nanostl.Ryu (w64 chk some_bind chk_pos)

variable [Limb]

theorem limbBits_cases : (limbBits = 32 ∧ bigintLimbs = 125) ∨ (limbBits = 64 ∧ bigintLimbs = 62) := by
  unfold bigintLimbs limbBits
  cases Limb.narrow <;> simp

/-- Linear arithmetic for either width. -/
local macro "lomega" : tactic => `(tactic| (rcases limbBits_cases with ⟨hB, hL⟩ | ⟨hB, hL⟩ <;> (try simp only [hB, hL] at *) <;> omega))

theorem one_lt_limb : 1 < 2 ^ limbBits := by lomega

theorem pos_limb : 0 < 2 ^ limbBits := Nat.two_pow_pos _

/-- The number a vector of limbs holds. -/
def val : Limbs → Nat
  | [] => 0
  | x :: v => x + 2 ^ limbBits * val v

def WF (v : Limbs) : Prop := ∀ x ∈ v, x < 2 ^ limbBits

/-- The vector holds `n`, fits, and has no leading zeros. -/
structure Big (v : Limbs) (n : Nat) : Prop where
  wf : WF v
  len : v.length ≤ bigintLimbs
  val : FastFloat.val v = n
  norm : v ≠ [] → 2 ^ (limbBits * (v.length - 1)) ≤ n

/-- What fits in the limbs. -/
@[irreducible] def cap : Nat := 2 ^ (limbBits * bigintLimbs)

theorem lt_of_pow_lt_cap {k : Nat} (h : 2 ^ k < cap) : k < limbBits * bigintLimbs := by
  unfold cap at h
  exact (Nat.pow_lt_pow_iff_right (by decide : 1 < 2)).1 h

theorem wf_nil : WF [] := fun _ h => by simp at h

theorem wf_cons {x : Nat} {v : Limbs} : WF (x :: v) ↔ x < 2 ^ limbBits ∧ WF v := by simp [WF]

theorem wf_append {v w : Limbs} : WF (v ++ w) ↔ WF v ∧ WF w := by
  simp only [WF, List.mem_append]
  exact ⟨fun h => ⟨fun x hx => h x (Or.inl hx), fun x hx => h x (Or.inr hx)⟩, fun h x hx => hx.elim (h.1 x) (h.2 x)⟩

theorem pow64_succ (k : Nat) : 2 ^ (limbBits * (k + 1)) = 2 ^ limbBits * 2 ^ (limbBits * k) := by rw [Nat.mul_add, Nat.mul_one, Nat.add_comm, Nat.pow_add]

theorem val_append (v w : Limbs) : val (v ++ w) = val v + 2 ^ (limbBits * v.length) * val w := by
  induction v with
  | nil => simp [val]
  | cons x v ih =>
    rw [List.cons_append, val, val, ih, List.length_cons, pow64_succ]
    generalize (2 : Nat) ^ limbBits = B
    ring

theorem val_lt {v : Limbs} (h : WF v) : val v < 2 ^ (limbBits * v.length) := by
  induction v with
  | nil => simp [val]
  | cons x v ih =>
    obtain ⟨h1, h2⟩ := wf_cons.1 h
    have := ih h2
    rw [val, List.length_cons, pow64_succ]
    have h3 : 2 ^ limbBits * (val v + 1) ≤ 2 ^ limbBits * 2 ^ (limbBits * v.length) := Nat.mul_le_mul_left _ this
    rw [Nat.mul_add, Nat.mul_one] at h3
    omega

theorem val_replicate_zero (k : Nat) : val (List.replicate k 0) = 0 := by
  induction k with
  | zero => rfl
  | succ k ih => rw [List.replicate_succ, val, ih, Nat.mul_zero]

theorem wf_replicate_zero (k : Nat) : WF (List.replicate k 0) := fun x h => by
  rw [List.eq_of_mem_replicate h]; exact pos_limb

/-- A number below `2^(64 k)` takes at most `k` limbs. -/
theorem Big.len_le {v : Limbs} {n k : Nat} (h : Big v n) (hn : n < 2 ^ (limbBits * k)) : v.length ≤ k := by
  by_cases h0 : v = []
  · rw [h0]; exact Nat.zero_le _
  · have h1 := lt_of_le_of_lt (h.norm h0) hn
    have h2 := (Nat.pow_lt_pow_iff_right (by decide : 1 < 2)).1 h1
    have : v.length ≠ 0 := fun h => h0 (List.length_eq_zero_iff.1 h)
    have := Nat.lt_of_mul_lt_mul_left h2
    omega

theorem big_nil : Big [] 0 := ⟨wf_nil, by simp, rfl, fun h => absurd rfl h⟩

/-- Adding a nonzero limb at the end. -/
theorem push_spec {v : Limbs} {c : Nat} (hv : WF v) (hc : 0 < c) (hc' : c < 2 ^ limbBits) (hn : val v + 2 ^ (limbBits * v.length) * c < cap) :
    tryPush v c = (true, v ++ [c]) ∧ Big (v ++ [c]) (val v + 2 ^ (limbBits * v.length) * c) := by
  have h1 : 2 ^ (limbBits * v.length) ≤ 2 ^ (limbBits * v.length) * c := Nat.le_mul_of_pos_right _ hc
  have h2 : 2 ^ (limbBits * v.length) < cap := by omega
  have h3 := lt_of_pow_lt_cap h2
  have h4 : v.length < bigintLimbs := Nat.lt_of_mul_lt_mul_left h3
  refine ⟨by rw [tryPush, if_pos h4], ⟨wf_append.2 ⟨hv, wf_cons.2 ⟨hc', wf_nil⟩⟩, by rw [List.length_append, List.length_singleton]; omega, ?_, ?_⟩⟩
  · rw [val_append, val, val, Nat.mul_zero, Nat.add_zero]
  · intro _
    rw [List.length_append, List.length_singleton, Nat.add_sub_cancel]
    omega

/-! ### Addition of a word -/

theorem scalarAdd_spec {x y : Nat} (hx : x < 2 ^ limbBits) (hy : y < 2 ^ limbBits) :
    (scalarAdd x y).1 < 2 ^ limbBits ∧ (scalarAdd x y).1 + 2 ^ limbBits * (scalarAdd x y).2.toNat = x + y := by
  unfold scalarAdd wl
  refine ⟨Nat.mod_lt _ pos_limb, ?_⟩
  by_cases h : x + y ≥ 2 ^ limbBits
  · simp only [h, decide_true, Bool.toNat_true]; lomega
  · simp only [h, decide_false, Bool.toNat_false]; lomega

theorem addCarry_spec : ∀ (v : Limbs) (c : Nat), WF v → c < 2 ^ limbBits →
    WF (addCarry v c).1 ∧ (addCarry v c).1.length = v.length ∧ (addCarry v c).2 < 2 ^ limbBits ∧
    val (addCarry v c).1 + 2 ^ (limbBits * v.length) * (addCarry v c).2 = val v + c
  | [], c, _, hc => by simpa [addCarry, wf_nil, val] using hc
  | x :: v, c, h, hc => by
    obtain ⟨h1, h2⟩ := wf_cons.1 h
    rw [addCarry]
    by_cases h0 : c ≠ 0
    · rw [if_pos h0]
      obtain ⟨s1, s2⟩ := scalarAdd_spec h1 hc
      have hb : (scalarAdd x c).2.toNat < 2 ^ limbBits := by
        have := one_lt_limb
        cases (scalarAdd x c).2 <;> simp only [Bool.toNat_true, Bool.toNat_false] <;> omega
      obtain ⟨a, b, d, e⟩ := addCarry_spec v (scalarAdd x c).2.toNat h2 hb
      refine ⟨wf_cons.2 ⟨s1, a⟩, by simp [b], d, ?_⟩
      simp only
      rw [val, val, List.length_cons, pow64_succ, Nat.mul_assoc, Nat.add_assoc, ← Nat.mul_add, e]
      rw [Nat.mul_add]
      omega
    · rw [if_neg h0]
      refine ⟨h, rfl, hc, ?_⟩
      have : c = 0 := by omega
      rw [this]; simp

/-- `small_add`. -/
theorem smallAdd_spec {v : Limbs} {n y : Nat} (h : Big v n) (hy : y < 2 ^ limbBits) (hn : n + y < cap) :
    ∃ v', smallAdd v y = (true, v') ∧ Big v' (n + y) := by
  obtain ⟨a, b, c, d⟩ := addCarry_spec v y h.wf hy
  unfold smallAdd smallAddFrom
  simp only [List.drop_zero, List.take_zero, List.nil_append]
  rw [h.val] at d
  by_cases h0 : (addCarry v y).2 ≠ 0
  · rw [if_pos h0]
    rw [← b] at d
    obtain ⟨p1, p2⟩ := push_spec a (by omega) c (by rw [d]; exact hn)
    exact ⟨_, p1, by rwa [d] at p2⟩
  · rw [if_neg h0]
    rw [show (addCarry v y).2 = 0 by omega, Nat.mul_zero, Nat.add_zero] at d
    refine ⟨_, rfl, a, by rw [b]; exact h.len, d, fun hne => ?_⟩
    rw [b]
    refine le_trans (h.norm fun h1 => hne ?_) (Nat.le_add_right _ _)
    exact List.length_eq_zero_iff.1 (by rw [b, h1]; rfl)

/-! ### Multiplication by a word -/

theorem scalarMul_spec {x y c : Nat} (hx : x < 2 ^ limbBits) (hy : y < 2 ^ limbBits) (hc : c < 2 ^ limbBits) :
    (scalarMul x y c).1 < 2 ^ limbBits ∧ (scalarMul x y c).2 < 2 ^ limbBits ∧ (scalarMul x y c).1 + 2 ^ limbBits * (scalarMul x y c).2 = x * y + c := by
  unfold scalarMul wl
  have h1 : x * y ≤ (2 ^ limbBits - 1) * (2 ^ limbBits - 1) := Nat.mul_le_mul (by omega) (by omega)
  rw [Nat.shiftRight_eq_div_pow]
  generalize x * y = p at *
  refine ⟨Nat.mod_lt _ pos_limb, Nat.mod_lt _ pos_limb, ?_⟩
  simp only
  lomega

theorem mulCarry_spec : ∀ (v : Limbs) (y c : Nat), WF v → y < 2 ^ limbBits → c < 2 ^ limbBits →
    WF (mulCarry v y c).1 ∧ (mulCarry v y c).1.length = v.length ∧ (mulCarry v y c).2 < 2 ^ limbBits ∧
    val (mulCarry v y c).1 + 2 ^ (limbBits * v.length) * (mulCarry v y c).2 = val v * y + c
  | [], y, c, _, _, hc => by simpa [mulCarry, wf_nil, val] using hc
  | x :: v, y, c, h, hy, hc => by
    obtain ⟨h1, h2⟩ := wf_cons.1 h
    rw [mulCarry]
    obtain ⟨s1, s2, s3⟩ := scalarMul_spec h1 hy hc
    obtain ⟨a, b, d, e⟩ := mulCarry_spec v y (scalarMul x y c).2 h2 hy s2
    refine ⟨wf_cons.2 ⟨s1, a⟩, by simp [b], d, ?_⟩
    simp only
    rw [val, val, List.length_cons, pow64_succ, Nat.mul_assoc, Nat.add_assoc, ← Nat.mul_add, e]
    calc _ = (scalarMul x y c).1 + 2 ^ limbBits * (scalarMul x y c).2 + 2 ^ limbBits * (val v * y) := by rw [Nat.mul_add]; omega
      _ = _ := by rw [s3, Nat.add_mul, Nat.mul_assoc]; omega

/-- `small_mul`. -/
theorem smallMul_spec {v : Limbs} {n y : Nat} (h : Big v n) (h0 : 0 < y) (hy : y < 2 ^ limbBits) (hn : n * y < cap) :
    ∃ v', smallMul v y = (true, v') ∧ Big v' (n * y) := by
  obtain ⟨a, b, c, d⟩ := mulCarry_spec v y 0 h.wf hy pos_limb
  unfold smallMul
  simp only
  rw [h.val, Nat.add_zero] at d
  by_cases hc : (mulCarry v y 0).2 ≠ 0
  · rw [if_pos hc]
    rw [← b] at d
    obtain ⟨p1, p2⟩ := push_spec a (by omega) c (by rw [d]; exact hn)
    exact ⟨_, p1, by rwa [d] at p2⟩
  · rw [if_neg hc]
    rw [show (mulCarry v y 0).2 = 0 by omega, Nat.mul_zero, Nat.add_zero] at d
    refine ⟨_, rfl, a, by rw [b]; exact h.len, d, fun hne => ?_⟩
    rw [b]
    refine le_trans (h.norm fun h1 => hne ?_) (Nat.le_mul_of_pos_right _ h0)
    exact List.length_eq_zero_iff.1 (by rw [b, h1]; rfl)

/-! ### Addition of vectors -/

theorem addLoop_spec : ∀ (x y : Limbs) (c : Bool), WF x → WF y → y.length ≤ x.length →
    ∃ r c', addLoop x y c = some (r, c') ∧ WF r ∧ r.length = x.length ∧
      val r + 2 ^ (limbBits * y.length) * c'.toNat = val x + val y + c.toNat
  | x, [], c, hx, _, _ => by
    refine ⟨x, c, by rw [addLoop.eq_1], hx, rfl, ?_⟩
    simp [val]
  | [], _ :: _, _, _, _, h => by simp at h
  | xi :: x, yi :: y, c, hx, hy, hl => by
    obtain ⟨x1, x2⟩ := wf_cons.1 hx
    obtain ⟨y1, y2⟩ := wf_cons.1 hy
    obtain ⟨s1, s2⟩ := scalarAdd_spec x1 y1
    simp only [List.length_cons, Nat.add_le_add_iff_right] at hl
    obtain ⟨r, c', r1, r2, r3, r4⟩ := addLoop_spec x y
      ((scalarAdd xi yi).2 || (if c = true then scalarAdd (scalarAdd xi yi).1 1 else ((scalarAdd xi yi).1, false)).2) x2 y2 hl
    rw [addLoop]
    simp only [r1, some_bind]
    refine ⟨_, _, rfl, wf_cons.2 ⟨?_, r2⟩, by simp [r3], ?_⟩
    · split
      · exact (scalarAdd_spec s1 one_lt_limb).1
      · exact s1
    · rw [val, val, val, List.length_cons, pow64_succ, Nat.mul_assoc, Nat.add_assoc, ← Nat.mul_add, r4]
      cases c with
      | false =>
        simp only [Bool.false_eq_true, if_false, Bool.or_false, Bool.toNat_false]
        rw [Nat.mul_add, Nat.mul_add]; omega
      | true =>
        obtain ⟨t1, t2⟩ := scalarAdd_spec s1 one_lt_limb
        simp only [if_true, Bool.toNat_true]
        -- at most one of the two additions overflows
        have : ((scalarAdd xi yi).2 || (scalarAdd (scalarAdd xi yi).1 1).2).toNat = (scalarAdd xi yi).2.toNat + (scalarAdd (scalarAdd xi yi).1 1).2.toNat := by
          cases h1 : (scalarAdd xi yi).2 <;> cases h2 : (scalarAdd (scalarAdd xi yi).1 1).2 <;> simp
          rw [h1, Bool.toNat_true] at s2
          rw [h2, Bool.toNat_true] at t2
          omega
        rw [this, Nat.mul_add, Nat.mul_add, Nat.mul_add]
        omega

/-- What `large_add_from` and the loop of `long_mul` keep: a vector that holds `n` and fits, possibly with leading zeros. -/
structure Fits (v : Limbs) (n : Nat) : Prop where
  wf : WF v
  len : v.length ≤ bigintLimbs
  val : FastFloat.val v = n

theorem Big.fits {v : Limbs} {n : Nat} (h : Big v n) : Fits v n := ⟨h.wf, h.len, h.val⟩

theorem val_take_drop (v : Limbs) (k : Nat) (h : k ≤ v.length) : val v = val (v.take k) + 2 ^ (limbBits * k) * val (v.drop k) := by
  conv_lhs => rw [← List.take_append_drop k v]
  rw [val_append, List.length_take, Nat.min_eq_left h]

theorem wf_take {v : Limbs} {k : Nat} (h : WF v) : WF (v.take k) := fun x hx => h x (List.mem_of_mem_take hx)
theorem wf_drop {v : Limbs} {k : Nat} (h : WF v) : WF (v.drop k) := fun x hx => h x (List.mem_of_mem_drop hx)

theorem smallAddFrom_spec {v : Limbs} {n y k : Nat} (h : Fits v n) (hy : y < 2 ^ limbBits) (hk : k ≤ v.length) (hn : n + 2 ^ (limbBits * k) * y < cap) :
    ∃ v', smallAddFrom v y k = (true, v') ∧ Fits v' (n + 2 ^ (limbBits * k) * y) := by
  obtain ⟨a, b, c, d⟩ := addCarry_spec (v.drop k) y (wf_drop h.wf) hy
  have hsp := val_take_drop v k hk
  rw [h.val] at hsp
  have hlen : (v.take k ++ (addCarry (v.drop k) y).1).length = v.length := by
    rw [List.length_append, b, List.length_take, List.length_drop]; omega
  have hwf : WF (v.take k ++ (addCarry (v.drop k) y).1) := wf_append.2 ⟨wf_take h.wf, a⟩
  have hval : val (v.take k ++ (addCarry (v.drop k) y).1) + 2 ^ (limbBits * v.length) * (addCarry (v.drop k) y).2 = n + 2 ^ (limbBits * k) * y := by
    rw [val_append, List.length_take, Nat.min_eq_left hk]
    have e : 2 ^ (limbBits * v.length) = 2 ^ (limbBits * k) * 2 ^ (limbBits * (v.drop k).length) := by
      rw [← Nat.pow_add, List.length_drop]; congr 1; rw [← Nat.mul_add, Nat.add_sub_cancel' hk]
    rw [e, Nat.mul_assoc, Nat.add_assoc, ← Nat.mul_add, d, hsp, Nat.mul_add, Nat.add_assoc]
  unfold smallAddFrom
  simp only
  by_cases h0 : (addCarry (v.drop k) y).2 ≠ 0
  · rw [if_pos h0]
    rw [← hlen] at hval
    obtain ⟨p1, p2⟩ := push_spec hwf (by omega) c (by rw [hval]; exact hn)
    exact ⟨_, p1, by rw [hval] at p2; exact p2.fits⟩
  · rw [if_neg h0]
    rw [show (addCarry (v.drop k) y).2 = 0 by omega, Nat.mul_zero, Nat.add_zero] at hval
    exact ⟨_, rfl, hwf, by rw [hlen]; exact h.len, hval⟩

/-- `large_add_from`. -/
theorem largeAddFrom_spec {x y : Limbs} {n m k : Nat} (hx : Fits x n) (hy : Fits y m) (hl : y.length + k ≤ bigintLimbs) (hn : n + 2 ^ (limbBits * k) * m < cap) :
    ∃ v, largeAddFrom x y k = some (true, v) ∧ Fits v (n + 2 ^ (limbBits * k) * m) := by
  obtain ⟨x', e, f, hk⟩ : ∃ x', (if x.length < k ∨ y.length > x.length - k then tryResize x (y.length + k) else (true, x)) = (true, x') ∧ Fits x' n ∧
      y.length + k ≤ x'.length := by
    by_cases h : x.length < k ∨ y.length > x.length - k
    · rw [if_pos h, tryResize, if_neg (by omega)]
      by_cases h2 : y.length + k > x.length
      · rw [if_pos h2]
        refine ⟨_, rfl, ⟨wf_append.2 ⟨hx.wf, wf_replicate_zero _⟩, ?_, ?_⟩, ?_⟩
        · rw [List.length_append, List.length_replicate]; omega
        · rw [val_append, val_replicate_zero, Nat.mul_zero, Nat.add_zero]; exact hx.val
        · rw [List.length_append, List.length_replicate]; omega
      · exfalso
        rcases h with h | h <;> omega
    · rw [if_neg h]
      exact ⟨x, rfl, hx, by omega⟩
  unfold largeAddFrom
  simp only [e, if_true]
  have hlx : y.length ≤ (x'.drop k).length := by rw [List.length_drop]; omega
  obtain ⟨r, c, r1, r2, r3, r4⟩ := addLoop_spec (x'.drop k) y false (wf_drop f.wf) hy.wf hlx
  rw [r1, some_bind]
  simp only [Bool.toNat_false, Nat.add_zero] at r4 ⊢
  have hsp := val_take_drop x' k (by omega)
  rw [f.val] at hsp
  have hlen : (x'.take k ++ r).length = x'.length := by rw [List.length_append, r3, List.length_take, List.length_drop]; omega
  have hwf : WF (x'.take k ++ r) := wf_append.2 ⟨wf_take f.wf, r2⟩
  have hv0 : val (x'.take k ++ r) + 2 ^ (limbBits * (y.length + k)) * c.toNat = n + 2 ^ (limbBits * k) * m := by
    rw [val_append, List.length_take, Nat.min_eq_left (by omega : k ≤ x'.length), show limbBits * (y.length + k) = limbBits * k + limbBits * y.length by ring, Nat.pow_add,
      Nat.mul_assoc, Nat.add_assoc, ← Nat.mul_add, r4, hsp, hy.val, Nat.mul_add, Nat.add_assoc]
  cases c with
  | false =>
    rw [Bool.toNat_false, Nat.mul_zero, Nat.add_zero] at hv0
    exact ⟨_, rfl, hwf, by rw [hlen]; exact f.len, hv0⟩
  | true =>
    rw [Bool.toNat_true] at hv0
    obtain ⟨v, v1, v2⟩ := smallAddFrom_spec (v := x'.take k ++ r) (k := y.length + k) ⟨hwf, by rw [hlen]; exact f.len, rfl⟩ one_lt_limb
      (by rw [hlen]; exact hk) (by rw [hv0]; exact hn)
    refine ⟨v, ?_, by rwa [hv0] at v2⟩
    simp only [if_true, v1]
    rfl

/-! ### Multiplication of vectors -/

theorem normalize_spec {v : Limbs} {n : Nat} (h : Fits v n) : Big (normalize v) n := by
  obtain ⟨v, rfl⟩ : ∃ u : Limbs, v = u.reverse := ⟨v.reverse, (List.reverse_reverse v).symm⟩
  unfold normalize
  rw [List.reverse_reverse]
  obtain ⟨h1, h2, h3⟩ := h
  induction v with
  | nil => rw [← h3]; exact big_nil
  | cons x v ih =>
    rw [List.reverse_cons] at h1 h2 h3
    obtain ⟨w1, w2⟩ := wf_append.1 h1
    rw [List.dropWhile_cons]
    by_cases hx : x = 0
    · rw [if_pos (by simp [hx])]
      refine ih w1 (by rw [List.length_append] at h2; omega) ?_
      rw [val_append, hx] at h3
      simpa [val] using h3
    · rw [if_neg (by simpa using hx)]
      rw [List.reverse_cons]
      refine ⟨h1, h2, h3, fun _ => ?_⟩
      rw [← h3, val_append, List.length_append, List.length_singleton, Nat.add_sub_cancel]
      refine le_trans ?_ (Nat.le_add_left _ _)
      refine Nat.le_mul_of_pos_right _ ?_
      simp only [val]
      omega

theorem longMulLoop_spec {z : Limbs} {m : Nat} (hz : Big z m) (hm : 0 < m) : ∀ (y x : Limbs) (n k : Nat), WF y → Fits x n → n + m * 2 ^ (limbBits * k) * val y < cap →
    ∃ v, longMulLoop z x y k = some (true, v) ∧ Fits v (n + m * 2 ^ (limbBits * k) * val y)
  | [], x, n, k, _, hx, _ => ⟨x, rfl, by simpa [val] using hx⟩
  | yi :: y, x, n, k, hy, hx, hn => by
    obtain ⟨y1, y2⟩ := wf_cons.1 hy
    have e : m * 2 ^ (limbBits * k) * val (yi :: y) = 2 ^ (limbBits * k) * (m * yi) + m * 2 ^ (limbBits * (k + 1)) * val y := by
      rw [val, pow64_succ]
      generalize (2 : Nat) ^ limbBits = B
      ring
    rw [e] at hn ⊢
    rw [longMulLoop]
    by_cases h0 : yi ≠ 0
    · rw [if_pos h0]
      have hb : 2 ^ (limbBits * k) * (m * yi) < cap := by omega
      have hb2 : m * yi < cap := lt_of_le_of_lt (Nat.le_mul_of_pos_left _ (Nat.two_pow_pos _)) hb
      obtain ⟨zi, z1, z2⟩ := smallMul_spec hz (by omega) y1 hb2
      simp only [z1, if_true]
      have hl : zi.length + k ≤ bigintLimbs := by
        have hzi : zi ≠ [] := by
          intro h
          have h1 := z2.val
          rw [h] at h1
          have : 0 < m * yi := Nat.mul_pos hm (by omega)
          simp only [val] at h1
          omega
        have g1 := z2.norm hzi
        have g2 : 2 ^ (limbBits * k) * 2 ^ (limbBits * (zi.length - 1)) ≤ 2 ^ (limbBits * k) * (m * yi) := Nat.mul_le_mul_left _ g1
        rw [← Nat.pow_add] at g2
        have g3 := lt_of_pow_lt_cap (lt_of_le_of_lt g2 hb)
        rw [← Nat.mul_add] at g3
        have := Nat.lt_of_mul_lt_mul_left g3
        have : zi.length ≠ 0 := fun h => hzi (List.length_eq_zero_iff.1 h)
        omega
      obtain ⟨r, r1, r2⟩ := largeAddFrom_spec hx z2.fits hl (by omega)
      simp only [r1, some_bind, if_true]
      rw [← Nat.add_assoc] at hn ⊢
      exact longMulLoop_spec hz hm y r _ (k + 1) y2 r2 hn
    · rw [if_neg h0]
      have : yi = 0 := by omega
      rw [this, Nat.mul_zero, Nat.mul_zero, Nat.zero_add] at hn ⊢
      exact longMulLoop_spec hz hm y x n (k + 1) y2 hx hn

/-- `large_mul`. -/
theorem largeMul_spec {x y : Limbs} {n : Nat} (hx : Big x n) (h0 : 0 < n) (hy : WF y) (hl : 2 ≤ y.length) (hy0 : ∀ a ∈ y, 0 < a) (hn : n * val y < cap) :
    ∃ v, largeMul x y = some (true, v) ∧ Big v (n * val y) := by
  match y, hl with
  | y0 :: y1 :: ys, _ =>
    rw [largeMul, if_neg (by simp), longMul]
    obtain ⟨w1, w2⟩ := wf_cons.1 hy
    have e : n * val (y0 :: y1 :: ys) = n * y0 + n * 2 ^ (limbBits * 1) * val (y1 :: ys) := by
      rw [val, Nat.mul_one]
      generalize (2 : Nat) ^ limbBits = B
      ring
    rw [e] at hn ⊢
    obtain ⟨r, r1, r2⟩ := smallMul_spec hx (hy0 y0 (by simp)) w1 (by omega)
    simp only [r1, if_true]
    obtain ⟨v, v1, v2⟩ := longMulLoop_spec hx h0 (y1 :: ys) r (n * y0) 1 w2 r2.fits hn
    rw [v1, some_bind]
    simp only [if_true]
    exact ⟨_, rfl, normalize_spec v2⟩

theorem ofU64_spec {x : Nat} (hx : x < 2 ^ 64) : Big (ofU64 x) x := by
  unfold ofU64
  refine normalize_spec ?_
  have hn : (Limb.narrow = true ∧ limbBits = 32 ∧ bigintLimbs = 125) ∨ (Limb.narrow = false ∧ limbBits = 64 ∧ bigintLimbs = 62) := by
    unfold bigintLimbs limbBits
    cases Limb.narrow <;> simp
  rcases hn with ⟨h1, h2, h3⟩ | ⟨h1, h2, h3⟩
  · rw [if_pos h1]
    refine ⟨wf_cons.2 ⟨by rw [h2]; omega, wf_cons.2 ⟨by rw [h2]; omega, wf_nil⟩⟩, by rw [h3]; simp, ?_⟩
    simp only [val, h2, Nat.shiftRight_eq_div_pow]
    omega
  · rw [if_neg (by rw [h1]; decide)]
    exact ⟨wf_cons.2 ⟨by rw [h2]; exact hx, wf_nil⟩, by rw [h3]; simp, by simp [val]⟩

/-! ### Shifts -/

omit [Limb] in
theorem shl_or {B x p k : Nat} (hp : p < 2 ^ B) (hk : k < B) :
    (x <<< k) % 2 ^ B ||| (p >>> (B - k)) = x % 2 ^ (B - k) * 2 ^ k + p / 2 ^ (B - k) := by
  have e64 : (2 : Nat) ^ B = 2 ^ (B - k) * 2 ^ k := by rw [← Nat.pow_add]; congr 1; omega
  have h1 : (x <<< k) % 2 ^ B = (x % 2 ^ (B - k)) <<< k := by
    rw [Nat.shiftLeft_eq, Nat.shiftLeft_eq, e64, Nat.mul_mod_mul_right]
  rw [h1, Nat.shiftRight_eq_div_pow, ← Nat.shiftLeft_add_eq_or_of_lt, Nat.shiftLeft_eq]
  rw [Nat.div_lt_iff_lt_mul (Nat.two_pow_pos _), Nat.mul_comm, ← e64]
  exact hp

theorem shlLoop_spec {k : Nat} (h0 : 0 < k) (hk : k < limbBits) : ∀ (v : Limbs) (p : Nat), WF v → p < 2 ^ limbBits →
    WF (shlLoop k v p).1 ∧ (shlLoop k v p).1.length = v.length ∧ (shlLoop k v p).2 < 2 ^ limbBits ∧
    val (shlLoop k v p).1 + 2 ^ (limbBits * v.length) * ((shlLoop k v p).2 / 2 ^ (limbBits - k)) = val v * 2 ^ k + p / 2 ^ (limbBits - k)
  | [], p, _, hp => by
    refine ⟨wf_nil, rfl, hp, ?_⟩
    simp [shlLoop, val]
  | x :: v, p, h, hp => by
    obtain ⟨h1, h2⟩ := wf_cons.1 h
    obtain ⟨a, b, c, d⟩ := shlLoop_spec h0 hk v x h2 h1
    have e64 : (2 : Nat) ^ limbBits = 2 ^ (limbBits - k) * 2 ^ k := by rw [← Nat.pow_add]; congr 1; omega
    rw [shlLoop]
    simp only
    rw [wl, shl_or hp hk]
    have hp' : p / 2 ^ (limbBits - k) < 2 ^ k := by
      rw [Nat.div_lt_iff_lt_mul (Nat.two_pow_pos _), Nat.mul_comm, ← e64]
      exact hp
    refine ⟨wf_cons.2 ⟨?_, a⟩, by simp [b], c, ?_⟩
    · have g1 : x % 2 ^ (limbBits - k) + 1 ≤ 2 ^ (limbBits - k) := Nat.mod_lt _ (Nat.two_pow_pos _)
      have g2 : (x % 2 ^ (limbBits - k) + 1) * 2 ^ k ≤ 2 ^ (limbBits - k) * 2 ^ k := Nat.mul_le_mul_right _ g1
      rw [Nat.add_mul, Nat.one_mul, ← e64] at g2
      omega
    · rw [val, val, List.length_cons, pow64_succ, Nat.mul_assoc (2 ^ limbBits), Nat.add_assoc, ← Nat.mul_add, d]
      have hx := Nat.div_add_mod x (2 ^ (limbBits - k))
      have : x * 2 ^ k = 2 ^ limbBits * (x / 2 ^ (limbBits - k)) + x % 2 ^ (limbBits - k) * 2 ^ k := by
        conv_lhs => rw [← hx]
        rw [e64]
        ring
      rw [Nat.add_mul, this, Nat.mul_add, Nat.mul_assoc (2 ^ limbBits)]
      generalize 2 ^ limbBits * (val v * 2 ^ k) = y1
      generalize 2 ^ limbBits * (x / 2 ^ (limbBits - k)) = y2
      omega

theorem shlBits_spec {v : Limbs} {n k : Nat} (h : Big v n) (h0 : 0 < k) (hk : k < limbBits) (hn : n * 2 ^ k < cap) :
    ∃ v', shlBits v k = some (true, v') ∧ Big v' (n * 2 ^ k) := by
  obtain ⟨a, b, c, d⟩ := shlLoop_spec h0 hk v 0 h.wf pos_limb
  rw [h.val, Nat.zero_div, Nat.add_zero] at d
  unfold shlBits
  rw [chk_pos (by omega), some_bind, chk_pos hk, some_bind]
  simp only
  rw [Nat.shiftRight_eq_div_pow]
  by_cases hc : (shlLoop k v 0).2 / 2 ^ (limbBits - k) ≠ 0
  · rw [if_pos hc]
    rw [← b] at d
    obtain ⟨p1, p2⟩ := push_spec a (Nat.pos_of_ne_zero hc) (lt_of_le_of_lt (Nat.div_le_self _ _) c) (by rw [d]; exact hn)
    rw [p1]
    exact ⟨_, rfl, by rwa [d] at p2⟩
  · rw [if_neg hc]
    rw [show (shlLoop k v 0).2 / 2 ^ (limbBits - k) = 0 by omega, Nat.mul_zero, Nat.add_zero] at d
    refine ⟨_, rfl, a, by rw [b]; exact h.len, d, fun hne => ?_⟩
    rw [b]
    refine le_trans (h.norm fun h1 => hne ?_) (Nat.le_mul_of_pos_right _ (Nat.two_pow_pos _))
    exact List.length_eq_zero_iff.1 (by rw [b, h1]; rfl)

theorem Big.ne_nil {v : Limbs} {n : Nat} (h : Big v n) (h0 : 0 < n) : v ≠ [] := by
  intro h1
  have := h.val
  rw [h1] at this
  simp only [FastFloat.val] at this
  omega

theorem shlLimbs_spec {v : Limbs} {n k : Nat} (h : Big v n) (h0 : 0 < n) (hk : 0 < k) (hn : n * 2 ^ (limbBits * k) < cap) :
    ∃ v', shlLimbs v k = some (true, v') ∧ Big v' (n * 2 ^ (limbBits * k)) := by
  have hne := h.ne_nil h0
  have hl : v.length ≠ 0 := fun h => hne (List.length_eq_zero_iff.1 h)
  have g1 := h.norm hne
  have g2 : 2 ^ (limbBits * (v.length - 1)) * 2 ^ (limbBits * k) ≤ n * 2 ^ (limbBits * k) := Nat.mul_le_mul_right _ g1
  rw [← Nat.pow_add] at g2
  have g3 := lt_of_pow_lt_cap (lt_of_le_of_lt g2 hn)
  rw [← Nat.mul_add] at g3
  have g4 := Nat.lt_of_mul_lt_mul_left g3
  unfold shlLimbs
  rw [chk_pos (by omega), some_bind, if_neg (by omega), if_pos hne]
  refine ⟨_, rfl, wf_append.2 ⟨wf_replicate_zero _, h.wf⟩, ?_, ?_, fun _ => ?_⟩
  · rw [List.length_append, List.length_replicate]; omega
  · rw [val_append, val_replicate_zero, List.length_replicate, Nat.zero_add, h.val, Nat.mul_comm]
  · rw [List.length_append, List.length_replicate]
    refine le_trans (Nat.pow_le_pow_right (by decide) ?_) g2
    rw [← Nat.mul_add]
    exact Nat.mul_le_mul_left _ (by omega)

/-- `pow2`. -/
theorem pow2_spec {v : Limbs} {n k : Nat} (h : Big v n) (h0 : 0 < n) (hn : n * 2 ^ k < cap) :
    ∃ v', pow2 v k = some (true, v') ∧ Big v' (n * 2 ^ k) := by
  have e : n * 2 ^ k = n * 2 ^ (k % limbBits) * 2 ^ (limbBits * (k / limbBits)) := by
    rw [Nat.mul_assoc, ← Nat.pow_add, Nat.mod_add_div]
  rw [e] at hn ⊢
  have hn1 : n * 2 ^ (k % limbBits) < cap := lt_of_le_of_lt (Nat.le_mul_of_pos_right _ (Nat.two_pow_pos _)) hn
  have h01 : 0 < n * 2 ^ (k % limbBits) := Nat.mul_pos h0 (Nat.two_pow_pos _)
  obtain ⟨r, r1, r2⟩ : ∃ r, (if k % limbBits ≠ 0 then shlBits v (k % limbBits) else pure (true, v)) = some (true, r) ∧ Big r (n * 2 ^ (k % limbBits)) := by
    by_cases hz : k % limbBits ≠ 0
    · rw [if_pos hz]
      exact shlBits_spec h (by omega) (Nat.mod_lt _ (by lomega)) hn1
    · rw [if_neg hz]
      refine ⟨v, rfl, ?_⟩
      rw [show k % limbBits = 0 by omega, Nat.pow_zero, Nat.mul_one]
      exact h
  have hp : pow2 v k = if k / limbBits ≠ 0 then shlLimbs r (k / limbBits) else pure (true, r) := by
    unfold pow2
    by_cases hz : k % limbBits ≠ 0
    · rw [if_pos hz] at r1
      simp only [if_pos hz, r1, some_bind, if_true]
    · rw [if_neg hz] at r1
      simp only [if_neg hz]
      rw [show (pure (true, v) : Option (Bool × Limbs)) = some (true, v) from rfl] at r1 ⊢
      rw [r1, some_bind, if_pos rfl]
  rw [hp]
  by_cases hz : k / limbBits ≠ 0
  · rw [if_pos hz]
    exact shlLimbs_spec r2 h01 (Nat.pos_of_ne_zero hz) hn
  · rw [if_neg hz]
    refine ⟨r, rfl, ?_⟩
    rw [show k / limbBits = 0 by omega, Nat.mul_zero, Nat.pow_zero, Nat.mul_one]
    exact r2

/-! ### Powers -/

theorem largePowerOf5_val : val largePowerOf5 = 5 ^ 135 := by
  rename_i L
  obtain ⟨b⟩ := L
  cases b <;> decide +kernel

theorem largePowerOf5_wf : WF largePowerOf5 ∧ ∀ a ∈ largePowerOf5, 0 < a := by
  rename_i L
  obtain ⟨b⟩ := L
  cases b <;> constructor <;> simp [largePowerOf5, WF, limbBits]

theorem largePowerOf5_length : 2 ≤ largePowerOf5.length := by
  rename_i L
  obtain ⟨b⟩ := L
  cases b <;> decide

theorem smallStep_le : 0 < smallStep ∧ smallStep ≤ 27 ∧ maxNative = 5 ^ smallStep ∧ 5 ^ smallStep < 2 ^ limbBits := by
  rename_i L
  obtain ⟨b⟩ := L
  cases b <;> decide +kernel

omit [Limb] in
theorem smallPowerOf5_get {i : Nat} (h : i < 27) : smallPowerOf5[i]? = some (5 ^ i) := by
  have : ∀ i : Fin 27, smallPowerOf5[i.1]? = some (5 ^ i.1) := by decide +kernel
  exact this ⟨i, h⟩

theorem pow5Large_spec : ∀ (f : Nat) (v : Limbs) (n e : Nat), e < f → Big v n → 0 < n → n * 5 ^ e < cap →
    ∃ v' e' n', pow5Large f v e = some (true, v', e') ∧ e' < 135 ∧ Big v' n' ∧ n' * 5 ^ e' = n * 5 ^ e
  | 0, _, _, _, h, _, _, _ => by omega
  | f + 1, v, n, e, hf, h, h0, hn => by
    rw [pow5Large]
    by_cases he : e ≥ 135
    · have e5 : n * 5 ^ 135 * 5 ^ (e - 135) = n * 5 ^ e := by
        rw [Nat.mul_assoc, ← Nat.pow_add, Nat.add_sub_cancel' he]
      rw [if_pos he]
      obtain ⟨r, r1, r2⟩ := largeMul_spec h h0 largePowerOf5_wf.1 largePowerOf5_length largePowerOf5_wf.2 (by
        rw [largePowerOf5_val]
        refine lt_of_le_of_lt ?_ hn
        rw [← e5]
        exact Nat.le_mul_of_pos_right _ (Nat.pow_pos (by decide)))
      rw [largePowerOf5_val] at r2
      simp only [r1, some_bind, if_true]
      obtain ⟨v', e', n', a, b, c, d⟩ := pow5Large_spec f r (n * 5 ^ 135) (e - 135) (by omega) r2
        (Nat.mul_pos h0 (Nat.pow_pos (by decide))) (by rw [e5]; exact hn)
      exact ⟨v', e', n', a, b, c, by rw [d, e5]⟩
    · rw [if_neg he]
      exact ⟨v, e, n, rfl, by omega, h, rfl⟩

theorem pow5Small_spec : ∀ (f : Nat) (v : Limbs) (n e : Nat), e < f → Big v n → 0 < n → n * 5 ^ e < cap →
    ∃ v' e' n', pow5Small f v e = some (true, v', e') ∧ e' < smallStep ∧ Big v' n' ∧ n' * 5 ^ e' = n * 5 ^ e
  | 0, _, _, _, h, _, _, _ => by omega
  | f + 1, v, n, e, hf, h, h0, hn => by
    rw [pow5Small]
    obtain ⟨s1, s2, s3, s4⟩ := smallStep_le
    by_cases he : e ≥ smallStep
    · have e5 : n * 5 ^ smallStep * 5 ^ (e - smallStep) = n * 5 ^ e := by
        rw [Nat.mul_assoc, ← Nat.pow_add, Nat.add_sub_cancel' he]
      rw [if_pos he]
      obtain ⟨r, r1, r2⟩ := smallMul_spec (y := 5 ^ smallStep) h (Nat.pow_pos (by decide)) s4 (by
        refine lt_of_le_of_lt ?_ hn
        rw [← e5]
        exact Nat.le_mul_of_pos_right _ (Nat.pow_pos (by decide)))
      rw [s3]
      simp only [r1, if_true]
      obtain ⟨v', e', n', a, b, c, d⟩ := pow5Small_spec f r (n * 5 ^ smallStep) (e - smallStep) (by omega) r2
        (Nat.mul_pos h0 (Nat.pow_pos (by decide))) (by rw [e5]; exact hn)
      exact ⟨v', e', n', a, b, c, by rw [d, e5]⟩
    · rw [if_neg he]
      exact ⟨v, e, n, rfl, by omega, h, rfl⟩

/-- `pow5`. -/
theorem pow5_spec {v : Limbs} {n e : Nat} (h : Big v n) (h0 : 0 < n) (hn : n * 5 ^ e < cap) :
    ∃ v', pow5 v e = some (true, v') ∧ Big v' (n * 5 ^ e) := by
  obtain ⟨v1, e1, n1, a1, b1, c1, d1⟩ := pow5Large_spec (e + 1) v n e (by omega) h h0 hn
  have h01 : 0 < n1 := by
    rcases Nat.eq_zero_or_pos n1 with hz | hz
    · rw [hz, Nat.zero_mul] at d1
      have : 0 < n * 5 ^ e := Nat.mul_pos h0 (Nat.pow_pos (by decide))
      omega
    · exact hz
  obtain ⟨v2, e2, n2, a2, b2, c2, d2⟩ := pow5Small_spec (e1 + 1) v1 n1 e1 (by omega) c1 h01 (by rw [d1]; exact hn)
  rw [d1] at d2
  unfold pow5
  simp only [a1, a2, some_bind, if_true]
  obtain ⟨s1, s2, s3, s4⟩ := smallStep_le
  have hlt : 5 ^ e2 < 2 ^ limbBits := lt_of_le_of_lt (Nat.pow_le_pow_right (by decide) b2.le) s4
  by_cases hz : e2 ≠ 0
  · rw [if_pos hz, smallPowerOf5_get (by omega), some_bind, wl, Nat.mod_eq_of_lt hlt]
    obtain ⟨v3, a3, b3⟩ := smallMul_spec (y := 5 ^ e2) c2 (Nat.pow_pos (by decide))
      hlt (by rw [d2]; exact hn)
    rw [a3]
    exact ⟨v3, rfl, by rwa [d2] at b3⟩
  · rw [if_neg hz]
    rw [show e2 = 0 by omega, Nat.pow_zero, Nat.mul_one] at d2
    exact ⟨v2, rfl, by rwa [d2] at c2⟩

/-- `pow10`. -/
theorem pow10_spec {v : Limbs} {n e : Nat} (h : Big v n) (h0 : 0 < n) (hn : n * 10 ^ e < cap) :
    ∃ v', pow10 v e = some (true, v') ∧ Big v' (n * 10 ^ e) := by
  have e10 : n * 10 ^ e = n * 5 ^ e * 2 ^ e := by rw [Nat.mul_assoc, ← Nat.mul_pow]
  rw [e10] at hn ⊢
  obtain ⟨v1, a1, b1⟩ := pow5_spec h h0 (lt_of_le_of_lt (Nat.le_mul_of_pos_right _ (Nat.two_pow_pos e)) hn)
  unfold pow10
  simp only [a1, some_bind, if_true]
  exact pow2_spec b1 (Nat.mul_pos h0 (Nat.pow_pos (by decide))) hn

/-! ### Comparison -/

theorem compareLoop_spec : ∀ (x y : Limbs), WF x → WF y → x.length = y.length →
    compareLoop x y = some (if val x.reverse > val y.reverse then 1 else if val x.reverse < val y.reverse then -1 else 0)
  | [], [], _, _, _ => by simp [compareLoop]
  | [], _ :: _, _, _, h => by simp at h
  | _ :: _, [], _, _, h => by simp at h
  | a :: x, b :: y, hx, hy, h => by
    obtain ⟨x1, x2⟩ := wf_cons.1 hx
    obtain ⟨y1, y2⟩ := wf_cons.1 hy
    have hl : x.length = y.length := by simpa using h
    have vx := val_lt (v := x.reverse) (fun z hz => x2 z (List.mem_reverse.1 hz))
    have vy := val_lt (v := y.reverse) (fun z hz => y2 z (List.mem_reverse.1 hz))
    rw [List.length_reverse] at vx vy
    rw [compareLoop, List.reverse_cons, List.reverse_cons, val_append, val_append, List.length_reverse, List.length_reverse, ← hl]
    rw [← hl] at vy
    rw [show val [a] = a by simp [val], show val [b] = b by simp [val]]
    have key : ∀ {c d : Nat}, c < d → ∀ {u w : Nat}, u < 2 ^ (limbBits * x.length) → u + 2 ^ (limbBits * x.length) * c < w + 2 ^ (limbBits * x.length) * d := by
      intro c d hcd u w hu
      have := Nat.mul_le_mul_left (2 ^ (limbBits * x.length)) hcd
      rw [Nat.succ_eq_add_one, Nat.mul_add, Nat.mul_one] at this
      omega
    by_cases h1 : a > b
    · rw [if_pos h1, if_pos (key h1 vy)]
    · rw [if_neg h1]
      by_cases h2 : a < b
      · have := key h2 (w := val y.reverse) vx
        rw [if_pos h2, if_neg (by omega), if_pos this]
      · rw [if_neg h2, compareLoop_spec x y x2 y2 hl, show a = b by omega]
        simp only [Nat.add_lt_add_iff_right, gt_iff_lt]

/-- `compare`. -/
theorem compare_spec {x y : Limbs} {n m : Nat} (hx : Big x n) (hy : Big y m) : compare x y = some (if n > m then 1 else if n < m then -1 else 0) := by
  unfold compare
  have vx := val_lt hx.wf
  have vy := val_lt hy.wf
  rw [hx.val] at vx
  rw [hy.val] at vy
  have key : ∀ {u v : Limbs} {a c : Nat}, Big v c → a < 2 ^ (limbBits * u.length) → u.length < v.length → a < c := by
    intro u v a c hv ha hl
    have hne : v ≠ [] := fun h => by rw [h] at hl; simp at hl
    refine lt_of_lt_of_le ha (le_trans (Nat.pow_le_pow_right (by decide) ?_) (hv.norm hne))
    exact Nat.mul_le_mul_left _ (by omega)
  by_cases h1 : x.length > y.length
  · rw [if_pos h1, if_pos (key hx vy h1)]
  · rw [if_neg h1]
    by_cases h2 : x.length < y.length
    · have := key hy vx h2
      rw [if_pos h2, if_neg (by omega), if_pos this]
    · rw [if_neg h2, compareLoop_spec _ _ (fun z hz => hx.wf z (List.mem_reverse.1 hz)) (fun z hz => hy.wf z (List.mem_reverse.1 hz))
        (by rw [List.length_reverse, List.length_reverse]; omega), List.reverse_reverse, List.reverse_reverse, hx.val, hy.val]

end Nanostl.FastFloat

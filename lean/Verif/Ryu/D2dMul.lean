import Verif.Ryu.F2dBase
import Verif.Ryu.Step4

/-!
`mulShiftAll64` computes exact floors.
-/

namespace Nanostl.Ryu

theorem add3 {lo mid hi c0 c1 : Nat} (h1 : lo < 18446744073709551616) (h2 : mid < 18446744073709551616) (h3 : hi < 18446744073709551615)
    (h4 : c0 < 18446744073709551616) (h5 : c1 < 18446744073709551615) :
    w64 (hi + b2n (w64 (mid + c1 + b2n (w64 (lo + c0) < lo)) < mid)) * 18446744073709551616 + w64 (mid + c1 + b2n (w64 (lo + c0) < lo)) =
      hi * 18446744073709551616 + mid + c1 + (lo + c0) / 18446744073709551616 := by
  rw [w64_eq, w64_eq, w64_eq]
  by_cases hc : lo + c0 < 18446744073709551616
  · have : ¬(lo + c0) % 18446744073709551616 < lo := by omega
    rw [b2n, b2n, if_neg this]
    split <;> omega
  · have : (lo + c0) % 18446744073709551616 < lo := by omega
    rw [b2n, b2n, if_pos this]
    split <;> omega

theorem sub3 {lo mid hi c0 c1 : Nat} (h1 : lo < 18446744073709551616) (h2 : mid < 18446744073709551616) (h3 : hi < 18446744073709551616)
    (h4 : c0 < 18446744073709551616) (h5 : c1 < 18446744073709551615) (h6 : c1 + 1 ≤ hi * 18446744073709551616 + mid) :
    sub64 hi (b2n (sub64 (sub64 mid c1) (b2n (sub64 lo c0 > lo)) > mid)) * 18446744073709551616 + sub64 (sub64 mid c1) (b2n (sub64 lo c0 > lo)) =
      hi * 18446744073709551616 + mid - c1 - (if lo < c0 then 1 else 0) := by
  have e1 : b2n (sub64 lo c0 > lo) = if lo < c0 then 1 else 0 := by
    unfold b2n
    rw [sub64_eq]
    split <;> split <;> omega
  rw [e1]
  generalize hb : (if lo < c0 then 1 else 0 : Nat) = b
  have hb1 : b ≤ 1 := by rw [← hb]; split <;> omega
  have e2 : sub64 (sub64 mid c1) b = if mid < c1 + b then mid + 18446744073709551616 - c1 - b else mid - c1 - b := by
    rw [sub64_eq, sub64_eq]
    split <;> omega
  rw [e2]
  by_cases hc : mid < c1 + b
  · rw [if_pos hc, b2n, if_pos (by omega), sub64_eq]; omega
  · rw [if_neg hc, b2n, if_neg (by omega), sub64_eq]; omega

theorem dbl3 {lo mid hi : Nat} (h1 : lo < 18446744073709551616) (h2 : mid < 18446744073709551615) (h3 : hi < 4611686018427387904) :
    w64 (hi + hi + b2n (w64 (mid + mid + b2n (w64 (lo + lo) < lo)) < mid)) * 18446744073709551616 + w64 (mid + mid + b2n (w64 (lo + lo) < lo)) =
      2 * (hi * 18446744073709551616 + mid) + (lo + lo) / 18446744073709551616 := by
  rw [w64_eq, w64_eq, w64_eq]
  by_cases hc : lo + lo < 18446744073709551616
  · have : ¬(lo + lo) % 18446744073709551616 < lo := by omega
    rw [b2n, b2n, if_neg this]
    split <;> omega
  · have : (lo + lo) % 18446744073709551616 < lo := by omega
    rw [b2n, b2n, if_pos this]
    split <;> omega

theorem mulMid {A B : Nat} (hA : A < 18446744073709551616 * 18446744073709551616) (hB : B < 18446744073709551616 * 4611686018427387904) :
    w64 (B / 18446744073709551616 + b2n (w64 (A / 18446744073709551616 + B % 18446744073709551616) < A / 18446744073709551616)) * 18446744073709551616 +
      w64 (A / 18446744073709551616 + B % 18446744073709551616) = (B * 18446744073709551616 + A) / 18446744073709551616 := by
  obtain ⟨a1, a0, rfl, ha0⟩ : ∃ a1 a0, A = a1 * 18446744073709551616 + a0 ∧ a0 < 18446744073709551616 := ⟨_, _, (Nat.div_add_mod' _ _).symm, Nat.mod_lt _ (by decide)⟩
  obtain ⟨b1, b0, rfl, hb0⟩ : ∃ b1 b0, B = b1 * 18446744073709551616 + b0 ∧ b0 < 18446744073709551616 := ⟨_, _, (Nat.div_add_mod' _ _).symm, Nat.mod_lt _ (by decide)⟩
  rw [divB ha0, divB hb0, modB hb0, ← Nat.add_assoc, ← Nat.add_mul, divB ha0, w64_eq, w64_eq]
  by_cases h : (a1 + b0) % 18446744073709551616 < a1
  · rw [b2n, if_pos h]; omega
  · rw [b2n, if_neg h]; omega

theorem shiftW {X : Nat} {j : Int} {s : Nat} (hj : j.toNat + 64 = s) : X / 18446744073709551616 / 2 ^ j.toNat = X / 2 ^ s := by
  rw [Nat.div_div_eq_div_mul, show (18446744073709551616 : Nat) = 2 ^ 64 by norm_num, ← Nat.pow_add]
  congr 2; omega

/-- The second half of `mulShiftAll64`. -/
def msaTail (lo mid hi c0 c1 : Nat) (j : Int) (mmShift : Nat) : Option (Nat × Nat × Nat) := do
  let lo2 := w64 (lo + c0)
  let mid2 := w64 (mid + c1 + b2n (lo2 < lo))
  let hi2 := w64 (hi + b2n (mid2 < mid))
  let vp ← shiftright128 mid2 hi2 (j - 64 - 1)
  let vm ← (if mmShift = 1 then
      let lo3 := sub64 lo c0
      let mid3 := sub64 (sub64 mid c1) (b2n (lo3 > lo))
      let hi3 := sub64 hi (b2n (mid3 > mid))
      shiftright128 mid3 hi3 (j - 64 - 1)
    else
      let lo3 := w64 (lo + lo)
      let mid3 := w64 (mid + mid + b2n (lo3 < lo))
      let hi3 := w64 (hi + hi + b2n (mid3 < mid))
      let lo4 := sub64 lo3 c0
      let mid4 := sub64 (sub64 mid3 c1) (b2n (lo4 > lo3))
      let hi4 := sub64 hi3 (b2n (mid4 > mid3))
      shiftright128 mid4 hi4 (j - 64))
  let vr ← shiftright128 mid hi (j - 64 - 1)
  pure (vr, vp, vm)

theorem half2 {j : Int} (hj : 0 < j) (Y : Nat) : 2 * Y / 2 ^ j.toNat = Y / 2 ^ (j.toNat - 1) := by
  obtain ⟨k, hk⟩ : ∃ k, j.toNat = k + 1 := ⟨j.toNat - 1, by omega⟩
  rw [hk, Nat.add_sub_cancel, Nat.pow_succ, Nat.mul_comm _ 2, Nat.mul_div_mul_left _ _ (by decide)]

theorem sr1 {mid hi X : Nat} {j : Int} (hj1 : 65 < j) (hj2 : j < 128) (hm : mid < 18446744073709551616)
    (hX : hi * 18446744073709551616 + mid = X / 18446744073709551616) (hf : 2 * X / 2 ^ j.toNat < 18446744073709551616) :
    shiftright128 mid hi (j - 64 - 1) = some (2 * X / 2 ^ j.toNat) := by
  rw [shiftright128_eq hm (by omega) (by omega), hX, shiftW (s := j.toNat - 1) (by omega), ← half2 (by omega), Nat.mod_eq_of_lt hf]

theorem sr2 {mid hi X : Nat} {j : Int} (hj1 : 65 < j) (hj2 : j < 128) (hm : mid < 18446744073709551616)
    (hX : hi * 18446744073709551616 + mid = X / 18446744073709551616) (hf : X / 2 ^ j.toNat < 18446744073709551616) :
    shiftright128 mid hi (j - 64) = some (X / 2 ^ j.toNat) := by
  rw [shiftright128_eq hm (by omega) (by omega), hX, shiftW (s := j.toNat) (by omega), Nat.mod_eq_of_lt hf]

theorem sub64_lt (x y : Nat) : sub64 x y < 18446744073709551616 := Nat.mod_lt _ (by decide)

theorem combAdd {lo T c0 c1 X : Nat} (hlo : lo = X % 18446744073709551616) (hX : T = X / 18446744073709551616) :
    T + c1 + (lo + c0) / 18446744073709551616 = (X + (c1 * 18446744073709551616 + c0)) / 18446744073709551616 := by omega

theorem combSub {lo T c0 c1 X : Nat} (hc0 : c0 < 18446744073709551616) (hlo : lo = X % 18446744073709551616) (hX : T = X / 18446744073709551616)
    (hCX : c1 * 18446744073709551616 + c0 ≤ X) :
    T - c1 - (if lo < c0 then 1 else 0) = (X - (c1 * 18446744073709551616 + c0)) / 18446744073709551616 := by
  split <;> omega

theorem combDbl {lo T X : Nat} (hlo : lo = X % 18446744073709551616) (hX : T = X / 18446744073709551616) :
    2 * T + (lo + lo) / 18446744073709551616 = 2 * X / 18446744073709551616 := by omega

theorem msaTail_eq {lo mid hi c0 c1 C X : Nat} {j : Int} {sh : Nat} (hj1 : 65 < j) (hj2 : j < 128)
    (hlo : lo = X % 18446744073709551616) (hmid : mid < 18446744073709551616) (hX : hi * 18446744073709551616 + mid = X / 18446744073709551616)
    (hhi : hi < 1000000000000000000) (hc0 : c0 < 18446744073709551616) (hc1 : c1 < 4611686018427387904) (hC : C = c1 * 18446744073709551616 + c0)
    (hCX : 18446744073709551616 + C ≤ X) (hsh : sh = 1 ∨ (sh = 0 ∧ mid ≠ 18446744073709551615))
    (hfit : 2 * (X + C) / 2 ^ j.toNat < 18446744073709551616) :
    msaTail lo mid hi c0 c1 j sh = some (2 * X / 2 ^ j.toNat, 2 * (X + C) / 2 ^ j.toNat,
      (if sh = 1 then 2 * (X - C) else 2 * X - C) / 2 ^ j.toNat) := by
  have hlolt : lo < 18446744073709551616 := by omega
  have hbnd : ∀ Y, Y ≤ 2 * (X + C) → Y / 2 ^ j.toNat < 18446744073709551616 := fun Y h => Nat.lt_of_le_of_lt (Nat.div_le_div_right h) hfit
  have A := add3 hlolt hmid (hi := hi) (by omega) hc0 (show c1 < 18446744073709551615 by omega)
  have S := sub3 hlolt hmid (hi := hi) (by omega) hc0 (show c1 < 18446744073709551615 by omega) (by omega)
  rw [msaTail]
  simp only
  have hE : hi * 18446744073709551616 + mid + c1 + (lo + c0) / 18446744073709551616 = (X + C) / 18446744073709551616 := by
    rw [hC]; exact combAdd hlo hX
  have hv := sr1 (X := X + C) hj1 hj2 (w64_lt _) (A.trans hE) hfit
  rw [hv, some_bind]
  clear hv
  rcases hsh with hsh | ⟨hsh, hm⟩
  · have hE : hi * 18446744073709551616 + mid - c1 - (if lo < c0 then 1 else 0) = (X - C) / 18446744073709551616 := by
      rw [hC]; exact combSub hc0 hlo hX (by omega)
    have hv := sr1 (X := X - C) hj1 hj2 (sub64_lt _ _) (S.trans hE) (hbnd _ (by omega))
    rw [if_pos hsh, if_pos hsh, hv, some_bind,
      sr1 (X := X) hj1 hj2 hmid hX (hbnd _ (by omega)), some_bind]
    rfl
  · have Dd := dbl3 hlolt (mid := mid) (hi := hi) (by omega) (by omega)
    rw [if_neg (by omega), if_neg (by omega)]
    have h3lt := w64_lt (hi + hi + b2n (w64 (mid + mid + b2n (w64 (lo + lo) < lo)) < mid))
    have m3lt := w64_lt (mid + mid + b2n (w64 (lo + lo) < lo))
    have l3lt := w64_lt (lo + lo)
    have l3 : w64 (lo + lo) = 2 * X % 18446744073709551616 := by rw [w64_eq]; omega
    revert Dd h3lt m3lt l3lt l3
    generalize w64 (hi + hi + b2n (w64 (mid + mid + b2n (w64 (lo + lo) < lo)) < mid)) = hi3
    generalize w64 (mid + mid + b2n (w64 (lo + lo) < lo)) = mid3
    generalize w64 (lo + lo) = lo3
    intro Dd h3lt m3lt l3lt l3
    have S' := sub3 l3lt m3lt (hi := hi3) (by omega) hc0 (show c1 < 18446744073709551615 by omega) (by omega)
    have hE : hi3 * 18446744073709551616 + mid3 - c1 - (if lo3 < c0 then 1 else 0) = (2 * X - C) / 18446744073709551616 := by
      rw [hC]; exact combSub hc0 l3 (Dd.trans (combDbl hlo hX)) (by omega)
    have hv := sr2 (X := 2 * X - C) hj1 hj2 (sub64_lt _ _) (S'.trans hE) (hbnd _ (by omega))
    rw [hv, some_bind,
      sr1 (X := X) hj1 hj2 hmid hX (hbnd _ (by omega)), some_bind]
    rfl

/-- All three products, exactly. -/
theorem mulShiftAll64_eq {m C0 C1 C : Nat} {j : Int} {sh : Nat} (hm0 : 0 < m) (hm : m < 9007199254740992) (hC0 : C0 < 18446744073709551616)
    (hC1 : C1 < 4611686018427387904) (hCd : C = C1 * 18446744073709551616 + C0) (hC : 18446744073709551616 ≤ C)
    (hj1 : 65 < j) (hj2 : j < 128) (hsh : sh = 1 ∨ (sh = 0 ∧ m = 4503599627370496))
    (hmid : C / 2048 % 18446744073709551616 ≠ 18446744073709551615)
    (hfit : (4 * m + 2) * C / 2 ^ j.toNat < 18446744073709551616) :
    mulShiftAll64 m (C0, C1) j sh = some (4 * m * C / 2 ^ j.toNat, (4 * m + 2) * C / 2 ^ j.toNat, (4 * m - 1 - sh) * C / 2 ^ j.toNat) := by
  have hmm : w64 (m <<< 1) = 2 * m := by rw [Nat.shiftLeft_eq, w64_eq]; omega
  have b0 : 2 * m * C0 ≤ 18014398509481984 * C0 := Nat.mul_le_mul_right _ (by omega)
  have b1 : 2 * m * C1 ≤ 18014398509481984 * C1 := Nat.mul_le_mul_right _ (by omega)
  have eX : 2 * m * C = 2 * m * C1 * 18446744073709551616 + 2 * m * C0 := by rw [hCd]; ring
  have hge : 2 * C ≤ 2 * m * C := Nat.mul_le_mul_right _ (by omega)
  have e4 : 4 * m * C = 2 * (2 * m * C) := by ring
  have e5 : (4 * m + 2) * C = 2 * (2 * m * C + C) := by ring
  have e6 : (4 * m - 1 - sh) * C = if sh = 1 then 2 * (2 * m * C - C) else 2 * (2 * m * C) - C := by
    obtain ⟨k, rfl⟩ : ∃ k, m = k + 1 := ⟨m - 1, by omega⟩
    rcases hsh with h | ⟨h, _⟩
    · rw [if_pos h, h, show 4 * (k + 1) - 1 - 1 = 4 * k + 2 by omega, show 2 * (k + 1) * C = (2 * k + 1) * C + C by ring, Nat.add_sub_cancel]
      ring
    · rw [if_neg (by omega), h, show 4 * (k + 1) - 1 - 0 = 4 * k + 3 by omega, show 2 * (2 * (k + 1) * C) = (4 * k + 3) * C + C by ring, Nat.add_sub_cancel]
  have hsh' : sh = 1 ∨ (sh = 0 ∧ 2 * m * C / 18446744073709551616 % 18446744073709551616 ≠ 18446744073709551615) := by
    rcases hsh with h | ⟨h, h'⟩
    · exact Or.inl h
    · right; refine ⟨h, ?_⟩
      rw [h']
      intro h; apply hmid; omega
  have hT := mulMid (A := 2 * m * C0) (B := 2 * m * C1) (by omega) (by omega)
  rw [← eX] at hT
  have hlo : 2 * m * C0 % 18446744073709551616 = 2 * m * C % 18446744073709551616 := by
    rw [eX]; omega
  have hmidlt := w64_lt (2 * m * C0 / 18446744073709551616 + 2 * m * C1 % 18446744073709551616)
  have hXlt : 2 * m * C < 18014398509481984 * (4611686018427387904 * 18446744073709551616) := by omega
  rw [e5] at hfit
  rw [e4, e5, e6, ← msaTail_eq hj1 hj2 hlo hmidlt hT ?_ hC0 hC1 hCd (by omega) ?_ hfit]
  · rw [mulShiftAll64, hmm, msaTail]
    simp only
    rw [umul128_aux _ _ (by omega) hC0, umul128_aux _ _ (by omega) (by omega)]
  · have := Nat.div_lt_of_lt_mul hXlt
    omega
  · rcases hsh' with h | ⟨h, h'⟩
    · exact Or.inl h
    · right; exact ⟨h, fun h2 => h' (by omega)⟩

end Nanostl.Ryu

import Verif.Float.Arith

/-!
Specification of decimal numbers `c * 10^k` against a binary format: which pattern is nearest to the number, and what the best decimal for
a pattern is. `φ.one` is the value 1 in units of the least subnormal, so `c * 10^k` is the fraction `decNum φ c k / decDen k` of units.
-/

namespace Nanostl.Float

/-- Numerator of `c * 10^k` in units. -/
def decNum (φ : Fmt) (c : Nat) (k : Int) : Nat := c * 10 ^ k.toNat * φ.one
/-- Denominator of `c * 10^k` in units. -/
def decDen (k : Int) : Nat := 10 ^ (-k).toNat

/-- A reader that rounds correctly (to nearest, ties to even) reads `c * 10^k` as the pattern `t`. -/
def DecNearest (φ : Fmt) (c : Nat) (k : Int) (t : Nat) : Prop := φ.Nearest (decNum φ c k) (decDen k) t

/-- `c * 10^k` is at least as close to the value of `t` as `c' * 10^k'`. -/
def DecCloser (φ : Fmt) (c : Nat) (k : Int) (c' : Nat) (k' : Int) (t : Nat) : Prop :=
  φ.dist (decNum φ c k) (decDen k) t * decDen k' ≤ φ.dist (decNum φ c' k') (decDen k') t * decDen k

/-- `o * 10^e` is read as `t`, no decimal with fewer digits is, and no decimal that is read as `t` and has at most as many digits is closer.
`c < 10^n` says that `c` has at most `n` digits. -/
structure DecBest (φ : Fmt) (t o : Nat) (e : Int) : Prop where
  near : DecNearest φ o e t
  shortest : ∀ c k n, DecNearest φ c k t → c < 10 ^ n → o < 10 ^ n
  closest : ∀ c k, DecNearest φ c k t → (∀ n, o < 10 ^ n → c < 10 ^ n) → DecCloser φ o e c k t

/-! ### Facts -/

theorem decDen_pos (k : Int) : 0 < decDen k := Nat.pow_pos (by decide)

theorem one_pos (φ : Fmt) : 0 < φ.one := Nat.two_pow_pos _

theorem dec_cross (φ : Fmt) (c j : Nat) (k : Int) : decNum φ (c * 10 ^ j) k * decDen (k + j) = decNum φ c (k + j) * decDen k := by
  unfold decNum decDen
  have h : 10 ^ j * 10 ^ k.toNat * 10 ^ (-(k + j)).toNat = 10 ^ (k + j).toNat * 10 ^ (-k).toNat := by
    rw [← Nat.pow_add, ← Nat.pow_add, ← Nat.pow_add]; congr 1; omega
  calc c * 10 ^ j * 10 ^ k.toNat * φ.one * 10 ^ (-(k + j)).toNat
      = c * φ.one * (10 ^ j * 10 ^ k.toNat * 10 ^ (-(k + j)).toNat) := by ring
    _ = _ := by rw [h]; ring

theorem dist_scale (φ : Fmt) (n d f t : Nat) : φ.dist (n * f) (d * f) t = φ.dist n d t * f := by
  unfold Fmt.dist
  have : ((n * f : Nat) : Int) - (φ.mag t * (d * f) : Nat) = ((n : Int) - (φ.mag t * d : Nat)) * (f : Int) := by
    push_cast; ring
  rw [this, Int.natAbs_mul, Int.natAbs_natCast]

theorem nearest_scale (φ : Fmt) {n d f t : Nat} (hf : 0 < f) : φ.Nearest (n * f) (d * f) t ↔ φ.Nearest n d t := by
  unfold Fmt.Nearest
  refine forall_congr' fun t' => ?_
  rw [dist_scale, dist_scale, Nat.mul_le_mul_right_iff hf, Nat.mul_left_inj (by omega)]

theorem nearest_cross (φ : Fmt) {n d n' d' t : Nat} (hd : 0 < d) (hd' : 0 < d') (h : n * d' = n' * d) : φ.Nearest n d t ↔ φ.Nearest n' d' t := by
  rw [← nearest_scale φ (n := n) hd', ← nearest_scale φ (n := n') hd, h, Nat.mul_comm d]

theorem dist_cross (φ : Fmt) {n d n' d' : Nat} (h : n * d' = n' * d) (t : Nat) : φ.dist n d t * d' = φ.dist n' d' t * d := by
  rw [← dist_scale, ← dist_scale, h, Nat.mul_comm d]

theorem decNearest_shift {φ : Fmt} {c j t : Nat} {k : Int} : DecNearest φ (c * 10 ^ j) k t ↔ DecNearest φ c (k + j) t :=
  nearest_cross φ (decDen_pos _) (decDen_pos _) (dec_cross φ c j k)

theorem closer_congr_left {φ : Fmt} {c1 c2 c t : Nat} {k1 k2 k : Int} (h : decNum φ c1 k1 * decDen k2 = decNum φ c2 k2 * decDen k1) :
    DecCloser φ c1 k1 c k t ↔ DecCloser φ c2 k2 c k t := by
  unfold DecCloser
  have e := dist_cross φ h t
  have p1 := decDen_pos k1
  have p2 := decDen_pos k2
  generalize φ.dist (decNum φ c1 k1) (decDen k1) t = A at *
  generalize φ.dist (decNum φ c2 k2) (decDen k2) t = B at *
  generalize φ.dist (decNum φ c k) (decDen k) t = C at *
  rw [← Nat.mul_le_mul_right_iff p2, ← Nat.mul_le_mul_right_iff p1 (n := B * decDen k)]
  rw [show A * decDen k * decDen k2 = A * decDen k2 * decDen k by ring, e, show B * decDen k1 * decDen k = B * decDen k * decDen k1 by ring,
    show C * decDen k1 * decDen k2 = C * decDen k2 * decDen k1 by ring]

theorem closer_congr_right {φ : Fmt} {c1 c2 c t : Nat} {k1 k2 k : Int} (h : decNum φ c1 k1 * decDen k2 = decNum φ c2 k2 * decDen k1) :
    DecCloser φ c k c1 k1 t ↔ DecCloser φ c k c2 k2 t := by
  unfold DecCloser
  have e := dist_cross φ h t
  have p1 := decDen_pos k1
  have p2 := decDen_pos k2
  generalize φ.dist (decNum φ c1 k1) (decDen k1) t = A at *
  generalize φ.dist (decNum φ c2 k2) (decDen k2) t = B at *
  generalize φ.dist (decNum φ c k) (decDen k) t = C at *
  rw [← Nat.mul_le_mul_right_iff p2, ← Nat.mul_le_mul_right_iff p1 (n := C * decDen k2)]
  rw [show A * decDen k * decDen k2 = A * decDen k2 * decDen k by ring, e, show B * decDen k1 * decDen k = B * decDen k * decDen k1 by ring,
    show C * decDen k1 * decDen k2 = C * decDen k2 * decDen k1 by ring]

/-- The rounding interval: values nearest to `t` lie between the midpoints to its neighbours, ends included for even `t`. -/
theorem nearest_interval (φ : Fmt) {n d t : Nat} (hd : 0 < d) (ht : 0 < t) :
    φ.Nearest n d t ↔ if t % 2 = 0 then (φ.mag (t - 1) + φ.mag t) * d ≤ 2 * n ∧ 2 * n ≤ (φ.mag t + φ.mag (t + 1)) * d
      else (φ.mag (t - 1) + φ.mag t) * d < 2 * n ∧ 2 * n < (φ.mag t + φ.mag (t + 1)) * d := by
  obtain ⟨s, rfl⟩ : ∃ s, t = s + 1 := ⟨t - 1, by omega⟩
  rw [Nat.add_sub_cancel, Nat.add_mul, Nat.add_mul]
  have l1 := Nat.mul_lt_mul_of_pos_right (φ.mag_succ s) hd
  have l2 := Nat.mul_lt_mul_of_pos_right (φ.mag_succ (s + 1)) hd
  constructor
  · intro h
    have h1 := h s
    have h2 := h (s + 1 + 1)
    unfold Fmt.dist at h1 h2
    generalize φ.mag s * d = A at *
    generalize φ.mag (s + 1) * d = B at *
    generalize φ.mag (s + 1 + 1) * d = C at *
    by_cases hp : (s + 1) % 2 = 0
    · rw [if_pos hp]; omega
    · rw [if_neg hp]
      have h3 : ¬((n : Int) - (B : Nat)).natAbs = ((n : Int) - (A : Nat)).natAbs := fun e => hp (h1.2 e (by omega))
      have h4 : ¬((n : Int) - (B : Nat)).natAbs = ((n : Int) - (C : Nat)).natAbs := fun e => hp (h2.2 e (by omega))
      omega
  · intro h
    by_cases hn : n ≤ φ.mag (s + 1) * d
    · refine φ.nearest_hi ?_ hn ?_ <;> split at h <;> omega
    · refine φ.nearest_lo (by omega) ?_ ?_ <;> split at h <;> omega

theorem nearest_convex (φ : Fmt) {x y z d t : Nat} (hd : 0 < d) (ht : 0 < t) (h1 : φ.Nearest x d t) (h2 : φ.Nearest z d t) (h3 : x ≤ y) (h4 : y ≤ z) :
    φ.Nearest y d t := by
  rw [nearest_interval φ hd ht] at *
  split at h1 <;> rename_i hp <;> simp only [hp, if_true, if_false] at h2 ⊢ <;> omega

theorem decNum_mono (φ : Fmt) {x y : Nat} (h : x ≤ y) (k : Int) : decNum φ x k ≤ decNum φ y k :=
  Nat.mul_le_mul_right _ (Nat.mul_le_mul_right _ h)

theorem dec_convex {φ : Fmt} {x y z t : Nat} {k : Int} (ht : 0 < t) (h1 : DecNearest φ x k t) (h2 : DecNearest φ z k t) (h3 : x ≤ y) (h4 : y ≤ z) :
    DecNearest φ y k t :=
  nearest_convex φ (decDen_pos k) ht h1 h2 (decNum_mono φ h3 k) (decNum_mono φ h4 k)

theorem dec_zero {φ : Fmt} {t : Nat} {k : Int} (ht : 0 < t) : ¬DecNearest φ 0 k t := by
  intro h
  rw [DecNearest, nearest_interval φ (decDen_pos k) ht] at h
  have h0 : decNum φ 0 k = 0 := by unfold decNum; ring
  have := φ.mag_lt_iff.2 ht
  have : 0 < (φ.mag (t - 1) + φ.mag t) * decDen k := Nat.mul_pos (by omega) (decDen_pos k)
  rw [h0] at h
  split at h <;> omega

end Nanostl.Float

import Verif.FastFloat.TableProps

/-!
The product of the significand with the entry of the table: what the two words returned by `compute_product_approximation` say about the exact
product. The significand has its leading bit set; `K` is the number of low bits of the high word that are not needed.
-/

namespace Nanostl.FastFloat
open Nanostl.Ryu (w64 chk some_bind allBelow allBelow_sound)

theorem fullMul_eq {a b : Nat} (ha : a < 2 ^ 64) (hb : b < 2 ^ 64) : fullMul a b = (a * b / 2 ^ 64, a * b % 2 ^ 64) := by
  have h : a * b < 2 ^ 64 * 2 ^ 64 := Nat.mul_lt_mul'' ha hb
  rw [fullMul, w64, w64, Nat.shiftRight_eq_div_pow, Nat.mod_eq_of_lt]
  exact Nat.div_lt_of_lt_mul h

theorem mask_eq {K : Nat} (hK0 : 0 < K) (hK : K ≤ 64) : (if 64 - K < 64 then 0xFFFFFFFFFFFFFFFF >>> (64 - K) else 0xFFFFFFFFFFFFFFFF) = 2 ^ K - 1 := by
  have h : ∀ k : Fin 64, (if 64 - (k.1 + 1) < 64 then 0xFFFFFFFFFFFFFFFF >>> (64 - (k.1 + 1)) else 0xFFFFFFFFFFFFFFFF) = 2 ^ (k.1 + 1) - 1 := by
    decide +kernel
  have := h ⟨K - 1, by omega⟩
  rwa [show K - 1 + 1 = K by omega] at this

/-- What the product is: the first product alone, or both. -/
def Prod (K w hi lo H L : Nat) : Prop :=
  H < 2 ^ 64 ∧ L < 2 ^ 64 ∧
  ((w * hi = H * 2 ^ 64 + L ∧ H % 2 ^ K ≠ 2 ^ K - 1) ∨ (w * hi + w * lo / 2 ^ 64 = H * 2 ^ 64 + L ∧ w * hi / 2 ^ 64 % 2 ^ K = 2 ^ K - 1))

theorem carry_sum {a l s P : Nat} (h1 : a < 2 ^ 64) (h2 : l < 2 ^ 64) (h3 : s < 2 ^ 64) (hs : P + s < 2 ^ 64 * 2 ^ 64) (hd : 2 ^ 64 * a + l = P) :
    P + s = (if s > w64 (l + s) then w64 (a + 1) else a) * 2 ^ 64 + w64 (l + s) := by
  by_cases h : s > w64 (l + s)
  · rw [if_pos h]; simp only [w64] at *; omega
  · rw [if_neg h]; simp only [w64] at *; omega

theorem product_spec {K : Nat} (hK0 : 0 < K) (hK : K ≤ 64) {q : Int} {w hi lo : Nat} (hw : w < 2 ^ 64) (hhi : hi < 2 ^ 64) (hlo : lo < 2 ^ 64)
    (t1 : tab (2 * (q - -342)) = some hi) (t2 : tab (2 * (q - -342) + 1) = some lo) :
    ∃ H L, productApprox (64 - K) q w = some (H, L) ∧ Prod K w hi lo H L := by
  rw [productApprox]
  simp only [t1, t2, some_bind, fullMul_eq hw hhi, fullMul_eq hw hlo, mask_eq hK0 hK, Nat.and_two_pow_sub_one_eq_mod]
  have hP : w * hi < 2 ^ 64 * 2 ^ 64 := Nat.mul_lt_mul'' hw hhi
  have h1 : w * hi / 2 ^ 64 < 2 ^ 64 := Nat.div_lt_of_lt_mul hP
  have h2 : w * hi % 2 ^ 64 < 2 ^ 64 := Nat.mod_lt _ (by decide)
  have hdm := Nat.div_add_mod (w * hi) (2 ^ 64)
  split
  · rename_i hm
    have h3 : w * lo / 2 ^ 64 < 2 ^ 64 := Nat.div_lt_of_lt_mul (Nat.mul_lt_mul'' hw hlo)
    -- the sum of both fits in 128 bits
    have hsum : w * hi + w * lo / 2 ^ 64 < 2 ^ 64 * 2 ^ 64 := by
      have a1 : w * hi ≤ (2 ^ 64 - 1) * (2 ^ 64 - 1) := Nat.mul_le_mul (by omega) (by omega)
      omega
    refine ⟨_, _, rfl, ?_, ?_, Or.inr ⟨?_, hm⟩⟩ <;> clear hm
    all_goals
      generalize w * lo / 2 ^ 64 = s at *
      generalize w * hi / 2 ^ 64 = a at *
      generalize w * hi % 2 ^ 64 = l at *
      generalize w * hi = P at *
    · split
      · exact Nat.mod_lt _ (by decide)
      · omega
    · exact Nat.mod_lt _ (by decide)
    · exact carry_sum h1 h2 h3 hsum hdm
  · rename_i hm
    exact ⟨_, _, rfl, h1, h2, Or.inl ⟨by omega, hm⟩⟩

/-! ### Against the exact product

`N / D` is the exact product `w * 5^q` scaled, below `2^192`; `H` its leading word as computed. -/

theorem div_mul_pow {N D a b : Nat} : N / (D * 2 ^ (a + b)) = N / (D * 2 ^ a) / 2 ^ b := by
  rw [pow_add, ← Nat.mul_assoc, Nat.div_div_eq_div_mul]

theorem succ_div_pow {H K : Nat} (h : H % 2 ^ K ≠ 2 ^ K - 1) : (H + 1) / 2 ^ K = H / 2 ^ K := by
  have hp : 0 < 2 ^ K := Nat.two_pow_pos K
  have h1 := Nat.div_add_mod H (2 ^ K)
  have h2 := Nat.mod_lt H hp
  refine Nat.div_eq_of_lt_le ?_ ?_
  · rw [Nat.mul_comm]; omega
  · rw [Nat.add_mul, Nat.one_mul, Nat.mul_comm]; omega

/-- The high word is a lower bound, and too low by less than two. -/
structure Near (N D H : Nat) : Prop where
  le : H * (D * 2 ^ 128) ≤ N
  lt : N < (H + 2) * (D * 2 ^ 128)

variable {q : Int} {w hi lo K H L : Nat}

/-- The exact product is at least the first product, and less than it plus `2^128`. -/
theorem entry_first (e : Entry q hi lo) (hw : w < 2 ^ 64) :
    w * hi * 2 ^ 64 * pden q ≤ w * pnum q ∧ w * pnum q < (w * hi * 2 ^ 64 + 2 ^ 128) * pden q := by
  have hlo := e.lo_lt
  have hlo' : hi * 2 ^ 64 + lo + 1 ≤ hi * 2 ^ 64 + 2 ^ 64 := by omega
  have hD : 0 < pden q := Nat.mul_pos (Nat.pow_pos (by decide)) (Nat.two_pow_pos _)
  have key : hi * 2 ^ 64 * pden q ≤ pnum q ∧ pnum q ≤ (hi * 2 ^ 64 + 2 ^ 64) * pden q := by
    by_cases hq : q < -27 ∨ 0 ≤ q
    · obtain ⟨a, b⟩ := e.down hq
      exact ⟨le_trans (Nat.mul_le_mul_right _ (Nat.le_add_right _ _)) a, le_trans b.le (Nat.mul_le_mul_right _ hlo')⟩
    · obtain ⟨a, b, c⟩ := e.up (by omega) (by omega)
      refine ⟨?_, le_trans a (Nat.mul_le_mul_right _ (Nat.le_of_succ_le hlo'))⟩
      have : (hi * 2 ^ 64 + lo) * pden q ≥ hi * 2 ^ 64 * pden q + pden q := by
        rw [Nat.add_mul]; exact Nat.add_le_add_left (Nat.le_mul_of_pos_left _ c) _
      omega
  have h64 : (2 : Nat) ^ 128 = 2 ^ 64 * 2 ^ 64 := by decide
  rw [h64]
  generalize (2 : Nat) ^ 64 = B at *
  constructor
  · rw [Nat.mul_assoc, Nat.mul_assoc, ← Nat.mul_assoc hi]
    exact Nat.mul_le_mul_left _ key.1
  · calc w * pnum q ≤ w * ((hi * B + B) * pden q) := Nat.mul_le_mul_left _ key.2
      _ = (w * hi * B + w * B) * pden q := by ring
      _ < _ := Nat.mul_lt_mul_of_pos_right (Nat.add_lt_add_left (Nat.mul_lt_mul_of_pos_right hw (by omega)) _) hD

theorem pden_pos (q : Int) : 0 < pden q := Nat.mul_pos (Nat.pow_pos (by decide)) (Nat.two_pow_pos _)

/-- The two words of the second branch, against the product with the whole entry. -/
theorem second_words (h : w * hi + w * lo / 2 ^ 64 = H * 2 ^ 64 + L) :
    (H * 2 ^ 64 + L) * 2 ^ 64 ≤ w * (hi * 2 ^ 64 + lo) ∧ w * (hi * 2 ^ 64 + lo) < (H * 2 ^ 64 + L + 1) * 2 ^ 64 := by
  have hdm := Nat.div_add_mod (w * lo) (2 ^ 64)
  have hm := Nat.mod_lt (w * lo) (show 0 < 2 ^ 64 by decide)
  have e : w * (hi * 2 ^ 64 + lo) = w * hi * 2 ^ 64 + w * lo := by rw [Nat.mul_add, Nat.mul_assoc]
  rw [e]
  generalize w * hi = a at *
  generalize w * lo = c at *
  omega

/-- Powers at which entries are rounded up: the numerator is a multiple of `2^128`, the denominator small. -/
theorem up_shape (h1 : -27 ≤ q) (h2 : q < 0) : 2 ^ 128 ∣ pnum q ∧ pden q < 2 ^ 63 := by
  have he : expo q < 0 := by unfold expo power; omega
  constructor
  · exact Dvd.dvd.mul_left (pow_dvd_pow 2 (by omega)) _
  · unfold pden
    rw [show (expo q - 127).toNat = 0 by omega, Nat.pow_zero, Nat.mul_one]
    exact lt_of_le_of_lt (Nat.pow_le_pow_right (by decide) (show (-q).toNat ≤ 27 by omega)) (by decide)

theorem dvd_gap {a b c M : Nat} (ha : M ∣ a) (hb : M ∣ b) (h : b < a + c) (hc : c ≤ M) : b ≤ a := by
  obtain ⟨x, rfl⟩ := ha
  obtain ⟨y, rfl⟩ := hb
  by_contra hlt
  have h1 : M * x < M * y := by omega
  have h2 : x < y := Nat.lt_of_mul_lt_mul_left h1
  have h3 : M * (x + 1) ≤ M * y := Nat.mul_le_mul_left M h2
  rw [Nat.mul_add] at h3
  omega

/-- Lower bound in the second branch. -/
theorem second_le (e : Entry q hi lo) (hw : w < 2 ^ 64) (h : w * hi + w * lo / 2 ^ 64 = H * 2 ^ 64 + L) : H * (pden q * 2 ^ 128) ≤ w * pnum q := by
  obtain ⟨a, b⟩ := second_words h
  have hHT : H * 2 ^ 128 ≤ w * (hi * 2 ^ 64 + lo) := by
    refine le_trans ?_ a
    rw [show H * 2 ^ 128 = H * 2 ^ 64 * 2 ^ 64 by rw [Nat.mul_assoc, ← Nat.pow_add], Nat.add_mul]
    exact Nat.le_add_right _ _
  have hHT' : H * (pden q * 2 ^ 128) ≤ w * (hi * 2 ^ 64 + lo) * pden q :=
    calc H * (pden q * 2 ^ 128) = H * 2 ^ 128 * pden q := by ring
      _ ≤ _ := Nat.mul_le_mul_right _ hHT
  by_cases hq : q < -27 ∨ 0 ≤ q
  · have := Nat.mul_le_mul_left w (e.down hq).1
    rw [← Nat.mul_assoc] at this
    exact le_trans hHT' this
  · obtain ⟨_, u, _⟩ := e.up (by omega) (by omega)
    obtain ⟨s1, s2⟩ := up_shape (q := q) (by omega) (by omega)
    refine dvd_gap (c := 2 ^ 128) (Dvd.dvd.mul_left s1 w) (Dvd.dvd.mul_left (Dvd.intro_left _ rfl) _) ?_ (le_refl _)
    have h3 : w * ((hi * 2 ^ 64 + lo) * pden q) ≤ w * (pnum q + pden q) := Nat.mul_le_mul_left w (le_of_lt u)
    have h4 : w * pden q < 2 ^ 128 := by
      calc w * pden q ≤ w * 2 ^ 63 := Nat.mul_le_mul_left _ (le_of_lt s2)
        _ < 2 ^ 128 := by omega
    rw [Nat.mul_add, ← Nat.mul_assoc] at h3
    calc _ ≤ _ := le_trans hHT' h3
      _ < _ := Nat.add_lt_add_left h4 _

/-- Upper bounds in the second branch. -/
theorem second_lt (e : Entry q hi lo) (hw : w < 2 ^ 64) (h : w * hi + w * lo / 2 ^ 64 = H * 2 ^ 64 + L) :
    w * pnum q < (H * 2 ^ 64 + L + 2) * 2 ^ 64 * pden q ∧
    (-27 ≤ q ∧ q ≤ 55 → w * pnum q < (H * 2 ^ 64 + L + 1) * 2 ^ 64 * pden q) := by
  obtain ⟨a, b⟩ := second_words h
  have hD := pden_pos q
  have up : pnum q ≤ (hi * 2 ^ 64 + lo) * pden q → w * pnum q < (H * 2 ^ 64 + L + 1) * 2 ^ 64 * pden q := by
    intro hu
    calc w * pnum q ≤ w * ((hi * 2 ^ 64 + lo) * pden q) := Nat.mul_le_mul_left w hu
      _ = w * (hi * 2 ^ 64 + lo) * pden q := (Nat.mul_assoc ..).symm
      _ < _ := Nat.mul_lt_mul_of_pos_right b hD
  constructor
  · by_cases hq : q < -27 ∨ 0 ≤ q
    · have hu := (e.down hq).2
      calc w * pnum q ≤ w * ((hi * 2 ^ 64 + lo + 1) * pden q) := Nat.mul_le_mul_left w hu.le
        _ = (w * (hi * 2 ^ 64 + lo) + w) * pden q := by rw [← Nat.mul_assoc, Nat.mul_add w, Nat.mul_one]
        _ < _ := Nat.mul_lt_mul_of_pos_right (by
            rw [show H * 2 ^ 64 + L + 2 = (H * 2 ^ 64 + L + 1) + 1 from rfl, Nat.add_mul _ 1, Nat.one_mul]
            exact Nat.add_lt_add b hw) hD
    · refine lt_trans (up (e.up (by omega) (by omega)).1) ?_
      exact Nat.mul_lt_mul_of_pos_right (Nat.mul_lt_mul_of_pos_right (Nat.lt_succ_self _) (by decide)) hD
  · rintro ⟨q1, q2⟩
    by_cases hq : 0 ≤ q
    · exact up (e.exact hq q2).ge
    · exact up (e.up q1 (by omega)).1

/-- The high word of the second branch is exact, or the low word is all ones. -/
theorem second_exact (e : Entry q hi lo) (hw : w < 2 ^ 64) (hL : L < 2 ^ 64) (h : w * hi + w * lo / 2 ^ 64 = H * 2 ^ 64 + L)
    (ok : L ≠ 2 ^ 64 - 1 ∨ -27 ≤ q ∧ q ≤ 55) : w * pnum q < (H + 1) * (pden q * 2 ^ 128) := by
  obtain ⟨a, b⟩ := second_lt e hw h
  have key : ∀ x, x ≤ (H + 1) * 2 ^ 64 → w * pnum q < x * 2 ^ 64 * pden q → w * pnum q < (H + 1) * (pden q * 2 ^ 128) := by
    intro x hx hlt
    refine lt_of_lt_of_le hlt ?_
    calc x * 2 ^ 64 * pden q ≤ (H + 1) * 2 ^ 64 * 2 ^ 64 * pden q := Nat.mul_le_mul_right _ (Nat.mul_le_mul_right _ hx)
      _ = (H + 1) * (pden q * (2 ^ 64 * 2 ^ 64)) := by
          generalize (2 : Nat) ^ 64 = B
          ring
      _ = _ := by rw [← Nat.pow_add]
  rcases ok with h' | h'
  · exact key _ (by omega) a
  · exact key _ (by omega) (b h')

/-- The high word is a lower bound of the exact product, and too low by less than two. -/
theorem prod_near (e : Entry q hi lo) (hw : w < 2 ^ 64) (p : Prod K w hi lo H L) : Near (w * pnum q) (pden q) H := by
  obtain ⟨_, hL, ⟨h, _⟩ | ⟨h, _⟩⟩ := p
  · obtain ⟨a, b⟩ := entry_first e hw
    rw [h] at a b
    have hb : (2 : Nat) ^ 128 = 2 ^ 64 * 2 ^ 64 := by decide
    constructor
    · refine le_trans ?_ a
      rw [Nat.mul_comm (pden q), ← Nat.mul_assoc]
      refine Nat.mul_le_mul_right _ ?_
      rw [hb, Nat.add_mul]; omega
    · refine lt_of_lt_of_le b ?_
      rw [Nat.mul_comm (pden q), ← Nat.mul_assoc]
      refine Nat.mul_le_mul_right _ ?_
      rw [hb, Nat.add_mul]; omega
  · refine ⟨second_le e hw h, lt_of_lt_of_le (second_lt e hw h).1 ?_⟩
    rw [Nat.mul_comm (pden q), ← Nat.mul_assoc]
    refine Nat.mul_le_mul_right _ ?_
    omega

/-- The leading bits are exact. -/
theorem prod_floor (e : Entry q hi lo) (hw : w < 2 ^ 64) (p : Prod K w hi lo H L) (ok : L ≠ 2 ^ 64 - 1 ∨ -27 ≤ q ∧ q ≤ 55) {k : Nat} (hk : K ≤ k) :
    w * pnum q / (pden q * 2 ^ 128) / 2 ^ k = H / 2 ^ k := by
  have hD : 0 < pden q * 2 ^ 128 := Nat.mul_pos (pden_pos q) (by decide)
  have near := prod_near e hw p
  obtain ⟨_, hL, ⟨h, hne⟩ | ⟨h, _⟩⟩ := p
  · obtain ⟨j, rfl⟩ := Nat.exists_eq_add_of_le hk
    have h1 : H ≤ w * pnum q / (pden q * 2 ^ 128) := (Nat.le_div_iff_mul_le hD).2 near.le
    have h2 : w * pnum q / (pden q * 2 ^ 128) < H + 2 := (Nat.div_lt_iff_lt_mul hD).2 near.lt
    generalize w * pnum q / (pden q * 2 ^ 128) = F at h1 h2
    rw [Nat.pow_add, ← Nat.div_div_eq_div_mul, ← Nat.div_div_eq_div_mul]
    congr 1
    have : F = H ∨ F = H + 1 := by omega
    rcases this with h' | h' <;> rw [h']
    exact succ_div_pow hne
  · rw [Nat.div_eq_of_lt_le (second_le e hw h) (second_exact e hw hL h ok)]

/-! ### Ties -/

/-- What the limits of the powers at which ties occur have to satisfy; `mb` bits of fraction, `K` superfluous bits. -/
structure TieRange (mb K : Nat) (lo hi : Int) : Prop where
  hK : K + mb = 61
  lo_ge : -27 ≤ lo
  lo_le : lo ≤ 0
  hi_ge : 0 ≤ hi
  hi_le : hi ≤ 23
  lo_out : 2 ^ (63 - mb) < 5 ^ ((-lo).toNat + 1)
  hi_out : 2 ^ (mb + 2) < 5 ^ (hi.toNat + 1)
  noTie : ∀ q h, lo ≤ q → q < 0 → tab (2 * (q - -342)) = some h → noTie K h = true

theorem tieRange64 : TieRange 52 9 (-4) 23 := by
  refine ⟨rfl, by decide, by decide, by decide, by decide, by decide, by decide, fun q h h1 h2 ht => ?_⟩
  have := allBelow_sound noTie64 (i := (q + 4).toNat) (by omega)
  rw [tab, if_pos (by omega), show (2 * (q - -342)).toNat = 2 * (342 - 4 + (q + 4).toNat) by omega] at ht
  simpa [ht] using this

theorem tieRange32 : TieRange 23 38 (-17) 10 := by
  refine ⟨rfl, by decide, by decide, by decide, by decide, by decide, by decide, fun q h h1 h2 ht => ?_⟩
  have := allBelow_sound noTie32 (i := (q + 17).toNat) (by omega)
  rw [tab, if_pos (by omega), show (2 * (q - -342)).toNat = 2 * (342 - 17 + (q + 17).toNat) by omega] at ht
  simpa [ht] using this

theorem hi_even {h : Nat} (h1 : 0 ≤ q) (h2 : q ≤ 23) (ht : tab (2 * (q - -342)) = some h) : h % 2 = 0 := by
  have := allBelow_sound even64 (i := q.toNat) (by omega)
  rw [tab, if_pos (by omega), show (2 * (q - -342)).toNat = 2 * (342 + q.toNat) by omega] at ht
  simpa [ht] using this

variable {mb : Nat} {rlo rhi : Int}

/-- Where the code finds a tie, the product is exact. -/
theorem tie_sound (r : TieRange mb K rlo rhi) (e : Entry q hi lo) (t : tab (2 * (q - -342)) = some hi) (h0 : 0 < w) (hw : w < 2 ^ 64)
    (p : Prod K w hi lo H L) (q1 : rlo ≤ q) (q2 : q ≤ rhi) (hL : L ≤ 1) (hH : H % 2 ^ K = 0) : w * pnum q = H * (pden q * 2 ^ 128) := by
  have := r.lo_ge
  have := r.hi_le
  have near := prod_near e hw p
  obtain ⟨_, _, p⟩ := p
  by_cases hq : 0 ≤ q
  · have hlo := e.rest hq (by omega)
    have hp : w * hi = H * 2 ^ 64 + L := by
      rcases p with p | p
      · exact p.1
      · have := p.1
        rw [hlo] at this
        simpa using this
    have hev := hi_even hq (by omega) t
    have hL0 : L = 0 := by
      have h2 : w * hi % 2 = 0 := by rw [Nat.mul_mod, hev, Nat.mul_zero, Nat.zero_mod]
      rw [hp] at h2
      omega
    rw [← e.exact hq (by omega), hlo, Nat.add_zero, ← Nat.mul_assoc, ← Nat.mul_assoc, hp, hL0, Nat.add_zero, Nat.mul_assoc H, ← Nat.pow_add,
      Nat.mul_comm (pden q), ← Nat.mul_assoc]
  · rcases p with p | p
    · exfalso
      obtain ⟨n0, n1⟩ := noTie_sound (r.noTie q hi q1 (by omega) t) h0 hw
      have : w * hi % 2 ^ (64 + K) = L := by
        obtain ⟨j, hj⟩ := Nat.dvd_of_mod_eq_zero hH
        rw [p.1, hj, Nat.pow_add, show 2 ^ K * j * 2 ^ 64 + L = L + (2 ^ 64 * 2 ^ K) * j by ring, Nat.add_mul_mod_self_left, Nat.mod_eq_of_lt]
        exact lt_of_lt_of_le (show L < 2 ^ 64 by omega) (Nat.le_mul_of_pos_right _ (Nat.two_pow_pos _))
      rw [this] at n0 n1
      omega
    · obtain ⟨s1, s2⟩ := up_shape (q := q) (by omega) (by omega)
      refine Nat.le_antisymm (dvd_gap (c := 2 ^ 128) (Dvd.dvd.mul_left (Dvd.intro_left _ rfl) _) (Dvd.dvd.mul_left s1 w) ?_ (le_refl _)) near.le
      refine lt_of_lt_of_le ((second_lt e hw p.1).2 ⟨by omega, by omega⟩) ?_
      have h2 : (L + 1) * 2 ^ 64 * pden q ≤ 2 ^ 128 := by
        calc (L + 1) * 2 ^ 64 * pden q ≤ 2 * 2 ^ 64 * 2 ^ 63 := Nat.mul_le_mul (Nat.mul_le_mul_right _ (by omega)) s2.le
          _ = 2 ^ 128 := by decide
      calc (H * 2 ^ 64 + L + 1) * 2 ^ 64 * pden q = H * (pden q * (2 ^ 64 * 2 ^ 64)) + (L + 1) * 2 ^ 64 * pden q := by
            generalize (2 : Nat) ^ 64 = B
            ring
        _ ≤ _ := by rw [← Nat.pow_add]; exact Nat.add_le_add_left h2 _

theorem odd_dvd {a n b : Nat} (ha : a % 2 = 1) (h : a ∣ b * 2 ^ n) : a ∣ b :=
  Nat.Coprime.dvd_of_dvd_mul_right (Nat.Coprime.pow_right _ (Nat.coprime_two_right.2 (Nat.odd_iff.2 ha))) h

theorem five_dvd {n m a b : Nat} (h : 5 ^ n ∣ b * 2 ^ m) (hb : b < a) (h0 : 0 < b) : 5 ^ n < a :=
  lt_of_le_of_lt (Nat.le_of_dvd h0 (odd_dvd (by rw [Nat.pow_mod]; simp) h)) hb

theorem pow_five_lt {n m B : Nat} (h1 : 5 ^ n < B) (h2 : B < 5 ^ (m + 1)) : n ≤ m := by
  by_contra h
  have : 5 ^ (m + 1) ≤ 5 ^ n := Nat.pow_le_pow_right (by decide) (by omega)
  omega

/-- Where the product is an odd multiple of half a unit, the code finds a tie. -/
theorem tie_complete (r : TieRange mb K rlo rhi) (e : Entry q hi lo) (hw : w < 2 ^ 64)
    (p : Prod K w hi lo H L) {k Q : Nat} (hk : K ≤ k) (hodd : Q % 2 = 1) (hQ1 : 2 ^ (mb + 1) ≤ Q) (hQ2 : Q < 2 ^ (mb + 2))
    (h : w * pnum q = Q * 2 ^ k * (pden q * 2 ^ 128)) : rlo ≤ q ∧ q ≤ rhi ∧ L ≤ 1 ∧ H = Q * 2 ^ k := by
  have r1 := r.lo_ge
  have r2 := r.hi_le
  have r3 := r.lo_le
  have r4 := r.hi_ge
  have near := prod_near e hw p
  have hmb : mb ≤ 61 := by have := r.hK; omega
  have hD := pden_pos q
  obtain ⟨_, hL, p⟩ := p
  by_cases hq : 0 ≤ q
  · -- the power of five divides the significand
    have hd : 5 ^ q.toNat ∣ Q * 2 ^ (k + (expo q - 127).toNat + 128) := by
      refine ⟨w * 2 ^ (127 - expo q).toNat, ?_⟩
      have e0 : (-q).toNat = 0 := by omega
      unfold pnum pden at h
      rw [e0] at h
      calc Q * 2 ^ (k + (expo q - 127).toNat + 128) = Q * 2 ^ k * (5 ^ 0 * 2 ^ (expo q - 127).toNat * 2 ^ 128) := by
            rw [Nat.pow_add, Nat.pow_add, Nat.pow_zero, Nat.one_mul]; generalize (2 : Nat) ^ 128 = B; ring
        _ = _ := by rw [← h]; ring
    have h5 := five_dvd hd hQ2 (by have := Nat.two_pow_pos (mb + 1); omega)
    have hqle := pow_five_lt h5 r.hi_out
    have hlo := e.rest hq (by omega)
    have hp : w * hi = H * 2 ^ 64 + L := by
      rcases p with p | p
      · exact p.1
      · have := p.1
        rw [hlo] at this
        simpa using this
    rw [← e.exact hq (by omega), hlo, Nat.add_zero, ← Nat.mul_assoc, ← Nat.mul_assoc, hp, Nat.mul_comm (pden q), ← Nat.mul_assoc] at h
    have h1 := Nat.eq_of_mul_eq_mul_right hD h
    rw [show (2 : Nat) ^ 128 = 2 ^ 64 * 2 ^ 64 by decide, ← Nat.mul_assoc] at h1
    have h2 := Nat.eq_of_mul_eq_mul_right (by decide) h1
    generalize Q * 2 ^ k = X at *
    refine ⟨by omega, by omega, by omega, by omega⟩
  · have he : expo q < 0 := by
      by_contra hc
      unfold expo power at hc
      omega
    have e0 : q.toNat = 0 := by omega
    have e1 : (expo q - 127).toNat = 0 := by omega
    have hd : Q * 5 ^ (-q).toNat ∣ w * 2 ^ (127 - expo q).toNat := by
      refine ⟨2 ^ k * 2 ^ 128, ?_⟩
      unfold pnum pden at h
      rw [e0, e1, Nat.pow_zero, Nat.pow_zero, Nat.one_mul, Nat.mul_one] at h
      rw [h]
      generalize (2 : Nat) ^ 128 = B
      ring
    have hQ5 := odd_dvd (by rw [Nat.mul_mod, hodd, Nat.pow_mod]; simp) hd
    have hwpos : 0 < w := by
      rcases Nat.eq_zero_or_pos w with h0 | h0
      · exfalso
        rw [h0, Nat.zero_mul] at h
        have : 0 < Q * 2 ^ k * (pden q * 2 ^ 128) :=
          Nat.mul_pos (Nat.mul_pos (by omega) (Nat.two_pow_pos _)) (Nat.mul_pos hD (Nat.two_pow_pos _))
        omega
      · exact h0
    have h5 : 5 ^ (-q).toNat < 2 ^ (63 - mb) := by
      have h1 : 2 ^ (mb + 1) * 5 ^ (-q).toNat < 2 ^ (mb + 1) * 2 ^ (63 - mb) := by
        rw [← Nat.pow_add, show mb + 1 + (63 - mb) = 64 by omega]
        exact lt_of_le_of_lt (le_trans (Nat.mul_le_mul_right _ hQ1) (Nat.le_of_dvd hwpos hQ5)) hw
      exact Nat.lt_of_mul_lt_mul_left h1
    have hqle := pow_five_lt h5 r.lo_out
    obtain ⟨u1, u2, u3⟩ := e.up (by omega) (by omega)
    rcases p with p | p
    · exfalso
      -- the first product is below the exact one, hence all its low bits are ones
      have hlt : hi * 2 ^ 64 * pden q < pnum q := by
        rw [Nat.add_mul] at u2
        have := Nat.le_mul_of_pos_left (pden q) u3
        omega
      have h1 : w * (hi * 2 ^ 64 * pden q) < Q * 2 ^ k * (pden q * 2 ^ 128) := by
        rw [← h]
        exact Nat.mul_lt_mul_of_pos_left hlt hwpos
      have h2 : H * (pden q * 2 ^ 128) < Q * 2 ^ k * (pden q * 2 ^ 128) := by
        refine lt_of_le_of_lt ?_ h1
        rw [Nat.mul_comm (pden q), ← Nat.mul_assoc, ← Nat.mul_assoc, ← Nat.mul_assoc, p.1]
        refine Nat.mul_le_mul_right _ ?_
        rw [show H * 2 ^ 128 = H * 2 ^ 64 * 2 ^ 64 by rw [Nat.mul_assoc, ← Nat.pow_add], Nat.add_mul]
        exact Nat.le_add_right _ _
      have h3 : H < Q * 2 ^ k := Nat.lt_of_mul_lt_mul_right h2
      have h4 : Q * 2 ^ k < H + 2 := by
        have := near.lt
        rw [h] at this
        exact Nat.lt_of_mul_lt_mul_right this
      have h5 : H + 1 = Q * 2 ^ (k - K) * 2 ^ K := by rw [Nat.mul_assoc, ← Nat.pow_add, show k - K + K = k by omega]; omega
      refine p.2 ?_
      generalize Q * 2 ^ (k - K) = Y at h5
      have hp : 0 < 2 ^ K := Nat.two_pow_pos K
      have hY : 0 < Y := by
        rcases Nat.eq_zero_or_pos Y with h0 | h0
        · rw [h0] at h5; omega
        · exact h0
      have h6 : H = (2 ^ K - 1) + 2 ^ K * (Y - 1) := by
        rw [Nat.mul_sub, Nat.mul_one, Nat.mul_comm (2 ^ K) Y]
        have := Nat.le_mul_of_pos_left (2 ^ K) hY
        omega
      rw [h6, Nat.add_mul_mod_self_left, Nat.mod_eq_of_lt (by omega)]
    · have h1 := second_le e hw p.1
      have h2 := second_exact e hw hL p.1 (Or.inr ⟨by omega, by omega⟩)
      rw [h] at h1 h2
      have hDD : 0 < pden q * 2 ^ 128 := Nat.mul_pos hD (by decide)
      have h3 : H = Q * 2 ^ k := by
        have a1 := Nat.le_of_mul_le_mul_right h1 hDD
        have a2 := Nat.lt_of_mul_lt_mul_right h2
        omega
      refine ⟨by omega, by omega, ?_, h3⟩
      obtain ⟨a, b⟩ := second_words p.1
      have h4 : w * (hi * 2 ^ 64 + lo) * pden q < (H * 2 ^ 128 + 2 ^ 64) * pden q := by
        calc w * (hi * 2 ^ 64 + lo) * pden q = w * ((hi * 2 ^ 64 + lo) * pden q) := Nat.mul_assoc ..
          _ < w * (pnum q + pden q) := Nat.mul_lt_mul_of_pos_left u2 hwpos
          _ = Q * 2 ^ k * (pden q * 2 ^ 128) + w * pden q := by rw [Nat.mul_add, h]
          _ ≤ H * (pden q * 2 ^ 128) + 2 ^ 64 * pden q := by rw [← h3]; exact Nat.add_le_add_left (Nat.mul_le_mul_right _ hw.le) _
          _ = _ := by rw [Nat.add_mul, Nat.mul_comm (pden q), ← Nat.mul_assoc]
      have h5 := Nat.lt_of_mul_lt_mul_right h4
      have h6 : (H * 2 ^ 64 + L) * 2 ^ 64 < H * 2 ^ 128 + 2 ^ 64 := lt_of_le_of_lt a h5
      rw [show H * 2 ^ 128 = H * 2 ^ 64 * 2 ^ 64 by rw [Nat.mul_assoc, ← Nat.pow_add],
        show H * 2 ^ 64 * 2 ^ 64 + 2 ^ 64 = (H * 2 ^ 64 + 1) * 2 ^ 64 by rw [Nat.add_mul, Nat.one_mul]] at h6
      have h7 := Nat.lt_of_mul_lt_mul_right h6
      omega

end Nanostl.FastFloat

import Verif.Ryu.ParseScale
import Verif.Ryu.ParseRound
import Verif.Ryu.Pattern

/-!
The conversion part of the decimal parsers is correctly rounded.
-/

namespace Nanostl.Ryu
open Nanostl.Float

section
variable {K z m l e L P : Nat}

/-- The scaled significand has the right number of bits. -/
theorem range_pos (hz : z ≤ K) (hl : l ≤ K) (h1 : 2 ^ l ≤ m) (h2 : m < 2 ^ (l + 1)) (p1 : 2 ^ L ≤ P) (p2 : P < 2 ^ (L + 1)) :
    2 ^ (K - z) ≤ m * 2 ^ (K - l) * P / 2 ^ (L + z) ∧ m * 2 ^ (K - l) * P / 2 ^ (L + z) < 2 ^ (K - z + 2) := by
  rw [Nat.le_div_iff_mul_le (Nat.two_pow_pos _), Nat.div_lt_iff_lt_mul (Nat.two_pow_pos _)]
  constructor
  · calc 2 ^ (K - z) * 2 ^ (L + z) = 2 ^ l * 2 ^ (K - l) * 2 ^ L := by rw [← Nat.pow_add, ← Nat.pow_add, ← Nat.pow_add]; congr 1; omega
      _ ≤ m * 2 ^ (K - l) * P := Nat.mul_le_mul (Nat.mul_le_mul_right _ h1) p1
  · calc m * 2 ^ (K - l) * P < 2 ^ (l + 1) * 2 ^ (K - l) * 2 ^ (L + 1) :=
        Nat.mul_lt_mul'' (Nat.mul_lt_mul_of_pos_right h2 (Nat.two_pow_pos _)) p2
      _ = 2 ^ (K - z + 2) * 2 ^ (L + z) := by rw [← Nat.pow_add, ← Nat.pow_add, ← Nat.pow_add]; congr 1; omega

theorem range_neg (hz : z ≤ K) (hl : l ≤ K) (h1 : 2 ^ l ≤ m) (h2 : m < 2 ^ (l + 1)) (p1 : 2 ^ L ≤ P) (p2 : P < 2 ^ (L + 1)) :
    2 ^ (K - z) ≤ m * 2 ^ (K - l) * 2 ^ (L + 1) / (2 ^ z * P) ∧ m * 2 ^ (K - l) * 2 ^ (L + 1) / (2 ^ z * P) < 2 ^ (K - z + 2) := by
  have hP : 0 < 2 ^ z * P := Nat.mul_pos (Nat.two_pow_pos _) (by have := Nat.two_pow_pos L; omega)
  rw [Nat.le_div_iff_mul_le hP, Nat.div_lt_iff_lt_mul hP]
  have hK : 2 ^ l * 2 ^ (K - l) = 2 ^ (K - z) * 2 ^ z := by rw [← Nat.pow_add, ← Nat.pow_add]; congr 1; omega
  constructor
  · calc 2 ^ (K - z) * (2 ^ z * P) ≤ 2 ^ (K - z) * (2 ^ z * 2 ^ (L + 1)) := Nat.mul_le_mul_left _ (Nat.mul_le_mul_left _ (Nat.le_of_lt p2))
      _ = 2 ^ l * 2 ^ (K - l) * 2 ^ (L + 1) := by rw [hK]; ring
      _ ≤ m * 2 ^ (K - l) * 2 ^ (L + 1) := Nat.mul_le_mul_right _ (Nat.mul_le_mul_right _ h1)
  · calc m * 2 ^ (K - l) * 2 ^ (L + 1) < 2 ^ (l + 1) * 2 ^ (K - l) * 2 ^ (L + 1) :=
        Nat.mul_lt_mul_of_pos_right (Nat.mul_lt_mul_of_pos_right h2 (Nat.two_pow_pos _)) (Nat.two_pow_pos _)
      _ = 2 ^ l * 2 ^ (K - l) * (4 * 2 ^ L) := by rw [Nat.pow_succ, Nat.pow_succ]; ring
      _ ≤ 2 ^ l * 2 ^ (K - l) * (4 * P) := Nat.mul_le_mul_left _ (Nat.mul_le_mul_left _ p1)
      _ = 2 ^ (K - z + 2) * (2 ^ z * P) := by rw [hK, Nat.pow_add]; ring

theorem two_dvd {a b : Nat} : 2 ^ a ∣ m * 2 ^ b * 5 ^ e ↔ a ≤ b ∨ 2 ^ (a - b) ∣ m := by
  have hc : Nat.Coprime (2 ^ a) (5 ^ e) := Nat.Coprime.pow _ _ (by decide)
  rw [show 2 ^ a ∣ m * 2 ^ b * 5 ^ e ↔ 2 ^ a ∣ m * 2 ^ b from ⟨fun h => hc.dvd_of_dvd_mul_right h, fun h => Dvd.dvd.mul_right h _⟩]
  by_cases h : a ≤ b
  · exact ⟨fun _ => Or.inl h, fun _ => Dvd.dvd.mul_left (Nat.pow_dvd_pow 2 h) _⟩
  · rw [show a = (a - b) + b by omega, Nat.pow_add, Nat.mul_dvd_mul_iff_right (Nat.two_pow_pos _)]
    simp only [show a - b + b - b = a - b by omega]
    exact ⟨Or.inr, fun hh => hh.resolve_left (by omega)⟩

theorem five_dvd {b : Nat} : 2 ^ z * 5 ^ e ∣ m * 2 ^ b ↔ (z ≤ b ∨ 2 ^ (z - b) ∣ m) ∧ 5 ^ e ∣ m := by
  have hc : Nat.Coprime (2 ^ z) (5 ^ e) := Nat.Coprime.pow _ _ (by decide)
  have hc5 : Nat.Coprime (5 ^ e) (2 ^ b) := Nat.Coprime.pow _ _ (by decide)
  have h5 : 5 ^ e ∣ m * 2 ^ b ↔ 5 ^ e ∣ m := ⟨fun h => hc5.dvd_of_dvd_mul_right h, fun h => Dvd.dvd.mul_right h _⟩
  have h2 := two_dvd (m := m) (e := 0) (a := z) (b := b)
  rw [Nat.pow_zero, Nat.mul_one] at h2
  rw [← h2, ← h5]
  exact ⟨fun h => ⟨Nat.dvd_trans (Nat.dvd_mul_right _ _) h, Nat.dvd_trans (Nat.dvd_mul_left _ _) h⟩, fun h => Nat.Coprime.mul_dvd_of_dvd_of_dvd hc h.1 h.2⟩

/-- The scaled significand is the number, in units of the least magnitude. -/
theorem value_pos (φ : Fmt) (hb : 1 ≤ φ.bias) {e2 e10 : Int} (hl : l ≤ K) (he : e10 = (e : Int)) (hz : φ.mb + 1 + z = K) (he2 : e2 = l + e10 + L - (φ.mb + 1)) :
    ∀ s k : Nat, (s : Int) - k = e2 + φ.bias + φ.mb - 1 → decNum φ m e10 * (2 ^ (L + z) * 2 ^ k) = m * 2 ^ (K - l) * 5 ^ e * 2 ^ s * decDen e10 := by
  intro s k hs
  rw [decNum, decDen, he, show (e : Int).toNat = e by omega, show (-(e : Int)).toNat = 0 by omega, Nat.pow_zero, Nat.mul_one, ten, Fmt.one]
  have : 2 ^ e * 2 ^ (φ.bias + φ.mb - 1) * (2 ^ (L + z) * 2 ^ k) = 2 ^ (K - l) * 2 ^ s := by
    rw [← Nat.pow_add, ← Nat.pow_add, ← Nat.pow_add, ← Nat.pow_add]; congr 1; omega
  calc m * (2 ^ e * 5 ^ e) * 2 ^ (φ.bias + φ.mb - 1) * (2 ^ (L + z) * 2 ^ k) = m * 5 ^ e * (2 ^ e * 2 ^ (φ.bias + φ.mb - 1) * (2 ^ (L + z) * 2 ^ k)) := by ring
    _ = _ := by rw [this]; ring

theorem value_neg (φ : Fmt) (hb : 1 ≤ φ.bias) {e2 e10 : Int} (hl : l ≤ K) (he : e10 = -(e : Int)) (hz : φ.mb + 1 + z = K) (he2 : e2 = l + e10 - (L + 1) - (φ.mb + 1)) :
    ∀ s k : Nat, (s : Int) - k = e2 + φ.bias + φ.mb - 1 →
      decNum φ m e10 * (2 ^ z * 5 ^ e * 2 ^ k) = m * 2 ^ (K - l) * 2 ^ (L + 1) * 2 ^ s * decDen e10 := by
  intro s k hs
  rw [decNum, decDen, he, show (-(e : Int)).toNat = 0 by omega, show (- -(e : Int)).toNat = e by omega, Nat.pow_zero, Nat.mul_one, ten, Fmt.one]
  have : 2 ^ (φ.bias + φ.mb - 1) * (2 ^ z * 2 ^ k) = 2 ^ (K - l) * 2 ^ (L + 1) * 2 ^ s * 2 ^ e := by
    rw [← Nat.pow_add, ← Nat.pow_add, ← Nat.pow_add, ← Nat.pow_add, ← Nat.pow_add]; congr 1; omega
  calc m * 2 ^ (φ.bias + φ.mb - 1) * (2 ^ z * 5 ^ e * 2 ^ k) = m * 5 ^ e * (2 ^ (φ.bias + φ.mb - 1) * (2 ^ z * 2 ^ k)) := by ring
    _ = _ := by rw [this]; ring

/-- Powers of ten against powers of two, for the range of the shift. -/
theorem exp_low {dg A B : Nat} (h1 : 10 ^ (dg - 1) ≤ m) (h2 : m < 2 ^ (l + 1)) (he : e ≤ dg - 1 + A) (hL : 2 ^ L ≤ 5 ^ e) (hAB : 10 ^ A ≤ 2 ^ B) :
    e + L < l + 1 + B := by
  have : 2 ^ (e + L) < 2 ^ (l + 1 + B) := by
    calc 2 ^ (e + L) = 2 ^ e * 2 ^ L := Nat.pow_add _ _ _
      _ ≤ 2 ^ e * 5 ^ e := Nat.mul_le_mul_left _ hL
      _ = 10 ^ e := (ten e).symm
      _ ≤ 10 ^ (dg - 1 + A) := Nat.pow_le_pow_right (by decide) he
      _ = 10 ^ (dg - 1) * 10 ^ A := Nat.pow_add _ _ _
      _ ≤ m * 2 ^ B := Nat.mul_le_mul h1 hAB
      _ < 2 ^ (l + 1) * 2 ^ B := Nat.mul_lt_mul_of_pos_right h2 (Nat.two_pow_pos _)
      _ = _ := (Nat.pow_add _ _ _).symm
  exact (Nat.pow_lt_pow_iff_right (by decide)).1 this

end

/-! ### Far away numbers -/

theorem too_small (φ : Fmt) {m dg A : Nat} {e10 : Int} (h : m < 10 ^ dg) (he : (dg : Int) + e10 ≤ -A) (hA : 2 * φ.one ≤ 10 ^ A) :
    DecNearest φ m e10 0 := by
  have hone : φ.mag (0 + 1) = 1 := by
    have := φ.mag_of 1 0 (by have := Nat.two_pow_pos (φ.mb + 1); omega) (by simp)
    simpa using this
  unfold DecNearest
  have key : 2 * decNum φ m e10 < decDen e10 := by
    rw [decNum, decDen, show e10.toNat = 0 by omega, Nat.pow_zero, Nat.mul_one]
    calc 2 * (m * φ.one) = m * (2 * φ.one) := by ring
      _ < 10 ^ dg * (2 * φ.one) := Nat.mul_lt_mul_of_pos_right h (by have := one_pos φ; omega)
      _ ≤ 10 ^ dg * 10 ^ A := Nat.mul_le_mul_left _ hA
      _ = 10 ^ (dg + A) := (Nat.pow_add _ _ _).symm
      _ ≤ _ := Nat.pow_le_pow_right (by decide) (by omega)
  refine φ.nearest_lo ?_ ?_ (Or.inl ?_)
  · rw [φ.mag_zero]; omega
  · rw [hone]; omega
  · rw [hone, φ.mag_zero]; omega

theorem too_large (φ : Fmt) (hmb : 1 ≤ φ.mb) {m dg A : Nat} {e10 : Int} (h : 10 ^ (dg - 1) ≤ m) (hd : 0 < dg) (he0 : 0 ≤ e10) (he : (A : Int) + 1 ≤ dg + e10)
    (hA : φ.mag φ.inf ≤ 10 ^ A * φ.one) : ∃ t, DecNearest φ m e10 t ∧ φ.inf ≤ t := by
  refine ⟨_, φ.roundMag_nearest hmb (decDen_pos e10), ?_⟩
  have hn := φ.roundMag_nearest hmb (n := decNum φ m e10) (decDen_pos e10)
  generalize φ.roundMag (decNum φ m e10) (decDen e10) = t at hn
  by_contra hlt
  have hlt : t < φ.inf := by omega
  have h1 := (hn φ.inf).1
  have hmag := φ.mag_lt_iff.2 hlt
  unfold Fmt.dist at h1
  have hden : decDen e10 = 1 := by rw [decDen, show (-e10).toNat = 0 by omega, Nat.pow_zero]
  have hnum : φ.mag φ.inf ≤ decNum φ m e10 := by
    rw [decNum]
    refine Nat.le_trans hA (Nat.mul_le_mul_right _ ?_)
    calc 10 ^ A ≤ 10 ^ (dg - 1 + e10.toNat) := Nat.pow_le_pow_right (by decide) (by omega)
      _ = 10 ^ (dg - 1) * 10 ^ e10.toNat := Nat.pow_add _ _ _
      _ ≤ _ := Nat.mul_le_mul_right _ h
  rw [hden, Nat.mul_one, Nat.mul_one] at h1
  omega

/-! ### Doubles -/

theorem pure_def {α : Type} (a : α) : (pure a : Option α) = some a := rfl

theorem inv_bound_chk : allBelow 342 (fun e => Nat.blt (invEntry e) (18446744073709551616 * 4611686018427387904)) = true := by decide +kernel
theorem pow_bound_chk : allBelow 326 (fun e => Nat.blt (powEntry e) (18446744073709551616 * 4611686018427387904)) = true := by decide +kernel

theorem lg_spec {e : Nat} (h : e ≤ 3528) : log2pow5 (e : Int) = some ((lg e : Nat) : Int) ∧ 2 ^ lg e ≤ 5 ^ e ∧ 5 ^ e < 2 ^ (lg e + 1) := by
  have := log2pow5_val (e := (e : Int)) (by omega) (by omega)
  rwa [Int.toNat_natCast] at this

theorem ceilLog2pow5_spec {e : Nat} (h : e ≤ 3528) : ceilLog2pow5 (e : Int) = some ((lg e : Int) + 1) := by
  rw [ceilLog2pow5, (lg_spec h).1, some_bind]; rfl

theorem lg_le {e : Nat} : lg e ≤ 3 * e := by unfold lg; omega
theorem lg_ge {e : Nat} : 2 * e ≤ lg e := by unfold lg; omega

theorem dividesPow2_64 {m : Nat} {d : Int} (h0 : 0 < m) (h : m < 2 ^ 64) : dividesPow2 64 multipleOfPowerOf2 m d = some (decide (d < 0 ∨ 2 ^ d.toNat ∣ m)) := by
  unfold dividesPow2
  by_cases h1 : d < 0
  · simp [h1]
  rw [if_neg h1]
  by_cases h2 : d < (64 : Nat)
  · rw [if_pos h2, mult2_64 (by omega) (by omega)]
    simp [h1]
  · rw [if_neg h2]
    have : ¬ 2 ^ d.toNat ∣ m := fun hd => by
      have h3 := Nat.le_of_dvd h0 hd
      have h4 : 2 ^ 64 ≤ 2 ^ d.toNat := Nat.pow_le_pow_right (by decide) (by omega)
      omega
    simp [h1, this]

theorem dividesPow2_32 {m : Nat} {d : Int} (h0 : 0 < m) (h : m < 2 ^ 32) : dividesPow2 32 multipleOfPowerOf2_32 m d = some (decide (d < 0 ∨ 2 ^ d.toNat ∣ m)) := by
  unfold dividesPow2
  by_cases h1 : d < 0
  · simp [h1]
  rw [if_neg h1]
  by_cases h2 : d < (32 : Nat)
  · rw [if_pos h2, mult2_32 (by omega)]
    simp [h1]
  · rw [if_neg h2]
    have : ¬ 2 ^ d.toNat ∣ m := fun hd => by
      have h3 := Nat.le_of_dvd h0 hd
      have h4 : 2 ^ 32 ≤ 2 ^ d.toNat := Nat.pow_le_pow_right (by decide) (by omega)
      omega
    simp [h1, this]

theorem pos_tz {K z m l e : Nat} {d : Int} (hl : l ≤ K) (hz : z ≤ K) (hd : d = (l : Int) + lg e - (K - z : Nat)) :
    decide (d < 0 ∨ 2 ^ d.toNat ∣ m) = decide (2 ^ (lg e + z) ∣ m * 2 ^ (K - l) * 5 ^ e) := by
  apply decide_eq_decide.mpr
  rw [two_dvd]
  by_cases h : d < 0
  · exact ⟨fun _ => Or.inl (by omega), fun _ => Or.inl h⟩
  · rw [show lg e + z - (K - l) = d.toNat by omega]
    constructor
    · intro h1; exact Or.inr (h1.resolve_left h)
    · rintro (h1 | h1)
      · refine Or.inr ?_
        rw [show d.toNat = 0 by omega, Nat.pow_zero]; exact Nat.one_dvd _
      · exact Or.inr h1

theorem neg_tz {K z m l e : Nat} {d : Int} (hl : l ≤ K) (hz : z ≤ K) (hd : d = (l : Int) - (lg e + 1) - (K - z : Nat)) :
    (decide (d < 0 ∨ 2 ^ d.toNat ∣ m) && decide (5 ^ e ∣ m)) = decide (2 ^ z * 5 ^ e ∣ m * 2 ^ (K - l) * 2 ^ (lg e + 1)) := by
  rw [← Bool.decide_and]
  apply decide_eq_decide.mpr
  rw [Nat.mul_assoc, ← Nat.pow_add, five_dvd]
  refine and_congr_left fun _ => ?_
  by_cases h : d < 0
  · exact ⟨fun _ => Or.inl (by omega), fun _ => Or.inl h⟩
  · rw [show z - (K - l + (lg e + 1)) = d.toNat by omega]
    constructor
    · intro h1; exact Or.inr (h1.resolve_left h)
    · rintro (h1 | h1)
      · refine Or.inr ?_
        rw [show d.toNat = 0 by omega, Nat.pow_zero]; exact Nat.one_dvd _
      · exact Or.inr h1

theorem log_bounds {m : Nat} (h : 0 < m) : 2 ^ Nat.log2 m ≤ m ∧ m < 2 ^ (Nat.log2 m + 1) :=
  ⟨Nat.log2_self_le (by omega), Nat.lt_log2_self⟩

theorem scale64_pos (p : Bool) {m e : Nat} (h0 : 0 < m) (hm : m < 10 ^ 17) (he : e < 309) :
    scale64 p m (e : Int) = some ((Nat.log2 m : Int) + e + lg e - 53, m * 2 ^ (56 - Nat.log2 m) * 5 ^ e / 2 ^ (lg e + 3),
      decide (2 ^ (lg e + 3) ∣ m * 2 ^ (56 - Nat.log2 m) * 5 ^ e)) := by
  have hm57 : m < 144115188075855872 := Nat.lt_trans hm (by norm_num)
  have hl : Nat.log2 m ≤ 56 := by
    have := (Nat.log2_lt (n := m) (k := 57) (by omega)).2 hm57
    omega
  obtain ⟨b1, b2⟩ := log_bounds h0
  obtain ⟨c1, c2, c3⟩ := lg_spec (e := e) (by omega)
  have hr := range_pos (z := 3) (by decide) hl b1 b2 c2 c3
  have hf := (parsePos64 he).floor (Nat.le_of_lt hm) hl b2 (by decide) (fun _ => by omega)
  have hle := @lg_le e
  obtain ⟨t, g1, g2, g3, g4⟩ := pow_get (i := e) (by omega)
  have hC := Nat.blt_eq.mp (allBelow_sound pow_bound_chk e (by omega))
  have htz := pos_tz (m := m) (e := e) (z := 3) (d := (Nat.log2 m : Int) + e + lg e - 53 - e) hl (by decide) (by omega)
  rw [scale64, floorLog2_64_eq (by omega) (Nat.lt_trans hm57 (by norm_num)), some_bind, if_pos (by omega), c1, some_bind]
  simp only []
  rw [ceilLog2pow5_spec (by omega), some_bind, i32_id (by omega) (by omega), powBitcount, chk_pos (by omega), some_bind, chk_pos (by omega), some_bind, Int.toNat_natCast, g1, some_bind]
  have hj : ((Nat.log2 m : Int) + e + lg e - (52 + 1) - e - ((lg e : Int) + 1) + 125) = ((127 - 56 + Nat.log2 m : Nat) : Int) := by omega
  rw [hj, show t = (t.1, t.2) from rfl, mulShift64_eq hm57 g2 g3 g4 hC (by omega) (by omega), some_bind, Int.toNat_natCast, hf, dividesPow2_64 h0 (Nat.lt_trans hm57 (by norm_num)), some_bind]
  · rw [show ((52 : Int) + 1) = 53 from rfl, htz]; exact pure_def _
  · rw [Int.toNat_natCast, hf]
    exact Nat.lt_of_lt_of_le hr.2 (by norm_num)

theorem small_dvd {m : Nat} {d : Int} (h : d ≤ 0) : d < 0 ∨ 2 ^ d.toNat ∣ m := by
  by_cases hd : d < 0
  · exact Or.inl hd
  · refine Or.inr ?_
    rw [show d.toNat = 0 by omega, Nat.pow_zero]; exact Nat.one_dvd _

theorem scale64_neg (p : Bool) {m e : Nat} (h0 : 0 < m) (hm : m < 10 ^ 17) (he : e < 341) (he0 : 0 < e) :
    scale64 p m (-(e : Int)) = some ((Nat.log2 m : Int) + -(e : Int) - ((lg e : Int) + 1) - 53, m * 2 ^ (56 - Nat.log2 m) * 2 ^ (lg e + 1) / (2 ^ 3 * 5 ^ e),
      decide (2 ^ 3 * 5 ^ e ∣ m * 2 ^ (56 - Nat.log2 m) * 2 ^ (lg e + 1))) := by
  have hm57 : m < 144115188075855872 := Nat.lt_trans hm (by norm_num)
  have hl : Nat.log2 m ≤ 56 := by
    have := (Nat.log2_lt (n := m) (k := 57) (by omega)).2 hm57
    omega
  obtain ⟨b1, b2⟩ := log_bounds h0
  obtain ⟨c1, c2, c3⟩ := lg_spec (e := e) (by omega)
  have hr := range_neg (z := 3) (by decide) hl b1 b2 c2 c3
  have hf := (parseNeg64 he).floor (Nat.le_of_lt hm) hl b2 (by decide) (fun _ => by omega)
  rw [show 8 * 5 ^ e = 2 ^ 3 * 5 ^ e from rfl] at hf
  have hle := @lg_le e
  have hge := @lg_ge e
  obtain ⟨t, g1, g2, g3, g4⟩ := inv_get (i := e) (by omega)
  have hC := Nat.blt_eq.mp (allBelow_sound inv_bound_chk e (by omega))
  have htz := neg_tz (m := m) (e := e) (z := 3) (d := (Nat.log2 m : Int) - (lg e + 1) - 53) hl (by decide) (by omega)
  rw [decide_eq_true (small_dvd (m := m) (d := (Nat.log2 m : Int) - (lg e + 1) - 53) (by clear * - hl hge he0; omega)), Bool.true_and] at htz
  rw [scale64, floorLog2_64_eq (by omega) (Nat.lt_trans hm57 (by norm_num)), some_bind, if_neg (by omega), Int.neg_neg, ceilLog2pow5_spec (by omega), some_bind]
  simp only []
  rw [i32_id (by omega) (by omega), invBitcount, chk_pos (by omega), some_bind, Int.toNat_natCast, g1, some_bind]
  have hj : ((Nat.log2 m : Int) + -(e : Int) - ((lg e : Int) + 1) - (52 + 1) - -(e : Int) + ((lg e : Int) + 1) - 1 + 125) = ((127 - 56 + Nat.log2 m : Nat) : Int) := by omega
  rw [hj, show t = (t.1, t.2) from rfl, mulShift64_eq hm57 g2 g3 g4 hC (by omega) (by omega), some_bind, Int.toNat_natCast, hf, mult5_64 p h0 (Nat.lt_trans hm57 (by norm_num)), some_bind, htz]
  · rw [show ((52 : Int) + 1) = 53 from rfl]; exact pure_def _
  · rw [Int.toNat_natCast, hf]
    exact Nat.lt_of_lt_of_le hr.2 (by norm_num)

theorem far_small64 : 2 * f64.one ≤ 10 ^ 324 := by decide +kernel
theorem far_small32 : 2 * f32.one ≤ 10 ^ 46 := by decide +kernel
theorem far_big64 : f64.mag f64.inf ≤ 10 ^ 309 * f64.one := by decide +kernel
theorem far_big32 : f32.mag f32.inf ≤ 10 ^ 39 * f32.one := by decide +kernel
theorem pow1077 : 10 ^ 324 ≤ 2 ^ 1077 := by decide +kernel
theorem pow153 : 10 ^ 46 ≤ 2 ^ 153 := by decide +kernel

theorem packed64 (p : Bool) {m dg : Nat} {e10 : Int} (neg : Bool) (h0 : 0 < m) (h1 : 10 ^ (dg - 1) ≤ m) (h2 : m < 10 ^ dg) (hd : 0 < dg) (hd17 : dg ≤ 17)
    (he1 : -324 < (dg : Int) + e10) (he2 : (dg : Int) + e10 < 310) :
    ∃ t, DecNearest f64 m e10 t ∧ (scale64 p m e10 >>= fun r => packBits cDouble floorLog2_64 neg r.1 r.2.1 r.2.2) = some (f64.withSign neg (min t f64.inf)) := by
  have hm17 : m < 10 ^ 17 := Nat.lt_of_lt_of_le h2 (Nat.pow_le_pow_right (by decide) hd17)
  have hm57 : m < 144115188075855872 := Nat.lt_trans hm17 (by norm_num)
  have hl : Nat.log2 m ≤ 56 := by
    have := (Nat.log2_lt (n := m) (k := 57) (by omega)).2 hm57
    omega
  obtain ⟨b1, b2⟩ := log_bounds h0
  have hmb : f64.mb = 52 := rfl
  have hbias : f64.bias = 1023 := rfl
  by_cases hs : 0 ≤ e10
  · obtain ⟨e, rfl⟩ : ∃ e : Nat, e10 = (e : Int) := ⟨e10.toNat, by omega⟩
    have he : e < 309 := by clear * - he2 hd; omega
    obtain ⟨-, c2, c3⟩ := lg_spec (e := e) (by clear * - he; omega)
    have hr := range_pos (z := 3) (by decide) hl b1 b2 c2 c3
    have hle := @lg_le e
    rw [scale64_pos p h0 hm17 he, some_bind]
    refine packBits_spec f64 Fmt.good64 neg (W := 64) (by norm_num [hbias]) (by norm_num [hmb]) (by norm_num [hmb]) ?_ (Nat.two_pow_pos _) (decDen_pos _) hr.1 hr.2
      (value_pos f64 (by norm_num [hbias]) hl rfl (by norm_num [hmb]) (by rw [hmb]; norm_num)) (by clear * - he; omega) (by clear * - he hl hle; omega) ?_
    · exact floorLog2_64_eq (Nat.pos_iff_ne_zero.mp (Nat.lt_of_lt_of_le (Nat.two_pow_pos _) hr.1)) (Nat.lt_trans hr.2 (by norm_num))
    · rw [hbias, hmb]; clear * - he hl hle; push_cast; omega
  · obtain ⟨e, rfl⟩ : ∃ e : Nat, e10 = -(e : Int) := ⟨(-e10).toNat, by omega⟩
    have he : e < 341 := by clear * - he1 hd17; omega
    have he0 : 0 < e := by clear * - hs; omega
    obtain ⟨-, c2, c3⟩ := lg_spec (e := e) (by clear * - he; omega)
    have hr := range_neg (z := 3) (by decide) hl b1 b2 c2 c3
    have hle := @lg_le e
    have hlow := exp_low (A := 324) h1 b2 (by clear * - he1 hd; omega) c2 pow1077
    rw [scale64_neg p h0 hm17 he he0, some_bind]
    refine packBits_spec f64 Fmt.good64 neg (W := 64) (by norm_num [hbias]) (by norm_num [hmb]) (by norm_num [hmb]) ?_ (Nat.mul_pos (Nat.two_pow_pos _) (Nat.pow_pos (by decide)))
      (decDen_pos _) hr.1 hr.2
      (value_neg f64 (by norm_num [hbias]) hl rfl (by norm_num [hmb]) (by rw [hmb]; norm_num)) (by clear * - he hle; omega) (by clear * - he hl hle; omega) ?_
    · exact floorLog2_64_eq (Nat.pos_iff_ne_zero.mp (Nat.lt_of_lt_of_le (Nat.two_pow_pos _) hr.1)) (Nat.lt_trans hr.2 (by norm_num))
    · rw [hbias, hmb]; clear * - hlow; push_cast; omega

/-- Significand and exponent as read, to the nearest double. -/
theorem convert64_spec (p : Bool) (x : Parsed) (h0 : 0 < x.m10) (h1 : 10 ^ (x.digits - 1) ≤ x.m10) (h2 : x.m10 < 10 ^ x.digits) (hd : 0 < x.digits) (hd17 : x.digits ≤ 17) :
    ∃ t, DecNearest f64 x.m10 x.e10 t ∧ convert64 p x = some (f64.withSign x.neg (min t f64.inf)) := by
  rw [convert64, if_neg (by omega)]
  by_cases hlo : (x.digits : Int) + x.e10 ≤ -324
  · rw [if_pos (Or.inl hlo)]
    refine ⟨0, too_small f64 (A := 324) h2 hlo far_small64, ?_⟩
    rw [Nat.zero_min]
    exact congrArg some (zero_eq f64)
  rw [if_neg (by omega)]
  by_cases hhi : (x.digits : Int) + x.e10 ≥ 310
  · rw [if_pos hhi]
    obtain ⟨t, t1, t2⟩ := too_large f64 (by decide) (e10 := x.e10) (A := 309) h1 hd (by omega) (by omega) far_big64
    refine ⟨t, t1, ?_⟩
    rw [Nat.min_eq_right t2]
    exact congrArg some (inf_eq f64)
  rw [if_neg hhi]
  exact packed64 p x.neg h0 h1 h2 hd hd17 (by omega) (by omega)

theorem convert64_zero (p : Bool) (x : Parsed) (h0 : x.m10 = 0) : convert64 p x = some (f64.withSign x.neg 0) := by
  rw [convert64, if_pos h0]
  exact congrArg some (zero_eq f64)

/-! ### Floats -/

theorem scale32_pos (p : Bool) {m e : Nat} (h0 : 0 < m) (hm : m < 10 ^ 9) (he : e < 39) :
    scale32 p m (e : Int) = some ((Nat.log2 m : Int) + e + lg e - 24, m * 2 ^ (29 - Nat.log2 m) * 5 ^ e / 2 ^ (lg e + 5),
      decide (2 ^ (lg e + 5) ∣ m * 2 ^ (29 - Nat.log2 m) * 5 ^ e)) := by
  have hm30 : m < 1073741824 := Nat.lt_trans hm (by norm_num)
  have hl : Nat.log2 m ≤ 29 := by
    have := (Nat.log2_lt (n := m) (k := 30) (by omega)).2 hm30
    omega
  obtain ⟨b1, b2⟩ := log_bounds h0
  obtain ⟨c1, c2, c3⟩ := lg_spec (e := e) (by omega)
  have hr := range_pos (z := 5) (by decide) hl b1 b2 c2 c3
  have hf := (parsePos32 he).1.floor (Nat.le_of_lt hm) hl b2 (by decide) (fun _ => by omega)
  have hle := @lg_le e
  have htz := pos_tz (m := m) (e := e) (z := 5) (d := (Nat.log2 m : Int) + e + lg e - 24 - e) hl (by decide) (by omega)
  rw [scale32, floorLog2_32_eq (by omega) (Nat.lt_trans hm30 (by norm_num)), some_bind, if_pos (by omega), c1, some_bind]
  simp only []
  rw [ceilLog2pow5_spec (by omega), some_bind, i32_id (by omega) (by omega), floatPow5Bitcount, powBitcount, chk_pos (by omega), some_bind, Int.toNat_natCast]
  have hj : ((Nat.log2 m : Int) + e + lg e - (23 + 1) - e - ((lg e : Int) + 1) + (125 - 64)) = ((65 - 29 + Nat.log2 m : Nat) : Int) := by omega
  rw [hj, mulPow_eq p (by omega) (parsePos32 he).2 (by omega) (by omega) (by omega), some_bind, Int.toNat_natCast, hf, dividesPow2_32 h0 (by omega), some_bind]
  · rw [show ((23 : Int) + 1) = 24 from rfl, htz]; exact pure_def _
  · rw [Int.toNat_natCast, hf]
    exact Nat.lt_of_lt_of_le hr.2 (by norm_num)

theorem scale32_neg (p : Bool) {m e : Nat} (h0 : 0 < m) (hm : m < 10 ^ 9) (he : e < 55) (he0 : 0 < e) (hbad : e = 25 ∨ e = 26 → m ≠ 614426533) :
    scale32 p m (-(e : Int)) = some ((Nat.log2 m : Int) + -(e : Int) - ((lg e : Int) + 1) - 24, m * 2 ^ (29 - Nat.log2 m) * 2 ^ (lg e + 1) / (2 ^ 5 * 5 ^ e),
      decide (2 ^ 5 * 5 ^ e ∣ m * 2 ^ (29 - Nat.log2 m) * 2 ^ (lg e + 1))) := by
  have hm30 : m < 1073741824 := Nat.lt_trans hm (by norm_num)
  have hl : Nat.log2 m ≤ 29 := by
    have := (Nat.log2_lt (n := m) (k := 30) (by omega)).2 hm30
    omega
  obtain ⟨b1, b2⟩ := log_bounds h0
  obtain ⟨c1, c2, c3⟩ := lg_spec (e := e) (by omega)
  have hr := range_neg (z := 5) (by decide) hl b1 b2 c2 c3
  have hf := (parseNeg32 he).1.floor (Nat.le_of_lt hm) hl b2 (by decide) (fun _ => by
    split
    · exact hbad ‹_›
    · clear * - h0; omega)
  rw [show 32 * 5 ^ e = 2 ^ 5 * 5 ^ e from rfl] at hf
  have hle := @lg_le e
  have htz := neg_tz (m := m) (e := e) (z := 5) (d := (Nat.log2 m : Int) + -(e : Int) - ((lg e : Int) + 1) - 24 - -(e : Int)) hl (by decide) (by clear * - hl; omega)
  rw [scale32, floorLog2_32_eq (by clear * - h0; omega) (Nat.lt_trans hm30 (by norm_num)), some_bind, if_neg (by clear * - he0; omega), Int.neg_neg, ceilLog2pow5_spec (by clear * - he; omega), some_bind]
  simp only []
  rw [i32_id (by clear * - he hl hle; omega) (by clear * - he hl hle; omega), floatPow5InvBitcount, invBitcount, Int.toNat_natCast]
  have hj : ((Nat.log2 m : Int) + -(e : Int) - ((lg e : Int) + 1) - (23 + 1) - -(e : Int) + ((lg e : Int) + 1) - 1 + (125 - 64)) = ((65 - 29 + Nat.log2 m : Nat) : Int) := by
    clear * - hl; omega
  rw [hj, mulInv_eq p (by clear * - he; omega) (parseNeg32 he).2 (by clear * - hm30; omega) (by clear * - hl; omega) (by clear * - hl; omega), some_bind, Int.toNat_natCast, hf,
    dividesPow2_32 h0 (by clear * - hm30; omega), some_bind, show ((23 : Int) + 1) = 24 from rfl]
  · rw [← htz]
    cases decide ((Nat.log2 m : Int) + -(e : Int) - ((lg e : Int) + 1) - 24 - -(e : Int) < 0 ∨ 2 ^ ((Nat.log2 m : Int) + -(e : Int) - ((lg e : Int) + 1) - 24 - -(e : Int)).toNat ∣ m) with
    | false => rw [if_neg (by decide), Bool.false_and, pure_def, some_bind]; exact pure_def _
    | true => rw [if_pos rfl, Bool.true_and, mult5_32 h0 (by clear * - hm30; omega), some_bind]; exact pure_def _
  · rw [Int.toNat_natCast, hf]
    exact Nat.lt_of_lt_of_le hr.2 (by norm_num)

theorem packed32 (p : Bool) {m dg : Nat} {e10 : Int} (neg : Bool) (h0 : 0 < m) (h1 : 10 ^ (dg - 1) ≤ m) (h2 : m < 10 ^ dg) (hd : 0 < dg) (hd9 : dg ≤ 9)
    (he1 : -46 < (dg : Int) + e10) (he2 : (dg : Int) + e10 < 40) (hbad : e10 = -25 ∨ e10 = -26 → m ≠ 614426533) :
    ∃ t, DecNearest f32 m e10 t ∧ (scale32 p m e10 >>= fun r => packBits cFloat floorLog2_32 neg r.1 r.2.1 r.2.2) = some (f32.withSign neg (min t f32.inf)) := by
  have hm9 : m < 10 ^ 9 := Nat.lt_of_lt_of_le h2 (Nat.pow_le_pow_right (by decide) hd9)
  have hm30 : m < 1073741824 := Nat.lt_trans hm9 (by norm_num)
  have hl : Nat.log2 m ≤ 29 := by
    have := (Nat.log2_lt (n := m) (k := 30) (by omega)).2 hm30
    omega
  obtain ⟨b1, b2⟩ := log_bounds h0
  have hmb : f32.mb = 23 := rfl
  have hbias : f32.bias = 127 := rfl
  by_cases hs : 0 ≤ e10
  · obtain ⟨e, rfl⟩ : ∃ e : Nat, e10 = (e : Int) := ⟨e10.toNat, by omega⟩
    have he : e < 39 := by clear * - he2 hd; omega
    obtain ⟨-, c2, c3⟩ := lg_spec (e := e) (by clear * - he; omega)
    have hr := range_pos (z := 5) (by decide) hl b1 b2 c2 c3
    have hle := @lg_le e
    rw [scale32_pos p h0 hm9 he, some_bind]
    refine packBits_spec f32 Fmt.good32 neg (W := 32) (by norm_num [hbias]) (by norm_num [hmb]) (by norm_num [hmb]) ?_ (Nat.two_pow_pos _) (decDen_pos _) hr.1 hr.2
      (value_pos f32 (by norm_num [hbias]) hl rfl (by norm_num [hmb]) (by rw [hmb]; norm_num)) (by clear * - he; omega) (by clear * - he hl hle; omega) ?_
    · exact floorLog2_32_eq (Nat.pos_iff_ne_zero.mp (Nat.lt_of_lt_of_le (Nat.two_pow_pos _) hr.1)) (Nat.lt_trans hr.2 (by norm_num))
    · rw [hbias, hmb]; clear * - he hl hle; push_cast; omega
  · obtain ⟨e, rfl⟩ : ∃ e : Nat, e10 = -(e : Int) := ⟨(-e10).toNat, by omega⟩
    have he : e < 55 := by clear * - he1 hd9; omega
    have he0 : 0 < e := by clear * - hs; omega
    obtain ⟨-, c2, c3⟩ := lg_spec (e := e) (by clear * - he; omega)
    have hr := range_neg (z := 5) (by decide) hl b1 b2 c2 c3
    have hle := @lg_le e
    have hlow := exp_low (A := 46) h1 b2 (by clear * - he1 hd; omega) c2 pow153
    rw [scale32_neg p h0 hm9 he he0 (fun h => hbad (by clear * - h; omega)), some_bind]
    refine packBits_spec f32 Fmt.good32 neg (W := 32) (by norm_num [hbias]) (by norm_num [hmb]) (by norm_num [hmb]) ?_ (Nat.mul_pos (Nat.two_pow_pos _) (Nat.pow_pos (by decide)))
      (decDen_pos _) hr.1 hr.2
      (value_neg f32 (by norm_num [hbias]) hl rfl (by norm_num [hmb]) (by rw [hmb]; norm_num)) (by clear * - he hle; omega) (by clear * - he hl hle; omega) ?_
    · exact floorLog2_32_eq (Nat.pos_iff_ne_zero.mp (Nat.lt_of_lt_of_le (Nat.two_pow_pos _) hr.1)) (Nat.lt_trans hr.2 (by norm_num))
    · rw [hbias, hmb]; clear * - hlow; push_cast; omega

/-- The two inputs at which the truncated table gives a product that is off by one. -/
theorem packed32_bad (p : Bool) (neg : Bool) {e10 : Int} (h : e10 = -25 ∨ e10 = -26) :
    (scale32 p 614426533 e10 >>= fun r => packBits cFloat floorLog2_32 neg r.1 r.2.1 r.2.2) =
      some (f32.withSign neg (min (f32.roundMag (decNum f32 614426533 e10) (decDen e10)) f32.inf)) := by
  rcases h with rfl | rfl <;> cases p <;> cases neg <;> decide +kernel

/-- Significand and exponent as read, to the nearest float. -/
theorem convert32_spec (p : Bool) (x : Parsed) (h0 : 0 < x.m10) (h1 : 10 ^ (x.digits - 1) ≤ x.m10) (h2 : x.m10 < 10 ^ x.digits) (hd : 0 < x.digits) (hd9 : x.digits ≤ 9) :
    ∃ t, DecNearest f32 x.m10 x.e10 t ∧ convert32 p x = some (f32.withSign x.neg (min t f32.inf)) := by
  rw [convert32, if_neg (by omega)]
  by_cases hlo : (x.digits : Int) + x.e10 ≤ -46
  · rw [if_pos (Or.inl hlo)]
    refine ⟨0, too_small f32 (A := 46) h2 hlo far_small32, ?_⟩
    rw [Nat.zero_min]
    exact congrArg some (zero_eq f32)
  rw [if_neg (by omega)]
  by_cases hhi : (x.digits : Int) + x.e10 ≥ 40
  · rw [if_pos hhi]
    obtain ⟨t, t1, t2⟩ := too_large f32 (by decide) (e10 := x.e10) (A := 39) h1 hd (by omega) (by omega) far_big32
    refine ⟨t, t1, ?_⟩
    rw [Nat.min_eq_right t2]
    exact congrArg some (inf_eq f32)
  rw [if_neg hhi]
  by_cases hbad : (x.e10 = -25 ∨ x.e10 = -26) ∧ x.m10 = 614426533
  · refine ⟨_, f32.roundMag_nearest (by decide) (decDen_pos _), ?_⟩
    rw [hbad.2]
    exact packed32_bad p x.neg hbad.1
  · exact packed32 p x.neg h0 h1 h2 hd hd9 (by omega) (by omega) (fun h hm => hbad ⟨h, hm⟩)

theorem convert32_zero (p : Bool) (x : Parsed) (h0 : x.m10 = 0) : convert32 p x = some (f32.withSign x.neg 0) := by
  rw [convert32, if_pos h0]
  exact congrArg some (zero_eq f32)

end Nanostl.Ryu

import Verif.Ryu.Step4
import Verif.Ryu.Exact

/-!
Products, divisibility tests and start conditions for `f2d`.
-/

namespace Nanostl.Ryu

theorem mul_lt_of {a b A B : Nat} (ha : a < A) (hb : b < B) : a * b < A * B := Nat.mul_lt_mul'' ha hb

/-- Joining the halves of a shifted 64-bit number. -/
theorem join32 {lo hi s : Nat} (hlo : lo < 4294967296) (hs : s < 32) :
    w32 (hi <<< (32 - s)) ||| (lo >>> s) = (hi * 4294967296 + lo) / 2 ^ s % 4294967296 := by
  have e32 : (4294967296 : Nat) = 2 ^ s * 2 ^ (32 - s) := by
    rw [← Nat.pow_add, show s + (32 - s) = 32 by omega]
  have hlo' : lo >>> s < 2 ^ (32 - s) := by
    rw [shr_eq, Nat.div_lt_iff_lt_mul (Nat.two_pow_pos s), Nat.mul_comm, ← e32]; exact hlo
  have e1 : w32 (hi <<< (32 - s)) = (hi % 2 ^ s) <<< (32 - s) := by
    rw [w32, Nat.shiftLeft_eq, Nat.shiftLeft_eq]
    show hi * 2 ^ (32 - s) % 4294967296 = _
    rw [e32, Nat.mul_mod_mul_right]
  rw [e1, ← Nat.shiftLeft_add_eq_or_of_lt hlo', Nat.shiftLeft_eq, shr_eq]
  have e2 : (hi * 4294967296 + lo) / 2 ^ s = hi * 2 ^ (32 - s) + lo / 2 ^ s := by
    rw [e32, show hi * (2 ^ s * 2 ^ (32 - s)) + lo = lo + 2 ^ s * (hi * 2 ^ (32 - s)) by ring, Nat.add_mul_div_left _ _ (Nat.two_pow_pos s)]
    omega
  rw [e2]
  rw [shr_eq] at hlo'
  have e3 : hi * 2 ^ (32 - s) + lo / 2 ^ s = (hi % 2 ^ s * 2 ^ (32 - s) + lo / 2 ^ s) + 4294967296 * (hi / 2 ^ s) := by
    conv_lhs => rw [← Nat.div_add_mod hi (2 ^ s)]
    rw [e32]; ring
  rw [e3, Nat.add_mul_mod_self_left]
  symm
  apply Nat.mod_eq_of_lt
  have := Nat.mod_lt hi (Nat.two_pow_pos s)
  calc hi % 2 ^ s * 2 ^ (32 - s) + lo / 2 ^ s < hi % 2 ^ s * 2 ^ (32 - s) + 2 ^ (32 - s) := by omega
    _ = (hi % 2 ^ s + 1) * 2 ^ (32 - s) := by ring
    _ ≤ 2 ^ s * 2 ^ (32 - s) := Nat.mul_le_mul_right _ this
    _ = _ := e32.symm

theorem mulShift32_eq (p : Bool) {m C : Nat} {s : Int} (hm : m < 4294967296) (hC : C < 18446744073709551616) (h1 : 32 < s) (h2 : s < 96)
    (h3 : m * C / 2 ^ s.toNat < 4294967296) : mulShift32 p m C s = some (m * C / 2 ^ s.toNat) := by
  obtain ⟨hi, lo, hC', hhi, hlo⟩ : ∃ hi lo, C = hi * 4294967296 + lo ∧ hi < 4294967296 ∧ lo < 4294967296 :=
    ⟨C / 4294967296, C % 4294967296, by omega, by omega, by omega⟩
  have e1 : w32 C = lo := by rw [w32_eq]; omega
  have e2 : w32 (C >>> 32) = hi := by rw [w32_eq, shr32]; omega
  have mulb : ∀ x, x < 4294967296 → m * x ≤ 18446744065119617025 := by
    intro x hx
    calc m * x ≤ 4294967295 * 4294967295 := Nat.mul_le_mul (by omega) (by omega)
      _ = _ := by norm_num
  have hb0 := mulb lo hlo
  have hb1 := mulb hi hhi
  obtain ⟨n, rfl⟩ : ∃ n : Nat, s = ((n + 32 : Nat) : Int) := ⟨(s - 32).toNat, by omega⟩
  have hn1 : 0 < n := by omega
  have hn2 : n < 64 := by omega
  have hsplit : m * C / 4294967296 = m * hi + m * lo / 4294967296 := by
    rw [hC', show m * (hi * 4294967296 + lo) = m * lo + 4294967296 * (m * hi) by ring, Nat.add_mul_div_left _ _ (by norm_num)]
    omega
  have hdiv : m * C / 2 ^ (n + 32) = (m * hi + m * lo / 4294967296) / 2 ^ n := by
    rw [← hsplit, Nat.div_div_eq_div_mul, Nat.pow_add, Nat.mul_comm (2 ^ n)]
  rw [Int.toNat_natCast] at h3 ⊢
  rw [hdiv] at h3 ⊢
  rw [mulShift32, chk_pos h1, some_bind]
  simp only [e1, e2]
  rw [w64_of_lt (x := m * lo) (by omega), w64_of_lt (x := m * hi) (by omega)]
  simp only [shr32]
  have hlom : m * lo / 4294967296 ≤ m := by
    have : m * lo ≤ m * 4294967296 := Nat.mul_le_mul_left _ (by omega)
    omega
  have hhim : m * hi ≤ m * 4294967295 := Nat.mul_le_mul_left _ (by omega)
  have hsum : m * hi + m * lo / 4294967296 < 18446744073709551616 := by omega
  clear hdiv hsplit hC' mulb
  generalize m * lo = x at *
  generalize m * hi = y at *
  cases p
  · simp only [Bool.false_eq_true, if_false]
    rw [w64_of_lt (by omega), chk_pos (by omega), some_bind, shr_eq,
      show (((n + 32 : Nat) : Int) - 32).toNat = n by omega, show x / 4294967296 + y = y + x / 4294967296 by omega,
      chk_pos (by omega), some_bind, w32_of_lt h3]
    rfl
  · simp only [if_true]
    -- the two halves of the sum
    have hw : ∃ a b, a < 4294967296 ∧ b < 4294967296 ∧ y + x / 4294967296 = a * 4294967296 + b ∧
        w32 (w32 y + w32 (x / 4294967296)) = b ∧
        w32 (w32 (y / 4294967296) + (if w32 (w32 y + w32 (x / 4294967296)) < w32 (x / 4294967296) then 1 else 0)) = a := by
      refine ⟨(y + x / 4294967296) / 4294967296, (y + x / 4294967296) % 4294967296, by omega, by omega, by omega, ?_, ?_⟩
      · simp only [w32_eq]; omega
      · by_cases hc : w32 (w32 y + w32 (x / 4294967296)) < w32 (x / 4294967296)
        · rw [if_pos hc]; simp only [w32_eq] at hc ⊢; omega
        · rw [if_neg hc]; simp only [w32_eq] at hc ⊢; omega
    obtain ⟨a, b, ha, hb, hab, hwb, hwa⟩ := hw
    rw [hwa, hwb]
    rw [hab] at h3 ⊢
    by_cases h64 : ((n + 32 : Nat) : Int) ≥ 64
    · rw [if_pos h64, chk_pos (by omega), some_bind, show (((n + 32 : Nat) : Int) - 64).toNat = n - 32 by omega, shr_eq]
      show some _ = some _
      have : (2 : Nat) ^ n = 4294967296 * 2 ^ (n - 32) := by
        rw [show (4294967296 : Nat) = 2 ^ 32 from rfl, ← Nat.pow_add, show 32 + (n - 32) = n by omega]
      rw [this, ← Nat.div_div_eq_div_mul, divB hb]
    · rw [if_neg h64, show (((n + 32 : Nat) : Int) - 32).toNat = n by omega, join32 hb (by omega), Nat.mod_eq_of_lt h3]
      rfl

/-! ### Divisibility by powers of five -/

theorem pow5loop_spec : ∀ f v c, 0 < v → v < 5 ^ f → ∃ k, pow5factor32Loop f v c = some (c + k) ∧ 5 ^ k ∣ v ∧ ¬5 ^ (k + 1) ∣ v := by
  intro f
  induction f with
  | zero => intro v c h1 h2; rw [Nat.pow_zero] at h2; omega
  | succ f ih =>
    intro v c h1 h2
    rw [pow5factor32Loop, chk_pos (by omega), some_bind]
    simp only
    by_cases hr : v % 5 = 0
    · rw [if_neg (by omega)]
      obtain ⟨k, e, hk1, hk2⟩ := ih (v / 5) (c + 1) (by omega) (by rw [Nat.pow_succ] at h2; omega)
      obtain ⟨w, hw⟩ : 5 ∣ v := Nat.dvd_of_mod_eq_zero hr
      subst hw
      rw [Nat.mul_div_cancel_left _ (by decide)] at e hk1 hk2
      refine ⟨k + 1, by rw [Nat.mul_div_cancel_left _ (by decide), e]; congr 1; omega, ?_, ?_⟩
      · rw [Nat.pow_succ, Nat.mul_comm]; exact Nat.mul_dvd_mul_left 5 hk1
      · rw [Nat.pow_succ, Nat.mul_comm]
        intro h; exact hk2 (Nat.dvd_of_mul_dvd_mul_left (by decide) h)
    · rw [if_pos hr]
      refine ⟨0, rfl, by simp, ?_⟩
      intro h
      rw [Nat.zero_add, Nat.pow_one] at h
      omega

theorem mult5_32 {v p : Nat} (h1 : 0 < v) (h2 : v < 2 ^ 32) : multipleOfPowerOf5_32 v p = some (decide (5 ^ p ∣ v)) := by
  obtain ⟨k, e, hk1, hk2⟩ := pow5loop_spec 32 v 0 h1 (Nat.lt_of_lt_of_le h2 (Nat.pow_le_pow_left (by decide) 32))
  rw [multipleOfPowerOf5_32, pow5factor32, e, some_bind]
  show some _ = some _
  congr 1
  apply decide_eq_decide.mpr
  rw [Nat.zero_add]
  constructor
  · intro h; exact Nat.dvd_trans (Nat.pow_dvd_pow 5 h) hk1
  · intro h
    by_contra hcon
    exact hk2 (Nat.dvd_trans (Nat.pow_dvd_pow 5 (by omega)) h)

theorem and_mask (v p : Nat) : (v &&& (2 ^ p - 1) == 0) = decide (2 ^ p ∣ v) := by
  rw [Nat.and_two_pow_sub_one_eq_mod]
  by_cases h : v % 2 ^ p = 0
  · rw [h, decide_eq_true (Nat.dvd_of_mod_eq_zero h)]; rfl
  · rw [decide_eq_false (fun hd => h (Nat.mod_eq_zero_of_dvd hd))]
    simpa using h

theorem mult2_32 {v p : Nat} (h : p < 32) : multipleOfPowerOf2_32 v p = some (decide (2 ^ p ∣ v)) := by
  rw [multipleOfPowerOf2_32, chk_pos h, some_bind, w32, Nat.shiftLeft_eq, Nat.one_mul,
    Nat.mod_eq_of_lt (Nat.pow_lt_pow_right (by decide) h), and_mask]
  rfl

theorem cop5 (q k : Nat) : Nat.Coprime (5 ^ q) (2 ^ k) := Nat.Coprime.pow q k (by decide)

theorem dvd5 {q k m : Nat} : 5 ^ q ∣ m * 2 ^ k ↔ 5 ^ q ∣ m :=
  ⟨fun h => (cop5 q k).dvd_of_dvd_mul_right h, fun h => Nat.dvd_trans h ⟨_, rfl⟩⟩

theorem dvd5' {q k m : Nat} (h : 5 ^ q * 10 ∣ m * 2 ^ k) : 5 ^ (q + 1) ∣ m :=
  dvd5.1 (Nat.dvd_trans ⟨2, by ring⟩ h)

theorem dvd2 {q k m : Nat} : 2 ^ q ∣ m * 5 ^ k ↔ 2 ^ q ∣ m :=
  ⟨fun h => (cop5 k q).symm.dvd_of_dvd_mul_right h, fun h => Nat.dvd_trans h ⟨_, rfl⟩⟩

theorem dvd2' {q k m : Nat} (h : 2 ^ q * 10 ∣ m * 5 ^ k) : 2 ^ (q + 1) ∣ m :=
  dvd2.1 (Nat.dvd_trans ⟨5, by ring⟩ h)

/-! ### Start conditions -/

theorem mkStart {acc : Bool} {mm mv mp N D : Nat} {s : Red} (dec : Bool) (hD : 0 < D) (hND : D ≤ N) (hm : 0 < mm) (hmv : mm < mv)
    (hsym : 2 * mv ≤ mm + mp) (hvr : s.vr = mv * N / D) (hvm : s.vm = mm * N / D) (hvp : s.vp = mp * N / D - (if dec then 1 else 0))
    (hdec : dec = true → acc = false ∧ D ∣ mp * N) (hndec : dec = false → acc = true ∨ ¬D * 10 ∣ mp * N)
    (hvm1 : s.vmTZ = true → acc = true ∧ D ∣ mm * N) (hvm2 : acc = true → D * 10 ∣ mm * N → s.vmTZ = true)
    (hlast : s.vp / 10 ≤ s.vm / 10 → s.last = 10 * (mv * N) / D % 10)
    (hvrTZ : s.vrTZ = true → (D ∣ mv * N ∧ s.last = 0) ∨
      (2 * (mv * N % D) = D ∧ (mv * N / D % 10 = 2 ∨ mv * N / D % 10 = 7) ∧ (s.last = 0 ∨ s.last = 5)))
    (hrem : s.removed = 0) : Start acc (mm * N) (mv * N) (mp * N) D s := by
  have hN : 0 < N := by omega
  refine ⟨hD, Nat.mul_pos hm hN, ?_, ?_, hvr, hvm, ?_, hvm1, hvm2, hlast, hvrTZ, hrem⟩
  · have : (mm + 1) * N ≤ mv * N := Nat.mul_le_mul_right _ hmv
    rw [Nat.add_mul, Nat.one_mul] at this
    omega
  · rw [← Nat.mul_assoc, ← Nat.add_mul]; exact Nat.mul_le_mul_right _ hsym
  · have hmp : 0 < mp * N := Nat.mul_pos (by omega) hN
    rw [hvp]
    unfold upper
    cases hdec' : dec
    · simp only [Bool.false_eq_true, if_false, Nat.sub_zero]
      rcases hndec hdec' with h | h
      · rw [h]; rfl
      · cases acc
        · simp only [Bool.false_eq_true, if_false]
          rw [Nat.div_div_eq_div_mul, Nat.div_div_eq_div_mul]
          obtain ⟨n, hn⟩ : ∃ n, mp * N = n + 1 := ⟨mp * N - 1, by omega⟩
          rw [hn] at h ⊢
          rw [Nat.add_sub_cancel, Nat.succ_div, if_neg h]
          rfl
        · rfl
    · obtain ⟨h1, h2⟩ := hdec hdec'
      rw [h1]
      simp only [if_true, Bool.false_eq_true, if_false]
      obtain ⟨n, hn⟩ : ∃ n, mp * N = n + 1 := ⟨mp * N - 1, by omega⟩
      rw [hn] at h2 ⊢
      rw [Nat.add_sub_cancel, Nat.succ_div, if_pos h2, Nat.add_sub_cancel]

end Nanostl.Ryu

import Verif.Math.IerfCells

/-! `ierf` (nanomath.h:705-735): what the subdivision says about its first polynomial. -/

namespace Nanostl.Math
open Nanostl.Pack

theorem logs_get (k : ℕ) : ∀ {i : ℕ} {L : List ℕ} {X : ℕ}, logsOk i L = true → L[k]? = some X → logOk (i + k) X = true := by
  induction k with
  | zero =>
    intro i L X h hX
    cases L with
    | nil => simp at hX
    | cons a l =>
      simp only [List.getElem?_cons_zero, Option.some.injEq] at hX
      subst hX
      rw [logsOk, Bool.and_eq_true] at h
      exact h.1
  | succ k ih =>
    intro i L X h hX
    cases L with
    | nil => simp at hX
    | cons a l =>
      rw [logsOk, Bool.and_eq_true] at h
      rw [List.getElem?_cons_succ] at hX
      have := ih h.2 hX
      rwa [show i + 1 + k = i + (k + 1) by omega] at this

theorem cells_get (k : ℕ) : ∀ {i : ℕ} {L as bs : List ℕ} {X Y a b : ℕ}, cellsOk i L as bs = true → L[k]? = some X → L[k + 1]? = some Y → as[k]? = some a → bs[k]? = some b → cellOk (i + k) X Y a b = true := by
  induction k with
  | zero =>
    intro i L as bs X Y a b h h1 h2 h3 h4
    rcases L with _ | ⟨X', _ | ⟨Y', l⟩⟩ <;> simp at h1 h2
    rcases as with _ | ⟨a', as⟩ <;> simp at h3
    rcases bs with _ | ⟨b', bs⟩ <;> simp at h4
    subst h1 h2 h3 h4
    rw [cellsOk, Bool.and_eq_true] at h
    exact h.1
  | succ k ih =>
    intro i L as bs X Y a b h h1 h2 h3 h4
    rcases L with _ | ⟨X', _ | ⟨Y', l⟩⟩
    · simp at h1
    · simp at h1
    rcases as with _ | ⟨a', as⟩
    · simp at h3
    rcases bs with _ | ⟨b', bs⟩
    · simp at h4
    rw [cellsOk, Bool.and_eq_true] at h
    rw [List.getElem?_cons_succ] at h1 h2 h3 h4
    have := ih h.2 h1 h2 h3 h4
    rwa [show i + 1 + k = i + (k + 1) by omega] at this

/-- `-log(1 - r²)`. -/
noncomputable def wOf (r : ℝ) : ℝ := -Real.log (1 - r ^ 2)

theorem wOf_mono {r s : ℝ} (h0 : 0 ≤ r) (h : r ≤ s) (h1 : s < 1) : wOf r ≤ wOf s := by
  have e : r ^ 2 ≤ s ^ 2 := pow_le_pow_left₀ h0 h 2
  have p : 0 < 1 - s ^ 2 := by nlinarith
  have := Real.log_le_log p (show 1 - s ^ 2 ≤ 1 - r ^ 2 by linarith)
  unfold wOf
  linarith

theorem log_ok {i X : ℕ} (hi : i < 1024) (h : logOk i X = true) : (X : ℝ) / 2 ^ 16 ≤ wOf (i / 1024) ∧ wOf (i / 1024) ≤ (X + 1 : ℕ) / 2 ^ 16 := by
  rw [logOk, Bool.and_eq_true, Nat.ble_eq, Nat.ble_eq] at h
  obtain ⟨h1, h2⟩ := h
  have hi2 : i * i ≤ 2 ^ 20 := by nlinarith
  have h1' : (30 * (2 ^ 464 * (Nat.factorial 29 : ℝ)) * (2 ^ 20 - i * i) + 30 * 2 ^ 20 * hor eM30 (X : ℝ) + 16 * (X : ℝ) ^ 30) ≤ 30 * 2 ^ 20 * hor eP30 (X : ℝ) := by
    have : ((30 * (2 ^ 464 * Nat.factorial 29) * (2 ^ 20 - i * i) + 30 * 2 ^ 20 * hn eM30 X + 16 * X ^ 30 : ℕ) : ℝ) ≤ ((30 * 2 ^ 20 * hn eP30 X : ℕ) : ℝ) := Nat.cast_le.2 h1
    rw [Nat.cast_add, Nat.cast_add, Nat.cast_mul, Nat.cast_mul (30 * 2 ^ 20), Nat.cast_mul 16, Nat.cast_mul (30 * 2 ^ 20), Nat.cast_sub hi2, hn_cast, hn_cast] at this
    rw [Nat.cast_mul 30, Nat.cast_mul (2 ^ 464)] at this
    simp only [Nat.cast_mul, Nat.cast_pow, Nat.cast_ofNat] at this
    exact this
  have h2' : 30 * 2 ^ 20 * hor eP30 ((X + 1 : ℕ) : ℝ) + 16 * ((X + 1 : ℕ) : ℝ) ^ 30 ≤ 30 * (2 ^ 464 * (Nat.factorial 29 : ℝ)) * (2 ^ 20 - i * i) + 30 * 2 ^ 20 * hor eM30 ((X + 1 : ℕ) : ℝ) := by
    have : ((30 * 2 ^ 20 * hn eP30 (X + 1) + 16 * (X + 1) ^ 30 : ℕ) : ℝ) ≤ ((30 * (2 ^ 464 * Nat.factorial 29) * (2 ^ 20 - i * i) + 30 * 2 ^ 20 * hn eM30 (X + 1) : ℕ) : ℝ) := Nat.cast_le.2 h2
    rw [Nat.cast_add, Nat.cast_add, Nat.cast_mul (30 * 2 ^ 20), Nat.cast_mul 16, Nat.cast_mul _ (2 ^ 20 - i * i), Nat.cast_mul (30 * 2 ^ 20), Nat.cast_sub hi2, hn_cast, hn_cast] at this
    rw [Nat.cast_mul 30 (2 ^ 464 * Nat.factorial 29), Nat.cast_mul (2 ^ 464)] at this
    simp only [Nat.cast_mul, Nat.cast_pow, Nat.cast_ofNat] at this
    exact this
  clear h1 h2
  have hx : (i : ℝ) / 1024 < 1 := (div_lt_one (by norm_num)).2 (by exact_mod_cast hi)
  have hx0 : (0 : ℝ) ≤ (i : ℝ) / 1024 := div_nonneg (Nat.cast_nonneg i) (by norm_num)
  have hp : 0 < 1 - ((i : ℝ) / 1024) ^ 2 := by nlinarith
  have hf : (Nat.factorial 30 : ℝ) = 30 * Nat.factorial 29 := by rw [Nat.factorial_succ]; push_cast; ring
  have hF : (0 : ℝ) < Nat.factorial 29 := Nat.cast_pos.2 (Nat.factorial_pos 29)
  have key : ∀ Z : ℝ, 30 * 2 ^ 20 * (2 ^ 464 * (Nat.factorial 29 : ℝ)) * ((Z / 2 ^ 16) ^ 30 / Nat.factorial 30) = 16 * Z ^ 30 := by
    intro Z
    rw [hf, div_pow]
    field_simp
    norm_num
    ring
  have key2 : ∀ Z : ℝ, 30 * 2 ^ 20 * (hor eP30 Z - hor eM30 Z) = 30 * 2 ^ 20 * (2 ^ 464 * (Nat.factorial 29 : ℝ)) * expT 30 (Z / 2 ^ 16) := by
    intro Z
    have := hor_exp (Z / 2 ^ 16)
    rw [mul_div_cancel₀ Z (by norm_num)] at this
    rw [this]; ring
  have key3 : 30 * (2 ^ 464 * (Nat.factorial 29 : ℝ)) * (2 ^ 20 - i * i) = 30 * 2 ^ 20 * (2 ^ 464 * (Nat.factorial 29 : ℝ)) * (1 - ((i : ℝ) / 1024) ^ 2) := by
    rw [div_pow]; field_simp; ring
  have K : (0 : ℝ) < 30 * 2 ^ 20 * (2 ^ 464 * (Nat.factorial 29 : ℝ)) := mul_pos (by norm_num) (mul_pos (pow_pos (by norm_num) _) hF)
  constructor
  · have t := (abs_le.1 (exp_taylor 30 (show (0 : ℝ) ≤ X / 2 ^ 16 from div_nonneg (Nat.cast_nonneg X) (by norm_num)))).1
    have : 1 - ((i : ℝ) / 1024) ^ 2 ≤ Real.exp (-(X / 2 ^ 16)) := by
      refine le_of_mul_le_mul_left ?_ K
      have t' := mul_le_mul_of_nonneg_left t K.le
      rw [mul_neg, key, mul_sub, ← key2] at t'
      rw [← key3]
      generalize 30 * (2 ^ 464 * (Nat.factorial 29 : ℝ)) * (2 ^ 20 - i * i) = A at *
      generalize 30 * 2 ^ 20 * (2 ^ 464 * (Nat.factorial 29 : ℝ)) * Real.exp _ = u at *
      rw [mul_sub] at t'
      linarith only [t', h1', h2']
    have := (Real.log_le_iff_le_exp hp).2 this
    unfold wOf; linarith
  · have t := (abs_le.1 (exp_taylor 30 (show (0 : ℝ) ≤ ((X + 1 : ℕ) : ℝ) / 2 ^ 16 from div_nonneg (Nat.cast_nonneg (X + 1)) (by norm_num)))).2
    have : Real.exp (-(((X + 1 : ℕ) : ℝ) / 2 ^ 16)) ≤ 1 - ((i : ℝ) / 1024) ^ 2 := by
      refine le_of_mul_le_mul_left ?_ K
      have t' := mul_le_mul_of_nonneg_left t K.le
      rw [key, mul_sub, ← key2] at t'
      rw [← key3]
      generalize 30 * (2 ^ 464 * (Nat.factorial 29 : ℝ)) * (2 ^ 20 - i * i) = A at *
      generalize 30 * 2 ^ 20 * (2 ^ 464 * (Nat.factorial 29 : ℝ)) * Real.exp _ = u at *
      rw [mul_sub] at t'
      linarith only [t', h1', h2']
    have := (Real.le_log_iff_exp_le hp).2 this
    unfold wOf; linarith

/-- The values of a polynomial at two places: how far they are from each other, and bounded. -/
def LipAt (p q x y L M : ℝ) : Prop := |p - q| ≤ L * |x - y| ∧ |p| ≤ M ∧ |q| ≤ M

theorem lip_step {p q x y L M z L' M' : ℝ} (h : LipAt p q x y L M) (hx : |x| ≤ 265 / 100) (hy : |y| ≤ 265 / 100) (hM : 0 ≤ M) (hL : L * (265 / 100) + M ≤ L') (hM' : M * (265 / 100) + |z| ≤ M') :
    LipAt (p * x + z) (q * y + z) x y L' M' := by
  obtain ⟨h1, h2, h3⟩ := h
  have hb : ∀ a b : ℝ, |a| ≤ M → |b| ≤ 265 / 100 → |a * b + z| ≤ M' := fun a b ha hb =>
    le_trans (abs_add_le _ _) (by rw [abs_mul]; have := mul_le_mul ha hb (abs_nonneg _) hM; linarith)
  refine ⟨?_, hb _ _ h2 hx, hb _ _ h3 hy⟩
  rw [show p * x + z - (q * y + z) = (p - q) * x + q * (x - y) by ring]
  refine le_trans (abs_add_le _ _) ?_
  rw [abs_mul, abs_mul]
  have e1 : |p - q| * |x| ≤ L * |x - y| * (265 / 100) := mul_le_mul h1 hx (abs_nonneg _) (le_trans (abs_nonneg _) h1)
  have e2 : |q| * |x - y| ≤ M * |x - y| := mul_le_mul_of_nonneg_right h3 (abs_nonneg _)
  have e3 : (L * (265 / 100) + M) * |x - y| ≤ L' * |x - y| := mul_le_mul_of_nonneg_right hL (abs_nonneg _)
  linarith

/-- The first polynomial increases. -/
theorem PA_mono {x y : ℝ} (hx : |x| ≤ 265 / 100) (hy : |y| ≤ 265 / 100) (h : x ≤ y) : PA x ≤ PA y := by
  have k0 : LipAt (1977521 / 2 ^ 46) (1977521 / 2 ^ 46) x y 0 (28103 / 10 ^ 12) := ⟨by simp, by norm_num [abs_le], by norm_num [abs_le]⟩
  have k1 := lip_step k0 hx hy (z := 6038939 / 2 ^ 44) (L' := 28103 / 10 ^ 12) (M' := 417747 / 10 ^ 12) (by norm_num) (by norm_num) (by rw [abs_of_nonneg (by norm_num)]; norm_num)
  have k2 := lip_step k1 hx hy (z := -15496023 / 2 ^ 42) (L' := 492220 / 10 ^ 12) (M' := 4630418 / 10 ^ 12) (by norm_num) (by norm_num) (by rw [abs_of_neg (by norm_num)]; norm_num)
  have k3 := lip_step k2 hx hy (z := -9657025 / 2 ^ 41) (L' := 5934801 / 10 ^ 12) (M' := 16662115 / 10 ^ 12) (by norm_num) (by norm_num) (by rw [abs_of_neg (by norm_num)]; norm_num)
  have k4 := lip_step k3 hx hy (z := 15020763 / 2 ^ 36) (L' := 32389338 / 10 ^ 12) (M' := 262735475 / 10 ^ 12) (by norm_num) (by norm_num) (by rw [abs_of_nonneg (by norm_num)]; norm_num)
  have k5 := lip_step k4 hx hy (z := -1346177 / 2 ^ 30) (L' := 348567221 / 10 ^ 12) (M' := 1949974039 / 10 ^ 12) (by norm_num) (by norm_num) (by rw [abs_of_neg (by norm_num)]; norm_num)
  have k6 := lip_step k5 hx hy (z := -8971503 / 2 ^ 31) (L' := 2873677175 / 10 ^ 12) (M' := 9345112840 / 10 ^ 12) (by norm_num) (by norm_num) (by rw [abs_of_neg (by norm_num)]; norm_num)
  unfold PA
  generalize (((((1977521 / 2 ^ 46 * x + 6038939 / 2 ^ 44) * x + -15496023 / 2 ^ 42) * x + -9657025 / 2 ^ 41) * x + 15020763 / 2 ^ 36) * x + -1346177 / 2 ^ 30) * x + -8971503 / 2 ^ 31 = p at *
  generalize (((((1977521 / 2 ^ 46 * y + 6038939 / 2 ^ 44) * y + -15496023 / 2 ^ 42) * y + -9657025 / 2 ^ 41) * y + 15020763 / 2 ^ 36) * y + -1346177 / 2 ^ 30) * y + -8971503 / 2 ^ 31 = q at *
  have k7 := lip_step k6 hx hy (z := 16551779 / 2 ^ 26) (L' := 16960357354 / 10 ^ 12) (M' := 271405275950 / 10 ^ 12) (by norm_num) (by norm_num) (by rw [abs_of_nonneg (by norm_num)]; norm_num)
  clear k0 k1 k2 k3 k4 k5
  obtain ⟨-, h2, -⟩ := k6
  obtain ⟨h1, -, -⟩ := k7
  rw [abs_sub_comm x y, abs_of_nonneg (sub_nonneg.2 h)] at h1
  have e1 : |p * x| ≤ 3 / 100 := by rw [abs_mul]; exact le_trans (mul_le_mul h2 hx (abs_nonneg _) (by norm_num)) (by norm_num)
  have e2 := (abs_le.1 e1).1
  have e3 : 2 / 10 * (y - x) ≤ (p * x + 16551779 / 2 ^ 26) * (y - x) := mul_le_mul_of_nonneg_right (by norm_num at e2 ⊢; linarith) (by linarith)
  have e4 : |(q * y + 16551779 / 2 ^ 26 - (p * x + 16551779 / 2 ^ 26)) * y| ≤ 5 / 100 * (y - x) * (265 / 100) := by
    rw [abs_mul, abs_sub_comm]
    refine mul_le_mul (le_trans h1 (mul_le_mul_of_nonneg_right (by norm_num) (by linarith))) hy (abs_nonneg _) (mul_nonneg (by norm_num) (by linarith))
  have e5 := (abs_le.1 e4).1
  have e6 : (q * y + 16551779 / 2 ^ 26) * y - (p * x + 16551779 / 2 ^ 26) * x = (q * y + 16551779 / 2 ^ 26 - (p * x + 16551779 / 2 ^ 26)) * y + (p * x + 16551779 / 2 ^ 26) * (y - x) := by ring
  linarith

theorem tabs : logTab.length = 1024 ∧ loTab.length = 1021 ∧ hiTab.length = 1021 := by decide +kernel

/-- What the table says. -/
theorem log_at {k X : ℕ} (hk : k < 1024) (h : logTab[k]? = some X) : (X : ℝ) / 2 ^ 16 ≤ wOf (k / 1024) ∧ wOf (k / 1024) ≤ (X + 1 : ℕ) / 2 ^ 16 := by
  have := logs_get k logs_ok h
  rw [Nat.zero_add] at this
  exact log_ok hk this

theorem cast_hi {i H s : ℕ} (h : (1024 * 10 ^ 6 + 1024) * H ≤ 1024 * 10 ^ 6 * s + (i * 10 ^ 6 + 1024 * 1250) * H) : (1024 * 10 ^ 6 + 1024) * (H : ℝ) ≤ 1024 * 10 ^ 6 * s + (i * 10 ^ 6 + 1024 * 1250) * H := by exact_mod_cast h

theorem cast_lo {i H s : ℕ} (h : ((i + 1) * 10 ^ 6 + 1024) * H + 1024 * 10 ^ 6 * s ≤ (1024 * 10 ^ 6 + 1024 * 1250) * H) : (((i : ℝ) + 1) * 10 ^ 6 + 1024) * H + 1024 * 10 ^ 6 * s ≤ (1024 * 10 ^ 6 + 1024 * 1250) * H := by exact_mod_cast h

/-- On each cell. -/
theorem cell_inv {i : ℕ} (hi : i < 1021) {r b : ℝ} (h1 : (i : ℝ) / 1024 ≤ r) (h2 : r ≤ (i + 1 : ℕ) / 1024) (hb0 : 0 ≤ b) (hP : 0 ≤ PA (wOf r - 5 / 2)) (hb : |b - r * PA (wOf r - 5 / 2)| ≤ 2 / 10 ^ 5) : |Erf b - r| ≤ 1 / 800 := by
  obtain ⟨t1, t2, t3⟩ := tabs
  obtain ⟨X, hX⟩ : ∃ X, logTab[i]? = some X := ⟨_, List.getElem?_eq_getElem (by omega)⟩
  obtain ⟨Y, hY⟩ : ∃ X, logTab[i + 1]? = some X := ⟨_, List.getElem?_eq_getElem (by omega)⟩
  obtain ⟨l, hl⟩ : ∃ X, loTab[i]? = some X := ⟨_, List.getElem?_eq_getElem (by omega)⟩
  obtain ⟨h, hh⟩ : ∃ X, hiTab[i]? = some X := ⟨_, List.getElem?_eq_getElem (by omega)⟩
  have c := cells_get i cells_ok hX hY hl hh
  have lx := (log_at (by omega) hX).1
  have ly := (log_at (by omega) hY).2
  rw [Nat.zero_add] at c
  have r0 : 0 ≤ r := le_trans (by positivity) h1
  have r1 : r < 1 := lt_of_le_of_lt h2 (by rw [div_lt_one (by norm_num)]; exact_mod_cast (by omega : i + 1 < 1024))
  have w1 : (X : ℝ) ≤ 2 ^ 16 * wOf r := by
    have := wOf_mono (by positivity) h1 r1
    have := le_trans lx this
    rw [div_le_iff₀ (by norm_num)] at this; linarith
  have w2 : 2 ^ 16 * wOf r ≤ ((Y + 1 : ℕ) : ℝ) := by
    have := wOf_mono r0 h2 (by rw [div_lt_one (by norm_num)]; exact_mod_cast (by omega : i + 1 < 1024))
    have := le_trans this ly
    rw [le_div_iff₀ (by norm_num)] at this; linarith
  have X0 : (0 : ℝ) ≤ X := by positivity
  have W0 : 0 ≤ 2 ^ 16 * wOf r := le_trans X0 w1
  have Ym : ((Y + 1 : ℕ) : ℝ) ≤ 514 / 100 * 2 ^ 16 + 100 := by
    have m := (log_at (k := 1021) (X := 336932) (by norm_num) (by decide +kernel)).2
    have m1 := (log_at (by omega) hY).1
    have m2 := wOf_mono (r := (i + 1 : ℕ) / 1024) (s := (1021 : ℕ) / 1024) (by positivity) (div_le_div_of_nonneg_right (Nat.cast_le.2 (by omega)) (by norm_num)) (by norm_num)
    have m3 := le_trans m1 (le_trans m2 m)
    rw [div_le_div_iff_of_pos_right (by norm_num)] at m3
    push_cast at m3 ⊢
    norm_num at m3 ⊢
    linarith
  have cut : ∀ z : ℝ, 0 ≤ z → z ≤ ((Y + 1 : ℕ) : ℝ) → |z / 2 ^ 16 - 5 / 2| ≤ 265 / 100 := by
    intro z z0 z1
    have : z / 2 ^ 16 ≤ 515 / 100 := by rw [div_le_iff₀ (by norm_num)]; norm_num at Ym z1 ⊢; linarith
    have : 0 ≤ z / 2 ^ 16 := div_nonneg z0 (by norm_num)
    rw [abs_le]; constructor <;> linarith
  have cw := cut _ W0 w2
  rw [mul_div_cancel_left₀ _ (by norm_num)] at cw
  have hz : ∀ n : ℕ, (hn lP n : ℝ) - hn lM n = 2 ^ 182 * PA (n / 2 ^ 16 - 5 / 2) := by
    intro n
    rw [hn_cast, hn_cast, ← hor_PA, mul_div_cancel₀ _ (by norm_num)]
  have p1 := PA_mono (cut X X0 (le_trans w1 w2)) cw (by rw [sub_le_sub_iff_right, div_le_iff₀ (by norm_num)]; linarith)
  have p2 := PA_mono cw (cut (Y + 1 : ℕ) (le_trans W0 w2) le_rfl) (by rw [sub_le_sub_iff_right, le_div_iff₀ (by norm_num)]; linarith)
  have q1 := hz X
  have q2 := hz (Y + 1)
  clear hz cut cw Ym
  generalize PA ((X : ℝ) / 2 ^ 16 - 5 / 2) = P1 at *
  generalize PA (((Y + 1 : ℕ) : ℝ) / 2 ^ 16 - 5 / 2) = P2 at *
  generalize PA (wOf r - 5 / 2) = P at *
  simp only [cellOk, Bool.and_eq_true, Bool.or_eq_true, Nat.ble_eq] at c
  obtain ⟨⟨⟨c1, c2⟩, c3⟩, c4⟩ := c
  have b' := abs_le.1 hb
  have i0 : (0 : ℝ) ≤ i := Nat.cast_nonneg i
  -- the bounds of the result
  have bl : (l : ℝ) / 2 ^ 16 ≤ b := by
    rcases c1 with c1 | c1
    · rw [show l = 0 by omega]; simpa using hb0
    · have c1' : (((l + 2) * (1024 * 2 ^ 166) + i * hn lM X : ℕ) : ℝ) ≤ ((i * hn lP X : ℕ) : ℝ) := Nat.cast_le.2 c1
      push_cast at c1'
      have d : (i : ℝ) * (hn lP X : ℝ) - i * (hn lM X : ℝ) ≤ i * (2 ^ 182 * P) := by
        rw [← mul_sub]; exact mul_le_mul_of_nonneg_left (by linarith) i0
      have d2 : (i : ℝ) / 1024 * P ≤ r * P := mul_le_mul_of_nonneg_right h1 hP
      have d3 : ((l : ℝ) + 2) * (1024 * 2 ^ 166) ≤ i * (2 ^ 182 * P) := by linarith
      have d4 : (i : ℝ) * (2 ^ 182 * P) = (i / 1024 * P) * (1024 * 2 ^ 182) := by ring
      have d5 : ((l : ℝ) + 2) / 2 ^ 16 ≤ i / 1024 * P := by
        rw [div_le_iff₀ (by norm_num)]
        refine le_of_mul_le_mul_right (a := (1024 * 2 ^ 166 : ℝ)) ?_ (by norm_num)
        rw [d4] at d3
        linarith
      have d6 : ((l : ℝ) + 2) / 2 ^ 16 = l / 2 ^ 16 + 2 / 2 ^ 16 := by ring
      have d7 : (2 : ℝ) / 10 ^ 5 ≤ 2 / 2 ^ 16 := by norm_num
      linarith [b'.1]
  have bh : b ≤ (h : ℝ) / 2 ^ 16 := by
    have c2' : (((i + 1) * hn lP (Y + 1) + 2 * (1024 * 2 ^ 166) : ℕ) : ℝ) ≤ ((h * (1024 * 2 ^ 166) + (i + 1) * hn lM (Y + 1) : ℕ) : ℝ) := Nat.cast_le.2 c2
    push_cast at c2'
    have d : ((i : ℝ) + 1) * (2 ^ 182 * P) ≤ ((i : ℝ) + 1) * (hn lP (Y + 1) : ℝ) - (i + 1) * (hn lM (Y + 1) : ℝ) := by
      rw [← mul_sub]; exact mul_le_mul_of_nonneg_left (by linarith) (by linarith)
    have d2 : r * P ≤ ((i : ℝ) + 1) / 1024 * P := mul_le_mul_of_nonneg_right (by push_cast at h2; exact h2) hP
    have d4 : ((i : ℝ) + 1) * (2 ^ 182 * P) = ((i + 1) / 1024 * P) * (1024 * 2 ^ 182) := by ring
    have d5 : ((i : ℝ) + 1) / 1024 * P + 2 / 2 ^ 16 ≤ h / 2 ^ 16 := by
      rw [le_div_iff₀ (by norm_num)]
      refine le_of_mul_le_mul_right (a := (1024 * 2 ^ 166 : ℝ)) ?_ (by norm_num)
      rw [d4] at d
      linarith
    have d7 : (2 : ℝ) / 10 ^ 5 ≤ 2 / 2 ^ 16 := by norm_num
    linarith [b'.2]
  -- the error function there
  have bh0 : (0 : ℝ) ≤ (h : ℝ) / 2 ^ 16 := div_nonneg (Nat.cast_nonneg h) (by norm_num)
  have bl0 : (0 : ℝ) ≤ (l : ℝ) / 2 ^ 16 := div_nonneg (Nat.cast_nonneg l) (by norm_num)
  have E1 := le_trans (Erf_mono bh) (by have := (abs_le.1 (formula_erf bh0)).1; linarith : Erf (h / 2 ^ 16) ≤ 1 - 1 / RR (h / 2 ^ 16) ^ 16 + 1 / 10 ^ 6)
  have E2 := le_trans (by have := (abs_le.1 (formula_erf bl0)).2; linarith : 1 - 1 / RR (l / 2 ^ 16) ^ 16 - 1 / 10 ^ 6 ≤ Erf (l / 2 ^ 16)) (Erf_mono bl)
  have q : ∀ n : ℕ, (hn rl2 n : ℝ) = 2 ^ 134 * RR (n / 2 ^ 16) := by
    intro n
    rw [hn_cast, ← hor_rl2, mul_div_cancel₀ _ (by norm_num)]
  have S0 : (0 : ℝ) < (2 ^ 134) ^ 16 := pow_pos (pow_pos (by norm_num) _) _
  have inv : ∀ n : ℕ, 1 / RR (n / 2 ^ 16) ^ 16 * (hn rl2 n : ℝ) ^ 16 = (2 ^ 134) ^ 16 := by
    intro n
    have : 0 < RR ((n : ℝ) / 2 ^ 16) := lt_of_lt_of_le one_pos (RR_ge (div_nonneg (Nat.cast_nonneg n) (by norm_num)))
    rw [q, mul_pow]
    field_simp
  have pos : ∀ n : ℕ, (0 : ℝ) < (hn rl2 n : ℝ) ^ 16 := by
    intro n
    have : 0 < RR ((n : ℝ) / 2 ^ 16) := lt_of_lt_of_le one_pos (RR_ge (div_nonneg (Nat.cast_nonneg n) (by norm_num)))
    rw [q]; exact pow_pos (mul_pos (pow_pos (by norm_num) _) this) _
  have F1 : 1 - 1 / RR ((h : ℝ) / 2 ^ 16) ^ 16 + 1 / 10 ^ 6 ≤ i / 1024 + 1 / 800 := by
    have c3' := cast_hi c3
    rw [Nat.cast_pow (hn rl2 h), Nat.cast_pow (2 ^ 134), Nat.cast_pow 2 134, Nat.cast_ofNat, ← inv h] at c3'
    refine le_of_mul_le_mul_right ?_ (pos h)
    generalize (hn rl2 h : ℝ) ^ 16 = H at *
    generalize 1 / RR ((h : ℝ) / 2 ^ 16) ^ 16 = u at *
    norm_num at c3' ⊢
    linarith
  have F2 : ((i : ℝ) + 1) / 1024 - 1 / 800 ≤ 1 - 1 / RR ((l : ℝ) / 2 ^ 16) ^ 16 - 1 / 10 ^ 6 := by
    have c4' := cast_lo c4
    rw [Nat.cast_pow (hn rl2 l), Nat.cast_pow (2 ^ 134), Nat.cast_pow 2 134, Nat.cast_ofNat, ← inv l] at c4'
    refine le_of_mul_le_mul_right ?_ (pos l)
    generalize (hn rl2 l : ℝ) ^ 16 = H at *
    generalize 1 / RR ((l : ℝ) / 2 ^ 16) ^ 16 = u at *
    norm_num at c4' ⊢
    linarith
  push_cast at h2
  rw [abs_le]
  constructor <;> linarith

/-- From 0 to 1021/1024. -/
theorem inv_PA {r b : ℝ} (h1 : 0 ≤ r) (h2 : r < 1021 / 1024) (hb0 : 0 ≤ b) (hP : 0 ≤ PA (wOf r - 5 / 2)) (hb : |b - r * PA (wOf r - 5 / 2)| ≤ 2 / 10 ^ 5) : |Erf b - r| ≤ 1 / 800 := by
  have h0 : 0 ≤ 1024 * r := by linarith
  refine cell_inv (i := ⌊1024 * r⌋₊) ((Nat.floor_lt h0).2 (by push_cast; linarith)) ?_ ?_ hb0 hP hb
  · rw [div_le_iff₀ (by norm_num)]; have := Nat.floor_le h0; linarith
  · rw [le_div_iff₀ (by norm_num)]; have := Nat.lt_floor_add_one (1024 * r); push_cast; linarith

end Nanostl.Math

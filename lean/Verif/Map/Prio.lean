import Mathlib.Dynamics.PeriodicPts.Lemmas
import Mathlib.Tactic.NormNum.Prime
import Mathlib.Data.Nat.Bitwise
import Mathlib.Tactic.Ring
import Mathlib.Data.Finset.Card
import Mathlib.Order.Interval.Finset.Nat

/-!
`priority_rand` (nanomap.h:51-56), xorshift on 32 bits, and the proof that its period is 2^32 - 1.
The generator is linear over GF(2). A linear map is represented by its values on 1, 2, 4, ..., 2^31, and its powers are computed by
squaring; the kernel evaluates the few powers needed.
-/

namespace Nanostl.Map

/-- One call of `priority_rand` (nanomap.h:53-55) on the static variable `y`, an `unsigned int` of 32 bits. -/
def xorshift (y : Nat) : Nat :=
  let y := y ^^^ (y <<< 13) % 2 ^ 32
  let y := y ^^^ (y >>> 17)
  y ^^^ (y <<< 5) % 2 ^ 32

/-- Initial value of the static variable (nanomap.h:52). -/
def seed : Nat := 2463534242

/-- The value returned by call number `i` (from 0). -/
def prioStream (i : Nat) : Nat := xorshift^[i + 1] seed

namespace Prio

theorem xorshift_lt {y : Nat} (h : y < 2 ^ 32) : xorshift y < 2 ^ 32 := by
  have m : ∀ x, x % 2 ^ 32 < 2 ^ 32 := fun x => Nat.mod_lt _ (by decide)
  have s : ∀ {x}, x < 2 ^ 32 → x >>> 17 < 2 ^ 32 := by
    intro x hx; rw [Nat.shiftRight_eq_div_pow]; omega
  simp only [xorshift]
  have h1 := Nat.xor_lt_two_pow h (m (y <<< 13))
  have h2 := Nat.xor_lt_two_pow h1 (s h1)
  exact Nat.xor_lt_two_pow h2 (m _)

theorem xorshift_xor (a b : Nat) : xorshift (a ^^^ b) = xorshift a ^^^ xorshift b := by
  have hl : ∀ (n a b : Nat), ((a ^^^ b) <<< n) % 2 ^ 32 = (a <<< n) % 2 ^ 32 ^^^ (b <<< n) % 2 ^ 32 := by
    intro n a b
    rw [Nat.shiftLeft_xor_distrib, Nat.xor_mod_two_pow]
  have step : ∀ (a b c d : Nat), (a ^^^ b) ^^^ (c ^^^ d) = (a ^^^ c) ^^^ (b ^^^ d) := by
    intro a b c d
    apply Nat.eq_of_testBit_eq
    intro i
    simp only [Nat.testBit_xor]
    cases a.testBit i <;> cases b.testBit i <;> cases c.testBit i <;> cases d.testBit i <;> rfl
  have L : ∀ (n a b : Nat), (a ^^^ b) ^^^ ((a ^^^ b) <<< n) % 2 ^ 32 = (a ^^^ (a <<< n) % 2 ^ 32) ^^^ (b ^^^ (b <<< n) % 2 ^ 32) := by
    intro n a b; rw [hl]; exact step _ _ _ _
  have R : ∀ (a b : Nat), (a ^^^ b) ^^^ ((a ^^^ b) >>> 17) = (a ^^^ a >>> 17) ^^^ (b ^^^ b >>> 17) := by
    intro a b; rw [Nat.shiftRight_xor_distrib]; exact step _ _ _ _
  simp only [xorshift]
  rw [L 13 a b, R (a ^^^ (a <<< 13) % 2 ^ 32) (b ^^^ (b <<< 13) % 2 ^ 32), L 5]

theorem iter_xor (n a b : Nat) : xorshift^[n] (a ^^^ b) = xorshift^[n] a ^^^ xorshift^[n] b := by
  induction n generalizing a b with
  | zero => rfl
  | succ n ih => rw [Function.iterate_succ_apply, Function.iterate_succ_apply, Function.iterate_succ_apply, xorshift_xor, ih]

theorem iter_lt (n : Nat) {a : Nat} (h : a < 2 ^ 32) : xorshift^[n] a < 2 ^ 32 := by
  induction n generalizing a with
  | zero => exact h
  | succ n ih => rw [Function.iterate_succ_apply]; exact ih (xorshift_lt h)

theorem iter_zero (n : Nat) : xorshift^[n] 0 = 0 := by
  induction n with
  | zero => rfl
  | succ n ih => rw [Function.iterate_succ_apply, show xorshift 0 = 0 by decide, ih]

/-- Value at `x` of the linear map with the given values on the powers of two. -/
def app : List Nat → Nat → Nat
  | [], _ => 0
  | c :: cs, x => (if x % 2 = 1 then c else 0) ^^^ app cs (x / 2)

/-- The list represents `f` from bit `k` on. -/
def basis (f : Nat → Nat) (k : Nat) : Nat → List Nat
  | 0 => []
  | n + 1 => f (2 ^ k) :: basis f (k + 1) n

theorem app_basis (f : Nat → Nat) (hf : ∀ a b, f (a ^^^ b) = f a ^^^ f b) (h0 : f 0 = 0) :
    ∀ (n k x : Nat), x < 2 ^ n → app (basis f k n) x = f (2 ^ k * x) := by
  intro n
  induction n with
  | zero => intro k x hx; simp at hx; subst hx; simp [app, basis, h0]
  | succ n ih =>
    intro k x hx
    have hx2 : x / 2 < 2 ^ n := by rw [Nat.pow_succ] at hx; omega
    simp only [basis, app, ih (k + 1) (x / 2) hx2]
    have hsplit : 2 ^ k * x = (if x % 2 = 1 then 2 ^ k else 0) ^^^ (2 ^ (k + 1) * (x / 2)) := by
      have e : 2 ^ k * x = 2 ^ (k + 1) * (x / 2) + (if x % 2 = 1 then 2 ^ k else 0) := by
        rcases Nat.mod_two_eq_zero_or_one x with h | h
        · rw [if_neg (by omega)]
          conv_lhs => rw [show x = 2 * (x / 2) by omega]
          rw [Nat.pow_succ]; ring_nf
        · rw [if_pos h]
          conv_lhs => rw [show x = 2 * (x / 2) + 1 by omega]
          rw [Nat.pow_succ]; ring_nf
      have hlt : (if x % 2 = 1 then 2 ^ k else 0) < 2 ^ (k + 1) := by
        have := Nat.two_pow_pos k
        rw [Nat.pow_succ]
        split <;> omega
      rw [e, Nat.two_pow_add_eq_or_of_lt hlt]
      apply Nat.eq_of_testBit_eq
      intro i
      simp only [Nat.testBit_or, Nat.testBit_xor, Nat.testBit_two_pow_mul]
      by_cases hi : k + 1 ≤ i
      · have : (if x % 2 = 1 then 2 ^ k else 0).testBit i = false :=
          Nat.testBit_lt_two_pow (lt_of_lt_of_le hlt (Nat.pow_le_pow_right (by decide) hi))
        simp [this]
      · simp [hi]
    rw [hsplit, hf]
    congr 1
    split
    · rfl
    · rw [h0]

theorem map_basis (g f : Nat → Nat) (n k : Nat) : (basis f k n).map g = basis (g ∘ f) k n := by
  induction n generalizing k with
  | zero => rfl
  | succ n ih => simp [basis, ih]

def table (n : Nat) : List Nat := basis xorshift^[n] 0 32

theorem app_table (n : Nat) {x : Nat} (h : x < 2 ^ 32) : app (table n) x = xorshift^[n] x := by
  rw [table, app_basis _ (iter_xor n) (iter_zero n) 32 0 x h]; simp

theorem basis_congr {f g : Nat → Nat} : ∀ (n k : Nat), (∀ x, x < 2 ^ (k + n) → f x = g x) → basis f k n = basis g k n := by
  intro n
  induction n with
  | zero => intro k _; rfl
  | succ n ih =>
    intro k h
    simp only [basis]
    rw [h (2 ^ k) (Nat.pow_lt_pow_right (by decide) (by omega)), ih (k + 1) (fun x hx => h x (by rwa [show k + (n + 1) = k + 1 + n by omega]))]

theorem table_add (m n : Nat) : table (m + n) = (table n).map (app (table m)) := by
  simp only [table]
  rw [map_basis]
  apply basis_congr
  intro x hx
  simp only [Function.comp]
  rw [Function.iterate_add_apply]
  exact (app_table m (iter_lt n (by simpa using hx))).symm

/-- `table (2^k)` and `table` of a number given by its binary digits, least significant first. -/
def squares : Nat → List Nat → List (List Nat)
  | 0, _ => []
  | n + 1, t => t :: squares n (t.map (app t))

/-- `xorshift` iterated `Σ b_k 2^k` times, applied to `x`. -/
def power : List (List Nat) → Nat → Nat → Nat
  | [], _, x => x
  | t :: ts, n, x => power ts (n / 2) (if n % 2 = 1 then app t x else x)

theorem power_eq : ∀ (j k n x : Nat), n < 2 ^ j → x < 2 ^ 32 →
    power (squares j (table (2 ^ k))) n x = xorshift^[2 ^ k * n] x := by
  intro j
  induction j with
  | zero => intro k n x hn _; simp at hn; subst hn; simp [squares, power]
  | succ j ih =>
    intro k n x hn hx
    have hn2 : n / 2 < 2 ^ j := by rw [Nat.pow_succ] at hn; omega
    simp only [squares, power]
    rw [← table_add, show 2 ^ k + 2 ^ k = 2 ^ (k + 1) by rw [Nat.pow_succ]; omega]
    split
    · rename_i h
      rw [app_table _ hx, ih (k + 1) _ _ hn2 (iter_lt _ hx), ← Function.iterate_add_apply]
      congr 2
      conv_rhs => rw [show n = 2 * (n / 2) + 1 by omega]
      rw [Nat.pow_succ]; ring_nf
    · rename_i h
      rw [ih (k + 1) _ _ hn2 hx]
      rw [show 2 ^ k * n = 2 ^ (k + 1) * (n / 2) by
        conv_lhs => rw [show n = 2 * (n / 2) by omega]
        rw [Nat.pow_succ]; ring]

def pow32 (n x : Nat) : Nat := power (squares 32 (basis xorshift 0 32)) n x

theorem pow32_eq {n x : Nat} (hn : n < 2 ^ 32) (hx : x < 2 ^ 32) : pow32 n x = xorshift^[n] x := by
  have := power_eq 32 0 n x hn hx
  simpa [pow32, table] using this

theorem period_checks : pow32 4294967295 seed = seed ∧ pow32 (4294967295 / 3) seed ≠ seed ∧ pow32 (4294967295 / 5) seed ≠ seed ∧
    pow32 (4294967295 / 17) seed ≠ seed ∧ pow32 (4294967295 / 257) seed ≠ seed ∧ pow32 (4294967295 / 65537) seed ≠ seed := by
  decide +kernel

theorem minimal_period : Function.minimalPeriod xorshift seed = 2 ^ 32 - 1 := by
  obtain ⟨h0, h1, h2, h3, h4, h5⟩ := period_checks
  have hs : seed < 2 ^ 32 := by decide
  rw [pow32_eq (by decide) hs] at h0 h1 h2 h3 h4 h5
  have hd : Function.minimalPeriod xorshift seed ∣ 4294967295 := Function.IsPeriodicPt.minimalPeriod_dvd h0
  show Function.minimalPeriod xorshift seed = 4294967295
  by_contra hne
  obtain ⟨q, hq⟩ := hd
  have hq1 : q ≠ 1 := fun h => hne (by rw [h] at hq; omega)
  obtain ⟨p, hp, hpq⟩ := Nat.exists_prime_and_dvd hq1
  have key : xorshift^[4294967295 / p] seed = seed := by
    obtain ⟨r, rfl⟩ := hpq
    have : 4294967295 / p = Function.minimalPeriod xorshift seed * r := by
      rw [hq, show Function.minimalPeriod xorshift seed * (p * r) = p * (Function.minimalPeriod xorshift seed * r) by ring]
      exact Nat.mul_div_cancel_left _ hp.pos
    rw [this]
    exact (Function.isPeriodicPt_minimalPeriod xorshift seed).mul_const r
  have hpN : p ∣ 3 * 5 * 17 * 257 * 65537 := by
    rw [show 3 * 5 * 17 * 257 * 65537 = 4294967295 by norm_num, hq]
    exact Dvd.dvd.mul_left hpq _
  have pr : ∀ {q : Nat}, Nat.Prime q → p ∣ q → p = q := fun hq h => (Nat.prime_dvd_prime_iff_eq hp hq).mp h
  simp only [hp.dvd_mul] at hpN
  rcases hpN with (((h | h) | h) | h) | h
  · rw [pr (by norm_num) h] at key; exact h1 key
  · rw [pr (by norm_num) h] at key; exact h2 key
  · rw [pr (by norm_num) h] at key; exact h3 key
  · rw [pr (by norm_num) h] at key; exact h4 key
  · rw [pr (by norm_num) h] at key; exact h5 key

end Prio

end Nanostl.Map

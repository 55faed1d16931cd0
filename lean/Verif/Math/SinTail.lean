import Verif.Float.Exact
import Verif.Float.Approx
import Verif.Math.Elem

/-!
The polynomial of `sin` (nanomath.h:562-566) for arguments next to `pi / 2`: the result is not above 1. Here the bounds for rounding errors do not
suffice, so all the arguments in question are computed.
-/

namespace Nanostl.Math
open Nanostl.Float

/-- The polynomial of `sin` (nanomath.h:562-566), as evaluated by the code. -/
def sinTail (s x : Nat) : Nat :=
  let u := f32.litNeg 26083159809786593541503 28
  let u := madd u s (negLit 1981069071916863322258 25)
  let u := madd u s (f32.litNeg 833307858556509017944336 26)
  let u := madd u s (negLit 166666597127914428710938 24)
  madd s (f32.mul u x) x

/-- `F x`; makes the kernel compute `x` first. -/
def force {α : Type} (x : Nat) (F : Nat → α) : α := Nat.casesOn x (F 0) (fun n => F (Nat.add n 1))

theorem force_eq {α : Type} (x : Nat) (F : Nat → α) : force x F = F x := by cases x <;> rfl

/-- The range test for a quotient. -/
def inR (q : Nat) : Bool := Nat.ble 8388608 q && Nat.blt q 16777216

/-- Continue with `n / 2^j` rounded if it is in range. -/
def step (n j : Nat) (F : Nat → Bool) : Bool :=
  force n fun n => force (Nat.pow 2 j) fun D => force (Nat.div n D) fun q => force (Nat.mod n D) fun r => inR q &&
    force (bif Nat.blt (Nat.mul 2 r) D then q else bif Nat.blt D (Nat.mul 2 r) then Nat.add q 1 else Nat.add q (Nat.mod q 2)) F

theorem step_eq {n j : Nat} {F : Nat → Bool} (h : step n j F = true) : (2 ^ 23 ≤ n / 2 ^ j ∧ n / 2 ^ j < 2 ^ 24) ∧ F (rn n j) = true := by
  unfold step at h
  simp only [force_eq, inR, Bool.and_eq_true, Nat.blt_eq, Nat.ble_eq] at h
  exact ⟨⟨h.1.1, h.1.2⟩, h.2⟩

/-- The computation of `sinTail` with integers for the argument `X / 2^23`. -/
def chk (X : Nat) : Bool :=
  force X fun X =>
  step (Nat.mul X X) 24 fun S =>
  step (Nat.mul 11471495 S) 23 fun P1 =>
  step (Nat.sub (Nat.mul 13613803 32) P1) 5 fun A1 =>
  step (Nat.mul A1 S) 23 fun P2 =>
  step (Nat.sub (Nat.mul 8947575 32) P2) 5 fun A2 =>
  step (Nat.mul A2 S) 23 fun P3 =>
  step (Nat.sub (Nat.mul 11184806 8) P3) 3 fun A3 =>
  step (Nat.mul A3 X) 23 fun P4 =>
  step (Nat.mul S P4) 24 fun P5 =>
  Nat.ble (Nat.mul 2 X) (Nat.add P5 16777217) && Nat.blt P5 (Nat.mul 2 X)

def chks : Nat → Nat → Bool
  | 0, _ => true
  | n + 1, X => force X fun X => chk X && chks n (Nat.add X 1)

theorem chks_sound {n A : Nat} (h : chks n A = true) : ∀ X, A ≤ X → X < A + n → chk X = true := by
  induction n generalizing A with
  | zero => intro X h1 h2; omega
  | succ n ih =>
    simp only [chks, force_eq, Bool.and_eq_true] at h
    intro X h1 h2
    by_cases e : X = A
    · rw [e]; exact h.1
    · exact ih (A := A + 1) h.2 X (by omega) (by omega)

theorem sub_pow {a b k : Nat} : Nat.sub (Nat.mul a (2 ^ k)) b = a * 2 ^ k - b := rfl

theorem add_tie : rn (16777217) 1 = 8388608 := by decide +kernel

theorem window0 : chks 1100 13172395 = true := by decide +kernel
theorem window1 : chks 1100 13173495 = true := by decide +kernel
theorem window2 : chks 1100 13174595 = true := by decide +kernel
theorem window3 : chks 1100 13175695 = true := by decide +kernel
theorem window4 : chks 1100 13176795 = true := by decide +kernel
theorem window5 : chks 1100 13177895 = true := by decide +kernel
theorem window6 : chks 1100 13178995 = true := by decide +kernel
theorem window7 : chks 1100 13180095 = true := by decide +kernel

/-- All arguments within about 5.2e-4 of `pi / 2`. -/
theorem window {X : Nat} (h0 : 13172395 ≤ X) (h1 : X < 13181195) : chk X = true := by
  rcases Nat.lt_or_ge X 13176795 with h | h
  · rcases Nat.lt_or_ge X 13174595 with h' | h'
    · rcases Nat.lt_or_ge X 13173495 with h'' | h''
      · exact chks_sound window0 X (by omega) (by omega)
      · exact chks_sound window1 X (by omega) (by omega)
    · rcases Nat.lt_or_ge X 13175695 with h'' | h''
      · exact chks_sound window2 X (by omega) (by omega)
      · exact chks_sound window3 X (by omega) (by omega)
  · rcases Nat.lt_or_ge X 13178995 with h' | h'
    · rcases Nat.lt_or_ge X 13177895 with h'' | h''
      · exact chks_sound window4 X (by omega) (by omega)
      · exact chks_sound window5 X (by omega) (by omega)
    · rcases Nat.lt_or_ge X 13180095 with h'' | h''
      · exact chks_sound window6 X (by omega) (by omega)
      · exact chks_sound window7 X (by omega) (by omega)

theorem is_pat {g : Bool} {m s : Nat} (h0 : 2 ^ 23 ≤ m) (h1 : m ≤ 2 ^ 24) (hs : s ≤ 252) :
    f32.Is (pat g m s) ((signed g (m * 2 ^ s) : ℤ) / 2 ^ 149) := by
  refine ⟨_, pat_val h0 h1 hs, ?_⟩
  have : f32.one = 2 ^ 149 := by decide +kernel
  rw [this, Nat.cast_pow, Nat.cast_ofNat, div_mul_cancel₀ _ (by positivity)]

/-- The result of an addition that is at most 1, or half a unit above. -/
theorem add_le_one {g : Bool} {X P : Nat} (hX : 2 ^ 23 ≤ X ∧ X ≤ 2 ^ 24) (hP : 2 ^ 23 ≤ P ∧ P ≤ 2 ^ 24) (h1 : 2 * X ≤ P + 16777217) (h2 : P < 2 * X) :
    ∃ b, f32.Is (f32.add (pat (!g) P 125) (pat g X 126)) b ∧ |b| ≤ 1 := by
  by_cases e : 2 * X = P + 16777217
  · have e' : X * 2 ^ 1 - P = 16777217 := by omega
    have := (add_pat (g := g) (m := X) (m' := P) (s := 126) (s' := 125) (k := 1) (j := 1) (t := 126) hX hP (by decide) (by decide) (by decide)
      (by decide) (by decide) (by omega) (by rw [e']; decide) (by rw [e']; decide)).2
    rw [this, e', add_tie]
    refine ⟨_, is_pat (by decide) (by decide) (by decide), ?_⟩
    cases g <;> norm_num [signed, abs_of_neg]
  · have a1 := is_pat (g := !g) (s := 125) hP.1 hP.2 (by decide)
    have a2 := is_pat (g := g) (s := 126) hX.1 hX.2 (by decide)
    have r1 : (2 : ℝ) * X ≤ P + 16777216 := by exact_mod_cast (show 2 * X ≤ P + 16777216 by omega)
    have r2 : (P : ℝ) < 2 * X := by exact_mod_cast h2
    have hs : |((signed (!g) (P * 2 ^ 125) : ℤ) / 2 ^ 149 + (signed g (X * 2 ^ 126) : ℤ) / 2 ^ 149 : ℝ)| ≤ 1 := by
      cases g
      · simp only [signed, Bool.not_false, if_true, Bool.false_eq_true, if_false]
        push_cast
        rw [abs_le]
        constructor <;> · ring_nf; linarith
      · simp only [signed, Bool.not_true, if_true, Bool.false_eq_true, if_false]
        push_cast
        rw [abs_le]
        constructor <;> · ring_nf; linarith
    obtain ⟨c, hc1, hc2, -⟩ := Fmt.is_add Fmt.good32 a1 a2 (by rw [bias32]; exact le_trans hs (by norm_num))
    rw [abs_le] at hs
    exact ⟨c, hc1, abs_le.mpr ⟨hc2.ge _ _ is_one32.neg hs.1, hc2.le _ _ is_one32 hs.2⟩⟩

theorem lit1 : f32.litNeg 26083159809786593541503 28 = pat false 11471495 107 := by decide +kernel
theorem lit2 : negLit 1981069071916863322258 25 = pat true 13613803 113 := by decide +kernel
theorem lit3 : f32.litNeg 833307858556509017944336 26 = pat false 8947575 119 := by decide +kernel
theorem lit4 : negLit 166666597127914428710938 24 = pat true 11184806 123 := by decide +kernel

theorem sinTail_chk {X : Nat} (g : Bool) (hX : 2 ^ 23 ≤ X ∧ X ≤ 2 ^ 24) (h : chk X = true) :
    ∃ b, f32.Is (sinTail (f32.mul (pat g X 126) (pat g X 126)) (pat g X 126)) b ∧ |b| ≤ 1 := by
  unfold chk at h
  rw [force_eq] at h
  unfold sinTail Math.madd
  dsimp only
  rw [lit1, lit2, lit3, lit4]
  obtain ⟨⟨r0, r1⟩, h'⟩ := step_eq h
  clear h
  have e0 : f32.mul (pat g X 126) (pat g X 126) = pat false (rn (Nat.mul X X) 24) 127 := by
    rw [show false = (g != g) by cases g <;> rfl]
    exact mul_pat hX hX (by decide) (by decide) (by decide) (by decide) r0 r1
  rw [e0]
  have re0 := rn_range r0 r1
  clear e0 r0 r1
  generalize rn (Nat.mul X X) 24 = S at *
  rename' h' => h
  obtain ⟨⟨r0, r1⟩, h'⟩ := step_eq h
  clear h
  have e1 : f32.mul (pat false 11471495 107) (pat false S 127) = pat false (rn (Nat.mul 11471495 S) 23) 108 :=
    mul_pat (by decide) re0 (by decide) (by decide) (by decide) (by decide) r0 r1
  rw [e1]
  have re1 := rn_range r0 r1
  clear e1 r0 r1
  generalize rn (Nat.mul 11471495 S) 23 = P1 at *
  rename' h' => h
  obtain ⟨⟨r0, r1⟩, h'⟩ := step_eq h
  clear h
  have e2 : f32.add (pat false P1 108) (pat true 13613803 113) = pat true (rn (Nat.sub (Nat.mul 13613803 32) P1) 5) 113 :=
    (add_pat (g := true) (k := 5) (by decide) re1 (by decide) (by decide) (by decide) (by decide) (by decide) (by omega) r0 r1).2
  rw [e2]
  have re2 := rn_range r0 r1
  clear e2 r0 r1
  generalize rn (Nat.sub (Nat.mul 13613803 32) P1) 5 = A1 at *
  rename' h' => h
  obtain ⟨⟨r0, r1⟩, h'⟩ := step_eq h
  clear h
  have e3 : f32.mul (pat true A1 113) (pat false S 127) = pat true (rn (Nat.mul A1 S) 23) 114 :=
    mul_pat re2 re0 (by decide) (by decide) (by decide) (by decide) r0 r1
  rw [e3]
  have re3 := rn_range r0 r1
  clear e3 r0 r1
  generalize rn (Nat.mul A1 S) 23 = P2 at *
  rename' h' => h
  obtain ⟨⟨r0, r1⟩, h'⟩ := step_eq h
  clear h
  have e4 : f32.add (pat true P2 114) (pat false 8947575 119) = pat false (rn (Nat.sub (Nat.mul 8947575 32) P2) 5) 119 :=
    (add_pat (g := false) (k := 5) (by decide) re3 (by decide) (by decide) (by decide) (by decide) (by decide) (by omega) r0 r1).2
  rw [e4]
  have re4 := rn_range r0 r1
  clear e4 r0 r1
  generalize rn (Nat.sub (Nat.mul 8947575 32) P2) 5 = A2 at *
  rename' h' => h
  obtain ⟨⟨r0, r1⟩, h'⟩ := step_eq h
  clear h
  have e5 : f32.mul (pat false A2 119) (pat false S 127) = pat false (rn (Nat.mul A2 S) 23) 120 :=
    mul_pat re4 re0 (by decide) (by decide) (by decide) (by decide) r0 r1
  rw [e5]
  have re5 := rn_range r0 r1
  clear e5 r0 r1
  generalize rn (Nat.mul A2 S) 23 = P3 at *
  rename' h' => h
  obtain ⟨⟨r0, r1⟩, h'⟩ := step_eq h
  clear h
  have e6 : f32.add (pat false P3 120) (pat true 11184806 123) = pat true (rn (Nat.sub (Nat.mul 11184806 8) P3) 3) 123 :=
    (add_pat (g := true) (k := 3) (by decide) re5 (by decide) (by decide) (by decide) (by decide) (by decide) (by omega) r0 r1).2
  rw [e6]
  have re6 := rn_range r0 r1
  clear e6 r0 r1
  generalize rn (Nat.sub (Nat.mul 11184806 8) P3) 3 = A3 at *
  rename' h' => h
  obtain ⟨⟨r0, r1⟩, h'⟩ := step_eq h
  clear h
  have e7 : f32.mul (pat true A3 123) (pat g X 126) = pat (!g) (rn (Nat.mul A3 X) 23) 123 := by
    rw [show (!g) = (true != g) by cases g <;> rfl]
    exact mul_pat re6 hX (by decide) (by decide) (by decide) (by decide) r0 r1
  rw [e7]
  have re7 := rn_range r0 r1
  clear e7 r0 r1
  generalize rn (Nat.mul A3 X) 23 = P4 at *
  rename' h' => h
  obtain ⟨⟨r0, r1⟩, h'⟩ := step_eq h
  clear h
  have e8 : f32.mul (pat false S 127) (pat (!g) P4 123) = pat (!g) (rn (Nat.mul S P4) 24) 125 := by
    rw [show pat (!g) (rn (Nat.mul S P4) 24) 125 = pat (false != !g) (rn (Nat.mul S P4) 24) 125 by cases g <;> rfl]
    exact mul_pat re0 re7 (by decide) (by decide) (by decide) (by decide) r0 r1
  rw [e8]
  have re8 := rn_range r0 r1
  clear e8 r0 r1
  generalize rn (Nat.mul S P4) 24 = P5 at *
  rename' h' => h
  simp only [Bool.and_eq_true, Nat.ble_eq, Nat.blt_eq] at h
  exact add_le_one hX re8 h.1 h.2

end Nanostl.Math

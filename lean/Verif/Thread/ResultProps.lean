import Verif.Thread.Result
import Mathlib.Tactic.Ring
import Mathlib.Algebra.Order.Ring.Int
import Mathlib.Tactic.NormNum

/-! Property C126: `thread_join` returns what the thread returned; the thread has the stack and the name it was to have. -/

namespace Nanostl.Thread.Result

/-- The result the thread was to have. -/
def End.code : End → Int
  | .returns c => c
  | .exits c => c

/-- The values of an `int`. -/
def IsInt (c : Int) : Prop := -2 ^ 31 ≤ c ∧ c < 2 ^ 31

theorem toSigned_of {c x : Int} (h : IsInt c) (e : x % 2 ^ 32 = c % 2 ^ 32) : toSigned 32 x = c := by
  obtain ⟨h1, h2⟩ := h
  simp only [toSigned] at *
  norm_num at *
  omega

theorem mod_mod {w : Nat} (h : 32 ≤ w) (x : Int) : x % 2 ^ w % 2 ^ 32 = x % 2 ^ 32 :=
  Int.emod_emod_of_dvd x (pow_dvd_pow 2 h)

/-- Whatever the thread returns or hands to `thread_exit`, `thread_join` returns it, whatever is left in the upper half of a register. -/
theorem c126_result (p : Platform) (w junk : Nat) (hw : 32 ≤ w) (e : End) (h : IsInt e.code) : joinValue p w (kept p w junk e) = e.code := by
  cases e with
  | returns c =>
    cases p with
    | windows => exact toSigned_of h (by simp [kept, returnValue, toUnsigned, End.code])
    | posix =>
      refine toSigned_of h ?_
      simp only [kept, returnValue, toUnsigned]
      rw [mod_mod hw, mod_mod hw, Int.add_mul_emod_self_right, Int.emod_emod_of_dvd _ (dvd_refl _)]; rfl
  | exits c =>
    cases p with
    | windows => exact toSigned_of h (by simp [kept, exitValue, toUnsigned, End.code])
    | posix =>
      refine toSigned_of h ?_
      simp only [kept, exitValue, toUnsigned]
      rw [mod_mod hw, mod_mod hw]; rfl

/-- `thread_exit(c)` is seen as `return c` is. -/
theorem c126_exit (p : Platform) (w junk : Nat) (hw : 32 ≤ w) (c : Int) (h : IsInt c) :
    joinValue p w (kept p w junk (.exits c)) = joinValue p w (kept p w junk (.returns c)) := by
  rw [c126_result p w junk hw (.exits c) h, c126_result p w junk hw (.returns c) h]; rfl

/-- `uintptr_t` must have the 32 bits of an `int`: with less, different results are the same. -/
theorem c126_narrow (w junk : Nat) (hw : w < 32) :
    ∃ e : End, IsInt e.code ∧ joinValue .posix w (kept .posix w junk e) ≠ e.code := by
  refine ⟨.exits (-1), ⟨by norm_num [End.code], by norm_num [End.code]⟩, ?_⟩
  have e : ((-1 : Int) % 2 ^ w) % 2 ^ w = 2 ^ w - 1 := by
    have : (2 : Int) ^ w ≥ 1 := one_le_pow₀ (by norm_num)
    rw [Int.emod_emod_of_dvd _ (dvd_refl _)]
    rw [← Int.add_mul_emod_self_left (-1) (2 ^ w) 1]
    exact (Int.emod_eq_of_lt (by omega) (by omega)).trans (by ring)
  have b : (2 : Int) ^ w ≤ 2 ^ 31 := pow_le_pow_right₀ (by norm_num) (by omega)
  have p : (2 : Int) ^ w ≥ 1 := one_le_pow₀ (by norm_num)
  simp only [joinValue, kept, exitValue, toUnsigned, e, toSigned, End.code]
  norm_num at *
  omega

/-- The thread has the stack that was asked for exactly on Windows, and elsewhere if the default would do. -/
theorem c126_stack_partial (p : Platform) (dflt : Nat) (n : Int) : n ≤ stackSize p dflt n ↔ p = .windows ∨ n ≤ dflt := by
  cases p with
  | windows => simp only [stackSize, true_or, iff_true]; split <;> omega
  | posix => simp [stackSize]

/-- Nowhere does it have less than the default. -/
theorem c126_stack_least (p : Platform) (dflt : Nat) (n : Int) : dflt ≤ stackSize p dflt n := by
  cases p <;> simp [stackSize]

/-- `stack_size` is not looked at on POSIX: whatever the default is, more cannot be had. -/
theorem c126_stack_false (dflt : Nat) : ∃ n : Int, ¬ n ≤ stackSize .posix dflt n := ⟨dflt + 1, by simp [stackSize]⟩

/-- On Linux the thread has its name exactly if that is no longer than 15 characters or is the one it would have had. -/
theorem c126_name_partial (before n : List Char) : nameLinux before (some n) = n ↔ n.length ≤ 15 ∨ before = n := by
  simp only [nameLinux]
  split <;> simp_all

/-- A longer name is dropped without a word. -/
theorem c126_name_false : ∃ before n, nameLinux before (some n) ≠ n ∧ nameLinux before (some n) = before :=
  ⟨[], List.replicate 16 'a', by decide, by decide⟩

/-- The theorems at work: `return -1` with a dirty register, 64 bits; 1 MiB of stack on Windows. -/
example : IsInt (End.returns (-1)).code ∧ kept .posix 64 12345 (.returns (-1)) = 12345 * 2 ^ 32 + (2 ^ 32 - 1) ∧
    joinValue .posix 64 (kept .posix 64 12345 (.returns (-1))) = -1 := by
  simp [IsInt, End.code]; decide

example : stackSize .windows 65536 1048576 = 1048576 ∧ stackSize .posix 65536 1048576 = 65536 := by decide

end Nanostl.Thread.Result

import Verif.Thread.QueueInv

/-!
Property C57: atomic integers and pointers (src/libs_thread.h:1016-1222). What the user sees is the value `load` returns.
-/

namespace Nanostl.Thread

/-- C57, as far as it holds: after a store of `v` load returns `v`, on Windows. Elsewhere only if `v` is 0. -/
theorem c57_store_partial (pl : Plat) (cell v : Int) (h : -2 ^ 31 ≤ v) (h' : v < 2 ^ 31) (hp : pl = .win ∨ v = 0) : load (store pl cell v) = v := by
  rcases hp with rfl | rfl
  · exact i32_id h h'
  · cases pl
    · exact i32_id h h'
    · exact i32_id (x := 0) h h'

/-- C57, as far as it holds: swap returns the value before, and load then returns `v`, on Windows. -/
theorem c57_swap_partial (pl : Plat) (cell v : Int) (h : -2 ^ 31 ≤ v) (h' : v < 2 ^ 31) (hp : pl = .win ∨ v = 0) :
    (swap pl cell v).1 = load cell ∧ load (swap pl cell v).2 = v := by
  rcases hp with rfl | rfl
  · exact ⟨rfl, i32_id h h'⟩
  · cases pl
    · exact ⟨rfl, i32_id h h'⟩
    · exact ⟨rfl, i32_id (x := 0) h h'⟩

theorem c57_ptr_partial (pl : Plat) (cell v : Nat) (hp : pl = .win ∨ v = 0) : ptrStore pl cell v = v ∧ ptrSwap pl cell v = (cell, v) := by
  rcases hp with rfl | rfl
  · exact ⟨rfl, rfl⟩
  · cases pl <;> exact ⟨rfl, rfl⟩

/-- C57 is false outside Windows: whatever is stored, load returns 0. -/
theorem c57_store_false (cell v : Int) : load (store .posix cell v) = 0 := by show i32 0 = 0; decide
theorem c57_swap_false (cell v : Int) : load (swap .posix cell v).2 = 0 := by show i32 0 = 0; decide
theorem c57_ptr_false (cell v : Nat) : ptrStore .posix cell v = 0 ∧ (ptrSwap .posix cell v).2 = 0 := ⟨rfl, rfl⟩

/-- Compare and swap: if load would return `expected`, that is returned and `desired` is loaded from then on; otherwise what load returns stays the
same. Outside Windows, only as long as the value has not left the range of `int`. -/
theorem c57_cas_partial (pl : Plat) (cell expected desired : Int) (h : -2 ^ 31 ≤ desired) (h' : desired < 2 ^ 31)
    (hp : pl = .win ∨ -2 ^ 31 ≤ cell ∧ cell < 2 ^ 31) :
    (cas pl cell expected desired).1 = load cell ∧
    (load cell = expected → load (cas pl cell expected desired).2 = desired) ∧
    (load cell ≠ expected → load (cas pl cell expected desired).2 = load cell) := by
  cases pl with
  | win =>
    refine ⟨rfl, fun he => ?_, fun he => ?_⟩
    · show i32 (if i32 cell = expected then desired else cell) = desired
      rw [if_pos (show i32 cell = expected from he)]; exact i32_id h h'
    · show i32 (if i32 cell = expected then desired else cell) = i32 cell
      rw [if_neg (show ¬i32 cell = expected from he)]
  | posix =>
    obtain ⟨h1, h2⟩ := hp.resolve_left (by simp)
    have hl : load cell = cell := i32_id h1 h2
    refine ⟨rfl, fun he => ?_, fun he => ?_⟩
    · show i32 (if cell = expected then desired else cell) = desired
      rw [if_pos (hl ▸ he)]; exact i32_id h h'
    · show i32 (if cell = expected then desired else cell) = i32 cell
      rw [if_neg (hl ▸ he)]

/-- Compare and swap of pointers: the value before is returned, and `desired` is stored exactly if that was `expected`. -/
theorem c57_ptr_cas (cell expected desired : Nat) : (ptrCas cell expected desired).1 = cell ∧
    (cell = expected → (ptrCas cell expected desired).2 = desired) ∧ (cell ≠ expected → (ptrCas cell expected desired).2 = cell) := by
  refine ⟨rfl, fun h => ?_, fun h => ?_⟩
  · show (if cell = expected then desired else cell) = desired
    rw [if_pos h]
  · show (if cell = expected then desired else cell) = cell
    rw [if_neg h]

/-- Outside Windows, once the value has been incremented past the largest `int`: compare and swap with what load returns says it has succeeded, but
changes nothing. -/
theorem c57_cas_false (cell desired : Int) (h : 2 ^ 31 ≤ cell) :
    (cas .posix cell (load cell) desired).1 = load cell ∧ (cas .posix cell (load cell) desired).2 = cell := by
  refine ⟨rfl, ?_⟩
  have : ¬cell = load cell := by simp only [load, i32]; omega
  show (if cell = load cell then desired else cell) = cell
  rw [if_neg this]

/-- What load returns is what it should be after arithmetic, modulo 2^32, and the value before is returned. -/
theorem c57_arith (cell v : Int) :
    ((inc cell).1 = load cell ∧ load (inc cell).2 = i32 (load cell + 1)) ∧ ((dec cell).1 = load cell ∧ load (dec cell).2 = i32 (load cell - 1)) ∧
    ((add cell v).1 = load cell ∧ load (add cell v).2 = i32 (load cell + v)) ∧ ((sub cell v).1 = load cell ∧ load (sub cell v).2 = i32 (load cell - v)) := by
  refine ⟨⟨rfl, ?_⟩, ⟨rfl, ?_⟩, ⟨rfl, ?_⟩, ⟨rfl, ?_⟩⟩ <;> simp only [load, inc, dec, add, sub, i32] <;> omega

/-- What the calls of inc return, in the order in which they take effect. -/
def incs : Nat → Int → List Int
  | 0, _ => []
  | n + 1, cell => (inc cell).1 :: incs n (inc cell).2

theorem incs_get : ∀ (n : Nat) (cell : Int) (k : Nat), k < n → (incs n cell)[k]? = some (i32 (cell + k))
  | n + 1, cell, 0, _ => by show some (i32 cell) = _; rw [show cell + ((0 : Nat) : Int) = cell by omega]
  | n + 1, cell, k + 1, h => by
    show (incs n (cell + 1))[k]? = _
    rw [incs_get n (cell + 1) k (by omega)]
    congr 2
    omega

theorem incs_len : ∀ (n : Nat) (cell : Int), (incs n cell).length = n
  | 0, _ => rfl
  | n + 1, cell => congrArg (· + 1) (incs_len n (cell + 1))

/-- However the calls of inc of any number of threads interleave: no two of up to 2^32 calls return the same. -/
theorem c57_inc_distinct (n : Nat) (h : n ≤ 2 ^ 32) (cell : Int) : (incs n cell).Nodup := by
  rw [List.Nodup, List.pairwise_iff_getElem]
  intro a b ha hb hlt
  rw [incs_len] at ha hb
  obtain ⟨_, e1⟩ := List.getElem?_eq_some_iff.1 (incs_get n cell a ha)
  obtain ⟨_, e2⟩ := List.getElem?_eq_some_iff.1 (incs_get n cell b hb)
  rw [e1, e2]
  simp only [i32]
  omega

/-- The loop of the example in the documentation (libs_thread.h:104-134): it ends when load returns something other than 0. Outside Windows the store of
1 that should end it does not. -/
theorem c57_example_never_ends (cell : Int) : load (store .posix cell 1) = 0 := c57_store_false cell 1

example := c57_store_partial .win 3 5 (by decide) (by decide) (.inl rfl)
example := c57_swap_partial .win 3 5 (by decide) (by decide) (.inl rfl)
example := c57_ptr_partial .win 3 5 (.inl rfl)
example := c57_cas_partial .posix 3 3 5 (by decide) (by decide) (.inr (by decide))
/-- The cell has that value after 2^31 calls of inc. -/
example : (incs (2 ^ 31) 0).length = 2 ^ 31 := incs_len _ _
example := c57_cas_false (2 ^ 31) 5 (Int.le_refl _)
example : incs 3 (2 ^ 31 - 2) = [2 ^ 31 - 2, 2 ^ 31 - 1, -2 ^ 31] := by decide

end Nanostl.Thread

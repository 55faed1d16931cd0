import Verif.Thread.Wait
import Verif.Thread.SignalProps
import Mathlib.Tactic.Ring

/-! C115: how long a timed wait on a signal takes; C62 for the event of old Windows. -/

namespace Nanostl.Signal

theorem deadlineNs_eq (a b ms : Nat) : deadlineNs a b ms = (b / 1000000000 * 1000000000 + a % 1000000000 / 1000 * 1000 + ms * 1000000 : Nat) := by
  have := (c62_deadline (b / 1000000000 : Nat) (a % 1000000000 / 1000 : Nat) ms (by omega) (by omega) (by omega)).1
  simp only [deadlineNs]
  rw [this]; push_cast; ring_nf

/-- The deadline is the time after `ms` milliseconds, rounded down to microseconds, if both clocks are read in the same second; and up to a second later if `time` is called in the
next. -/
theorem deadline_bounds (a b ms : Nat) (hab : a ≤ b) (hb : b < a + 1000000000) :
    (a + ms * 1000000 : Int) - 999 ≤ deadlineNs a b ms ∧ deadlineNs a b ms ≤ b + ms * 1000000 + 1000000000 ∧
    (a / 1000000000 = b / 1000000000 → deadlineNs a b ms = (a / 1000 * 1000 + ms * 1000000 : Nat)) := by
  rw [deadlineNs_eq]
  refine ⟨?_, ?_, ?_⟩ <;> omega

theorem posix_bounds (dl : Int) (late : Nat) : ∀ (ws : List (Nat × Wake)) (s : Nat), posixSleeps dl late s ws → ∀ r t, waitLoop ws = some (r, t) →
    (r = false → dl ≤ t) ∧ s ≤ t ∧ (t : Int) ≤ max dl s + 2 * late
  | [], _, _, _, _, h => by cases h
  | (t, .timeout) :: ws, s, ⟨h1, h2, h3, h4, h5⟩, r, t', e => by
    cases e; exact ⟨fun _ => h2 rfl, h1, by omega⟩
  | (t, .woken true) :: ws, s, ⟨h1, h2, h3, h4, h5⟩, r, t', e => by
    cases e; exact ⟨by simp, h1, by omega⟩
  | (t, .woken false) :: ws, s, ⟨h1, h2, h3, h4, h5⟩, r, t', e => by
    have hlt : (s : Int) < dl := by
      by_contra k
      have := h3 (by omega)
      cases this
    rw [waitLoop] at e
    obtain ⟨g1, g2, g3⟩ := posix_bounds dl late ws t h5 r t' e
    refine ⟨g1, by omega, ?_⟩
    by_cases k : (t : Int) < dl
    · omega
    · -- the next sleep is the last
      match ws, h5, e with
      | [], _, e => cases e
      | (u, w) :: ws, ⟨i1, i2, i3, i4, i5⟩, e =>
        have := i3 (by omega)
        subst this
        cases e
        omega

/-- C115 on POSIX, as far as it holds: a timed wait that fails has waited the time given, less than a microsecond excepted; and a timed wait returns at the latest a second after the time given has passed
(not at all later if the second does not change between the calls of `gettimeofday` and `time`), apart from the time that the system takes to wake a thread. `a`, `b`: when the clocks are
read; `s`: when the thread has got the mutex. Missing: the second (`c115_posix_false`). -/
theorem c115_posix_partial (a b s ms late : Nat) (hab : a ≤ b) (hb : b < a + 1000000000) (value : Bool) (ws : List (Nat × Wake))
    (hw : posixSleeps (deadlineNs a b ms) late s ws) (r : Bool) (t : Nat) (h : timedWait value s ws = some (r, t)) :
    (r = false → a + ms * 1000000 ≤ t + 999) ∧
    t ≤ max (b + ms * 1000000 + 1000000000) s + 2 * late ∧
    (a / 1000000000 = b / 1000000000 → t ≤ max (a + ms * 1000000) s + 2 * late) := by
  obtain ⟨d1, d2, d3⟩ := deadline_bounds a b ms hab hb
  unfold timedWait at h
  split at h
  · cases h
    refine ⟨by simp, by omega, fun _ => by omega⟩
  · obtain ⟨g1, g2, g3⟩ := posix_bounds _ late ws s hw r t h
    refine ⟨fun hr => ?_, ?_, fun he => ?_⟩
    · have := g1 hr; omega
    · omega
    · have := d3 he; omega

/-- C115 is false on POSIX: a wait of a millisecond can take almost a second more, though both clocks are read within a microsecond, the mutex is free and the system wakes threads at once. -/
theorem c115_posix_false : ∃ a b t ws, a ≤ b ∧ b ≤ a + 1000 ∧ posixSleeps (deadlineNs a b 1) 0 b ws ∧ timedWait false b ws = some (false, t) ∧ a + 1 * 1000000 + 999990000 < t := by
  refine ⟨5999999999, 6000000100, 7000999000, [(7000999000, .timeout)], by decide, by decide, ?_, rfl, by decide⟩
  rw [deadlineNs_eq]
  exact ⟨by decide, by decide, by decide, by decide, trivial⟩

theorem windows_bounds (ms late : Nat) : ∀ (ws : List (Nat × Wake)) (s : Nat), windowsSleeps ms late s ws → ∀ r t, waitLoop ws = some (r, t) →
    (r = false → s + ms * 1000000 ≤ t) ∧ s ≤ t ∧ t ≤ s + ws.length * (ms * 1000000 + late)
  | [], _, _, _, _, h => by cases h
  | (t, .timeout) :: ws, s, ⟨h1, h2, h3, h4⟩, r, t', e => by
    cases e
    refine ⟨fun _ => h2 rfl, h1, ?_⟩
    rw [List.length_cons, Nat.succ_mul]; omega
  | (t, .woken true) :: ws, s, ⟨h1, h2, h3, h4⟩, r, t', e => by
    cases e
    refine ⟨by simp, h1, ?_⟩
    rw [List.length_cons, Nat.succ_mul]; omega
  | (t, .woken false) :: ws, s, ⟨h1, h2, h3, h4⟩, r, t', e => by
    rw [waitLoop] at e
    obtain ⟨g1, g2, g3⟩ := windows_bounds ms late ws t h4 r t' e
    refine ⟨fun hr => ?_, by omega, ?_⟩
    · have := g1 hr; omega
    · rw [List.length_cons, Nat.succ_mul]; omega

/-- C115 on Windows, as far as it holds: a timed wait that fails has waited the time given, and returns after it if it is woken only once. Missing: a bound however often the thread is
woken (`c115_windows_false`). -/
theorem c115_windows_partial (s ms late : Nat) (value : Bool) (ws : List (Nat × Wake)) (hw : windowsSleeps ms late s ws) (r : Bool) (t : Nat)
    (h : timedWait value s ws = some (r, t)) :
    (r = false → s + ms * 1000000 ≤ t) ∧ (ws.length ≤ 1 → t ≤ s + ms * 1000000 + late) := by
  unfold timedWait at h
  split at h
  · cases h; exact ⟨by simp, fun _ => by omega⟩
  · obtain ⟨g1, g2, g3⟩ := windows_bounds ms late ws s hw r t h
    refine ⟨g1, fun hl => ?_⟩
    have := Nat.mul_le_mul_right (ms * 1000000 + late) hl
    omega

/-- The thread is woken for nothing `n` times, each time just before its timeout. -/
def restless (ms : Nat) : Nat → Nat → List (Nat × Wake)
  | 0, s => [(s + ms * 1000000, .timeout)]
  | n + 1, s => (s + ms * 1000000, .woken false) :: restless ms n (s + ms * 1000000)

theorem restless_ok (ms : Nat) : ∀ n s, windowsSleeps ms 0 s (restless ms n s) ∧ waitLoop (restless ms n s) = some (false, s + (n + 1) * (ms * 1000000))
  | 0, s => by simp [restless, windowsSleeps, waitLoop]
  | n + 1, s => by
    obtain ⟨h1, h2⟩ := restless_ok ms n (s + ms * 1000000)
    refine ⟨⟨by omega, by simp, by omega, h1⟩, ?_⟩
    rw [restless, waitLoop, h2, Nat.succ_mul (n + 1)]
    simp only [Option.some.injEq, Prod.mk.injEq, true_and]
    omega

/-- C115 is false on Windows: a wait with a timeout of a millisecond can take any time, even if the system wakes threads at once. -/
theorem c115_windows_false (bound : Nat) : ∃ ws t, windowsSleeps 1 0 0 ws ∧ timedWait false 0 ws = some (false, t) ∧ bound < t := by
  obtain ⟨h1, h2⟩ := restless_ok 1 bound 0
  exact ⟨_, _, h1, h2, by omega⟩

example : posixSleeps (deadlineNs 5999999999 6000000100 1) 10 6000000200 [(6000500000, .woken false), (7000999005, .timeout)] ∧
    timedWait false 6000000200 [(6000500000, .woken false), (7000999005, .timeout)] = some (false, 7000999005) := by
  rw [deadlineNs_eq]
  refine ⟨⟨by decide, by decide, by decide, by decide, by decide, by decide, by decide, by decide, trivial⟩, rfl⟩
example : windowsSleeps 1 0 0 [(1000000, .timeout)] := ⟨by decide, by decide, by decide, trivial⟩

/-! ### The event -/

/-- What holds of the event in every state. -/
structure EInv (s : Event) : Prop where
  paid : s.wins + (if s.set then 1 else 0) ≤ s.sets
  awake : s.set = true → ∀ i, s.pc i = .idle

theorem einv {s : Event} (h : EReach s) : EInv s := by
  induction h with
  | init => exact ⟨by simp [Event.init], fun h => by cases h⟩
  | step s s' _ hs ih =>
    obtain ⟨h1, h2⟩ := ih
    cases hs with
    | release i t hi =>
      refine ⟨?_, fun hset => ?_⟩
      · show s.wins + 1 + _ ≤ s.sets + 1
        simp only; omega
      · have := h2 hset i
        rw [hi] at this; cases this
    | set hn =>
      refine ⟨?_, fun _ => hn⟩
      have : s.wins ≤ s.sets := by omega
      simpa using this
    | take i hi hset =>
      rw [hset] at h1
      refine ⟨?_, fun h => by cases h⟩
      simpa using h1
    | wait i t hi hset =>
      refine ⟨h1, fun h => ?_⟩
      rw [show s.set = true from h] at hset; cases hset
    | timeout i hi =>
      refine ⟨h1, fun h j => ?_⟩
      have := h2 h i
      rw [hi] at this; cases this

/-- C62 for the event of old Windows: every successful wait is paid for by a raise of its own; a raised signal stays raised until a wait succeeds; while it is raised no
thread waits; and a thread that waits is released, or another one, by the next raise. -/
theorem c62_event {s : Event} (h : EReach s) :
    s.wins ≤ s.sets ∧
    (s.set = true → s.wins < s.sets ∧ ∀ i, s.pc i = .idle) ∧
    (∀ s', EStep s s' → s.set = true → s'.set = true ∨ s'.wins = s.wins + 1) ∧
    (∀ s', EStep s s' → s'.sets = s.sets + 1 → s'.set = true ∨ s'.wins = s.wins + 1) ∧
    (∀ s', EStep s s' → s'.wins ≠ s.wins → s.set = true ∨ s'.sets = s.sets + 1) := by
  obtain ⟨h1, h2⟩ := einv h
  refine ⟨by omega, fun hs => ⟨by rw [hs] at h1; simp at h1; omega, h2 hs⟩, ?_, ?_, ?_⟩
  · intro s' hs hset
    cases hs <;> first | exact .inl hset | exact .inl rfl | exact .inr rfl
  · intro s' hs hc
    cases hs <;> first | exact .inr rfl | exact .inl rfl | simp at hc
  · intro s' hs hc
    cases hs <;> first | exact .inr rfl | exact .inl ‹_› | exact absurd rfl hc

example : EReach ⟨true, fun _ => .idle, 1, 0⟩ := .step _ _ .init (.set _ fun _ => rfl)
example : ∃ s, EReach s ∧ s.pc 3 = .waiting true ∧ s.set = false :=
  ⟨_, .step _ _ .init (.wait _ 3 true rfl rfl), by simp, rfl⟩

end Nanostl.Signal

import Verif.Thread.Signal

/-!
Property C62: a signal that is raised lets one wait through, and is not lost.
-/

namespace Nanostl.Signal

/-- The thread holds the mutex. -/
def Pc.crit : Pc → Bool
  | .rSet | .rUnlock | .wTest _ | .wTimed | .wReset | .wUnlock _ => true
  | _ => false

/-- The thread will see that `value` is set, or wake one that will. -/
def Pc.alive : Pc → Bool
  | .rUnlock | .rSignal | .wWake _ | .wTest _ | .wReset => true
  | _ => false

structure Inv (s : Sig) : Prop where
  own : ∀ i, (s.pc i).crit = true ↔ s.owner = some i
  reset : ∀ i, s.pc i = .wReset → s.value = true
  count : s.wins + (if s.value then 1 else 0) ≤ s.sets
  wake : s.value = true → (∃ i, (s.pc i).asleep = true) → ∃ i, (s.pc i).alive = true

theorem inv_init : Inv init :=
  ⟨fun i => by simp [init, Pc.crit], fun i h => by simp [init] at h, by simp [init], fun h => by simp [init] at h⟩

/-- A thread moves without touching mutex, value, or sleeping, and does not stop being alive. -/
theorem inv_goto {s : Sig} (h : Inv s) {i : Nat} {p : Pc} (hc : p.crit = (s.pc i).crit) (hr : p = .wReset → s.value = true)
    (hs : p.asleep = true → (s.pc i).asleep = true) (ha : (s.pc i).alive = true → p.alive = true) : Inv (s.goto i p) := by
  obtain ⟨h1, h2, h3, h4⟩ := h
  refine ⟨fun j => ?_, fun j => ?_, h3, fun hv => ?_⟩
  · by_cases hj : j = i
    · subst hj; simp only [Sig.goto, Function.update_self]; rw [hc]; exact h1 j
    · simp only [Sig.goto, Function.update_of_ne hj]; exact h1 j
  · by_cases hj : j = i
    · subst hj; simp only [Sig.goto, Function.update_self]; exact hr
    · simp only [Sig.goto, Function.update_of_ne hj]; exact h2 j
  · rintro ⟨j, hj⟩
    have : ∃ j, (s.pc j).asleep = true := by
      by_cases e : j = i
      · subst e; simp only [Sig.goto, Function.update_self] at hj; exact ⟨j, hs hj⟩
      · simp only [Sig.goto, Function.update_of_ne e] at hj; exact ⟨j, hj⟩
    obtain ⟨k, hk⟩ := h4 hv this
    by_cases e : k = i
    · subst e; exact ⟨k, by simp only [Sig.goto, Function.update_self]; exact ha hk⟩
    · exact ⟨k, by simp only [Sig.goto, Function.update_of_ne e]; exact hk⟩

/-- A thread takes the mutex. -/
theorem inv_lock {s : Sig} (h : Inv s) {i : Nat} {p : Pc} (ho : s.owner = none) (hc : p.crit = true) (hr : p ≠ .wReset)
    (hs : p.asleep = false) (ha : (s.pc i).alive = true → p.alive = true) : Inv { s.goto i p with owner := some i } := by
  obtain ⟨h1, h2, h3, h4⟩ := h
  refine ⟨fun j => ?_, fun j => ?_, h3, fun hv => ?_⟩
  · by_cases hj : j = i
    · subst hj; simp only [Sig.goto, Function.update_self]; simp [hc]
    · simp only [Sig.goto, Function.update_of_ne hj]; rw [h1 j, ho]
      exact ⟨fun h => absurd h (by simp), fun h => absurd (Option.some.inj h).symm hj⟩
  · by_cases hj : j = i
    · subst hj; simp only [Sig.goto, Function.update_self]; exact fun h => absurd h hr
    · simp only [Sig.goto, Function.update_of_ne hj]; exact h2 j
  · rintro ⟨j, hj⟩
    have : ∃ j, (s.pc j).asleep = true := by
      by_cases e : j = i
      · subst e; simp only [Sig.goto, Function.update_self] at hj; rw [hs] at hj; exact absurd hj (by simp)
      · simp only [Sig.goto, Function.update_of_ne e] at hj; exact ⟨j, hj⟩
    obtain ⟨k, hk⟩ := h4 hv this
    by_cases e : k = i
    · subst e; exact ⟨k, by simp only [Sig.goto, Function.update_self]; exact ha hk⟩
    · exact ⟨k, by simp only [Sig.goto, Function.update_of_ne e]; exact hk⟩

/-- A thread that holds the mutex gives it back. -/
theorem inv_unlock {s : Sig} (h : Inv s) {i : Nat} {p : Pc} (ho : (s.pc i).crit = true) (hc : p.crit = false)
    (hs : p.asleep = true → s.value = false) (ha : s.value = true → (s.pc i).alive = true → p.alive = true) : Inv { s.goto i p with owner := none } := by
  obtain ⟨h1, h2, h3, h4⟩ := h
  have ho := (h1 i).1 ho
  refine ⟨fun j => ?_, fun j => ?_, h3, fun hv => ?_⟩
  · by_cases hj : j = i
    · subst hj; simp only [Sig.goto, Function.update_self]; simp [hc]
    · simp only [Sig.goto, Function.update_of_ne hj]; rw [h1 j, ho]
      exact ⟨fun h => absurd (Option.some.inj h).symm hj, fun h => absurd h (by simp)⟩
  · by_cases hj : j = i
    · subst hj; simp only [Sig.goto, Function.update_self]; intro h; rw [h] at hc; exact absurd hc (by simp [Pc.crit])
    · simp only [Sig.goto, Function.update_of_ne hj]; exact h2 j
  · rintro ⟨j, hj⟩
    have : ∃ j, (s.pc j).asleep = true := by
      by_cases e : j = i
      · subst e; simp only [Sig.goto, Function.update_self] at hj
        have : s.value = true := hv
        rw [hs hj] at this; exact absurd this (by simp)
      · simp only [Sig.goto, Function.update_of_ne e] at hj; exact ⟨j, hj⟩
    obtain ⟨k, hk⟩ := h4 hv this
    by_cases e : k = i
    · subst e; exact ⟨k, by simp only [Sig.goto, Function.update_self]; exact ha hv hk⟩
    · exact ⟨k, by simp only [Sig.goto, Function.update_of_ne e]; exact hk⟩

theorem inv_inner {s s' : Sig} (h : Inv s) (st : Inner s s') : Inv s' := by
  cases st with
  | rLock i hp ho => exact inv_lock h ho rfl (by simp) rfl (by rw [hp]; simp [Pc.alive])
  | rSet i hp =>
    obtain ⟨h1, h2, h3, h4⟩ := h
    refine ⟨fun j => ?_, fun j _ => rfl, ?_, fun _ _ => ⟨i, by simp [Sig.goto, Pc.alive]⟩⟩
    · by_cases hj : j = i
      · subst hj; simp only [Sig.goto, Function.update_self]; rw [← h1 j, hp]; rfl
      · simp only [Sig.goto, Function.update_of_ne hj]; exact h1 j
    · simp only [Sig.goto, if_true]; omega
  | rUnlock i hp => exact inv_unlock h (by rw [hp]; rfl) rfl (by simp [Pc.asleep]) (fun _ _ => rfl)
  | rSignal i j t hp hj =>
    have hne : j ≠ i := fun e => by subst e; rw [hp] at hj; exact absurd hj (by simp)
    obtain ⟨h1, h2, h3, h4⟩ := h
    refine ⟨fun k => ?_, fun k => ?_, h3, fun _ _ => ⟨j, by simp [Sig.goto, Pc.alive]⟩⟩
    · by_cases e : k = j
      · subst e; simp only [Sig.goto, Function.update_self]; rw [← h1 k, hj]; rfl
      · by_cases e' : k = i
        · subst e'; simp only [Sig.goto, Function.update_of_ne e, Function.update_self]; rw [← h1 k, hp]; rfl
        · simp only [Sig.goto, Function.update_of_ne e, Function.update_of_ne e']; exact h1 k
    · by_cases e : k = j
      · subst e; simp [Sig.goto, Function.update_self]
      · by_cases e' : k = i
        · subst e'; simp [Sig.goto, Function.update_of_ne e, Function.update_self]
        · simp only [Sig.goto, Function.update_of_ne e, Function.update_of_ne e']; exact h2 k
  | rNobody i hp hn =>
    obtain ⟨h1, h2, h3, h4⟩ := h
    refine ⟨fun k => ?_, fun k => ?_, h3, fun _ hs => ?_⟩
    · by_cases e : k = i
      · subst e; simp only [Sig.goto, Function.update_self]; rw [← h1 k, hp]; rfl
      · simp only [Sig.goto, Function.update_of_ne e]; exact h1 k
    · by_cases e : k = i
      · subst e; simp [Sig.goto, Function.update_self]
      · simp only [Sig.goto, Function.update_of_ne e]; exact h2 k
    · obtain ⟨k, hk⟩ := hs
      by_cases e : k = i
      · subst e; simp [Sig.goto, Function.update_self, Pc.asleep] at hk
      · simp only [Sig.goto, Function.update_of_ne e] at hk; rw [hn k] at hk; exact absurd hk (by simp)
  | wLock i t hp ho => exact inv_lock h ho rfl (by simp) rfl (fun _ => rfl)
  | wSleep i t hp hv => exact inv_unlock h (by rw [hp]; rfl) rfl (fun _ => hv) (fun h' => by rw [hv] at h'; exact absurd h' (by simp))
  | wFound i t hp hv => exact inv_goto h (by rw [hp]; rfl) (fun _ => hv) (by simp [Pc.asleep]) (fun _ => rfl)
  | wWake i t hp ho => exact inv_lock h ho rfl (by simp) rfl (fun _ => rfl)
  | wTimeout i hp ho => exact inv_lock h ho rfl (by simp) rfl (by rw [hp]; simp [Pc.alive])
  | wTimed i hp => exact inv_goto h (by rw [hp]; rfl) (by simp) (by simp [Pc.asleep]) (by rw [hp]; simp [Pc.alive])
  | wReset i hp =>
    obtain ⟨h1, h2, h3, h4⟩ := h
    have hv := h2 i hp
    rw [hv] at h3
    refine ⟨fun j => ?_, fun j hj => ?_, by simpa [Sig.goto] using h3, fun h => absurd h (by simp)⟩
    · by_cases e : j = i
      · subst e; simp only [Sig.goto, Function.update_self]; rw [← h1 j, hp]; rfl
      · simp only [Sig.goto, Function.update_of_ne e]; exact h1 j
    · by_cases e : j = i
      · subst e; simp [Sig.goto, Function.update_self] at hj
      · simp only [Sig.goto, Function.update_of_ne e] at hj
        have a := (h1 i).1 (by rw [hp]; rfl)
        have b := (h1 j).1 (by rw [hj]; rfl)
        exact absurd (Option.some.inj (b.symm.trans a)) e
  | wUnlock i ok hp => exact inv_unlock h (by rw [hp]; rfl) rfl (by simp [Pc.asleep]) (by rw [hp]; simp [Pc.alive])

theorem inv_step {s s' : Sig} (h : Inv s) (st : Step s s') : Inv s' := by
  cases st with
  | inner _ h' => exact inv_inner h h'
  | raise i hp => exact inv_goto h (by rw [hp]; rfl) (by simp) (by simp [Pc.asleep]) (by rw [hp]; simp [Pc.alive])
  | wait i t hp => exact inv_goto h (by rw [hp]; rfl) (by simp) (by simp [Pc.asleep]) (by rw [hp]; simp [Pc.alive])
  | timeout i hp => exact inv_goto h (by rw [hp]; rfl) (by simp) (by simp [Pc.asleep]) (by rw [hp]; simp [Pc.alive])
  | spurious i t hp => exact inv_goto h (by rw [hp]; rfl) (by simp) (by simp [Pc.asleep]) (fun _ => rfl)

theorem inv_reach {s : Sig} (h : Reach s) : Inv s := by
  induction h with
  | init => exact inv_init
  | step s s' _ st ih => exact inv_step ih st

/-- C62: however any number of threads raise and wait, each successful wait is paid for by a raise of its own. -/
theorem c62_wait_needs_raise (s : Sig) (h : Reach s) : s.wins ≤ s.sets := by
  have := (inv_reach h).count
  omega

/-- C62: a raise after which nothing has been let through leaves the signal set, or put differently the signal is only unset at first and after a
successful wait. -/
theorem c62_raise_stays (s s' : Sig) (h : Reach s) (st : Step s s') (hv : s.value = true) : s'.value = true ∨ s'.wins = s.wins + 1 := by
  cases st with
  | inner _ h' => cases h' <;> simp_all [Sig.goto]
  | _ => exact .inl hv

/-- C62: no wake-up is lost. While the signal is set and a thread waits for it on the condition variable, there is always a thread inside a call, not
waiting, that can take a step. -/
theorem c62_no_lost_wakeup (s : Sig) (h : Reach s) (hv : s.value = true) (hw : ∃ i, (s.pc i).asleep = true) :
    ∃ s', Inner s s' := by
  obtain ⟨h1, h2, h3, h4⟩ := inv_reach h
  obtain ⟨i, hi⟩ := h4 hv hw
  cases ho : s.owner with
  | some k =>
    have hk := (h1 k).2 ho
    cases hp : s.pc k with
    | rSet => exact ⟨_, .rSet s k hp⟩
    | rUnlock => exact ⟨_, .rUnlock s k hp⟩
    | wTest t => exact ⟨_, .wFound s k t hp hv⟩
    | wTimed => exact ⟨_, .wTimed s k hp⟩
    | wReset => exact ⟨_, .wReset s k hp⟩
    | wUnlock ok => exact ⟨_, .wUnlock s k ok hp⟩
    | _ => rw [hp] at hk; exact absurd hk (by simp [Pc.crit])
  | none =>
    have hn : (s.pc i).crit = false := by
      cases hc : (s.pc i).crit with
      | false => rfl
      | true => rw [(h1 i).1 hc] at ho; exact absurd ho (by simp)
    cases hp : s.pc i with
    | rSignal =>
      obtain ⟨j, hj⟩ := hw
      cases hq : s.pc j with
      | wSleep t => exact ⟨_, .rSignal s i j t hp hq⟩
      | _ => rw [hq] at hj; exact absurd hj (by simp [Pc.asleep])
    | wWake t => exact ⟨_, .wWake s i t hp ho⟩
    | rUnlock => rw [hp] at hn; exact absurd hn (by simp [Pc.crit])
    | wTest t => rw [hp] at hn; exact absurd hn (by simp [Pc.crit])
    | wReset => rw [hp] at hn; exact absurd hn (by simp [Pc.crit])
    | _ => rw [hp] at hi; exact absurd hi (by simp [Pc.alive])

/-- C62: when all calls of raise have returned and the signal is set, the waiting threads are not all asleep. -/
theorem c62_not_all_asleep (s : Sig) (h : Reach s) (hv : s.value = true) : ¬((∃ i, (s.pc i).asleep = true) ∧ ∀ i, s.pc i = .idle ∨ (s.pc i).asleep = true) := by
  rintro ⟨hw, ha⟩
  obtain ⟨i, hi⟩ := (inv_reach h).wake hv hw
  rcases ha i with h' | h'
  · rw [h'] at hi; exact absurd hi (by simp [Pc.alive])
  · cases hp : s.pc i with
    | wSleep t => rw [hp] at hi; exact absurd hi (by simp [Pc.alive])
    | _ => rw [hp] at h'; exact absurd h' (by simp [Pc.asleep])

/-- At most one thread accesses `value` at a time. -/
theorem c62_no_race (s : Sig) (h : Reach s) (i j : Nat) (hi : (s.pc i).crit = true) (hj : (s.pc j).crit = true) : i = j :=
  Option.some.inj ((((inv_reach h).own i).1 hi).symm.trans (((inv_reach h).own j).1 hj))

/-- The deadline of a timed wait is `timeout_ms` after the time given by `time` and `gettimeofday` together, and well-formed. (The two calls are not
made at the same moment: if a second begins in between, the deadline is a second early or late.) -/
theorem c62_deadline (time usec timeoutMs : Int) (ht : 0 ≤ timeoutMs) (hu : 0 ≤ usec) (hu' : usec < 1000000) :
    (deadline time usec timeoutMs).1 * 1000000000 + (deadline time usec timeoutMs).2 = time * 1000000000 + usec * 1000 + timeoutMs * 1000000 ∧
    0 ≤ (deadline time usec timeoutMs).2 ∧ (deadline time usec timeoutMs).2 < 1000000000 := by
  simp only [deadline]
  have h0 : 0 ≤ timeoutMs % 1000 := by omega
  rw [Int.tdiv_eq_ediv_of_nonneg ht, Int.tmod_eq_emod_of_nonneg ht, Int.tdiv_eq_ediv_of_nonneg (by omega), Int.tmod_eq_emod_of_nonneg (by omega)]
  omega

/-! ### The hypotheses can be met -/

/-- Thread 1 waits and falls asleep, and thread 0 raises. -/
theorem reach_example : ∃ s, Reach s ∧ s.value = true ∧ (s.pc 1).asleep = true ∧ s.pc 0 = .rSignal := by
  have r0 := Reach.init
  have r1 := Reach.step _ _ r0 (.wait _ 1 false rfl)
  have r2 := Reach.step _ _ r1 (.inner _ _ (.wLock _ 1 false rfl rfl))
  have r3 := Reach.step _ _ r2 (.inner _ _ (.wSleep _ 1 false rfl rfl))
  have r4 := Reach.step _ _ r3 (.raise _ 0 rfl)
  have r5 := Reach.step _ _ r4 (.inner _ _ (.rLock _ 0 rfl rfl))
  have r6 := Reach.step _ _ r5 (.inner _ _ (.rSet _ 0 rfl))
  have r7 := Reach.step _ _ r6 (.inner _ _ (.rUnlock _ 0 rfl))
  exact ⟨_, r7, rfl, rfl, rfl⟩

/-- A wait succeeds. -/
theorem wins_example : ∃ s, Reach s ∧ s.wins = 1 := by
  have r0 := Reach.init
  have r4 := Reach.step _ _ r0 (.raise _ 0 rfl)
  have r5 := Reach.step _ _ r4 (.inner _ _ (.rLock _ 0 rfl rfl))
  have r6 := Reach.step _ _ r5 (.inner _ _ (.rSet _ 0 rfl))
  have r7 := Reach.step _ _ r6 (.inner _ _ (.rUnlock _ 0 rfl))
  have r8 := Reach.step _ _ r7 (.wait _ 1 false rfl)
  have r9 := Reach.step _ _ r8 (.inner _ _ (.wLock _ 1 false rfl rfl))
  have r10 := Reach.step _ _ r9 (.inner _ _ (.wFound _ 1 false rfl rfl))
  have r11 := Reach.step _ _ r10 (.inner _ _ (.wReset _ 1 rfl))
  exact ⟨_, r11, rfl⟩

example : ∃ s s', Reach s ∧ Inner s s' := by
  obtain ⟨s, h, hv, hw, _⟩ := reach_example
  obtain ⟨s', h'⟩ := c62_no_lost_wakeup s h hv ⟨1, hw⟩
  exact ⟨s, s', h, h'⟩
example := c62_deadline 100 999999 1500 (by decide) (by decide) (by decide)

end Nanostl.Signal

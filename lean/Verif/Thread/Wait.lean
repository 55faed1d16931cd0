import Verif.Thread.Signal

/-!
Timed waits on a signal (src/libs_thread.h:958-1013) with the times at which things happen, and the signal of Windows before version 0x0600, an event (852-990).
Times are in nanoseconds on the system's clock.
-/

namespace Nanostl.Signal

/-- How a sleep on the condition variable ends: by a signal or for no reason, after which `value` is as given; or by its timeout. -/
inductive Wake
  | woken (value : Bool)
  | timeout
  deriving DecidableEq

/-- The loop of `thread_signal_wait` (libs_thread.h:965-974, 993-1008): `ws` are the ends of its sleeps and their times. The result, and when; `none`: it still sleeps. -/
def waitLoop : List (Nat × Wake) → Option (Bool × Nat)
  | [] => none
  | (t, .timeout) :: _ => some (false, t)
  | (t, .woken true) :: _ => some (true, t)
  | (_, .woken false) :: ws => waitLoop ws

/-- `thread_signal_wait` from the moment it has the mutex, `t`. -/
def timedWait (value : Bool) (t : Nat) (ws : List (Nat × Wake)) : Option (Bool × Nat) := if value then some (true, t) else waitLoop ws

/-- The deadline on POSIX, in nanoseconds (libs_thread.h:985-990): `gettimeofday` called at `a`, `time` at `b`. -/
def deadlineNs (a b ms : Nat) : Int :=
  let d := deadline (b / 1000000000 : Nat) (a % 1000000000 / 1000 : Nat) ms
  d.1 * 1000000000 + d.2

/-- What `pthread_cond_timedwait` does with a deadline: a sleep begun at `s` ends later, by its timeout not before the deadline, and in any case at most `late` after the
deadline, or after `s`, if that is later; then it is the timeout. -/
def posixSleeps (dl : Int) (late : Nat) : Nat → List (Nat × Wake) → Prop
  | _, [] => True
  | s, (t, w) :: ws => s ≤ t ∧ (w = .timeout → dl ≤ t) ∧ (dl ≤ s → w = .timeout) ∧ (t : Int) ≤ max dl s + late ∧ posixSleeps dl late t ws

/-- What `SleepConditionVariableCS` does, which is given the same time whenever it is called (libs_thread.h:969): a sleep begun at `s` ends by its timeout after `ms`
milliseconds, and in any case at most `late` after that. -/
def windowsSleeps (ms late : Nat) : Nat → List (Nat × Wake) → Prop
  | _, [] => True
  | s, (t, w) :: ws => s ≤ t ∧ (w = .timeout → s + ms * 1000000 ≤ t) ∧ t ≤ s + ms * 1000000 + late ∧ windowsSleeps ms late t ws

/-! ### The event of old Windows -/

/-- What a thread does: it waits (`timed`: not forever), or something else. -/
inductive EPc
  | idle
  | waiting (timed : Bool)
  deriving DecidableEq

/-- An event that resets itself, the threads, and a history: how often it was raised, how many waits have succeeded. -/
structure Event where
  set : Bool
  pc : Nat → EPc
  sets : Nat
  wins : Nat

/-- `thread_signal_init`: `CreateEvent( NULL, FALSE, FALSE, NULL )` (libs_thread.h:892). -/
def Event.init : Event := ⟨false, fun _ => .idle, 0, 0⟩

/-- The calls: `SetEvent` (libs_thread.h:942) releases one of the waiting threads, if there is one, and else leaves the event set; `WaitForSingleObject` (976-977) resets it if it is
set and else waits. -/
inductive EStep : Event → Event → Prop
  | release (s i t) : s.pc i = .waiting t → EStep s { s with pc := Function.update s.pc i .idle, sets := s.sets + 1, wins := s.wins + 1 }
  | set (s) : (∀ i, s.pc i = .idle) → EStep s { s with set := true, sets := s.sets + 1 }
  | take (s i) : s.pc i = .idle → s.set = true → EStep s { s with set := false, wins := s.wins + 1 }
  | wait (s i t) : s.pc i = .idle → s.set = false → EStep s { s with pc := Function.update s.pc i (.waiting t) }
  | timeout (s i) : s.pc i = .waiting true → EStep s { s with pc := Function.update s.pc i .idle }

/-- The states that can be reached. -/
inductive EReach : Event → Prop
  | init : EReach Event.init
  | step (s s') : EReach s → EStep s s' → EReach s'

end Nanostl.Signal

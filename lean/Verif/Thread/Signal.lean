import Mathlib.Logic.Function.Basic
import Mathlib.Tactic.Common

/-!
Model of the signals of src/libs_thread.h (851-1013; the version with a mutex and a condition variable, which is POSIX and Windows from version 0x0600)
for any number of threads. A step is one call of a mutex or condition variable function or one access to `value`. A condition variable is as POSIX
says: a waiting thread can be woken by a signal, by its timeout, or for no reason; a signal wakes a waiting thread if there is one.
-/

namespace Nanostl.Signal

/-- Where a thread is in `thread_signal_raise` (`r…`) or `thread_signal_wait` (`w…`; `timed` is `timeout_ms >= 0`). -/
inductive Pc
  | idle
  | rLock
  | rSet
  | rUnlock
  | rSignal
  | wLock (timed : Bool)
  | wTest (timed : Bool)
  | wSleep (timed : Bool)
  | wWake (timed : Bool)
  | wTimeout
  | wTimed
  | wReset
  | wUnlock (ok : Bool)
deriving DecidableEq

/-- The signal (`thread_internal_signal_t`, libs_thread.h:851-872), the threads, and a history: how often `value` has been set by raise, and how many calls
of wait have succeeded. -/
structure Sig where
  value : Bool
  owner : Option Nat
  pc : Nat → Pc
  sets : Nat
  wins : Nat

/-- Thread `i` goes on to `p`. -/
def Sig.goto (s : Sig) (i : Nat) (p : Pc) : Sig := { s with pc := Function.update s.pc i p }

/-- The thread waits on the condition variable. -/
def Pc.asleep : Pc → Bool
  | .wSleep _ => true
  | _ => false

/-- A step of a thread inside a call, other than being woken. -/
inductive Inner : Sig → Sig → Prop
  /-- raise (libs_thread.h:930-955): lock, set, unlock, signal. -/
  | rLock (s i) : s.pc i = .rLock → s.owner = none → Inner s { s.goto i .rSet with owner := some i }
  | rSet (s i) : s.pc i = .rSet → Inner s { s.goto i .rUnlock with value := true, sets := s.sets + 1 }
  | rUnlock (s i) : s.pc i = .rUnlock → Inner s { s.goto i .rSignal with owner := none }
  | rSignal (s i j t) : s.pc i = .rSignal → s.pc j = .wSleep t → Inner s ((s.goto i .idle).goto j (.wWake t))
  | rNobody (s i) : s.pc i = .rSignal → (∀ j, (s.pc j).asleep = false) → Inner s (s.goto i .idle)
  /-- wait (libs_thread.h:958-1013): lock, loop until `value` is set, reset it, unlock. -/
  | wLock (s i t) : s.pc i = .wLock t → s.owner = none → Inner s { s.goto i (.wTest t) with owner := some i }
  | wSleep (s i t) : s.pc i = .wTest t → s.value = false → Inner s { s.goto i (.wSleep t) with owner := none }
  | wFound (s i t) : s.pc i = .wTest t → s.value = true → Inner s (s.goto i .wReset)
  | wWake (s i t) : s.pc i = .wWake t → s.owner = none → Inner s { s.goto i (.wTest t) with owner := some i }
  | wTimeout (s i) : s.pc i = .wTimeout → s.owner = none → Inner s { s.goto i .wTimed with owner := some i }
  | wTimed (s i) : s.pc i = .wTimed → Inner s (s.goto i (.wUnlock false))
  | wReset (s i) : s.pc i = .wReset → Inner s { s.goto i (.wUnlock true) with value := false, wins := s.wins + 1 }
  | wUnlock (s i ok) : s.pc i = .wUnlock ok → Inner s { s.goto i .idle with owner := none }

/-- Any step: also the calls, timeouts, and waking for no reason. -/
inductive Step : Sig → Sig → Prop
  | inner (s s') : Inner s s' → Step s s'
  | raise (s i) : s.pc i = .idle → Step s (s.goto i .rLock)
  | wait (s i t) : s.pc i = .idle → Step s (s.goto i (.wLock t))
  | timeout (s i) : s.pc i = .wSleep true → Step s (s.goto i .wTimeout)
  | spurious (s i t) : s.pc i = .wSleep t → Step s (s.goto i (.wWake t))

/-- `thread_signal_init` (libs_thread.h:875-904). -/
def init : Sig := ⟨false, none, fun _ => .idle, 0, 0⟩

/-- The states that can be reached. -/
inductive Reach : Sig → Prop
  | init : Reach init
  | step (s s') : Reach s → Step s s' → Reach s'

/-- The deadline of a timed wait (libs_thread.h:985-990): seconds and nanoseconds, from the results of `time` and `gettimeofday`. -/
def deadline (time usec timeoutMs : Int) : Int × Int :=
  let sec := time + timeoutMs.tdiv 1000
  let nsec := usec * 1000 + 1000 * 1000 * timeoutMs.tmod 1000
  (sec + nsec.tdiv (1000 * 1000 * 1000), nsec.tmod (1000 * 1000 * 1000))

end Nanostl.Signal

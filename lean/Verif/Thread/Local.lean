import Mathlib.Tactic.Common

/-!
Model of the timers and of thread local storage of src/libs_thread.h (1225-1367). The system calls are what POSIX and Windows say of them; what they leave
open (which key is handed out, when a sleep is interrupted) is a parameter.
-/

namespace Nanostl.Thread

/-- `struct timespec`. -/
structure Timespec where
  sec : Int
  nsec : Int

/-- The time in nanoseconds. -/
def Timespec.ns (t : Timespec) : Int := t.sec * 1000000000 + t.nsec

/-- What `nanosleep` accepts; for anything else it gives `EINVAL` at once. -/
def Timespec.valid (t : Timespec) : Bool := decide (0 ≤ t.sec) && decide (0 ≤ t.nsec) && decide (t.nsec < 1000000000)

/-- Conversion to a signed integer of `w` bits. -/
def toSigned (w : Nat) (x : Int) : Int := (x + 2 ^ (w - 1)) % 2 ^ w - 2 ^ (w - 1)

/-- The two assignments to `req` (libs_thread.h:1285-1286); `time_t` and `long` have `w` bits, the difference is one of `unsigned long long`. -/
def reqOf (w ns : Nat) : Timespec :=
  let sec := toSigned w (ns / 1000000000 : Nat)
  ⟨sec, toSigned w ((ns - sec * 1000000000) % 2 ^ 64)⟩

/-- An interrupted sleep: the time that had passed, and `rem`. -/
structure Interrupt where
  slept : Nat
  rem : Timespec

/-- The loop `while( nanosleep( &req, &rem ) ) req = rem;` (libs_thread.h:1287-1288): `is` are the interruptions to come, `over` by how much the last sleep
is longer than asked for. The result is the time that has passed; `none`: `nanosleep` refuses `req`, and `rem`, which has no value, is read. -/
def sleepLoop (over : Nat) : List Interrupt → Timespec → Option Int
  | is, req => if req.valid then match is with
      | [] => some (req.ns + over)
      | i :: is => do
        let r ← sleepLoop over is i.rem
        pure (i.slept + r)
    else none

/-- `thread_timer_wait` on POSIX (libs_thread.h:1283-1288). -/
def timerWaitPosix (w : Nat) (is : List Interrupt) (over ns : Nat) : Option Int := sleepLoop over is (reqOf w ns)

/-- `due_time` on Windows (libs_thread.h:1275-1276), in units of 100 ns; negative: relative to now. -/
def dueTime (ns : Nat) : Int := -toSigned 64 (ns / 100 : Nat)

/-- `SetWaitableTimer` and `WaitForSingleObject`: the time that passes. `now`: the time since 1601, in units of 100 ns. -/
def waitTimer (now due : Int) (over : Nat) : Int := if due < 0 then -due * 100 + over else (if due > now then (due - now) * 100 else 0) + over

/-- `thread_timer_wait` on Windows (libs_thread.h:1275-1279). -/
def timerWaitWindows (now : Int) (over ns : Nat) : Int := waitTimer now (dueTime ns) over

/-- What a key (an index of `TlsAlloc`) has: whether it is in use, and the value of every thread. -/
structure Tls where
  live : Nat → Bool
  val : Nat → Nat → Nat

/-- At the start of the program: no key is in use by it. -/
def Tls.start : Tls := ⟨fun _ => false, fun _ _ => 0⟩

/-- `thread_tls_create` (libs_thread.h:1296-1317): `got` is the key the system hands out, not one in use, `none` if there are no more. The result is the
`void*`. The values of a new key are null in every thread. -/
def tlsCreate (s : Tls) (got : Option Nat) : Nat × Tls :=
  match got with
  | some k => (k, ⟨fun j => if j = k then true else s.live j, fun t j => if j = k then 0 else s.val t j⟩)
  | none => (0, s)

/-- The conversion of a `thread_tls_t` to a key, `(pthread_key_t) (uintptr_t) tls` or `(DWORD) (uintptr_t) tls`. -/
def keyOf (tls : Nat) : Nat := tls % 2 ^ 32

/-- `thread_tls_destroy` (libs_thread.h:1320-1333). `none`: undefined behaviour. -/
def tlsDestroy (s : Tls) (tls : Nat) : Option Tls :=
  if s.live (keyOf tls) then some { s with live := fun j => if j = keyOf tls then false else s.live j } else none

/-- `thread_tls_set` (libs_thread.h:1336-1349) in thread `t`. -/
def tlsSet (s : Tls) (t tls value : Nat) : Option Tls :=
  if s.live (keyOf tls) then some { s with val := fun u j => if u = t ∧ j = keyOf tls then value else s.val u j } else none

/-- `thread_tls_get` (libs_thread.h:1352-1365). -/
def tlsGet (s : Tls) (t tls : Nat) : Option Nat := if s.live (keyOf tls) then some (s.val t (keyOf tls)) else none

/-- A call. `create`: with the system's answer. -/
inductive TlsOp
  | create (got : Option Nat)
  | destroy (tls : Nat)
  | set (thread tls value : Nat)
  | get (thread tls : Nat)

/-- The system hands out a key of 32 bits that is not in use. -/
def TlsOp.ok (s : Tls) : TlsOp → Prop
  | .create (some k) => k < 2 ^ 32 ∧ s.live k = false
  | _ => True

/-- One call: the state after it, and what it returns (0 for `void`). -/
def tlsStep (s : Tls) : TlsOp → Option (Tls × Nat)
  | .create got => some ((tlsCreate s got).2, (tlsCreate s got).1)
  | .destroy tls => (tlsDestroy s tls).map fun s => (s, 0)
  | .set t tls v => (tlsSet s t tls v).map fun s => (s, 0)
  | .get t tls => (tlsGet s t tls).map fun v => (s, v)

/-- A history of calls by any threads, in the order in which they take effect; `none` for undefined behaviour. -/
def tlsRun : Tls → List TlsOp → Option (Tls × List Nat)
  | s, [] => some (s, [])
  | s, o :: os => do
    let (s, r) ← tlsStep s o
    let (s, rs) ← tlsRun s os
    pure (s, r :: rs)

/-- The system hands out keys properly throughout the history. -/
def tlsOk : Tls → List TlsOp → Prop
  | _, [] => True
  | s, o :: os => o.ok s ∧ ∀ s' r, tlsStep s o = some (s', r) → tlsOk s' os

end Nanostl.Thread

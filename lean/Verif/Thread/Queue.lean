import Mathlib.Tactic.Common

/-!
Model of the single-producer/single-consumer queue of src/libs_thread.h (1368-1434), with the atomic integers (1016-1144) and signals (875-1013)
it is built from.

One step of a schedule is one atomic operation or one access to the array of values, so that all interleavings of the two threads are schedules.
The `__sync` builtins and `Interlocked` functions are full barriers, so steps are sequentially consistent; accesses to the array that are not ordered by
them would be data races, and `Race` says when there is one. Counters are unbounded integers, cut to `int` where the code does (`long` is at least as
wide as `int`, so cutting after wrapping is the same). A wait on a signal is one step: it is possible when the signal is set, and resets it
(Signal.lean models the mutex and the condition variable). The `#ifndef NDEBUG` checks that there is one producer and one consumer are not modelled:
the model has exactly one of each.
-/

namespace Nanostl.Thread

/-- Platform: `_WIN32`, or Linux, macOS, Android. -/
inductive Plat | win | posix
deriving DecidableEq

/-! ### Atomic integers -/

/-- Conversion to a 32-bit `int`. -/
def i32 (x : Int) : Int := (x + 2 ^ 31) % 2 ^ 32 - 2 ^ 31

/-- `__sync_lock_test_and_set`: old value, new contents (language extension of the compiler). -/
def testAndSet (_cell desired : Int) : Int := desired
/-- `__sync_lock_release`: writes 0. -/
def lockRelease (_cell : Int) : Int := 0

/-- `thread_atomic_int_load` (libs_thread.h:1016-1029). -/
def load (cell : Int) : Int := i32 cell

/-- `thread_atomic_int_store` (libs_thread.h:1032-1046), the contents afterwards. -/
def store (pl : Plat) (cell desired : Int) : Int :=
  match pl with
  | .win => desired
  | .posix => lockRelease (testAndSet cell desired)

/-- `thread_atomic_int_inc` (libs_thread.h:1049-1062): returned value and contents. -/
def inc (cell : Int) : Int × Int := (i32 cell, cell + 1)
/-- `thread_atomic_int_dec` (libs_thread.h:1065-1078). -/
def dec (cell : Int) : Int × Int := (i32 cell, cell - 1)
/-- `thread_atomic_int_add` (libs_thread.h:1081-1094). -/
def add (cell v : Int) : Int × Int := (i32 cell, cell + v)
/-- `thread_atomic_int_sub` (libs_thread.h:1097-1110). -/
def sub (cell v : Int) : Int × Int := (i32 cell, cell - v)

/-- `thread_atomic_int_swap` (libs_thread.h:1113-1128): returned value and contents. -/
def swap (pl : Plat) (cell desired : Int) : Int × Int :=
  match pl with
  | .win => (i32 cell, desired)
  | .posix => (i32 cell, lockRelease (testAndSet cell desired))

/-- `thread_atomic_int_compare_and_swap` (libs_thread.h:1131-1144): returned value and contents. A `long` has 32 bits on Windows and (simplified to
an unbounded number) 64 elsewhere. -/
def cas (pl : Plat) (cell expected desired : Int) : Int × Int :=
  match pl with
  | .win => (i32 cell, if i32 cell = expected then desired else cell)
  | .posix => (i32 cell, if cell = expected then desired else cell)

/-- `thread_atomic_ptr_store` (libs_thread.h:1163-1183); addresses as numbers, null is 0. -/
def ptrStore (pl : Plat) (cell desired : Nat) : Nat :=
  match pl with
  | .win => desired
  | .posix => (lockRelease (testAndSet cell desired)).toNat

/-- `thread_atomic_ptr_swap` (libs_thread.h:1186-1206). -/
def ptrSwap (pl : Plat) (cell desired : Nat) : Nat × Nat := (cell, ptrStore pl cell desired)

/-- `thread_atomic_ptr_compare_and_swap` (libs_thread.h:1209-1222). -/
def ptrCas (cell expected desired : Nat) : Nat × Nat := (cell, if cell = expected then desired else cell)

/-! ### The queue -/

/-- Where the producer is in `thread_queue_produce`. -/
inductive PPc (V : Type)
  | idle
  | load (v : V) (timeout : Int)
  | wait (v : V) (timeout : Int)
  | inc (v : V)
  | write (v : V) (tail : Int)
  | count
  | raise

/-- Where the consumer is in `thread_queue_consume`. -/
inductive CPc (V : Type)
  | idle
  | load (timeout : Int)
  | wait
  | inc
  | read (head : Int)
  | dec (v : V)
  | raise (v : V)

/-- The queue (`thread_queue_t`, libs_thread.h:555-570), the two threads, and what their calls have done so far: `stored` are the values of the
calls of produce that went on to store them, `full` counts those that gave up, `got` are the values consume has returned, `empty` counts the nulls
it returned for want of data. -/
structure St (V : Type) where
  size : Int
  values : List V
  count : Int
  head : Int
  tail : Int
  dataReady : Bool
  spaceOpen : Bool
  p : PPc V
  c : CPc V
  stored : List V
  full : Nat
  got : List V
  empty : Nat

/-- What may happen: a call, one step of a thread inside a call, or the expiry of the producer's wait. -/
inductive Lab (V : Type)
  | produce (v : V) (timeout : Int)
  | consume (timeout : Int)
  | pStep
  | cStep
  | pTimeout

/-- The slot `values[i % size]` (C remainder). Division by zero and indices out of the array are `none`. -/
def slot (size i : Int) : Option Nat := if size = 0 then none else if 0 ≤ i.tmod size then some (i.tmod size).toNat else none

variable {V : Type}

/-- One step of `thread_queue_produce` (libs_thread.h:1391-1408). -/
def pStep (s : St V) : Option (St V) :=
  match s.p with
  | .idle => some s
  | .load v t =>
    if Thread.load s.count = s.size then
      if t = 0 then some { s with p := .idle, full := s.full + 1 } else some { s with p := .wait v t }
    else some { s with p := .inc v, stored := s.stored ++ [v] }
  | .wait v _ => if s.spaceOpen then some { s with spaceOpen := false, p := .inc v, stored := s.stored ++ [v] } else some s
  | .inc v => some { s with tail := (Thread.inc s.tail).2, p := .write v (Thread.inc s.tail).1 }
  | .write v t => do
    let i ← slot s.size t
    if i < s.values.length then some { s with values := s.values.set i v, p := .count } else none
  | .count =>
    if (Thread.inc s.count).1 = 0 then some { s with count := (Thread.inc s.count).2, p := .raise }
    else some { s with count := (Thread.inc s.count).2, p := .idle }
  | .raise => some { s with dataReady := true, p := .idle }

/-- One step of `thread_queue_consume` (libs_thread.h:1411-1428). The wait has no timeout. -/
def cStep (s : St V) : Option (St V) :=
  match s.c with
  | .idle => some s
  | .load t =>
    if Thread.load s.count = 0 then
      if t = 0 then some { s with c := .idle, empty := s.empty + 1 } else some { s with c := .wait }
    else some { s with c := .inc }
  | .wait => if s.dataReady then some { s with dataReady := false, c := .inc } else some s
  | .inc => some { s with head := (Thread.inc s.head).2, c := .read (Thread.inc s.head).1 }
  | .read h => do
    let i ← slot s.size h
    let v ← s.values[i]?
    some { s with c := .dec v }
  | .dec v =>
    if (Thread.dec s.count).1 = s.size then some { s with count := (Thread.dec s.count).2, c := .raise v }
    else some { s with count := (Thread.dec s.count).2, c := .idle, got := s.got ++ [v] }
  | .raise v => some { s with spaceOpen := true, c := .idle, got := s.got ++ [v] }

/-- One step of a schedule. What is not possible does nothing. A timed wait of the producer may end at any time, and then goes on to store. -/
def step (l : Lab V) (s : St V) : Option (St V) :=
  match l with
  | .produce v t => match s.p with
    | .idle => some { s with p := .load v t }
    | _ => some s
  | .consume t => match s.c with
    | .idle => some { s with c := .load t }
    | _ => some s
  | .pStep => pStep s
  | .cStep => cStep s
  | .pTimeout => match s.p with
    | .wait v t => if 0 < t then some { s with p := .inc v, stored := s.stored ++ [v] } else some s
    | _ => some s

/-- A schedule; `none` is undefined behaviour. -/
def run : List (Lab V) → St V → Option (St V)
  | [], s => some s
  | l :: ls, s => do run ls (← step l s)

/-- `thread_queue_init` (libs_thread.h:1368-1381). `junk` are the contents of the uninitialised counters. -/
def init (pl : Plat) (junk size count : Int) (values : List V) : St V where
  size := size
  values := values
  head := store pl junk 0
  tail := store pl junk (if count > size then size else count)
  count := store pl junk (if count > size then size else count)
  dataReady := false
  spaceOpen := false
  p := .idle
  c := .idle
  stored := []
  full := 0
  got := []
  empty := 0

/-- `thread_queue_count` (libs_thread.h:1431-1434). -/
def queueCount (s : St V) : Int := Thread.load s.count

end Nanostl.Thread

import Mathlib.Tactic.Common

/-!
Model of `class thread` (include/nanothread.h:168-234, src/nanothread.cc:18-46) and of the functions of src/libs_thread.h it calls (674-756).
The operating system's threads are modelled as what POSIX says of them: a thread runs its function to the end, in steps that interleave with the caller,
and `pthread_join` waits for that; joining a thread twice is undefined behaviour.
-/

namespace Nanostl.Thread

/-- An operating system thread: what is left of its function (`none`: it has returned), the number of times the function has been started, and if it has
been joined. -/
structure Os where
  left : Option Nat
  started : Nat
  result : Int
  joined : Bool

/-- `CreateThread` / `pthread_create`: a thread that will run a function of `n` steps returning `r`. -/
def Os.create (n : Nat) (r : Int) : Os := ⟨some n, 1, r, false⟩

/-- One step of the thread. -/
def Os.step (t : Os) : Os :=
  match t.left with
  | some (n + 1) => { t with left := some n }
  | some 0 => { t with left := none }
  | none => t

/-- The outcome of an attempt to join. -/
inductive Join
  | wait
  | done (t : Os) (r : Int)
  | ub

/-- `thread_join` (libs_thread.h:738-756) on POSIX. -/
def threadJoin (t : Os) : Join :=
  if t.joined then .ub else match t.left with
  | some _ => .wait
  | none => .done { t with joined := true } t.result

/-- `thread_destroy` (libs_thread.h:721-735) on POSIX: it joins too. -/
def threadDestroy (t : Os) : Join := threadJoin t

/-- `k` steps of the thread. -/
def Os.steps : Nat → Os → Os
  | 0, t => t
  | k + 1, t => Os.steps k t.step

/-- Attempts to join, with any number of steps of the thread before each. -/
def joinLoop : List Nat → Os → Join
  | [], _ => .wait
  | k :: ks, t => match threadJoin (Os.steps k t) with
    | .wait => joinLoop ks (Os.steps k t)
    | j => j

/-- The program: operating system threads, and how often each user function (by number) has been started. -/
structure World where
  os : List Os
  starts : Nat → Nat

/-- `class thread` (nanothread.h:233): the handle, null or the number of an operating system thread. -/
structure Obj where
  handle : Option Nat

/-- `thread()` (nanothread.cc:18). -/
def Obj.default : Obj := ⟨none⟩

/-- `thread(f, args...)` (nanothread.h:193-205): copies its arguments into a tuple, and destroys that again. `thread_handle_` keeps its default. -/
def Obj.new (_f : Nat) (w : World) : Obj × World := (⟨none⟩, w)

/-- `joinable` (nanothread.cc:29-37). -/
def Obj.joinable (t : Obj) : Bool := t.handle.isSome

/-- `join` (nanothread.cc:39-46): the object and the world after it, or `none` if it does not return now. -/
def Obj.join (t : Obj) (w : World) : Option (Obj × World) :=
  match t.handle with
  | none => some (t, w)
  | some h => match w.os[h]? with
    | none => none
    | some o => match threadJoin o with
      | .done o' _ => some (⟨none⟩, { w with os := w.os.set h o' })
      | _ => none

/-- `~thread` (nanothread.cc:22-27). -/
def Obj.destroy (t : Obj) (w : World) : Option World :=
  match t.handle with
  | none => some w
  | some h => match w.os[h]? with
    | none => none
    | some o => match threadDestroy o with
      | .done o' _ => some { w with os := w.os.set h o' }
      | _ => none

end Nanostl.Thread

import Verif.Thread.Local

/-!
What comes back from a thread and what it is given (src/libs_thread.h:658-756): the conversions between `int`, `DWORD`, `void*` on the way of its result, and the stack
size and name. `int` and `DWORD` have 32 bits, `void*` and `uintptr_t` have `w`. When the threads run is in `Thread/Class`.
-/

namespace Nanostl.Thread.Result

inductive Platform where
  | windows | posix
  deriving DecidableEq, Repr

/-- How a thread ends: its function returns, or it calls `thread_exit`. -/
inductive End where
  | returns (code : Int)
  | exits (code : Int)
  deriving DecidableEq, Repr

/-- Conversion to an unsigned integer of `w` bits. -/
def toUnsigned (w : Nat) (x : Int) : Int := x % 2 ^ w

/-- `thread_exit` (libs_thread.h:658-671): `(DWORD) return_code`, `(void*)(uintptr_t) return_code`. -/
def exitValue (p : Platform) (w : Nat) (code : Int) : Int :=
  match p with
  | .windows => toUnsigned 32 code
  | .posix => toUnsigned w code

/-- What the system finds as the result of the function, which `thread_create` passes as a pointer to a function of another type (libs_thread.h:679-680, 706): undefined
by the language. Taken here as the calling conventions have it: the `int` is in the lower 32 bits of the register and anything, `junk`, above them. A `DWORD` is those 32
bits. -/
def returnValue (p : Platform) (w : Nat) (junk : Nat) (code : Int) : Int :=
  match p with
  | .windows => toUnsigned 32 code
  | .posix => toUnsigned w (toUnsigned 32 code + junk * 2 ^ 32)

/-- The value the system keeps for the thread. -/
def kept (p : Platform) (w junk : Nat) : End → Int
  | .returns c => returnValue p w junk c
  | .exits c => exitValue p w c

/-- `thread_join` (libs_thread.h:738-756): `(int) retval`, `(int)(uintptr_t) retval`. -/
def joinValue (p : Platform) (w : Nat) (retval : Int) : Int :=
  match p with
  | .windows => toSigned 32 retval
  | .posix => toSigned 32 (toUnsigned w retval)

/-- The stack of the new thread (libs_thread.h:679, 706): Windows is told the size, if it is positive, and makes the stack no smaller than it and than the default;
`pthread_create` gets no attributes. -/
def stackSize (p : Platform) (dflt : Nat) (stack_size : Int) : Nat :=
  match p with
  | .windows => max dflt (if stack_size > 0 then stack_size.toNat else 0)
  | .posix => dflt

/-- The name of the new thread (libs_thread.h:709-711), `before` the one it has from its creator: `pthread_setname_np` refuses names of more than 15 characters, and
nobody looks at what it returns. (Linux; there is no such call on macOS.) -/
def nameLinux (before : List Char) : Option (List Char) → List Char
  | none => before
  | some n => if n.length ≤ 15 then n else before

end Nanostl.Thread.Result

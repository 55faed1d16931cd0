import Verif.Traits.Spec

/-!
Which function `os << x` calls (nanoiostream.h:54-72, nanostring.h:231-237), and which `to_string` (nanostring.h:239-255) its body calls. Overload resolution
([over.ics.rank], [conv.prom]) is the language's and part of the trusted base; it is modelled for arguments that are no classes, except `nanostl::nullptr_t`.
-/

namespace Nanostl.Stream.Insert

open Nanostl.Traits

/-- What platform and program decide: widths and signedness, the types an enumeration promotes to, best first (`none`: a scoped one, which does not), the name of
`basic_streambuf<char>` and the classes derived from it. -/
structure Prog where
  env : Env
  enumTo : Nat → Option (List Fund)
  buf : Nat
  derived : Nat → Bool

/-- The types of the parameters. -/
inductive Param where
  | fund (f : Fund)
  /-- `const void *` -/
  | cvoid
  /-- `basic_streambuf<char> *` -/
  | buf
  /-- `nanostl::nullptr_t` -/
  | null
  /-- `const string &` -/
  | str
  deriving DecidableEq, Repr

/-- The candidates for `os << x`: the members (nanoiostream.h:54-71) and `operator<<(ostream&, const string&)` (nanostring.h:231-237). -/
def insertions : List Param :=
  [.fund .bool, .fund .short, .fund .ushort, .fund .int, .fund .uint, .fund .llong, .fund .ullong, .fund .float, .fund .double, .fund .ldouble, .cvoid, .buf, .null, .str]

/-- The candidates for `to_string(x)` (nanostring.h:239-255); `int64_t` is `long long`, `uint64_t` is `unsigned long long` (nanocstdint.h:37-42). -/
def toStrings : List Param := [.fund .int, .fund .uint, .fund .llong, .fund .ullong, .fund .float, .fund .double]

/-- Whether all values of `f` are values of `g`. -/
def fits (e : Env) (f g : Fund) : Bool :=
  if f.signed e then g.signed e && decide (e.width f ≤ e.width g)
  else if g.signed e then decide (e.width f < e.width g) else decide (e.width f ≤ e.width g)

/-- Promotions ([conv.prom], [conv.fpprom]). -/
def promote (e : Env) : Fund → Option Fund
  | .bool => some .int
  | .char => some (if fits e .char .int then .int else .uint)
  | .schar => some (if fits e .schar .int then .int else .uint)
  | .uchar => some (if fits e .uchar .int then .int else .uint)
  | .short => some (if fits e .short .int then .int else .uint)
  | .ushort => some (if fits e .ushort .int then .int else .uint)
  | .wchar => [Fund.int, .uint, .long, .ulong, .llong, .ullong].find? (fits e .wchar)
  | .char8 => [Fund.int, .uint, .long, .ulong, .llong, .ullong].find? (fits e .char8)
  | .char16 => [Fund.int, .uint, .long, .ulong, .llong, .ullong].find? (fits e .char16)
  | .char32 => [Fund.int, .uint, .long, .ulong, .llong, .ullong].find? (fits e .char32)
  | .float => some .double
  | _ => none

def arithmetic : Fund → Bool
  | .void | .nullptr => false
  | _ => true

/-- Implicit conversion of a fundamental type, by its promotion `pr`: 0 none needed, 2 a promotion, 4 another; of the null pointer constant to a pointer 4, by a user-defined
conversion 10 (to `nullptr_t` by its constructor from a member pointer, __nullptr:24; to `string` by that from `const char *`). -/
def rankFund (pr : Option Fund) (f : Fund) : Param → Option Nat
  | .fund g => if arithmetic f && arithmetic g then some (if f = g then 0 else if pr = some g then 2 else 4) else none
  | .cvoid | .buf => if f = .nullptr then some 4 else none
  | .null | .str => if f = .nullptr then some 10 else none

/-- Implicit conversion of an enumeration with the promotions `l`. -/
def rankEnum (l : List Fund) : Param → Option Nat
  | .fund g => if arithmetic g then some (match l.findIdx? (· == g) with | some k => 2 + min k 1 | none => 4) else none
  | _ => none

/-- Implicit conversion of a pointer to `u`: a change of qualifiers counts as none; of a derived class to its base 5, to `void const *` 6, to `bool` 7, in that order
([over.ics.rank]/4); `string` from `const char *` 10. -/
def rankPtr (P : Prog) (u : Ty) : Param → Option Nat
  | .fund .bool => some 7
  | .cvoid => if Spec.cat u ≠ .function ∧ (Spec.quals u).v = false then some (if isVoidTy u then 0 else 6) else none
  | .buf => match u with
    | .base q (.cls n) => if q = {} then (if n = P.buf then some 0 else if P.derived n then some 5 else none) else none
    | _ => none
  | .str => match u with
    | .base q (.fund .char) => if q.v then none else some 10
    | _ => none
  | _ => none

/-- Implicit conversion of an argument, arrays, functions and qualifiers having decayed. `nanostl::nullptr_t` (__nullptr:17-38) converts to pointers and member pointers. -/
def rank (P : Prog) (t : Ty) (p : Param) : Option Nat :=
  match t with
  | .base _ (.fund f) => rankFund (promote P.env f) f p
  | .base _ (.enum n) => match P.enumTo n with
    | none => none
    | some l => rankEnum l p
  | .ptr _ u => rankPtr P u p
  | .mem .. => if p = .fund .bool then some 7 else none
  | .base _ (.cls 0) => match p with
    | .null => some 0
    | .cvoid | .buf | .fund .bool => some 10
    | _ => none
  | _ => none

/-- The best viable candidate, if there is one better than all others. -/
def best (r : Param → Option Nat) (cs : List Param) : Option Param :=
  cs.find? fun p => match r p with
    | none => false
    | some k => cs.all fun q => p == q || match r q with | none => true | some j => decide (k < j)

/-- What happens. -/
inductive Out where
  /-- does not compile: no candidate or several -/
  | refused
  /-- calls a function that is declared only -/
  | unlinked
  /-- the value, converted to `via`, is given to `to_string(to)` -/
  | number (via to : Fund)
  /-- the argument is read as a C string -/
  | cstr
  /-- the text `nullptr` -/
  | null
  /-- `operator<<(ostream&, const string&)`, which never returns (C33) -/
  | loops
  deriving DecidableEq, Repr

/-- `to_string(n)` in the body of a member with a parameter of type `f`, `pr` being the promotion of `f`; those for `int`, `int64_t`, `float` and `double` are defined
(nanostring.h:274-385). -/
def body (pr : Option Fund) (f : Fund) : Out :=
  match best (rankFund pr f) toStrings with
  | some (.fund .int) => .number f .int
  | some (.fund .llong) => .number f .llong
  | some (.fund .float) => .number f .float
  | some (.fund .double) => .number f .double
  | some _ => .unlinked
  | none => .refused

/-- The member or function called. `operator<<(long double)` and `operator<<(basic_streambuf*)` are declared only (nanoiostream.h:65-68); the members for numbers call `to_string`
(nanoiostream.h:89-177), that for `const void *` assumes a C string (nanoiostream.h:179-192), that for `nullptr_t` inserts `"nullptr"` (nanoiostream.h:70-72). `pr`: the promotions. -/
def call (pr : Fund → Option Fund) : Option Param → Out
  | none => .refused
  | some (.fund .ldouble) => .unlinked
  | some (.fund f) => body (pr f) f
  | some .cvoid => .cstr
  | some .buf => .unlinked
  | some .null => .null
  | some .str => .loops

/-- `os << x` for an `x` of type `t`. -/
def insert (P : Prog) (t : Ty) : Out := call (promote P.env) (best (rank P (Spec.decay t)) insertions)

end Nanostl.Stream.Insert

/-!
Model of `type_info` (`include/nanotypeinfo.h`) with its three implementations. A `type_info` is its member `__type_name`, a number of 64 bits: the
address of the type's name, in the third implementation with the top bit set if the name may have other copies. `str a` is the string at address
`a`, without the terminating NUL; characters are numbers 1 to 255. `__builtin_strcmp` is the compiler's.
-/

namespace Nanostl.TypeInfo

inductive Impl where
  | unique | nonUnique | arm
deriving DecidableEq

/-- `__builtin_strcmp`: the difference of the first characters that differ. -/
def strcmp : List Nat → List Nat → Int
  | [], [] => 0
  | [], b :: _ => - b
  | a :: _, [] => a
  | a :: s, b :: t => if a = b then strcmp s t else (a : Int) - b

/-- The loop of `__non_unique_impl::__hash` (nanotypeinfo.h:139-141) on the string with its NUL, `w` bits of `size_t`. -/
def hashLoop (w : Nat) : List Nat → Nat → Nat
  | [], h => h
  | c :: s, h => if c = 0 then h else hashLoop w s ((h * 33 % 2 ^ w) ^^^ c)

/-- `__non_unique_impl::__hash` (nanotypeinfo.h:138-143). -/
def hashStr (w : Nat) (s : List Nat) : Nat := hashLoop w (s ++ [0]) 5381

/-- `__non_unique_rtti_bit` (nanotypeinfo.h:192-193). -/
def rttiBit : Nat := 2 ^ 63

/-- `__type_name_to_string` (nanotypeinfo.h:111-113, 158-161). -/
def toString : Impl → Nat → Nat
  | .unique, v => v
  | .nonUnique, v => v
  | .arm, v => v &&& (2 ^ 64 - 1 - rttiBit)

/-- `__is_type_name_unique` (nanotypeinfo.h:195-202). -/
def isUnique1 (v : Nat) : Bool := v &&& rttiBit == 0
def isUnique2 (u v : Nat) : Bool := (u &&& v) &&& rttiBit == 0

/-- `__hash` (nanotypeinfo.h:122-124, 138-143, 168-173), `hash_code` (nanotypeinfo.h:248-252); sizes of 64 bits. -/
def hash (i : Impl) (str : Nat → List Nat) (v : Nat) : Nat := match i with
  | .unique => v
  | .nonUnique => hashStr 64 (str v)
  | .arm => if isUnique1 v then v else hashStr 64 (str (toString .arm v))

/-- `__eq` (nanotypeinfo.h:126-128, 145-147, 175-181), `operator==` (nanotypeinfo.h:254-258). -/
def eq (i : Impl) (str : Nat → List Nat) (u v : Nat) : Bool := match i with
  | .unique => u == v
  | .nonUnique => u == v || strcmp (str u) (str v) == 0
  | .arm => if u = v then true else if isUnique2 u v then false else strcmp (str (toString .arm u)) (str (toString .arm v)) == 0

/-- `__lt` (nanotypeinfo.h:130-132, 149-151, 183-187), `before` (nanotypeinfo.h:242-246). Addresses are compared as numbers. -/
def lt (i : Impl) (str : Nat → List Nat) (u v : Nat) : Bool := match i with
  | .unique => decide (u < v)
  | .nonUnique => decide (strcmp (str u) (str v) < 0)
  | .arm => if isUnique2 u v then decide (u < v) else decide (strcmp (str (toString .arm u)) (str (toString .arm v)) < 0)

/-- `name` (nanotypeinfo.h:236-240): the string seen by the program. -/
def name (i : Impl) (str : Nat → List Nat) (v : Nat) : List Nat := str (toString i v)

end Nanostl.TypeInfo

import Verif.Float.Arith

/-!
Model of `include/nanomath.h` and of the floating-point part of `include/nanolimits.h`. A `float` (`double`) is its bit pattern, a natural
number below 2^32 (2^64); `φ` is `f32` or `f64` in templates. The members of the unions `IEEE754Float`, `IEEE754Double`
(nanocommon.h:63-95, little-endian variant) are the functions `mantissa`, `exponent`, `signBit`. `none` is undefined behaviour.
-/

namespace Nanostl.Math
open Nanostl.Float

/-- `bits.mantissa` (nanocommon.h:73, 90): the lowest 23 resp. 52 bits. -/
def mantissa32 (x : Nat) : Nat := x &&& (2 ^ 23 - 1)
def mantissa64 (x : Nat) : Nat := x &&& (2 ^ 52 - 1)
/-- `bits.exponent` (nanocommon.h:74, 91): the next 8 resp. 11 bits. -/
def exponent32 (x : Nat) : Nat := (x >>> 23) &&& (2 ^ 8 - 1)
def exponent64 (x : Nat) : Nat := (x >>> 52) &&& (2 ^ 11 - 1)

/-- `__is_zero` (nanomath.h:49-69). -/
def isZero32 (x : Nat) : Bool := mantissa32 x == 0 && exponent32 x == 0
def isZero64 (x : Nat) : Bool := mantissa64 x == 0 && exponent64 x == 0
/-- `__is_subnormal` (nanomath.h:71-91). -/
def isSubnormal32 (x : Nat) : Bool := mantissa32 x != 0 && exponent32 x == 0
def isSubnormal64 (x : Nat) : Bool := mantissa64 x != 0 && exponent64 x == 0
/-- `isfinite` (nanomath.h:137-151). -/
def isfinite32 (x : Nat) : Bool := exponent32 x != 255
def isfinite64 (x : Nat) : Bool := exponent64 x != 2047
/-- `isinf` (nanomath.h:153-167). -/
def isinf32 (x : Nat) : Bool := exponent32 x == 255 && mantissa32 x == 0
def isinf64 (x : Nat) : Bool := exponent64 x == 2047 && mantissa64 x == 0
/-- `isnan` (nanomath.h:169-183). -/
def isnan32 (x : Nat) : Bool := exponent32 x == 255 && mantissa32 x != 0
def isnan64 (x : Nat) : Bool := exponent64 x == 2047 && mantissa64 x != 0
/-- `isnormal` (nanomath.h:185-199). -/
def isnormal32 (x : Nat) : Bool := exponent32 x != 0 && exponent32 x != 255
def isnormal64 (x : Nat) : Bool := exponent64 x != 0 && exponent64 x != 2047

/-- The literals `static_cast<T>(0)`. -/
def zero : Nat := 0

/-- `fabs` (nanomath.h:93-103). -/
def fabs (φ : Fmt) (num : Nat) : Nat := if φ.lt num zero then φ.neg num else num

/-- `numeric_limits<T>::epsilon()` (nanolimits.h:154, 209-211), decimal literals rounded by the compiler. -/
def epsilon32 : Nat := f32.litNeg 119209290 15
def epsilon64 : Nat := f64.litNeg 22204460492503131 32

/-- `ceil` (nanomath.h:107-120); `eps` is `numeric_limits<T>::epsilon()`. `inum + 1` is computed in `int`. -/
def ceil (φ : Fmt) (eps num : Nat) : Option Nat := do
  let inum ← φ.toInt num
  let diff := φ.sub num (φ.ofInt inum)
  if φ.lt (fabs φ diff) eps then pure (φ.ofInt inum)
  else if φ.lt zero num then
    if inum + 1 < 2 ^ 31 then pure (φ.ofInt (inum + 1)) else none
  else pure (φ.ofInt inum)

/-- `floor` (nanomath.h:123-135). -/
def floor (φ : Fmt) (eps x : Nat) : Option Nat := do
  if φ.ge x zero then
    let y ← φ.toInt x
    pure (φ.ofInt y)
  else
    let y ← φ.toInt x
    if φ.lt (fabs φ (φ.sub (φ.ofInt y) x)) eps then pure (φ.ofInt y)
    else if -2 ^ 31 ≤ y - 1 then pure (φ.ofInt (y - 1)) else none

/-- `fmin` (nanomath.h:201-221); `isnan` is the overload for `T`. -/
def fmin (φ : Fmt) (isnan : Nat → Bool) (x y : Nat) : Nat :=
  if isnan x && isnan y then x
  else if isnan x then y
  else if isnan y then x
  else if φ.lt x y then x else y

/-- `fmax` (nanomath.h:223-243). -/
def fmax (φ : Fmt) (isnan : Nat → Bool) (x y : Nat) : Nat :=
  if isnan x && isnan y then x
  else if isnan x then y
  else if isnan y then x
  else if φ.lt y x then x else y

/-- `copysign` (nanomath.h:334-348). -/
def copysign (x y : Nat) : Nat :=
  let xAbs := x &&& 0x7fffffff
  let ySign := y &&& 0x80000000
  ySign ||| xAbs

/-- `numeric_limits<float>` (nanolimits.h:145-196). -/
def floatMin : Nat := f32.litNeg 117549435 46
def floatMax : Nat := f32.litPos 3402823466 29
def floatDenormMin : Nat := 0 <<< 31 ||| 0 <<< 23 ||| 1
def floatInfinity : Nat := 0 <<< 31 ||| 255 <<< 23 ||| 0
def floatQuietNaN : Nat := 0 <<< 31 ||| 255 <<< 23 ||| 1 <<< 22
def floatSignalingNaN : Nat := 0 <<< 31 ||| 255 <<< 23 ||| 1
def floatDigits10 : Nat := 6
/-- `numeric_limits<double>` (nanolimits.h:198-253). -/
def doubleMin : Nat := f64.litNeg 22250738585072014 324
def doubleMax : Nat := f64.litPos 17976931348623157 292
def doubleDenormMin : Nat := 0 <<< 63 ||| 0 <<< 52 ||| 1
def doubleInfinity : Nat := 0 <<< 63 ||| 2047 <<< 52 ||| 0
def doubleQuietNaN : Nat := 0 <<< 63 ||| 2047 <<< 52 ||| 1 <<< 51
def doubleSignalingNaN : Nat := 0 <<< 63 ||| 2047 <<< 52 ||| 1
def doubleDigits10 : Nat := 15

/-- `numeric_limits` of the integral types (nanolimits.h:44-143): min, max, epsilon, digits10. -/
structure IntLimits where
  min : Int
  max : Int
  eps : Int
  digits10 : Nat
deriving DecidableEq

def limBool : IntLimits := ⟨0, 1, 0, 0⟩
def limChar : IntLimits := ⟨-128, 127, 0, 2⟩
def limUChar : IntLimits := ⟨0, 255, 0, 2⟩
def limShort : IntLimits := ⟨-32768, 32767, 0, 4⟩
def limUShort : IntLimits := ⟨0, 65535, 0, 4⟩
def limInt : IntLimits := ⟨-2147483648, 2147483647, 0, 9⟩
def limUInt : IntLimits := ⟨0, 0xffffffff, 0, 9⟩
def limLL : IntLimits := ⟨-0x7FFFFFFFFFFFFFFF - 1, 0x7FFFFFFFFFFFFFFF, 0, 18⟩
def limULL : IntLimits := ⟨0, 0xFFFFFFFFFFFFFFFF, 0, 19⟩

end Nanostl.Math

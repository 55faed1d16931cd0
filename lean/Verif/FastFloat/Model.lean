import Verif.FastFloat.Table
import Verif.Ryu.Model
import Verif.Math.Elem

/-!
Model of the arithmetic of `fast_float` (include/fast_float/float_common.h, decimal_to_binary.h and the rounding functions of
digit_comparison.h). Unsigned integers are `Nat`s reduced modulo their width where the code may wrap, signed ones are `Int`s. `none`: a failed
assertion, a shift by the width or more, an access outside a table. The configuration is the 64-bit, little-endian one (`FASTFLOAT_64BIT`,
`FASTFLOAT_IS_BIG_ENDIAN == 0`, float_common.h:10-72) with `FLT_EVAL_METHOD` 0 or 1.
-/

namespace Nanostl.FastFloat
open Nanostl.Float
open Nanostl.Ryu (w64 sub64 chk)

/-- `binary_format<T>` (float_common.h:224-375); `fmt`: the arithmetic of `T` itself. -/
structure Bin where
  fmt : Fmt
  mantissaBits : Nat
  maxRoundToEven : Int
  minRoundToEven : Int
  minimumExponent : Int
  infinitePower : Int
  signIndex : Nat
  minFast : Int
  maxFast : Int
  maxMantissaFast : Nat
  powersOfTen : List Nat
  largestPowerOfTen : Int
  smallestPowerOfTen : Int
  maxDigits : Nat
  exponentMask : Nat
  mantissaMask : Nat
  hiddenBitMask : Nat

/-- `binary_format<double>` (float_common.h:218-220, 245-375). The literals `1e0` to `1e22` are rounded by the compiler. -/
def bin64 : Bin where
  fmt := f64
  mantissaBits := 52
  maxRoundToEven := 23
  minRoundToEven := -4
  minimumExponent := -1023
  infinitePower := 0x7FF
  signIndex := 63
  minFast := -22
  maxFast := 22
  maxMantissaFast := 2 <<< 52
  powersOfTen := (List.range 23).map fun k => f64.litPos 1 k
  largestPowerOfTen := 308
  smallestPowerOfTen := -342
  maxDigits := 769
  exponentMask := 0x7FF0000000000000
  mantissaMask := 0x000FFFFFFFFFFFFF
  hiddenBitMask := 0x0010000000000000

/-- `binary_format<float>` (float_common.h:221-222, 245-375). The initialisers `1e0` to `1e10` are `double` constants converted to `float`. -/
def bin32 : Bin where
  fmt := f32
  mantissaBits := 23
  maxRoundToEven := 10
  minRoundToEven := -17
  minimumExponent := -127
  infinitePower := 0xFF
  signIndex := 31
  minFast := -10
  maxFast := 10
  maxMantissaFast := 2 <<< 23
  powersOfTen := (List.range 11).map fun k => f64.convert f32 (f64.litPos 1 k)
  largestPowerOfTen := 38
  smallestPowerOfTen := -65
  maxDigits := 114
  exponentMask := 0x7F800000
  mantissaMask := 0x007FFFFF
  hiddenBitMask := 0x00800000

/-- `adjusted_mantissa` (float_common.h:203-213). -/
structure AM where
  mantissa : Nat
  power2 : Int
deriving DecidableEq, Repr

/-- `invalid_am_bias` (float_common.h:216). -/
def invalidBias : Int := -0x8000

/-- `leading_zeroes` (float_common.h:134-156) through `__builtin_clzll`. -/
def leadingZeroes (x : Nat) : Option Nat := do
  chk (x > 0)
  pure (63 - Nat.log2 x)

/-- `full_multiplication` (float_common.h:184-201) through `__uint128_t`: high and low word. -/
def fullMul (a b : Nat) : Nat × Nat := (w64 ((a * b) >>> 64), w64 (a * b))

/-- An element of the table of powers. -/
def tab (i : Int) : Option Nat := if 0 ≤ i then powerOfFive128[i.toNat]? else none

/-- `compute_product_approximation<bit_precision>` (decimal_to_binary.h:19-40): high and low word. -/
def productApprox (prec : Nat) (q : Int) (w : Nat) : Option (Nat × Nat) := do
  let index := 2 * (q - -342)
  let t ← tab index
  let first := fullMul w t
  let mask := if prec < 64 then 0xFFFFFFFFFFFFFFFF >>> prec else 0xFFFFFFFFFFFFFFFF
  if first.1 &&& mask = mask then do
    let t ← tab (index + 1)
    let second := fullMul w t
    let low := w64 (first.2 + second.1)
    pure (if second.1 > low then w64 (first.1 + 1) else first.1, low)
  else pure first

/-- `detail::power` (decimal_to_binary.h:58-60); `>>` of a negative integer is arithmetic. -/
def power (q : Int) : Int := (152170 + 65536) * q / 65536 + 63

/-- `compute_error_scaled` (decimal_to_binary.h:65-74). -/
def computeErrorScaled (b : Bin) (q : Int) (w lz : Nat) : AM :=
  let hilz := (w >>> 63) ^^^ 1
  let bias : Int := b.mantissaBits - b.minimumExponent
  ⟨w64 (w <<< hilz), power q + bias - hilz - lz - 62 + invalidBias⟩

/-- `compute_error` (decimal_to_binary.h:78-85). -/
def computeError (b : Bin) (q : Int) (w : Nat) : Option AM := do
  let lz ← leadingZeroes w
  let w := w64 (w <<< lz)
  let product ← productApprox (b.mantissaBits + 3) q w
  pure (computeErrorScaled b q product.1 lz)

/-- `x & ~(uint64_t(1) << k)`. -/
def clearBit (x k : Nat) : Nat := x &&& (0xFFFFFFFFFFFFFFFF ^^^ (1 <<< k))

/-- The part of `compute_float` for subnormal results (decimal_to_binary.h:139-162). -/
def computeSubnormal (b : Bin) (m : Nat) (power2 : Int) : Option AM :=
  if -power2 + 1 ≥ 64 then some ⟨0, 0⟩ else do
    let sh := -power2 + 1
    chk (0 ≤ sh)
    let m := m >>> sh.toNat
    let m := w64 (m + (m &&& 1))
    let m := m >>> 1
    pure ⟨m, if m < 1 <<< b.mantissaBits then 0 else 1⟩

/-- The end of `compute_float`, from the test for a tie on (decimal_to_binary.h:164-189). `sh`: the shift that made `m` from the high word. -/
def computeNormal (b : Bin) (q : Int) (high low sh m : Nat) (power2 : Int) : AM :=
  let m := if low ≤ 1 ∧ q ≥ b.minRoundToEven ∧ q ≤ b.maxRoundToEven ∧ m &&& 3 = 1 then
      if w64 (m <<< sh) = high then clearBit m 0 else m
    else m
  let m := w64 (m + (m &&& 1))
  let m := m >>> 1
  let a : AM := if m ≥ 2 <<< b.mantissaBits then ⟨1 <<< b.mantissaBits, power2 + 1⟩ else ⟨m, power2⟩
  let a : AM := ⟨clearBit a.mantissa b.mantissaBits, a.power2⟩
  if a.power2 ≥ b.infinitePower then ⟨0, b.infinitePower⟩ else a

/-- `compute_float` (decimal_to_binary.h:92-190). -/
def computeFloat (b : Bin) (q : Int) (w : Nat) : Option AM :=
  if w = 0 ∨ q < b.smallestPowerOfTen then some ⟨0, 0⟩
  else if q > b.largestPowerOfTen then some ⟨0, b.infinitePower⟩
  else do
    let lz ← leadingZeroes w
    let w := w64 (w <<< lz)
    let product ← productApprox (b.mantissaBits + 3) q w
    if product.2 = 0xFFFFFFFFFFFFFFFF ∧ ¬(q ≥ -27 ∧ q ≤ 55) then pure (computeErrorScaled b q product.1 lz)
    else do
      let upperbit := product.1 >>> 63
      let sh : Int := upperbit + 64 - b.mantissaBits - 3
      chk (0 ≤ sh ∧ sh < 64)
      let m := product.1 >>> sh.toNat
      let power2 := power q + upperbit - lz - b.minimumExponent
      if power2 ≤ 0 then computeSubnormal b m power2
      else pure (computeNormal b q product.1 product.2 sh.toNat m power2)

/-- `uint64_t(x)` of a signed integer. -/
def u64 (x : Int) : Nat := (x % 2 ^ 64).toNat

/-- `to_float` (float_common.h:377-393): the low `sizeof(T)` bytes of the word. -/
def toFloat (b : Bin) (negative : Bool) (am : AM) : Nat :=
  let word := am.mantissa ||| w64 (u64 am.power2 <<< b.mantissaBits)
  let word := if negative then word ||| (1 <<< b.signIndex) else word
  word % 2 ^ (b.signIndex + 1)

/-! ### Rounding (digit_comparison.h) -/

/-- `to_extended` (digit_comparison.h:45-68). -/
def toExtended (b : Bin) (bits : Nat) : AM :=
  let bias : Int := b.mantissaBits - b.minimumExponent
  if bits &&& b.exponentMask = 0 then ⟨bits &&& b.mantissaMask, 1 - bias⟩
  else ⟨(bits &&& b.mantissaMask) ||| b.hiddenBitMask, ((bits &&& b.exponentMask) >>> b.mantissaBits : Nat) - bias⟩

/-- `to_extended_halfway` (digit_comparison.h:73-80). -/
def toExtendedHalfway (b : Bin) (bits : Nat) : AM :=
  let am := toExtended b bits
  ⟨w64 (w64 (am.mantissa <<< 1) + 1), am.power2 - 1⟩

/-- `round` (digit_comparison.h:83-110). -/
def round (b : Bin) (am : AM) (cb : AM → Nat → Option AM) : Option AM :=
  let mantissaShift : Int := 64 - b.mantissaBits - 1
  if -am.power2 ≥ mantissaShift then do
    let shift := -am.power2 + 1
    let am ← cb am (min shift 64).toNat
    pure ⟨am.mantissa, if am.mantissa < 1 <<< b.mantissaBits then 0 else 1⟩
  else do
    let am ← cb am mantissaShift.toNat
    let a : AM := if am.mantissa ≥ 2 <<< b.mantissaBits then ⟨1 <<< b.mantissaBits, am.power2 + 1⟩ else am
    let a : AM := ⟨clearBit a.mantissa b.mantissaBits, a.power2⟩
    pure (if a.power2 ≥ b.infinitePower then ⟨0, b.infinitePower⟩ else a)

/-- `round_nearest_tie_even` (digit_comparison.h:112-141); the callback gets `is_odd`, `is_halfway`, `is_above`. -/
def roundNearestTieEven (cb : Bool → Bool → Bool → Bool) (am : AM) (shift : Nat) : Option AM := do
  chk (shift ≤ 64)
  let mask := if shift = 64 then 0xFFFFFFFFFFFFFFFF else w64 (1 <<< shift) - 1
  let halfway := if shift = 0 then 0 else 1 <<< (shift - 1)
  let truncatedBits := am.mantissa &&& mask
  let isAbove := decide (truncatedBits > halfway)
  let isHalfway := decide (truncatedBits = halfway)
  let m := if shift = 64 then 0 else am.mantissa >>> shift
  let isOdd := decide (m &&& 1 = 1)
  pure ⟨w64 (m + (cb isOdd isHalfway isAbove).toNat), am.power2 + shift⟩

/-- `round_down` (digit_comparison.h:143-150). -/
def roundDown (am : AM) (shift : Nat) : Option AM := do
  chk (shift ≤ 64)
  pure ⟨if shift = 64 then 0 else am.mantissa >>> shift, am.power2 + shift⟩

end Nanostl.FastFloat

import Verif.Ryu.Model
import Verif.FastFloat.Model

/-!
Model of the big integers of `fast_float` (include/fast_float/bigint.h), for limbs of 64 bits and of 32. A `stackvec` is the list of its first `length`
limbs, least significant first; what lies in the buffer beyond is never read. Functions that report failure give the truth value together with the
vector as they leave it. `none`: an access beyond the length, or a failed assertion.
-/

namespace Nanostl.FastFloat
open Nanostl.Ryu (w64 chk)

/-- Whether the library is compiled with limbs of 32 bits (`FASTFLOAT_32BIT_LIMB`, bigint.h:19-27): on 32-bit platforms and on sparc. -/
class Limb where
  narrow : Bool

variable [Limb]

abbrev Limbs := List Nat

/-- `limb_bits` (bigint.h:22, 26). -/
def limbBits : Nat := if Limb.narrow then 32 else 64

/-- Conversion to `limb`. -/
def wl (x : Nat) : Nat := x % 2 ^ limbBits

/-- `bigint_limbs` (bigint.h:35-36). -/
def bigintLimbs : Nat := 4000 / limbBits

/-- `stackvec::try_push` (bigint.h:86-98). -/
def tryPush (v : Limbs) (x : Nat) : Bool × Limbs := if v.length < bigintLimbs then (true, v ++ [x]) else (false, v)

/-- `stackvec::try_resize` to a greater length with zeros (bigint.h:117-136). -/
def tryResize (v : Limbs) (n : Nat) : Bool × Limbs :=
  if n > bigintLimbs then (false, v) else (true, if n > v.length then v ++ List.replicate (n - v.length) 0 else v.take n)

/-- `stackvec::rindex` (bigint.h:66-70). -/
def rindex (v : Limbs) (i : Nat) : Option Nat := do
  chk (i < v.length)
  v[v.length - i - 1]?

/-- `stackvec::nonzero` (bigint.h:140-148); `f`: iterations left. -/
def nonzeroFrom (v : Limbs) : Nat → Nat → Option Bool
  | 0, _ => none
  | f + 1, i => if i < v.length then do
      let x ← rindex v i
      if x ≠ 0 then pure true else nonzeroFrom v f (i + 1)
    else pure false

/-- `stackvec::normalize` (bigint.h:150-154). -/
def normalize (v : Limbs) : Limbs := (v.reverse.dropWhile (· == 0)).reverse

/-- `uint64_hi64` of one word (bigint.h:164-168): the word and `truncated`. -/
def hi64One (r0 : Nat) : Option (Nat × Bool) := do
  let shl ← leadingZeroes r0
  pure (w64 (r0 <<< shl), false)

/-- `uint64_hi64` of two words (bigint.h:171-181). -/
def hi64Two (r0 r1 : Nat) : Option (Nat × Bool) := do
  let shl ← leadingZeroes r0
  if shl = 0 then pure (r0, decide (r1 ≠ 0))
  else
    let shr := 64 - shl
    pure (w64 (r0 <<< shl) ||| (r1 >>> shr), decide (w64 (r1 <<< shl) ≠ 0))

/-- `uint32_hi64` of two limbs (bigint.h:188-193). -/
def hi64Pair (r0 r1 : Nat) : Option (Nat × Bool) := hi64One (w64 (r0 <<< 32) ||| r1)

/-- `uint32_hi64` of three limbs (bigint.h:195-201). -/
def hi64Three (r0 r1 r2 : Nat) : Option (Nat × Bool) := hi64Two r0 (w64 (r1 <<< 32) ||| r2)

/-- `bigint::hi64` for limbs of 32 bits (bigint.h:402-413); `uint32_hi64` of one limb is `uint64_hi64` (183-186). -/
def hi64Narrow (v : Limbs) : Option (Nat × Bool) :=
  if v.length = 0 then pure (0, false)
  else if v.length = 1 then do
    let r0 ← rindex v 0
    hi64One r0
  else if v.length = 2 then do
    let r0 ← rindex v 0
    let r1 ← rindex v 1
    hi64Pair r0 r1
  else do
    let r0 ← rindex v 0
    let r1 ← rindex v 1
    let r2 ← rindex v 2
    let r ← hi64Three r0 r1 r2
    let nz ← nonzeroFrom v (v.length + 1) 3
    pure (r.1, r.2 || nz)

/-- `bigint::hi64` for limbs of 64 bits (bigint.h:391-401). -/
def hi64Wide (v : Limbs) : Option (Nat × Bool) :=
  if v.length = 0 then pure (0, false)
  else if v.length = 1 then do
    let r0 ← rindex v 0
    hi64One r0
  else do
    let r0 ← rindex v 0
    let r1 ← rindex v 1
    let r ← hi64Two r0 r1
    let nz ← nonzeroFrom v (v.length + 1) 2
    pure (r.1, r.2 || nz)

/-- `bigint::hi64` (bigint.h:390-414). -/
def hi64 (v : Limbs) : Option (Nat × Bool) := if Limb.narrow then hi64Narrow v else hi64Wide v

/-- `scalar_add` (bigint.h:208-223): sum and overflow. -/
def scalarAdd (x y : Nat) : Nat × Bool := (wl (x + y), decide (x + y ≥ 2 ^ limbBits))

/-- `scalar_mul` (bigint.h:227-249): low word and carry; the arithmetic on words of twice the width does not wrap around. -/
def scalarMul (x y carry : Nat) : Nat × Nat := (wl (x * y + carry), wl ((x * y + carry) >>> limbBits))

/-- The loop of `small_add_from` (bigint.h:255-262) over the limbs from the start on: the limbs and the carry. -/
def addCarry : Limbs → Nat → Limbs × Nat
  | [], c => ([], c)
  | x :: v, c =>
    if c ≠ 0 then
      let s := scalarAdd x c
      let r := addCarry v s.2.toNat
      (s.1 :: r.1, r.2)
    else (x :: v, c)

/-- `small_add_from` (bigint.h:253-267). The limbs before `start` are not touched. -/
def smallAddFrom (v : Limbs) (y start : Nat) : Bool × Limbs :=
  let r := addCarry (v.drop start) y
  let v := v.take start ++ r.1
  if r.2 ≠ 0 then tryPush v r.2 else (true, v)

/-- `small_add`, `bigint::add` (bigint.h:270-273, 527-529). -/
def smallAdd (v : Limbs) (y : Nat) : Bool × Limbs := smallAddFrom v y 0

/-- The loop of `small_mul` (bigint.h:278-281): the limbs and the carry. -/
def mulCarry : Limbs → Nat → Nat → Limbs × Nat
  | [], _, c => ([], c)
  | x :: v, y, c =>
    let p := scalarMul x y c
    let r := mulCarry v y p.2
    (p.1 :: r.1, r.2)

/-- `small_mul`, `bigint::mul` (bigint.h:276-286, 523-525). -/
def smallMul (v : Limbs) (y : Nat) : Bool × Limbs :=
  let r := mulCarry v y 0
  if r.2 ≠ 0 then tryPush r.1 r.2 else (true, r.1)

/-- The loop of `large_add_from` (bigint.h:298-310): `x` from the start on and `y`; the limbs and the carry. `none`: `y` is longer. -/
def addLoop : Limbs → Limbs → Bool → Option (Limbs × Bool)
  | x, [], c => some (x, c)
  | [], _ :: _, _ => none
  | xi :: x, yi :: y, c => do
    let s := scalarAdd xi yi
    let t := if c then scalarAdd s.1 1 else (s.1, false)
    let r ← addLoop x y (s.2 || t.2)
    pure (t.1 :: r.1, r.2)

/-- `large_add_from` (bigint.h:290-317). -/
def largeAddFrom (x y : Limbs) (start : Nat) : Option (Bool × Limbs) :=
  let r := if x.length < start ∨ y.length > x.length - start then tryResize x (y.length + start) else (true, x)
  if r.1 then do
    let x := r.2
    let s ← addLoop (x.drop start) y false
    let x := x.take start ++ s.1
    pure (if s.2 then smallAddFrom x 1 (y.length + start) else (true, x))
  else pure (false, r.2)

/-- The loop of `long_mul` (bigint.h:335-346): `x`, the limbs of `y` from `index` on; `z`: the first value of `x`. -/
def longMulLoop (z : Limbs) : Limbs → Limbs → Nat → Option (Bool × Limbs)
  | x, [], _ => some (true, x)
  | x, yi :: y, index =>
    if yi ≠ 0 then
      let zi := smallMul z yi
      if zi.1 then do
        let r ← largeAddFrom x zi.2 index
        if r.1 then longMulLoop z r.2 y (index + 1) else pure r
      else some (false, x)
    else longMulLoop z x y (index + 1)

/-- `long_mul` (bigint.h:326-351). -/
def longMul (x y : Limbs) : Option (Bool × Limbs) :=
  match y with
  | [] => some (true, normalize x)
  | y0 :: ys =>
    let r := smallMul x y0
    if r.1 then do
      let s ← longMulLoop x r.2 ys 1
      pure (if s.1 then (true, normalize s.2) else s)
    else some r

/-- `large_mul` (bigint.h:354-362). -/
def largeMul (x y : Limbs) : Option (Bool × Limbs) :=
  if y.length = 1 then do
    let y0 ← y[0]?
    pure (smallMul x y0)
  else longMul x y

/-- `bigint(uint64_t)` (bigint.h:378-386). -/
def ofU64 (x : Nat) : Limbs := normalize (if Limb.narrow then [x % 2 ^ 32, (x >>> 32) % 2 ^ 32] else [x])

/-- The loop of `bigint::compare` (bigint.h:428-436), on the reversed limbs. -/
def compareLoop : Limbs → Limbs → Option Int
  | [], [] => some 0
  | x :: xs, y :: ys => if x > y then some 1 else if x < y then some (-1) else compareLoop xs ys
  | _, _ => none

/-- `bigint::compare` (bigint.h:422-439). -/
def compare (x y : Limbs) : Option Int :=
  if x.length > y.length then some 1 else if x.length < y.length then some (-1) else compareLoop x.reverse y.reverse

/-- The loop of `bigint::shl_bits` (bigint.h:454-459): the limbs and the last `prev`. -/
def shlLoop (shl : Nat) : Limbs → Nat → Limbs × Nat
  | [], prev => ([], prev)
  | xi :: v, prev =>
    let r := shlLoop shl v xi
    ((wl (xi <<< shl) ||| (prev >>> (limbBits - shl))) :: r.1, r.2)

/-- `bigint::shl_bits` (bigint.h:443-466). -/
def shlBits (v : Limbs) (n : Nat) : Option (Bool × Limbs) := do
  chk (n ≠ 0)
  chk (n < limbBits)
  let r := shlLoop n v 0
  let carry := r.2 >>> (limbBits - n)
  pure (if carry ≠ 0 then tryPush r.1 carry else (true, r.1))

/-- `bigint::shl_limbs` (bigint.h:469-487). -/
def shlLimbs (v : Limbs) (n : Nat) : Option (Bool × Limbs) := do
  chk (n ≠ 0)
  pure (if n + v.length > bigintLimbs then (false, v) else if v ≠ [] then (true, List.replicate n 0 ++ v) else (true, v))

/-- `bigint::shl`, `bigint::pow2` (bigint.h:490-500, 532-534). -/
def pow2 (v : Limbs) (n : Nat) : Option (Bool × Limbs) := do
  let rem := n % limbBits
  let div := n / limbBits
  let r ← if rem ≠ 0 then shlBits v rem else pure (true, v)
  if r.1 then if div ≠ 0 then shlLimbs r.2 div else pure r
  else pure r

/-- `bigint::ctlz` (bigint.h:503-515). -/
def ctlz (v : Limbs) : Option Nat :=
  if v = [] then pure 0 else do
    let r ← rindex v 0
    leadingZeroes (if Limb.narrow then w64 (r <<< 32) else r)

/-- `bigint::bit_length` (bigint.h:518-521). -/
def bitLength (v : Limbs) : Option Int := do
  let lz ← ctlz v
  pure (limbBits * v.length - lz)

/-- `small_power_of_5` (bigint.h:540-547). -/
def smallPowerOf5 : List Nat := [
  1, 5, 25, 125, 625, 3125, 15625, 78125, 390625, 1953125, 9765625, 48828125, 244140625, 1220703125, 6103515625, 30517578125, 152587890625,
  762939453125, 3814697265625, 19073486328125, 95367431640625, 476837158203125, 2384185791015625, 11920928955078125, 59604644775390625,
  298023223876953125, 1490116119384765625, 7450580596923828125]

/-- `large_power_of_5` (bigint.h:548-556). -/
def largePowerOf5 : Limbs :=
  if Limb.narrow then [4279965485, 329373468, 4020270615, 2137533757, 4287402176, 1057042919, 1071430142, 2440757623, 381945767, 46164893]
  else [1414648277510068013, 9180637584431281687, 4539964771860779200, 10482974169319127550, 198276706040285095]

/-- The first loop of `bigint::pow5` (bigint.h:559-562): the vector and what is left of the exponent; `f`: iterations left. -/
def pow5Large : Nat → Limbs → Nat → Option (Bool × Limbs × Nat)
  | 0, _, _ => none
  | f + 1, v, exp => if exp ≥ 135 then do
      let r ← largeMul v largePowerOf5
      if r.1 then pow5Large f r.2 (exp - 135) else pure (false, r.2, exp)
    else pure (true, v, exp)

/-- `small_step` (bigint.h:564, 567). -/
def smallStep : Nat := if Limb.narrow then 13 else 27

/-- `max_native` (bigint.h:565, 568). -/
def maxNative : Nat := if Limb.narrow then 1220703125 else 7450580596923828125

/-- The second loop (bigint.h:570-573). -/
def pow5Small : Nat → Limbs → Nat → Option (Bool × Limbs × Nat)
  | 0, _, _ => none
  | f + 1, v, exp => if exp ≥ smallStep then
      let r := smallMul v maxNative
      if r.1 then pow5Small f r.2 (exp - smallStep) else pure (false, r.2, exp)
    else pure (true, v, exp)

/-- `bigint::pow5` (bigint.h:537-579). -/
def pow5 (v : Limbs) (exp : Nat) : Option (Bool × Limbs) := do
  let r ← pow5Large (exp + 1) v exp
  if r.1 then do
    let s ← pow5Small (r.2.2 + 1) r.2.1 r.2.2
    if s.1 then
      if s.2.2 ≠ 0 then do
        let y ← smallPowerOf5[s.2.2]?
        pure (smallMul s.2.1 (wl y))
      else pure (true, s.2.1)
    else pure (false, s.2.1)
  else pure (false, r.2.1)

/-- `bigint::pow10` (bigint.h:582-585). -/
def pow10 (v : Limbs) (exp : Nat) : Option (Bool × Limbs) := do
  let r ← pow5 v exp
  if r.1 then pow2 r.2 exp else pure r

end Nanostl.FastFloat

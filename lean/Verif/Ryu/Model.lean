import Verif.Ryu.Tables

/-!
Model of the conversions of `include/__nanostrutil.h` (ryu). Unsigned integers are `Nat`s reduced modulo their width where the code may wrap,
signed ones are `Int`s. `none`: a failed assertion, a shift by a negative amount or by the width or more, an access outside a table, or a
loop that does not end. `p32` tells whether `RYU_32_BIT_PLATFORM` is defined. `HAS_64_BIT_INTRINSICS` and `RYU_OPTIMIZE_SIZE` are not
defined anywhere; `RYU_FLOAT_FULL_TABLE` neither.
-/

namespace Nanostl.Ryu

def w32 (x : Nat) : Nat := x % 2 ^ 32
def w64 (x : Nat) : Nat := x % 2 ^ 64
/-- Differences of unsigned integers. -/
def sub32 (x y : Nat) : Nat := (x + 2 ^ 32 - y) % 2 ^ 32
def sub64 (x y : Nat) : Nat := (x + 2 ^ 64 - y) % 2 ^ 64

/-- `assert`. -/
def chk (p : Prop) [Decidable p] : Option Unit := if p then some () else none

/-! ### Logarithms -/

/-- `log2pow5` (__nanostrutil.h:89-96). -/
def log2pow5 (e : Int) : Option Int := do
  chk (0 ≤ e)
  chk (e ≤ 3528)
  pure ((w32 (e.toNat * 1217359) >>> 19 : Nat) : Int)

/-- `pow5bits` (__nanostrutil.h:100-107). -/
def pow5bits (e : Int) : Option Int := do
  chk (0 ≤ e)
  chk (e ≤ 3528)
  pure ((w32 ((w32 (e.toNat * 1217359) >>> 19) + 1) : Nat) : Int)

/-- `ceil_log2pow5` (__nanostrutil.h:111-113). -/
def ceilLog2pow5 (e : Int) : Option Int := do
  let r ← log2pow5 e
  pure (r + 1)

/-- `log10Pow2` (__nanostrutil.h:117-122). -/
def log10Pow2 (e : Int) : Option Nat := do
  chk (0 ≤ e)
  chk (e ≤ 1650)
  pure (w32 (e.toNat * 78913) >>> 18)

/-- `log10Pow5` (__nanostrutil.h:126-131). -/
def log10Pow5 (e : Int) : Option Nat := do
  chk (0 ≤ e)
  chk (e ≤ 2620)
  pure (w32 (e.toNat * 732923) >>> 20)

/-! ### 32-bit helpers -/

/-- The loop of `pow5factor_32` (__nanostrutil.h:134-147). -/
def pow5factor32Loop : Nat → Nat → Nat → Option Nat
  | 0, _, _ => none
  | f + 1, value, count => do
    chk (value ≠ 0)
    let q := value / 5
    let r := value % 5
    if r ≠ 0 then pure count else pow5factor32Loop f q (count + 1)

def pow5factor32 (value : Nat) : Option Nat := pow5factor32Loop 32 value 0

/-- `multipleOfPowerOf5_32` (__nanostrutil.h:151-153). -/
def multipleOfPowerOf5_32 (value p : Nat) : Option Bool := do
  let c ← pow5factor32 value
  pure (decide (c ≥ p))

/-- `multipleOfPowerOf2_32` (__nanostrutil.h:157-160). -/
def multipleOfPowerOf2_32 (value p : Nat) : Option Bool := do
  chk (p < 32)
  pure (value &&& (w32 (1 <<< p) - 1) == 0)

/-- `mulShift32` (__nanostrutil.h:165-197). -/
def mulShift32 (p32 : Bool) (m factor : Nat) (shift : Int) : Option Nat := do
  chk (shift > 32)
  let factorLo := w32 factor
  let factorHi := w32 (factor >>> 32)
  let bits0 := w64 (m * factorLo)
  let bits1 := w64 (m * factorHi)
  if p32 then
    let bits0Hi := w32 (bits0 >>> 32)
    let bits1Lo := w32 bits1
    let bits1Hi := w32 (bits1 >>> 32)
    let bits1Lo := w32 (bits1Lo + bits0Hi)
    let bits1Hi := w32 (bits1Hi + (if bits1Lo < bits0Hi then 1 else 0))
    if shift ≥ 64 then
      chk (shift - 64 < 32)
      pure (bits1Hi >>> (shift - 64).toNat)
    else
      let s := (shift - 32).toNat
      pure (w32 (bits1Hi <<< (32 - s)) ||| (bits1Lo >>> s))
  else
    let sum := w64 ((bits0 >>> 32) + bits1)
    chk (shift - 32 < 64)
    let shiftedSum := sum >>> (shift - 32).toNat
    chk (shiftedSum ≤ 4294967295)
    pure (w32 shiftedSum)

/-- `mulPow5InvDivPow2` (__nanostrutil.h:200-213). -/
def mulPow5InvDivPow2 (p32 : Bool) (m q : Nat) (j : Int) : Option Nat := do
  let t ← invSplit[q]?
  mulShift32 p32 m (w64 (t.2 + 1)) j

/-- `mulPow5divPow2` (__nanostrutil.h:217-227). -/
def mulPow5divPow2 (p32 : Bool) (m i : Nat) (j : Int) : Option Nat := do
  let t ← powSplit[i]?
  mulShift32 p32 m t.2 j

def floatPow5InvBitcount : Int := invBitcount - 64
def floatPow5Bitcount : Int := powBitcount - 64

/-! ### f2d -/

/-- State of step 4. -/
structure Red where
  vr : Nat
  vp : Nat
  vm : Nat
  vmTZ : Bool
  vrTZ : Bool
  last : Nat
  removed : Nat

/-- First loop of the general case of `f2d` (__nanostrutil.h:341-355). -/
def f2dLoop1 : Nat → Red → Option Red
  | 0, _ => none
  | f + 1, s =>
    if s.vp / 10 > s.vm / 10 then
      f2dLoop1 f { vmTZ := s.vmTZ && s.vm % 10 == 0, vrTZ := s.vrTZ && s.last == 0, last := s.vr % 10, vr := s.vr / 10, vp := s.vp / 10,
                   vm := s.vm / 10, removed := s.removed + 1 }
    else some s

/-- Second loop (__nanostrutil.h:360-369). -/
def f2dLoop2 : Nat → Red → Option Red
  | 0, _ => none
  | f + 1, s =>
    if s.vm % 10 == 0 then
      f2dLoop2 f { s with vrTZ := s.vrTZ && s.last == 0, last := s.vr % 10, vr := s.vr / 10, vp := s.vp / 10,
                          vm := s.vm / 10, removed := s.removed + 1 }
    else some s

/-- Loop of the common case (__nanostrutil.h:384-390). -/
def f2dLoop3 : Nat → Red → Option Red
  | 0, _ => none
  | f + 1, s =>
    if s.vp / 10 > s.vm / 10 then
      f2dLoop3 f { s with last := s.vr % 10, vr := s.vr / 10, vp := s.vp / 10, vm := s.vm / 10, removed := s.removed + 1 }
    else some s

/-- Step 4 of `f2d` (__nanostrutil.h:336-398): the output and the number of removed digits. -/
def f2dStep4 (acceptBounds : Bool) (s : Red) : Option (Nat × Nat) :=
  if s.vmTZ || s.vrTZ then do
    let s ← f2dLoop1 20 s
    let s ← (if s.vmTZ then f2dLoop2 20 s else pure s)
    let last := if s.vrTZ && s.last == 5 && s.vr % 2 == 0 then 4 else s.last
    pure (w32 (s.vr + if (s.vr == s.vm && (!acceptBounds || !s.vmTZ)) || last ≥ 5 then 1 else 0), s.removed)
  else do
    let s ← f2dLoop3 20 s
    pure (w32 (s.vr + if s.vr == s.vm || s.last ≥ 5 then 1 else 0), s.removed)

/-- Step 3 of `f2d` for `e2 >= 0` (__nanostrutil.h:262-291); also gives `e10`. -/
def f2dPos (p32 : Bool) (e2 : Int) (mv mp mm : Nat) (acceptBounds : Bool) : Option (Red × Int) := do
  let q ← log10Pow2 e2
  let pb ← pow5bits q
  let k := floatPow5InvBitcount + pb - 1
  let i := -e2 + q + k
  let vr ← mulPow5InvDivPow2 p32 mv q i
  let vp ← mulPow5InvDivPow2 p32 mp q i
  let vm ← mulPow5InvDivPow2 p32 mm q i
  let last ← (if q ≠ 0 ∧ (sub32 vp 1) / 10 ≤ vm / 10 then do
      let pb ← pow5bits ((q - 1 : Nat) : Int)
      let l := floatPow5InvBitcount + pb - 1
      let x ← mulPow5InvDivPow2 p32 mv (q - 1) (-e2 + q - 1 + l)
      pure (x % 10)
    else pure 0)
  let s : Red := ⟨vr, vp, vm, false, false, last, 0⟩
  if q ≤ 9 then
    if mv % 5 = 0 then
      let b ← multipleOfPowerOf5_32 mv q
      pure ({ s with vrTZ := b }, (q : Int))
    else if acceptBounds then
      let b ← multipleOfPowerOf5_32 mm q
      pure ({ s with vmTZ := b }, (q : Int))
    else
      let b ← multipleOfPowerOf5_32 mp q
      pure ({ s with vp := sub32 vp (if b then 1 else 0) }, (q : Int))
  else pure (s, (q : Int))

/-- Step 3 of `f2d` for `e2 < 0` (__nanostrutil.h:292-327). -/
def f2dNeg (p32 : Bool) (e2 : Int) (mv mp mm mmShift : Nat) (acceptBounds : Bool) : Option (Red × Int) := do
  let q ← log10Pow5 (-e2)
  let e10 := (q : Int) + e2
  let i := -e2 - q
  let pb ← pow5bits i
  let k := pb - floatPow5Bitcount
  let j := (q : Int) - k
  let vr ← mulPow5divPow2 p32 mv i.toNat j
  let vp ← mulPow5divPow2 p32 mp i.toNat j
  let vm ← mulPow5divPow2 p32 mm i.toNat j
  let last ← (if q ≠ 0 ∧ (sub32 vp 1) / 10 ≤ vm / 10 then do
      let pb ← pow5bits (i + 1)
      let j := (q : Int) - 1 - (pb - floatPow5Bitcount)
      let x ← mulPow5divPow2 p32 mv (i + 1).toNat j
      pure (x % 10)
    else pure 0)
  let s : Red := ⟨vr, vp, vm, false, false, last, 0⟩
  if q ≤ 1 then
    if acceptBounds then pure ({ s with vrTZ := true, vmTZ := mmShift == 1 }, e10)
    else pure ({ s with vrTZ := true, vp := sub32 vp 1 }, e10)
  else if q < 31 then
    let b ← multipleOfPowerOf2_32 mv (q - 1)
    pure ({ s with vrTZ := b }, e10)
  else pure (s, e10)

/-- `f2d` (__nanostrutil.h:231-410). -/
def f2d (p32 : Bool) (ieeeMantissa ieeeExponent : Nat) : Option (Nat × Int) := do
  let e2 : Int := if ieeeExponent = 0 then 1 - 127 - 23 - 2 else (ieeeExponent : Int) - 127 - 23 - 2
  let m2 := if ieeeExponent = 0 then ieeeMantissa else (1 <<< 23) ||| ieeeMantissa
  let even := m2 &&& 1 == 0
  let acceptBounds := even
  let mv := w32 (4 * m2)
  let mp := w32 (4 * m2 + 2)
  let mmShift := if ieeeMantissa ≠ 0 ∨ ieeeExponent ≤ 1 then 1 else 0
  let mm := sub32 (sub32 (w32 (4 * m2)) 1) mmShift
  let x ← if e2 ≥ 0 then f2dPos p32 e2 mv mp mm acceptBounds else f2dNeg p32 e2 mv mp mm mmShift acceptBounds
  let y ← f2dStep4 acceptBounds x.1
  pure (y.1, x.2 + y.2)

/-! ### 64-bit helpers -/

/-- `umul128` (__nanostrutil.h:487-515): low and high word. -/
def umul128 (a b : Nat) : Nat × Nat :=
  let aLo := w32 a
  let aHi := w32 (a >>> 32)
  let bLo := w32 b
  let bHi := w32 (b >>> 32)
  let b00 := w64 (aLo * bLo)
  let b01 := w64 (aLo * bHi)
  let b10 := w64 (aHi * bLo)
  let b11 := w64 (aHi * bHi)
  let b00Lo := w32 b00
  let b00Hi := w32 (b00 >>> 32)
  let mid1 := w64 (b10 + b00Hi)
  let mid1Lo := w32 mid1
  let mid1Hi := w32 (mid1 >>> 32)
  let mid2 := w64 (b01 + mid1Lo)
  let mid2Lo := w32 mid2
  let mid2Hi := w32 (mid2 >>> 32)
  let pHi := w64 (b11 + mid1Hi + mid2Hi)
  let pLo := w64 (mid2Lo <<< 32) ||| b00Lo
  (pLo, pHi)

/-- `shiftright128` (__nanostrutil.h:518-523). -/
def shiftright128 (lo hi : Nat) (dist : Int) : Option Nat := do
  chk (dist < 64)
  chk (dist > 0)
  pure (w64 (hi <<< (64 - dist.toNat)) ||| (lo >>> dist.toNat))

/-- `umulh` (__nanostrutil.h:532-539). -/
def umulh (a b : Nat) : Nat := (umul128 a b).2

/-- `div5` (__nanostrutil.h:557-559, 598-600). -/
def div5 (p32 : Bool) (x : Nat) : Nat := if p32 then umulh x 0xCCCCCCCCCCCCCCCD >>> 2 else x / 5
/-- `div10` (__nanostrutil.h:562-564, 603-605). -/
def div10 (p32 : Bool) (x : Nat) : Nat := if p32 then umulh x 0xCCCCCCCCCCCCCCCD >>> 3 else x / 10
/-- `div100` (__nanostrutil.h:567-569, 608-610). -/
def div100 (p32 : Bool) (x : Nat) : Nat := if p32 then umulh (x >>> 2) 0x28F5C28F5C28F5C3 >>> 2 else x / 100
/-- `div1e8` (__nanostrutil.h:572-574, 613-615). -/
def div1e8 (p32 : Bool) (x : Nat) : Nat := if p32 then umulh x 0xABCC77118461CEFD >>> 26 else x / 100000000
/-- `div1e9` (__nanostrutil.h:577-579, 618-620). -/
def div1e9 (p32 : Bool) (x : Nat) : Nat := if p32 then umulh (x >>> 9) 0x44B82FA09B5A53 >>> 11 else x / 1000000000
/-- `mod1e9` (__nanostrutil.h:582-593, 623-625). -/
def mod1e9 (p32 : Bool) (x : Nat) : Nat :=
  if p32 then sub32 (w32 x) (w32 (1000000000 * w32 (div1e9 p32 x))) else w32 (sub64 x (w64 (1000000000 * div1e9 p32 x)))

/-- The loop of `pow5Factor` (__nanostrutil.h:630-643). -/
def pow5FactorLoop (p32 : Bool) : Nat → Nat → Nat → Option Nat
  | 0, _, _ => none
  | f + 1, value, count => do
    chk (value ≠ 0)
    let q := div5 p32 value
    let r := sub32 (w32 value) (w32 (5 * w32 q))
    if r ≠ 0 then pure count else pow5FactorLoop p32 f q (count + 1)

def pow5Factor (p32 : Bool) (value : Nat) : Option Nat := pow5FactorLoop p32 64 value 0

/-- `multipleOfPowerOf5` (__nanostrutil.h:647-650). -/
def multipleOfPowerOf5 (p32 : Bool) (value p : Nat) : Option Bool := do
  let c ← pow5Factor p32 value
  pure (decide (c ≥ p))

/-- `multipleOfPowerOf2` (__nanostrutil.h:654-659). -/
def multipleOfPowerOf2 (value p : Nat) : Option Bool := do
  chk (value ≠ 0)
  chk (p < 64)
  pure (value &&& (w64 (1 <<< p) - 1) == 0)

/-- `mulShift64` (__nanostrutil.h:836-847). -/
def mulShift64 (m : Nat) (mul : Nat × Nat) (j : Int) : Option Nat :=
  let p1 := umul128 m mul.2
  let p0 := umul128 m mul.1
  let low1 := p1.1
  let high1 := p1.2
  let high0 := p0.2
  let sum := w64 (high0 + low1)
  let high1 := if sum < high0 then w64 (high1 + 1) else high1
  shiftright128 sum high1 (j - 64)

/-- Truth values as integers. -/
def b2n (p : Prop) [Decidable p] : Nat := if p then 1 else 0

/-- `mulShiftAll64` (__nanostrutil.h:851-882): `vr`, `vp`, `vm`. -/
def mulShiftAll64 (m : Nat) (mul : Nat × Nat) (j : Int) (mmShift : Nat) : Option (Nat × Nat × Nat) := do
  let m := w64 (m <<< 1)
  let p0 := umul128 m mul.1
  let lo := p0.1
  let tmp := p0.2
  let p1 := umul128 m mul.2
  let mid := w64 (tmp + p1.1)
  let hi := w64 (p1.2 + b2n (mid < tmp))
  let lo2 := w64 (lo + mul.1)
  let mid2 := w64 (mid + mul.2 + b2n (lo2 < lo))
  let hi2 := w64 (hi + b2n (mid2 < mid))
  let vp ← shiftright128 mid2 hi2 (j - 64 - 1)
  let vm ← (if mmShift = 1 then
      let lo3 := sub64 lo mul.1
      let mid3 := sub64 (sub64 mid mul.2) (b2n (lo3 > lo))
      let hi3 := sub64 hi (b2n (mid3 > mid))
      shiftright128 mid3 hi3 (j - 64 - 1)
    else
      let lo3 := w64 (lo + lo)
      let mid3 := w64 (mid + mid + b2n (lo3 < lo))
      let hi3 := w64 (hi + hi + b2n (mid3 < mid))
      let lo4 := sub64 lo3 mul.1
      let mid4 := sub64 (sub64 mid3 mul.2) (b2n (lo4 > lo3))
      let hi4 := sub64 hi3 (b2n (mid4 > mid3))
      shiftright128 mid4 hi4 (j - 64))
  let vr ← shiftright128 mid hi (j - 64 - 1)
  pure (vr, vp, vm)

/-! ### d2d -/

/-- First loop of the general case of `d2d` (__nanostrutil.h:1007-1023). -/
def d2dLoop1 (p32 : Bool) : Nat → Red → Option Red
  | 0, _ => none
  | f + 1, s =>
    let vpDiv10 := div10 p32 s.vp
    let vmDiv10 := div10 p32 s.vm
    if vpDiv10 ≤ vmDiv10 then some s
    else
      let vmMod10 := sub32 (w32 s.vm) (w32 (10 * w32 vmDiv10))
      let vrDiv10 := div10 p32 s.vr
      let vrMod10 := sub32 (w32 s.vr) (w32 (10 * w32 vrDiv10))
      d2dLoop1 p32 f { vmTZ := s.vmTZ && vmMod10 == 0, vrTZ := s.vrTZ && s.last == 0, last := vrMod10 % 256, vr := vrDiv10, vp := vpDiv10,
                       vm := vmDiv10, removed := s.removed + 1 }

/-- Second loop (__nanostrutil.h:1028-1045). -/
def d2dLoop2 (p32 : Bool) : Nat → Red → Option Red
  | 0, _ => none
  | f + 1, s =>
    let vmDiv10 := div10 p32 s.vm
    let vmMod10 := sub32 (w32 s.vm) (w32 (10 * w32 vmDiv10))
    if vmMod10 ≠ 0 then some s
    else
      let vpDiv10 := div10 p32 s.vp
      let vrDiv10 := div10 p32 s.vr
      let vrMod10 := sub32 (w32 s.vr) (w32 (10 * w32 vrDiv10))
      d2dLoop2 p32 f { s with vrTZ := s.vrTZ && s.last == 0, last := vrMod10 % 256, vr := vrDiv10, vp := vpDiv10,
                              vm := vmDiv10, removed := s.removed + 1 }

/-- State of the common case. -/
structure RedC where
  vr : Nat
  vp : Nat
  vm : Nat
  roundUp : Bool
  removed : Nat

/-- Loop of the common case (__nanostrutil.h:1074-1087). -/
def d2dLoop3 (p32 : Bool) : Nat → RedC → Option RedC
  | 0, _ => none
  | f + 1, s =>
    let vpDiv10 := div10 p32 s.vp
    let vmDiv10 := div10 p32 s.vm
    if vpDiv10 ≤ vmDiv10 then some s
    else
      let vrDiv10 := div10 p32 s.vr
      let vrMod10 := sub32 (w32 s.vr) (w32 (10 * w32 vrDiv10))
      d2dLoop3 p32 f ⟨vrDiv10, vpDiv10, vmDiv10, decide (vrMod10 ≥ 5), s.removed + 1⟩

/-- Step 4 of `d2d` (__nanostrutil.h:1000-1094). -/
def d2dStep4 (p32 acceptBounds : Bool) (s : Red) : Option (Nat × Nat) :=
  if s.vmTZ || s.vrTZ then do
    let s ← d2dLoop1 p32 30 s
    let s ← (if s.vmTZ then d2dLoop2 p32 30 s else pure s)
    let last := if s.vrTZ && s.last == 5 && s.vr % 2 == 0 then 4 else s.last
    pure (w64 (s.vr + if (s.vr == s.vm && (!acceptBounds || !s.vmTZ)) || last ≥ 5 then 1 else 0), s.removed)
  else do
    let vpDiv100 := div100 p32 s.vp
    let vmDiv100 := div100 p32 s.vm
    let c : RedC := (if vpDiv100 > vmDiv100 then
        let vrDiv100 := div100 p32 s.vr
        let vrMod100 := sub32 (w32 s.vr) (w32 (100 * w32 vrDiv100))
        ⟨vrDiv100, vpDiv100, vmDiv100, decide (vrMod100 ≥ 50), 2⟩
      else ⟨s.vr, s.vp, s.vm, false, 0⟩)
    let s ← d2dLoop3 p32 30 c
    pure (w64 (s.vr + if s.vr == s.vm || s.roundUp then 1 else 0), s.removed)

/-- Step 3 of `d2d` for `e2 >= 0` (__nanostrutil.h:917-952). -/
def d2dPos (p32 : Bool) (e2 : Int) (m2 mv mmShift : Nat) (acceptBounds : Bool) : Option (Red × Int) := do
  let l ← log10Pow2 e2
  let q := sub32 l (b2n (e2 > 3))
  let pb ← pow5bits q
  let k := invBitcount + pb - 1
  let i := -e2 + q + k
  let t ← invSplit[q]?
  let x ← mulShiftAll64 m2 t i mmShift
  let s : Red := ⟨x.1, x.2.1, x.2.2, false, false, 0, 0⟩
  if q ≤ 21 then
    let mvMod5 := sub32 (w32 mv) (w32 (5 * w32 (div5 p32 mv)))
    if mvMod5 = 0 then
      let b ← multipleOfPowerOf5 p32 mv q
      pure ({ s with vrTZ := b }, (q : Int))
    else if acceptBounds then
      let b ← multipleOfPowerOf5 p32 (sub64 (sub64 mv 1) mmShift) q
      pure ({ s with vmTZ := b }, (q : Int))
    else
      let b ← multipleOfPowerOf5 p32 (w64 (mv + 2)) q
      pure ({ s with vp := sub64 s.vp (if b then 1 else 0) }, (q : Int))
  else pure (s, (q : Int))

/-- Step 3 of `d2d` for `e2 < 0` (__nanostrutil.h:953-992). -/
def d2dNeg (e2 : Int) (m2 mv mmShift : Nat) (acceptBounds : Bool) : Option (Red × Int) := do
  let l ← log10Pow5 (-e2)
  let q := sub32 l (b2n (-e2 > 1))
  let e10 := (q : Int) + e2
  let i := -e2 - q
  let pb ← pow5bits i
  let k := pb - powBitcount
  let j := (q : Int) - k
  let t ← powSplit[i.toNat]?
  let x ← mulShiftAll64 m2 t j mmShift
  let s : Red := ⟨x.1, x.2.1, x.2.2, false, false, 0, 0⟩
  if q ≤ 1 then
    if acceptBounds then pure ({ s with vrTZ := true, vmTZ := mmShift == 1 }, e10)
    else pure ({ s with vrTZ := true, vp := sub64 s.vp 1 }, e10)
  else if q < 63 then
    let b ← multipleOfPowerOf2 mv q
    pure ({ s with vrTZ := b }, e10)
  else pure (s, e10)

/-- `d2d` (__nanostrutil.h:886-1107). -/
def d2d (p32 : Bool) (ieeeMantissa ieeeExponent : Nat) : Option (Nat × Int) := do
  let e2 : Int := if ieeeExponent = 0 then 1 - 1023 - 52 - 2 else (ieeeExponent : Int) - 1023 - 52 - 2
  let m2 := if ieeeExponent = 0 then ieeeMantissa else (1 <<< 52) ||| ieeeMantissa
  let even := m2 &&& 1 == 0
  let acceptBounds := even
  let mv := w64 (4 * m2)
  let mmShift := if ieeeMantissa ≠ 0 ∨ ieeeExponent ≤ 1 then 1 else 0
  let x ← if e2 ≥ 0 then d2dPos p32 e2 m2 mv mmShift acceptBounds else d2dNeg e2 m2 mv mmShift acceptBounds
  let y ← d2dStep4 p32 acceptBounds x.1
  pure (y.1, x.2 + y.2)

/-- `d2d_small_int` (__nanostrutil.h:1220-1250): `none` in the result for `false`. -/
def d2dSmallInt (ieeeMantissa ieeeExponent : Nat) : Option (Nat × Int) :=
  let m2 := (1 <<< 52) ||| ieeeMantissa
  let e2 : Int := (ieeeExponent : Int) - 1023 - 52
  if e2 > 0 then none
  else if e2 < -52 then none
  else
    let mask := w64 (1 <<< (-e2).toNat) - 1
    let fraction := m2 &&& mask
    if fraction ≠ 0 then none else some (m2 >>> (-e2).toNat, 0)

/-- The loop of `d2s_buffered_n` that moves trailing zeros into the exponent (__nanostrutil.h:1282-1290). -/
def trimLoop (p32 : Bool) : Nat → Nat × Int → Option (Nat × Int)
  | 0, _ => none
  | f + 1, v =>
    let q := div10 p32 v.1
    let r := sub32 (w32 v.1) (w32 (10 * w32 q))
    if r ≠ 0 then some v else trimLoop p32 f (q, v.2 + 1)

/-- The decimal of a finite nonzero double (__nanostrutil.h:1275-1293). -/
def d2sDecimal (p32 : Bool) (ieeeMantissa ieeeExponent : Nat) : Option (Nat × Int) :=
  match d2dSmallInt ieeeMantissa ieeeExponent with
  | some v => trimLoop p32 20 v
  | none => d2d p32 ieeeMantissa ieeeExponent

end Nanostl.Ryu

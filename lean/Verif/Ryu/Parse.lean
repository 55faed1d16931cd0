import Verif.Ryu.Model
import Verif.Str.ToString
import Verif.Float.Arith

/-!
Model of the decimal parsers `s2f_n` and `s2d_n` (include/__nanostrutil.h:1323-1771) and of `stod` (include/nanostring.h:405-416).
The text is the list of the `len` bytes of the buffer: an access to any other byte gives `none`, as do failed assertions, shifts by a negative
amount or by the width or more, and overflow of a signed integer. The two parsers are the same text up to types and constants; their common parts
are written once, with the constants as parameters.
-/

namespace Nanostl.Ryu
open Nanostl.Str (Byte)

/-- `RyuStatus` (__nanostrutil.h:1310-1315), with the bits stored on success. -/
inductive Status where
  | success (bits : Nat)
  | tooShort
  | tooLong
  | malformed
deriving DecidableEq, Repr

/-- Conversion of an integer to `int32_t`. -/
def i32 (x : Int) : Int := (x + 2 ^ 31) % 2 ^ 32 - 2 ^ 31

/-! ### Logarithms -/

/-- One step of `__myclzi`: `y = x >> k; if (y != 0) { n = n - k; x = y; }`. -/
def clzStep (k : Nat) (s : Nat × Nat) : Nat × Nat := if s.2 >>> k ≠ 0 then (s.1 - k, s.2 >>> k) else s

/-- `__myclzi` (__nanostrutil.h:1323-1337). -/
def myclzi (x : Nat) : Nat :=
  if x = 0 then 32 else
  let s := clzStep 2 (clzStep 4 (clzStep 8 (clzStep 16 (32, x))))
  if s.2 >>> 1 ≠ 0 then s.1 - 2 else s.1 - s.2

/-- `floor_log2` of `uint32_t` (__nanostrutil.h:1340-1344). -/
def floorLog2_32 (value : Nat) : Option Nat := if value = 0 then some 32 else some (sub32 31 (myclzi value))

/-- The loop of `__myclzll` (__nanostrutil.h:1560-1563). -/
def clzllLoop : Nat → Nat → Nat → Option Nat
  | 0, _, _ => none
  | f + 1, x, r => if x &&& (1 <<< 63) = 0 then clzllLoop f (w64 (x <<< 1)) (r + 1) else some r

/-- `__myclzll` (__nanostrutil.h:1555-1566). -/
def myclzll (x : Nat) : Option Nat := if x = 0 then some 64 else clzllLoop 64 x 0

/-- `floor_log2` of `uint64_t` (__nanostrutil.h:1569-1572). -/
def floorLog2_64 (value : Nat) : Option Nat := do
  let r ← myclzll value
  pure (sub32 63 r)

/-! ### Reading the text -/

/-- State of the loop that reads the digits: `i`, `m10`, `m10digits`, `dotIndex`. -/
structure Mant where
  i : Nat
  m10 : Nat
  digits : Nat
  dot : Nat
deriving DecidableEq, Repr

/-- The loop over digits and point (__nanostrutil.h:1377-1396, 1600-1619). `wrap`: the type of `m10`; `maxD`: 9 or 17. -/
def mantLoop (wrap : Nat → Nat) (maxD : Nat) (s : List Byte) : Nat → Mant → Option (Except Status Mant)
  | 0, _ => none
  | f + 1, st =>
    if st.i < s.length then do
      let c ← s[st.i]?
      if c = 46 then
        if st.dot ≠ s.length then pure (.error .malformed)
        else mantLoop wrap maxD s f { st with dot := st.i, i := st.i + 1 }
      else if c < 48 ∨ c > 57 then pure (.ok st)
      else if st.digits ≥ maxD then pure (.error .tooLong)
      else
        let m10 := wrap (10 * st.m10 + (c.toNat - 48))
        mantLoop wrap maxD s f { st with m10 := m10, digits := if m10 ≠ 0 then st.digits + 1 else st.digits, i := st.i + 1 }
    else pure (.ok st)

/-- The loop over the digits of the exponent (__nanostrutil.h:1404-1417, 1627-1640): `i`, `e10`, `e10digits`; gives `i` and `e10`. -/
def expLoop (s : List Byte) : Nat → Nat → Nat → Nat → Option (Except Status (Nat × Nat))
  | 0, _, _, _ => none
  | f + 1, i, e10, e10digits =>
    if i < s.length then do
      let c ← s[i]?
      if c < 48 ∨ c > 57 then pure (.error .malformed)
      else if e10digits > 3 then pure (.error .tooLong)
      else do
        chk (10 * e10 + (c.toNat - 48) < 2 ^ 31)
        let e10 := 10 * e10 + (c.toNat - 48)
        expLoop s f (i + 1) e10 (if e10 ≠ 0 then e10digits + 1 else e10digits)
    else pure (.ok (i, e10))

/-- `i < len && (buffer[i] == a || buffer[i] == b)`. -/
def at2 (s : List Byte) (i : Nat) (a b : Byte) : Option Bool :=
  if i < s.length then do
    let c ← s[i]?
    pure (c == a || c == b)
  else pure false

/-- What the exponent part leaves: `i`, `eIndex`, `signedE`, `e10`. -/
structure ExpPart where
  i : Nat
  eIndex : Nat
  signedE : Bool
  e10 : Nat

/-- The exponent (__nanostrutil.h:1397-1418, 1620-1641). -/
def expPart (s : List Byte) (i : Nat) : Option (Except Status ExpPart) := do
  let isE ← at2 s i 101 69
  if isE then do
    let eIndex := i
    let i := i + 1
    let isSign ← at2 s i 45 43
    let signedE ← (if isSign then do
        let c ← s[i]?
        pure (c == 45)
      else pure false)
    let i := if isSign then i + 1 else i
    match ← expLoop s (s.length + 1) i 0 0 with
    | .error e => pure (.error e)
    | .ok (i, e10) => pure (.ok ⟨i, eIndex, signedE, e10⟩)
  else pure (.ok ⟨i, s.length, false, 0⟩)

/-- What the text says: sign, `m10`, `m10digits`, `e10`. -/
structure Parsed where
  neg : Bool
  m10 : Nat
  digits : Nat
  e10 : Int
deriving DecidableEq, Repr

/-- The sign of the number and the position after it (__nanostrutil.h:1373-1376, 1596-1599). -/
def signPart (s : List Byte) : Option (Bool × Nat) := do
  let c ← s[0]?
  pure (if c = 45 then (true, 1) else (false, 0))

/-- The end of the reading part (__nanostrutil.h:1419-1429, 1642-1652). -/
def parseEnd (s : List Byte) (neg : Bool) (st : Mant) (x : ExpPart) : Option (Except Status Parsed) :=
  if x.i < s.length then pure (.error .malformed) else do
    let e10 : Int := if x.signedE then -(x.e10 : Int) else x.e10
    let e10 := e10 - (if st.dot < x.eIndex then (x.eIndex : Int) - st.dot - 1 else 0)
    chk (-2 ^ 31 ≤ e10)
    pure (.ok ⟨neg, st.m10, st.digits, e10⟩)

/-- The reading part of both parsers (__nanostrutil.h:1361-1429, 1584-1652). -/
def parseText (wrap : Nat → Nat) (maxD : Nat) (s : List Byte) : Option (Except Status Parsed) :=
  if s.length = 0 then pure (.error .tooShort) else do
    let sg ← signPart s
    match ← mantLoop wrap maxD s (s.length + 1) ⟨sg.2, 0, 0, s.length⟩ with
    | .error e => pure (.error e)
    | .ok st =>
      match ← expPart s st.i with
      | .error e => pure (.error e)
      | .ok x => parseEnd s sg.1 st x

/-! ### Conversion -/

/-- Constants of a format: `RYU_*_MANTISSA_BITS`, `RYU_*_EXPONENT_BITS`, `RYU_*_EXPONENT_BIAS` (__nanostrutil.h:57-65), the width of the
integer that holds the significand. -/
structure Consts where
  mb : Nat
  eb : Nat
  bias : Nat
  width : Nat

def cFloat : Consts := ⟨23, 8, 127, 32⟩
def cDouble : Consts := ⟨52, 11, 1023, 64⟩

def Consts.zero (c : Consts) (neg : Bool) : Nat := neg.toNat <<< (c.eb + c.mb)
def Consts.infinity (c : Consts) (neg : Bool) : Nat := (neg.toNat <<< (c.eb + c.mb)) ||| ((2 ^ c.eb - 1) <<< c.mb)

/-- The end of both parsers: rounding `m2 * 2^e2` and packing it (__nanostrutil.h:1505-1548, 1728-1770). -/
def packBits (c : Consts) (floorLog2 : Nat → Option Nat) (neg : Bool) (e2 : Int) (m2 : Nat) (trailingZeros : Bool) : Option Nat := do
  let l ← floorLog2 m2
  let ieee_e2 := (max 0 (i32 (e2 + c.bias + l))).toNat
  if ieee_e2 > 2 ^ c.eb - 2 then pure (c.infinity neg)
  else do
    let shift := i32 ((if ieee_e2 = 0 then 1 else (ieee_e2 : Int)) - e2 - c.bias - c.mb)
    chk (0 ≤ shift)
    chk (0 ≤ shift - 1 ∧ shift < c.width)
    let trailingZeros := trailingZeros && (m2 &&& (1 <<< (shift - 1).toNat - 1)) == 0
    let lastRemovedBit := (m2 >>> (shift - 1).toNat) &&& 1
    let roundUp := lastRemovedBit != 0 && (!trailingZeros || ((m2 >>> shift.toNat) &&& 1) != 0)
    let ieee_m2 := ((m2 >>> shift.toNat) + roundUp.toNat) % 2 ^ c.width
    chk (ieee_m2 ≤ 1 <<< (c.mb + 1))
    let ieee_m2 := ieee_m2 &&& (1 <<< c.mb - 1)
    let ieee_e2 := if ieee_m2 = 0 ∧ roundUp then ieee_e2 + 1 else ieee_e2
    pure ((((neg.toNat <<< c.eb) ||| ieee_e2) <<< c.mb) ||| ieee_m2)

/-- `e2 < e10 || (e2 - e10 < width && multipleOfPowerOf2(m10, e2 - e10))`. -/
def dividesPow2 (width : Nat) (mult : Nat → Nat → Option Bool) (m10 : Nat) (d : Int) : Option Bool :=
  if d < 0 then pure true else if d < width then mult m10 d.toNat else pure false

/-- Scaling to binary in `s2f_n` (__nanostrutil.h:1450-1498): `e2`, `m2`, `trailingZeros`. -/
def scale32 (p32 : Bool) (m10 : Nat) (e10 : Int) : Option (Int × Nat × Bool) := do
  let l ← floorLog2_32 m10
  if e10 ≥ 0 then do
    let lp ← log2pow5 e10
    let e2 := i32 (l + e10 + lp - (23 + 1))
    let j := e2 - e10 - (← ceilLog2pow5 e10) + floatPow5Bitcount
    chk (0 ≤ j)
    let m2 ← mulPow5divPow2 p32 m10 e10.toNat j
    let tz ← dividesPow2 32 multipleOfPowerOf2_32 m10 (e2 - e10)
    pure (e2, m2, tz)
  else do
    let lp ← ceilLog2pow5 (-e10)
    let e2 := i32 (l + e10 - lp - (23 + 1))
    let j := e2 - e10 + lp - 1 + floatPow5InvBitcount
    let m2 ← mulPow5InvDivPow2 p32 m10 (-e10).toNat j
    let t2 ← dividesPow2 32 multipleOfPowerOf2_32 m10 (e2 - e10)
    let tz ← (if t2 then multipleOfPowerOf5_32 m10 (-e10).toNat else pure false)
    pure (e2, m2, tz)

/-- Scaling to binary in `s2d_n` (__nanostrutil.h:1673-1721). -/
def scale64 (p32 : Bool) (m10 : Nat) (e10 : Int) : Option (Int × Nat × Bool) := do
  let l ← floorLog2_64 m10
  if e10 ≥ 0 then do
    let lp ← log2pow5 e10
    let e2 := i32 (l + e10 + lp - (52 + 1))
    let j := e2 - e10 - (← ceilLog2pow5 e10) + powBitcount
    chk (0 ≤ j)
    chk (e10 < 326)
    let t ← powSplit[e10.toNat]?
    let m2 ← mulShift64 m10 t j
    let tz ← dividesPow2 64 multipleOfPowerOf2 m10 (e2 - e10)
    pure (e2, m2, tz)
  else do
    let lp ← ceilLog2pow5 (-e10)
    let e2 := i32 (l + e10 - lp - (52 + 1))
    let j := e2 - e10 + lp - 1 + invBitcount
    chk (-e10 < 342)
    let t ← invSplit[(-e10).toNat]?
    let m2 ← mulShift64 m10 t j
    let tz ← multipleOfPowerOf5 p32 m10 (-e10).toNat
    pure (e2, m2, tz)

/-- The conversion in `s2f_n` (__nanostrutil.h:1430-1549). -/
def convert32 (p32 : Bool) (x : Parsed) : Option Nat :=
  if x.m10 = 0 then pure (cFloat.zero x.neg)
  else if x.digits + x.e10 ≤ -46 ∨ x.m10 = 0 then pure (cFloat.zero x.neg)
  else if x.digits + x.e10 ≥ 40 then pure (cFloat.infinity x.neg)
  else do
    let r ← scale32 p32 x.m10 x.e10
    packBits cFloat floorLog2_32 x.neg r.1 r.2.1 r.2.2

/-- The conversion in `s2d_n` (__nanostrutil.h:1653-1771). -/
def convert64 (p32 : Bool) (x : Parsed) : Option Nat :=
  if x.m10 = 0 then pure (cDouble.zero x.neg)
  else if x.digits + x.e10 ≤ -324 ∨ x.m10 = 0 then pure (cDouble.zero x.neg)
  else if x.digits + x.e10 ≥ 310 then pure (cDouble.infinity x.neg)
  else do
    let r ← scale64 p32 x.m10 x.e10
    packBits cDouble floorLog2_64 x.neg r.1 r.2.1 r.2.2

/-- `s2f_n` (__nanostrutil.h:1360-1549). -/
def s2f (p32 : Bool) (s : List Byte) : Option Status := do
  match ← parseText w32 9 s with
  | .error e => pure e
  | .ok x => do
    let b ← convert32 p32 x
    pure (.success b)

/-- `s2d_n` (__nanostrutil.h:1583-1771). -/
def s2d (p32 : Bool) (s : List Byte) : Option Status := do
  match ← parseText w64 17 s with
  | .error e => pure e
  | .ok x => do
    let b ← convert64 p32 x
    pure (.success b)

/-- Conversion of a floating-point value to another format: rounded to nearest even, infinities kept, NaN to NaN (language semantics). -/
def convertFmt (φ ψ : Nanostl.Float.Fmt) (x : Nat) : Nat :=
  if φ.expo x = φ.emax then if φ.frac x = 0 then ψ.withSign (φ.sign x) ψ.inf else ψ.qnan
  else ψ.round (φ.sign x) (φ.mag (φ.low x) * ψ.one) φ.one

/-- `stod` (nanostring.h:405-416), the returned bit pattern. The return type is `float`: the parsed `double` is converted. On a parse error the
signaling NaN of `double` (a NaN, whichever pattern: numeric_limits) is converted to `float`. `idx` is not used by the code. -/
def stod (p32 : Bool) (s : List Byte) : Option Nat := do
  match ← s2d p32 s with
  | .success b => pure (convertFmt Nanostl.Float.f64 Nanostl.Float.f32 b)
  | _ => pure Nanostl.Float.f32.qnan

end Nanostl.Ryu

import Verif.FastFloat.Model
import Verif.Str.ToString

/-!
Model of the text part of `fast_float` (include/fast_float/ascii_number.h) and of `parse_infnan` (parse_number.h:22-61). The text is the list of
the bytes of `[first, last)`; pointers are indices into it and an access to any other byte gives `none`. Differences of pointers and the exponent
are unbounded integers (`int64_t` in the code; the text has at most `2^63` bytes).
-/

namespace Nanostl.FastFloat
open Nanostl.Float
open Nanostl.Str (Byte)
open Nanostl.Ryu (w64 sub64 chk)

/-- `is_integer` (ascii_number.h:15). -/
def isInteger (c : Byte) : Bool := decide (c ≥ 48) && decide (c ≤ 57)

/-- The little-endian word of some bytes. -/
def leWord : List Byte → Nat
  | [] => 0
  | c :: l => c.toNat + 256 * leWord l

/-- `read_u64` (ascii_number.h:28-36); eight bytes must be readable. -/
def readU64 (s : List Byte) (p : Nat) : Option Nat := do
  chk (p + 8 ≤ s.length)
  pure (leWord ((s.drop p).take 8))

/-- `parse_eight_digits_unrolled` (ascii_number.h:47-59). -/
def parseEight (val : Nat) : Nat :=
  let mask := 0x000000FF000000FF
  let mul1 := 0x000F424000000064
  let mul2 := 0x0000271000000001
  let val := sub64 val 0x3030303030303030
  let val := w64 (w64 (val * 10) + (val >>> 8))
  let val := w64 (w64 ((val &&& mask) * mul1) + w64 (((val >>> 16) &&& mask) * mul2)) >>> 32
  val % 2 ^ 32

/-- `is_made_of_eight_digits_fast` (ascii_number.h:62-69). -/
def isEight (val : Nat) : Bool :=
  decide ((w64 (val + 0x4646464646464646) ||| sub64 val 0x3030303030303030) &&& 0x8080808080808080 = 0)

/-- The loops over eight digits (ascii_number.h:109-112, 129-132): the position and the number. -/
def eightLoop (s : List Byte) : Nat → Nat → Nat → Option (Nat × Nat)
  | 0, _, _ => none
  | f + 1, p, i => if s.length - p ≥ 8 then do
      let v ← readU64 s p
      if isEight v then eightLoop s f (p + 8) (w64 (w64 (i * 100000000) + parseEight v)) else pure (p, i)
    else pure (p, i)

/-- The loops over single digits (ascii_number.h:113-119, 133-137). -/
def oneLoop (s : List Byte) : Nat → Nat → Nat → Option (Nat × Nat)
  | 0, _, _ => none
  | f + 1, p, i => if p ≠ s.length then do
      let c ← s[p]?
      if isInteger c then oneLoop s f (p + 1) (w64 (w64 (10 * i) + (c.toNat - 48))) else pure (p, i)
    else pure (p, i)

/-- Both loops one after the other. -/
def digitLoops (s : List Byte) (p i : Nat) : Option (Nat × Nat) := do
  let r ← eightLoop s (s.length + 1) p i
  oneLoop s (s.length + 1) r.1 r.2

/-- `parse_options` (fast_float.h:20-29): the bits `scientific` and `fixed` of the format, the decimal point. The bit `hex` is not looked at. -/
structure Options where
  scientific : Bool
  fixed : Bool
  decimalPoint : Byte

/-- The default: `chars_format::general` and a dot. -/
def general : Options := ⟨true, true, 46⟩

/-- `parsed_number_string` (ascii_number.h:73-83) of a valid number; spans are position and length, `fraction` is `none` for a null pointer. -/
structure PNS where
  exponent : Int
  mantissa : Nat
  lastmatch : Nat
  negative : Bool
  tooManyDigits : Bool
  integer : Nat × Nat
  fraction : Option (Nat × Nat)
deriving DecidableEq, Repr

/-- The loop over the digits of the exponent (ascii_number.h:165-171). -/
def expLoop (s : List Byte) : Nat → Nat → Nat → Option (Nat × Nat)
  | 0, _, _ => none
  | f + 1, p, e => if p ≠ s.length then do
      let c ← s[p]?
      if isInteger c then expLoop s f (p + 1) (if e < 0x10000000 then 10 * e + (c.toNat - 48) else e) else pure (p, e)
    else pure (p, e)

/-- `(p != pend) && (c == *p)`. -/
def at1 (s : List Byte) (p : Nat) (c : Byte) : Option Bool :=
  if p ≠ s.length then do
    let d ← s[p]?
    pure (d == c)
  else pure false

/-- `(p != pend) && is_integer(*p)`. -/
def atDigit (s : List Byte) (p : Nat) : Option Bool :=
  if p ≠ s.length then do
    let d ← s[p]?
    pure (isInteger d)
  else pure false

/-- The exponent (ascii_number.h:146-178): `none` inside: an error; otherwise the position and `exp_number`. -/
def expPart (s : List Byte) (o : Options) (p : Nat) : Option (Option (Nat × Int)) := do
  let isE ← if o.scientific then do
      let a ← at1 s p 101
      let b ← at1 s p 69
      pure (a || b)
    else pure false
  if isE then do
    let locationOfE := p
    let p := p + 1
    let minus ← at1 s p 45
    let plus ← at1 s p 43
    let p := if minus || plus then p + 1 else p
    let d ← atDigit s p
    if d then do
      let r ← expLoop s (s.length + 1) p 0
      pure (some (r.1, if minus then -(r.2 : Int) else r.2))
    else if o.fixed then pure (some (locationOfE, 0)) else pure none
  else if o.scientific && !o.fixed then pure none else pure (some (p, 0))

/-- The loop that discounts leading zeros (ascii_number.h:192-196): what is left of the count. -/
def zeroLoop (s : List Byte) (dp : Byte) : Nat → Nat → Int → Option Int
  | 0, _, _ => none
  | f + 1, start, count => if start ≠ s.length then do
      let c ← s[start]?
      if c = 48 ∨ c = dp then zeroLoop s dp f (start + 1) (if c = 48 then count - 1 else count) else pure count
    else pure count

/-- The loops that read at most nineteen digits (ascii_number.h:206-209, 215-218). -/
def nineteenLoop (s : List Byte) (stop : Nat) : Nat → Nat → Nat → Option (Nat × Nat)
  | 0, _, _ => none
  | f + 1, p, i => if i < 1000000000000000000 ∧ p ≠ stop then do
      let c ← s[p]?
      nineteenLoop s stop f (p + 1) (w64 (w64 (i * 10) + (c.toNat - 48)))
    else pure (p, i)

/-- The number read again from at most nineteen digits (ascii_number.h:198-222): `exponent` and `i`. -/
def reread (s : List Byte) (integer : Nat × Nat) (fraction : Option (Nat × Nat)) (expNumber : Int) : Option (Int × Nat) := do
  let r ← nineteenLoop s (integer.1 + integer.2) (s.length + 1) integer.1 0
  if r.2 ≥ 1000000000000000000 then pure ((integer.1 + integer.2 : Nat) - (r.1 : Int) + expNumber, r.2)
  else
    let fr := fraction.getD (0, 0)
    let t ← nineteenLoop s (fr.1 + fr.2) (s.length + 1) fr.1 r.2
    pure ((fr.1 : Int) - t.1 + expNumber, t.2)

/-- The fraction (ascii_number.h:124-141): the position, the number and the span. -/
def fracPart (s : List Byte) (o : Options) (p i : Nat) : Option (Nat × Nat × Option (Nat × Nat)) := do
  let d ← at1 s p o.decimalPoint
  if d then do
    let before := p + 1
    let r ← digitLoops s before i
    pure (r.1, r.2, some (before, r.1 - before))
  else pure (p, i, none)

/-- `parse_number_string` from the digits on (ascii_number.h:105-226); `none` inside: not valid. -/
def parseDigits (s : List Byte) (o : Options) (negative : Bool) (startDigits : Nat) : Option (Option PNS) := do
  let r ← digitLoops s startDigits 0
  let endInt := r.1
  let integer := (startDigits, endInt - startDigits)
  let fr ← fracPart s o r.1 r.2
  let p := fr.1
  let fraction := fr.2.2
  let exponent : Int := -((fraction.map (·.2)).getD 0 : Nat)
  let digitCount : Int := (endInt - startDigits : Nat) - exponent
  if digitCount = 0 then pure none
  else do
    match ← expPart s o p with
    | none => pure none
    | some (p, expNumber) => do
      let exponent := exponent + expNumber
      let answer : PNS := ⟨exponent, fr.2.1, p, negative, false, integer, fraction⟩
      if digitCount > 19 then do
        let digitCount ← zeroLoop s o.decimalPoint (s.length + 1) startDigits digitCount
        if digitCount > 19 then do
          let t ← reread s integer fraction expNumber
          pure (some { answer with exponent := t.1, mantissa := t.2, tooManyDigits := true })
        else pure (some answer)
      else pure (some answer)

/-- `parse_number_string` (ascii_number.h:87-227). -/
def parseNumberString (s : List Byte) (o : Options) : Option (Option PNS) := do
  let c ← s[0]?
  if c = 45 then
    if 1 = s.length then pure none
    else do
      let d ← s[1]?
      if !isInteger d && d != o.decimalPoint then pure none
      else parseDigits s o true 1
  else parseDigits s o false 0

/-- `fastfloat_strncasecmp` (float_common.h:95-102) with a literal. -/
def strncasecmp (s : List Byte) (p : Nat) : List Byte → Byte → Option Bool
  | [], diff => pure (diff == 0 || diff == 32)
  | c :: l, diff => do
    let d ← s[p]?
    strncasecmp s (p + 1) l (diff ||| (d ^^^ c))

/-- Outcome of `from_chars`: the position, and the bits stored unless the error is `invalid_argument`. -/
structure Result where
  ptr : Nat
  value : Option Nat
deriving DecidableEq, Repr

/-- The loop over the characters of `nan(...)` (parse_number.h:38-45): the position after `)`, if it comes. -/
def nanLoop (s : List Byte) : Nat → Nat → Option (Option Nat)
  | 0, _ => none
  | f + 1, p => if p ≠ s.length then do
      let c ← s[p]?
      if c = 41 then pure (some (p + 1))
      else if !((decide (97 ≤ c) && decide (c ≤ 122)) || (decide (65 ≤ c) && decide (c ≤ 90)) || (decide (48 ≤ c) && decide (c ≤ 57)) || c == 95) then pure none
      else nanLoop s f (p + 1)
    else pure none

/-- `parse_infnan` (parse_number.h:22-61). -/
def parseInfnan (b : Bin) (s : List Byte) : Option Result := do
  let c ← s[0]?
  let minusSign := c == 45
  let first := if minusSign then 1 else 0
  if s.length - first ≥ 3 then do
    let isNan ← strncasecmp s first [110, 97, 110] 0
    if isNan then do
      let first := first + 3
      let value := if minusSign then b.fmt.neg b.fmt.qnan else b.fmt.qnan
      let paren ← at1 s first 40
      if paren then do
        let e ← nanLoop s (s.length + 1) (first + 1)
        pure ⟨e.getD first, some value⟩
      else pure ⟨first, some value⟩
    else do
      let isInf ← strncasecmp s first [105, 110, 102] 0
      if isInf then do
        let long ← if s.length - first ≥ 8 then strncasecmp s (first + 3) [105, 110, 105, 116, 121] 0 else pure false
        let value := if minusSign then b.fmt.neg b.fmt.inf else b.fmt.inf
        pure ⟨if long then first + 8 else first + 3, some value⟩
      else pure ⟨0, none⟩
  else pure ⟨0, none⟩

end Nanostl.FastFloat

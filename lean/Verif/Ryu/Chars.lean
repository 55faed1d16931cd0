import Verif.Ryu.Model
import Verif.Str.ToString

/-!
Model of the printing half of `include/__nanostrutil.h`: digits and exponent to text (`to_chars`), the buffered conversions, and
`to_string(float)`, `to_string(double)` of nanostring.h. Buffers are lists of bytes with any initial contents; `none` stands in addition for an
access outside a buffer or outside `DIGIT_TABLE`.
-/

namespace Nanostl.Ryu
open Nanostl.Str (Byte toChar)

/-- `DIGIT_TABLE` (__nanostrutil.h:665-676). -/
def digitTable : List Byte := [
  48, 48, 48, 49, 48, 50, 48, 51, 48, 52, 48, 53, 48, 54, 48, 55, 48, 56, 48, 57,
  49, 48, 49, 49, 49, 50, 49, 51, 49, 52, 49, 53, 49, 54, 49, 55, 49, 56, 49, 57,
  50, 48, 50, 49, 50, 50, 50, 51, 50, 52, 50, 53, 50, 54, 50, 55, 50, 56, 50, 57,
  51, 48, 51, 49, 51, 50, 51, 51, 51, 52, 51, 53, 51, 54, 51, 55, 51, 56, 51, 57,
  52, 48, 52, 49, 52, 50, 52, 51, 52, 52, 52, 53, 52, 54, 52, 55, 52, 56, 52, 57,
  53, 48, 53, 49, 53, 50, 53, 51, 53, 52, 53, 53, 53, 54, 53, 55, 53, 56, 53, 57,
  54, 48, 54, 49, 54, 50, 54, 51, 54, 52, 54, 53, 54, 54, 54, 55, 54, 56, 54, 57,
  55, 48, 55, 49, 55, 50, 55, 51, 55, 52, 55, 53, 55, 54, 55, 55, 55, 56, 55, 57,
  56, 48, 56, 49, 56, 50, 56, 51, 56, 52, 56, 53, 56, 54, 56, 55, 56, 56, 56, 57,
  57, 48, 57, 49, 57, 50, 57, 51, 57, 52, 57, 53, 57, 54, 57, 55, 57, 56, 57, 57]

/-- `result[pos] = c`. -/
def poke (buf : List Byte) (pos : Int) (c : Byte) : Option (List Byte) :=
  if 0 ≤ pos ∧ pos < buf.length then some (buf.set pos.toNat c) else none

/-- `memcpy(result + pos, DIGIT_TABLE + off, 2)`. -/
def poke2 (buf : List Byte) (pos : Int) (off : Nat) : Option (List Byte) := do
  let a ← digitTable[off]?
  let b ← digitTable[off + 1]?
  let buf ← poke buf pos a
  poke buf (pos + 1) b

/-- `memcpy` of a string literal. -/
def pokeStr : List Byte → Int → List Byte → Option (List Byte)
  | buf, _, [] => some buf
  | buf, pos, c :: cs => (poke buf pos c).bind fun buf => pokeStr buf (pos + 1) cs

/-- `copy_special_str` (__nanostrutil.h:679-693). -/
def copySpecial (buf : List Byte) (sign exponent mantissa : Bool) : Option (List Byte × Nat) :=
  if mantissa then (pokeStr buf 0 [78, 97, 78]).map (·, 3)
  else do
    let buf ← if sign then poke buf 0 45 else some buf
    let s := sign.toNat
    if exponent then (pokeStr buf s [73, 110, 102, 105, 110, 105, 116, 121]).map (·, s + 8)
    else (pokeStr buf s [48, 69, 48]).map (·, s + 3)

/-- `decimalLength9` (__nanostrutil.h:416-430). -/
def decimalLength9 (v : Nat) : Option Nat := do
  chk (v < 1000000000)
  pure <|
    if v ≥ 100000000 then 9 else if v ≥ 10000000 then 8 else if v ≥ 1000000 then 7 else if v ≥ 100000 then 6 else if v ≥ 10000 then 5
    else if v ≥ 1000 then 4 else if v ≥ 100 then 3 else if v ≥ 10 then 2 else 1

/-- `decimalLength17` (__nanostrutil.h:433-456). -/
def decimalLength17 (v : Nat) : Option Nat := do
  chk (v < 100000000000000000)
  pure <|
    if v ≥ 10000000000000000 then 17 else if v ≥ 1000000000000000 then 16 else if v ≥ 100000000000000 then 15
    else if v ≥ 10000000000000 then 14 else if v ≥ 1000000000000 then 13 else if v ≥ 100000000000 then 12
    else if v ≥ 10000000000 then 11 else if v ≥ 1000000000 then 10
    else if v ≥ 100000000 then 9 else if v ≥ 10000000 then 8 else if v ≥ 1000000 then 7 else if v ≥ 100000 then 6 else if v ≥ 10000 then 5
    else if v ≥ 1000 then 4 else if v ≥ 100 then 3 else if v ≥ 10 then 2 else 1

/-- The loop printing four digits at a time (__nanostrutil.h:735-748, 1160-1172); `base` is `index + olength`. The result is the rest of
`output`, `i` and the buffer. Three rounds are enough for 32 bits. -/
def digits4 (base : Int) : Nat → Nat → Nat → List Byte → Option (Nat × Nat × List Byte)
  | 0, _, _, _ => none
  | f + 1, output, i, buf =>
    if output ≥ 10000 then do
      let c := output % 10000
      let c0 := (c % 100) <<< 1
      let c1 := (c / 100) <<< 1
      let buf ← poke2 buf (base - i - 1) c0
      let buf ← poke2 buf (base - i - 3) c1
      digits4 base f (output / 10000) (i + 4) buf
    else some (output, i, buf)

/-- The last one or two digits (__nanostrutil.h:755-762, 1179-1186). -/
def digitsLast (index olength output i : Nat) (buf : List Byte) : Option (List Byte) :=
  if output ≥ 10 then do
    let b ← digitTable[output <<< 1 + 1]?
    let buf ← poke buf (sub32 (index + olength) i) b
    let a ← digitTable[output <<< 1]?
    poke buf index a
  else poke buf index (toChar (48 + output))

/-- The remaining one to four digits (__nanostrutil.h:749-762, 1173-1186). -/
def digitsEnd (index olength output i : Nat) (buf : List Byte) : Option (List Byte) :=
  if output ≥ 100 then do
    let buf ← poke2 buf ((index : Int) + olength - i - 1) ((output % 100) <<< 1)
    digitsLast index olength (output / 100) (i + 2) buf
  else digitsLast index olength output i buf

/-- The decimal point, `E` and the sign of the exponent (__nanostrutil.h:764-778, 1188-1202). Result: buffer, index, magnitude of the exponent. -/
def pointAndE (index olength : Nat) (exponent : Int) (buf : List Byte) : Option (List Byte × Nat × Nat) := do
  let (buf, index) ←
    if olength > 1 then do
      let buf ← poke buf (index + 1) 46
      pure (buf, index + olength + 1)
    else some (buf, index + 1)
  let buf ← poke buf index 69
  let exp : Int := exponent + olength - 1
  if exp < 0 then do
    let buf ← poke buf (index + 1) 45
    pure (buf, index + 2, (-exp).toNat)
  else some (buf, index + 1, exp.toNat)

/-- The minus sign (__nanostrutil.h:714-717, 1113-1116). -/
def putSign (sign : Bool) (buf : List Byte) : Option (List Byte × Nat) := if sign then (poke buf 0 45).map (·, 1) else some (buf, 0)

/-- `to_chars(floating_decimal_32, …)` (__nanostrutil.h:712-788). -/
def toChars32 (o : Nat) (exponent : Int) (sign : Bool) (buf : List Byte) : Option (List Byte × Nat) := do
  let (buf, index) ← putSign sign buf
  let olength ← decimalLength9 o
  let (output, i, buf) ← digits4 ((index : Int) + olength) 4 o 0 buf
  let buf ← digitsEnd index olength output i buf
  let (buf, index, exp) ← pointAndE index olength exponent buf
  if exp ≥ 10 then do
    let buf ← poke2 buf index (2 * exp)
    pure (buf, index + 2)
  else do
    let buf ← poke buf index (toChar (48 + exp))
    pure (buf, index + 1)

/-- Cutting off eight digits (__nanostrutil.h:1141-1158). -/
def cut8 (p32 : Bool) (base : Int) (output : Nat) (buf : List Byte) : Option (Nat × Nat × List Byte) :=
  if output >>> 32 ≠ 0 then do
    let q := div1e8 p32 output
    let output2 := sub32 (w32 output) (w32 (100000000 * w32 q))
    let c := output2 % 10000
    let output2 := output2 / 10000
    let d := output2 % 10000
    let buf ← poke2 buf (base - 0 - 1) ((c % 100) <<< 1)
    let buf ← poke2 buf (base - 0 - 3) ((c / 100) <<< 1)
    let buf ← poke2 buf (base - 0 - 5) ((d % 100) <<< 1)
    let buf ← poke2 buf (base - 0 - 7) ((d / 100) <<< 1)
    pure (q, 8, buf)
  else some (output, 0, buf)

/-- `to_chars(floating_decimal_64, …)` (__nanostrutil.h:1111-1217). -/
def toChars64 (p32 : Bool) (o : Nat) (exponent : Int) (sign : Bool) (buf : List Byte) : Option (List Byte × Nat) := do
  let (buf, index) ← putSign sign buf
  let olength ← decimalLength17 o
  let (output, i, buf) ← cut8 p32 ((index : Int) + olength) o buf
  let (output, i, buf) ← digits4 ((index : Int) + olength) 4 (w32 output) i buf
  let buf ← digitsEnd index olength output i buf
  let (buf, index, exp) ← pointAndE index olength exponent buf
  if exp ≥ 100 then do
    let buf ← poke2 buf index (2 * (exp / 10))
    let buf ← poke buf (index + 2) (toChar (48 + (exp % 10 : Nat)))
    pure (buf, index + 3)
  else if exp ≥ 10 then do
    let buf ← poke2 buf index (2 * exp)
    pure (buf, index + 2)
  else do
    let buf ← poke buf index (toChar (48 + exp))
    pure (buf, index + 1)

/-- `f2s_buffered_n` (__nanostrutil.h:791-816). -/
def f2sBufferedN (p32 : Bool) (bits : Nat) (buf : List Byte) : Option (List Byte × Nat) := do
  let ieeeSign := (bits >>> 31) &&& 1 != 0
  let ieeeMantissa := bits &&& (1 <<< 23 - 1)
  let ieeeExponent := (bits >>> 23) &&& (1 <<< 8 - 1)
  if ieeeExponent = 1 <<< 8 - 1 ∨ (ieeeExponent = 0 ∧ ieeeMantissa = 0) then copySpecial buf ieeeSign (ieeeExponent != 0) (ieeeMantissa != 0)
  else do
    let v ← f2d p32 ieeeMantissa ieeeExponent
    toChars32 v.1 v.2 ieeeSign buf

/-- `d2s_buffered_n` (__nanostrutil.h:1254-1296). -/
def d2sBufferedN (p32 : Bool) (bits : Nat) (buf : List Byte) : Option (List Byte × Nat) := do
  let ieeeSign := (bits >>> 63) &&& 1 != 0
  let ieeeMantissa := bits &&& (1 <<< 52 - 1)
  let ieeeExponent := (bits >>> 52) &&& (1 <<< 11 - 1)
  if ieeeExponent = 1 <<< 11 - 1 ∨ (ieeeExponent = 0 ∧ ieeeMantissa = 0) then copySpecial buf ieeeSign (ieeeExponent != 0) (ieeeMantissa != 0)
  else do
    let v ← d2sDecimal p32 ieeeMantissa ieeeExponent
    toChars64 p32 v.1 v.2 ieeeSign buf

/-- `f2s_buffered` and `d2s_buffered` (__nanostrutil.h:819-825, 1299-1305): terminate the string. -/
def terminate (x : List Byte × Nat) : Option (List Byte) := poke x.1 x.2 0

/-- The bytes before the first zero byte, what `string(buf)` copies; `none` if there is no zero byte. -/
def cstr : List Byte → Option (List Byte)
  | [] => none
  | c :: cs => if c = 0 then some [] else (cstr cs).map (c :: ·)

/-- `to_string(float)` (nanostring.h:372-377). The argument `buf` is the uninitialised local array. -/
def toStringFloat (p32 : Bool) (bits : Nat) (buf : List Byte) : Option (List Byte) := do
  let x ← f2sBufferedN p32 bits buf
  let buf ← terminate x
  cstr buf

/-- `to_string(double)` (nanostring.h:380-385). -/
def toStringDouble (p32 : Bool) (bits : Nat) (buf : List Byte) : Option (List Byte) := do
  let x ← d2sBufferedN p32 bits buf
  let buf ← terminate x
  cstr buf

end Nanostl.Ryu

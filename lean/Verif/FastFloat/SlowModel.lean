import Verif.FastFloat.BigModel
import Verif.FastFloat.TextModel

/-!
Model of the slow path of `fast_float` (include/fast_float/digit_comparison.h) and of `from_chars` (parse_number.h:65-109).
-/

namespace Nanostl.FastFloat
open Nanostl.Float
open Nanostl.Str (Byte)
open Nanostl.Ryu (w64 chk)

/-- `powers_of_ten_uint64` (digit_comparison.h:16-20). -/
def powersOfTenU64 : List Nat := [
  1, 10, 100, 1000, 10000, 100000, 1000000, 10000000, 100000000, 1000000000, 10000000000, 100000000000, 1000000000000, 10000000000000,
  100000000000000, 1000000000000000, 10000000000000000, 100000000000000000, 1000000000000000000, 10000000000000000000]

/-- One loop of `scientific_exponent`: `while (mantissa >= d) { mantissa /= d; exponent += k; }`. -/
def sciLoop (d k : Nat) : Nat → Nat → Int → Option (Nat × Int)
  | 0, _, _ => none
  | f + 1, m, e => if m ≥ d then sciLoop d k f (m / d) (e + k) else pure (m, e)

/-- `int32_t(x)`. -/
def i32 (x : Int) : Int := (x + 2 ^ 31) % 2 ^ 32 - 2 ^ 31

/-- `scientific_exponent` (digit_comparison.h:26-42). -/
def scientificExponent (num : PNS) : Option Int := do
  let r ← sciLoop 10000 4 64 num.mantissa (i32 num.exponent)
  let r ← sciLoop 100 2 64 r.1 r.2
  let r ← sciLoop 10 1 64 r.1 r.2
  pure r.2

/-- `skip_zeros`, first loop (digit_comparison.h:152-160). -/
def skipEight (s : List Byte) (last : Nat) : Nat → Nat → Option Nat
  | 0, _ => none
  | f + 1, p => if last - p ≥ 8 then do
      let v ← readU64 s p
      if v ≠ 0x3030303030303030 then pure p else skipEight s last f (p + 8)
    else pure p

/-- `skip_zeros`, second loop (digit_comparison.h:161-166). -/
def skipOne (s : List Byte) (last : Nat) : Nat → Nat → Option Nat
  | 0, _ => none
  | f + 1, p => if p ≠ last then do
      let c ← s[p]?
      if c ≠ 48 then pure p else skipOne s last f (p + 1)
    else pure p

/-- `skip_zeros` (digit_comparison.h:152-167). -/
def skipZeros (s : List Byte) (p last : Nat) : Option Nat := do
  let p ← skipEight s last (s.length + 1) p
  skipOne s last (s.length + 1) p

/-- `is_truncated`, first loop (digit_comparison.h:174-180): `none` inside for `return true`. -/
def truncEight (s : List Byte) (last : Nat) : Nat → Nat → Option (Option Nat)
  | 0, _ => none
  | f + 1, p => if last - p ≥ 8 then do
      let v ← readU64 s p
      if v ≠ 0x3030303030303030 then pure none else truncEight s last f (p + 8)
    else pure (some p)

/-- `is_truncated`, second loop (digit_comparison.h:181-187). -/
def truncOne (s : List Byte) (last : Nat) : Nat → Nat → Option Bool
  | 0, _ => none
  | f + 1, p => if p ≠ last then do
      let c ← s[p]?
      if c ≠ 48 then pure true else truncOne s last f (p + 1)
    else pure false

/-- `is_truncated` (digit_comparison.h:171-192). -/
def isTruncated (s : List Byte) (p last : Nat) : Option Bool := do
  match ← truncEight s last (s.length + 1) p with
  | none => pure true
  | some p => truncOne s last (s.length + 1) p

variable [Limb]

/-- `step` of `parse_mantissa` (digit_comparison.h:231-235). -/
def digitStep : Nat := if Limb.narrow then 9 else 19

/-- `p`, `value`, `counter`, `digits` of `parse_mantissa`. -/
structure Chunk where
  p : Nat
  value : Nat
  counter : Nat
  digits : Nat

/-- The inner loop with `parse_eight_digits` (digit_comparison.h:194-200, 243-245). -/
def chunkEight (s : List Byte) (pend maxDigits : Nat) : Nat → Chunk → Option Chunk
  | 0, _ => none
  | f + 1, c => if pend - c.p ≥ 8 ∧ digitStep - c.counter ≥ 8 ∧ maxDigits - c.digits ≥ 8 then do
      let v ← readU64 s c.p
      chunkEight s pend maxDigits f ⟨c.p + 8, wl (wl (c.value * 100000000) + parseEight v), c.counter + 8, c.digits + 8⟩
    else pure c

/-- The inner loop with `parse_one_digit` (digit_comparison.h:202-208, 246-248). -/
def chunkOne (s : List Byte) (pend maxDigits : Nat) : Nat → Chunk → Option Chunk
  | 0, _ => none
  | f + 1, c => if c.counter < digitStep ∧ c.p ≠ pend ∧ c.digits < maxDigits then do
      let d ← s[c.p]?
      chunkOne s pend maxDigits f ⟨c.p + 1, wl (wl (c.value * 10) + (d.toNat - 48)), c.counter + 1, c.digits + 1⟩
    else pure c

/-- `add_native` (digit_comparison.h:210-214): failures are not looked at. -/
def addNative (big : Limbs) (power value : Nat) : Limbs := (smallAdd (smallMul big power).2 value).2

/-- `round_up_bigint` (digit_comparison.h:216-221). -/
def roundUpBigint (big : Limbs) (count : Nat) : Limbs × Nat := (addNative big 10 1, count + 1)

/-- State of `parse_mantissa` between two parts: `result`, `counter`, `value`, `digits`, and whether the function has returned. -/
structure Acc where
  big : Limbs
  counter : Nat
  value : Nat
  digits : Nat
  done : Bool

/-- The loops over the digits of one span (digit_comparison.h:242-265, 275-295); `more`: the test for truncation in what follows the span. -/
def spanLoop (s : List Byte) (pend maxDigits : Nat) (more : Option Bool) : Nat → Nat → Acc → Option Acc
  | 0, _, _ => none
  | f + 1, p, a => if p ≠ pend then do
      let c ← chunkEight s pend maxDigits 4 ⟨p, a.value, a.counter, a.digits⟩
      let c ← chunkOne s pend maxDigits 20 c
      let pw ← powersOfTenU64[c.counter]?
      let big := addNative a.big (wl pw) c.value
      if c.digits = maxDigits then do
        let t ← isTruncated s c.p pend
        let t' ← more
        if t || t' then
          let r := roundUpBigint big c.digits
          pure ⟨r.1, c.counter, c.value, r.2, true⟩
        else pure ⟨big, c.counter, c.value, c.digits, true⟩
      else spanLoop s pend maxDigits more f c.p ⟨big, 0, 0, c.digits, false⟩
    else pure a

/-- The test of the fraction for truncation (digit_comparison.h:253-255): a null pointer is not looked at. -/
def fractionTruncated (s : List Byte) (num : PNS) : Option Bool :=
  match num.fraction with
  | some fr => isTruncated s fr.1 (fr.1 + fr.2)
  | none => pure false

/-- `parse_mantissa` (digit_comparison.h:224-301): the big integer and `digits`. -/
def parseMantissa (s : List Byte) (num : PNS) (maxDigits : Nat) : Option (Limbs × Nat) := do
  let pend := num.integer.1 + num.integer.2
  let p ← skipZeros s num.integer.1 pend
  let a ← spanLoop s pend maxDigits (fractionTruncated s num) (s.length + 1) p ⟨[], 0, 0, 0, false⟩
  if a.done then pure (a.big, a.digits)
  else do
    let a ← match num.fraction with
      | some fr => do
        let pend := fr.1 + fr.2
        let p ← if a.digits = 0 then skipZeros s fr.1 pend else pure fr.1
        spanLoop s pend maxDigits (pure false) (s.length + 1) p a
      | none => pure a
    if a.done then pure (a.big, a.digits)
    else if a.counter ≠ 0 then do
      let pw ← powersOfTenU64[a.counter]?
      pure (addNative a.big (wl pw) a.value, a.digits)
    else pure (a.big, a.digits)

/-- `FASTFLOAT_ASSERT` of an operation on a big integer (float_common.h:80-82): `none` for `abort()`. -/
def must (r : Option (Bool × Limbs)) : Option Limbs := do
  let r ← r
  chk (r.1 = true)
  pure r.2

/-- `positive_digit_comp` (digit_comparison.h:303-319). -/
def positiveDigitComp (b : Bin) (bigmant : Limbs) (exponent : Int) : Option AM := do
  let bigmant ← must (pow10 bigmant exponent.toNat)
  let r ← hi64 bigmant
  let bias : Int := b.mantissaBits - b.minimumExponent
  let bl ← bitLength bigmant
  round b ⟨r.1, bl - 64 + bias⟩ (roundNearestTieEven fun isOdd isHalfway isAbove => isAbove || (isHalfway && r.2) || (isOdd && isHalfway))

/-- `negative_digit_comp` (digit_comparison.h:326-371). -/
def negativeDigitComp (b : Bin) (bigmant : Limbs) (am : AM) (exponent : Int) : Option AM := do
  let amB ← round b am roundDown
  let theor := toExtendedHalfway b (toFloat b false amB)
  let theorDigits := ofU64 theor.mantissa
  let pow2Exp := theor.power2 - exponent
  let pow5Exp := (-exponent).toNat
  let theorDigits ← if pow5Exp ≠ 0 then must (pow5 theorDigits pow5Exp) else pure theorDigits
  let theorDigits ← if pow2Exp > 0 then must (pow2 theorDigits pow2Exp.toNat) else pure theorDigits
  let realDigits ← if pow2Exp < 0 then must (pow2 bigmant (-pow2Exp).toNat) else pure bigmant
  let ord ← compare realDigits theorDigits
  round b am (roundNearestTieEven fun isOdd _ _ => if ord > 0 then true else if ord < 0 then false else isOdd)

/-- `digit_comp` (digit_comparison.h:386-403). -/
def digitComp (b : Bin) (s : List Byte) (num : PNS) (am : AM) : Option AM := do
  let am : AM := ⟨am.mantissa, am.power2 - invalidBias⟩
  let sciExp ← scientificExponent num
  let r ← parseMantissa s num b.maxDigits
  let exponent := sciExp + 1 - r.2
  if exponent ≥ 0 then positiveDigitComp b r.1 exponent else negativeDigitComp b r.1 am exponent

/-- Clinger's fast path (parse_number.h:91-97). -/
def fastPath (b : Bin) (pns : PNS) : Option Nat := do
  let value := b.fmt.ofInt pns.mantissa
  let value ← if pns.exponent < 0 then do
      let t ← b.powersOfTen[(-pns.exponent).toNat]?
      pure (b.fmt.div value t)
    else do
      let t ← b.powersOfTen[pns.exponent.toNat]?
      pure (b.fmt.mul value t)
  pure (if pns.negative then b.fmt.neg value else value)

/-- The rest of the conversion (parse_number.h:98-107). -/
def slowPath (b : Bin) (s : List Byte) (pns : PNS) : Option Nat := do
  let am ← computeFloat b pns.exponent pns.mantissa
  let am ← if pns.tooManyDigits = true ∧ am.power2 ≥ 0 then do
      let am' ← computeFloat b pns.exponent (w64 (pns.mantissa + 1))
      if am ≠ am' then computeError b pns.exponent pns.mantissa else pure am
    else pure am
  let am ← if am.power2 < 0 then digitComp b s pns am else pure am
  pure (toFloat b pns.negative am)

/-- `from_chars_advanced` (parse_number.h:71-109); `from_chars` (parse_number.h:65-69) calls it with a dot as decimal point. -/
def fromChars (b : Bin) (s : List Byte) (o : Options) : Option Result :=
  if s.length = 0 then pure ⟨0, none⟩
  else do
    match ← parseNumberString s o with
    | none => parseInfnan b s
    | some pns =>
      if b.minFast ≤ pns.exponent ∧ pns.exponent ≤ b.maxFast ∧ pns.mantissa ≤ b.maxMantissaFast ∧ pns.tooManyDigits = false then do
        let v ← fastPath b pns
        pure ⟨pns.lastmatch, some v⟩
      else do
        let v ← slowPath b s pns
        pure ⟨pns.lastmatch, some v⟩

end Nanostl.FastFloat

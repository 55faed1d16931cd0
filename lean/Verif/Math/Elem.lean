import Verif.Math.Model

/-!
Model of the elementary functions of `include/nanomath.h` (lines 265-740), which exist for `float` only. A `float` is its bit pattern below
2^32; `none` is undefined behaviour. Arithmetic is that of `Verif/Float/Arith.lean`: every operation is rounded to `float` separately (no
contraction, no extended precision), constant expressions of type `double` are evaluated in `double`.
-/

namespace Nanostl.Float.Fmt

/-- `x / y` (IEEE-754, language semantics). -/
def div (φ : Fmt) (x y : Nat) : Nat :=
  match φ.val x, φ.val y with
  | .nan, _ => φ.qnan
  | _, .nan => φ.qnan
  | .inf _, .inf _ => φ.qnan
  | .inf _, .fin _ => φ.withSign (φ.sign x != φ.sign y) φ.inf
  | .fin _, .inf _ => φ.withSign (φ.sign x != φ.sign y) 0
  | .fin v, .fin w =>
    if w = 0 then (if v = 0 then φ.qnan else φ.withSign (φ.sign x != φ.sign y) φ.inf)
    else φ.round (φ.sign x != φ.sign y) (v.natAbs * φ.one) w.natAbs

/-- Conversion of a finite value to another format: rounded to nearest even, infinities kept, NaN to NaN (language semantics). -/
def convert (φ ψ : Fmt) (x : Nat) : Nat :=
  if φ.expo x = φ.emax then if φ.frac x = 0 then ψ.withSign (φ.sign x) ψ.inf else ψ.qnan
  else ψ.round (φ.sign x) (φ.mag (φ.low x) * ψ.one) φ.one

end Nanostl.Float.Fmt

namespace Nanostl.Math
open Nanostl.Float

/-- The literals `1.0f`, `-x` of a literal. -/
def one32 : Nat := 0x3f800000
def negLit (digits e : Nat) : Nat := f32.neg (f32.litNeg digits e)

/-- `nanostl::min`, `nanostl::max` at `float` (nanoalgorithm.h:31-38). -/
def min32 (a b : Nat) : Nat := if !f32.lt b a then a else b
def max32 (a b : Nat) : Nat := if !f32.lt a b then a else b

/-- `clamp` (nanomath.h:265-268). -/
def clamp32 (a lo hi : Nat) : Nat := max32 lo (min32 hi a)

/-- The `int` with the bits of a `float` (`FloatToInt`, nanomath.h:288-292). -/
def i32 (x : Nat) : Int := if x < 2 ^ 31 then x else (x : Int) - 2 ^ 32
/-- The bits of an `int`, `unsigned(i)` (also `IntToFloat`, nanomath.h:276-280). -/
def u32 (i : Int) : Nat := (i % 2 ^ 32).toNat

/-- `sqrt` (nanomath.h:294-332). `u.i >> 1` is an arithmetic shift (only negative for NaN arguments); the subtraction cannot overflow. -/
def sqrt (x : Nat) : Nat :=
  if mantissa32 x == 0 && exponent32 x == 0 then x
  else if x == 0x3f800000 then one32
  else if f32.lt x zero && isinf32 x then x
  else if f32.lt x zero then 255 <<< 23 ||| 1 <<< 22
  else
    let xhalf := f32.mul (f32.litNeg 5 1) x
    let u := u32 (0x5f3759df - i32 x / 2)
    f32.mul (f32.mul x u) (f32.sub (f32.litNeg 15 1) (f32.mul (f32.mul xhalf u) u))

/-- `kM_1_PI`, `kM_PI_2`, `kM_PI_4`, `kM_LN2`, `kM_LN10` (nanomath.h:392-396), of type `double`. -/
def kM_1_PI : Nat := f64.litNeg 318309886183790671537767526745028724 36
def kM_PI_2 : Nat := f64.litNeg 157079632679489661923132169163975144 35
def kM_PI_4 : Nat := f64.litNeg 785398163397448309615660845819875721 36
def kM_LN2 : Nat := f64.litNeg 69314718055994530941723212145817656 35
def kM_LN10 : Nat := f64.litNeg 230258509299404568401799145468436421 35

/-- `madd` (nanomath.h:399): not fused. -/
def madd (a b c : Nat) : Nat := f32.add (f32.mul a b) c

/-- `fast_rint` (nanomath.h:402-405). -/
def fastRint (x : Nat) : Option Int := f32.toInt (f32.add x (copysign (f32.litNeg 5 1) x))

/-- The polynomial of `fast_exp2` (nanomath.h:419-424). -/
def exp2Poly (x : Nat) : Nat :=
  let r := f32.litNeg 133336498402 14
  let r := madd x r (f32.litNeg 9810352697968 15)
  let r := madd x r (f32.litNeg 5551834031939 14)
  let r := madd x r (f32.litNeg 2401793301105 13)
  let r := madd x r (f32.litNeg 693144857883 12)
  madd x r one32

/-- `fast_exp2` (nanomath.h:408-431). -/
def fastExp2 (xval : Nat) : Option Nat := do
  let x := clamp32 xval (f32.neg (f32.litPos 126 0)) (f32.litPos 126 0)
  let m ← f32.toInt x
  let x := f32.sub x (f32.ofInt m)
  let x := f32.sub one32 (f32.sub one32 x)
  let ri := exp2Poly x
  pure ((ri + u32 m * 2 ^ 23) % 2 ^ 32)

/-- `exp` (nanomath.h:436-441). -/
def exp (x : Nat) : Option Nat :=
  fastExp2 (f32.mul x (f64.convert f32 (f64.div (f64.ofInt 1) kM_LN2)))

/-- `fast_log2` (nanomath.h:443-467). -/
def fastLog2 (xval : Nat) : Nat :=
  let x := clamp32 xval floatMin floatMax
  let exponent : Int := (x >>> 23 : Nat) - 127
  let f := f32.sub ((x &&& 0x7fffff) ||| 0x3f800000) one32
  let f2 := f32.mul f f
  let f4 := f32.mul f2 f2
  let hi := madd f (negLit 931049621349 14) (f32.litNeg 5206469089414 14)
  let lo := madd f (f32.litNeg 47868480909345 14) (negLit 72116591947498 14)
  let hi := madd f hi (negLit 13753123777116 14)
  let hi := madd f hi (f32.litNeg 24187369696082 14)
  let hi := madd f hi (negLit 34730547155299 14)
  let lo := madd f lo (f32.litNeg 1442689881667200 15)
  f32.add (f32.add (f32.mul f4 hi) (f32.mul f lo)) (f32.ofInt exponent)

/-- `log` (nanomath.h:469-488). -/
def log (x : Nat) : Nat :=
  if mantissa32 x == 0 && exponent32 x == 0 then f32.neg (255 <<< 23)
  else if x == 0x3f800000 then 0
  else if f32.lt x zero then 255 <<< 23
  else f32.mul (fastLog2 x) (f64.convert f32 kM_LN2)

/-- `log10` (nanomath.h:490-510). -/
def log10 (x : Nat) : Nat :=
  if mantissa32 x == 0 && exponent32 x == 0 then f32.neg (255 <<< 23)
  else if x == 0x3f800000 then 0
  else if f32.lt x zero then 255 <<< 23
  else f32.mul (fastLog2 x) (f64.convert f32 (f64.div kM_LN2 kM_LN10))

/-- The sign computation of `pow` for a negative base (nanomath.h:526-541): `some none` is `return 0.0f`. The shift `j << 31` of a signed `int`
is undefined unless the language is C++20 (`cxx20`) or the shifted value fits. -/
def powSign (cxx20 : Bool) (y : Nat) : Option (Option Nat) :=
  let ybits := y &&& 0x7fffffff
  if ybits ≥ 0x4b800000 then some (some one32)
  else if ybits ≥ 0x3f800000 then
    let k := (ybits >>> 23) - 127
    let j := ybits >>> (23 - k)
    if j <<< (23 - k) == ybits then
      if cxx20 || decide (j ≤ 1) then some (some (0x3f800000 ||| (j <<< 31) % 2 ^ 32)) else none
    else some none
  else some none

/-- `pow` (nanomath.h:513-543). -/
def pow (cxx20 : Bool) (x y : Nat) : Option Nat := do
  if f32.lt (fabs f32 y) epsilon32 then pure one32
  else if f32.lt (fabs f32 x) epsilon32 then pure 0
  else if f32.eq y one32 then pure x
  else if f32.eq y (f32.litPos 2 0) then pure (min32 (f32.mul x x) floatMax)
  else
    let sign ← if f32.lt x zero then powSign cxx20 y else pure (some one32)
    match sign with
    | none => pure 0
    | some sign =>
      let e ← fastExp2 (f32.mul y (fastLog2 (fabs f32 x)))
      pure (f32.mul sign e)

/-- Argument reduction of `sin`, `cos` (`k = 4`) and `tan` (`k = 2`) (nanomath.h:553-556, 578-581, 606-609). -/
def reduce (k : Nat) (x qf : Nat) : Nat :=
  let kf := f32.ofInt k
  let x := madd qf (f32.mul (negLit 78515625 8) kf) x
  let x := madd qf (f32.mul (negLit 24187564849853515625 23) kf) x
  let x := madd qf (f32.mul (negLit 37747668102383613586 27) kf) x
  madd qf (f32.mul (negLit 12816720341285448015 31) kf) x

/-- `if (fabs(u) > 1.0f) u = 0.0f` (nanomath.h:570, 593). -/
def crush1 (u : Nat) : Nat := if f32.lt one32 (fabs f32 u) then 0 else u

/-- `sin` (nanomath.h:545-572). -/
def sin (x : Nat) : Option Nat := do
  let q ← fastRint (f32.mul x (f64.convert f32 kM_1_PI))
  let x := reduce 4 x (f32.ofInt q)
  let pi2 := f64.convert f32 kM_PI_2
  let x := f32.sub pi2 (f32.sub pi2 x)
  let s := f32.mul x x
  let x := if q % 2 ≠ 0 then f32.neg x else x
  let u := f32.litNeg 26083159809786593541503 28
  let u := madd u s (negLit 1981069071916863322258 25)
  let u := madd u s (f32.litNeg 833307858556509017944336 26)
  let u := madd u s (negLit 166666597127914428710938 24)
  let u := madd s (f32.mul u x) x
  pure (crush1 u)

/-- `cos` (nanomath.h:574-595). -/
def cos (x : Nat) : Option Nat := do
  let q ← fastRint (f32.mul x (f64.convert f32 kM_1_PI))
  let x := reduce 4 x (f32.ofInt q)
  let pi2 := f64.convert f32 kM_PI_2
  let x := f32.sub pi2 (f32.sub pi2 x)
  let s := f32.mul x x
  let u := negLit 271811842367242206819355 30
  let u := madd u s (f32.litNeg 247990446951007470488548 28)
  let u := madd u s (negLit 138888787478208541870117 26)
  let u := madd u s (f32.litNeg 416666641831398010253906 25)
  let u := madd u s (negLit 5 1)
  let u := madd u s one32
  let u := if q % 2 ≠ 0 then f32.neg u else u
  pure (crush1 u)

/-- `tan` (nanomath.h:600-624). -/
def tan (x : Nat) : Option Nat := do
  let q ← fastRint (f32.mul x (f64.convert f32 (f64.mul (f64.ofInt 2) kM_1_PI)))
  let x := reduce 2 x (f32.ofInt q)
  let pi4 := f64.convert f32 kM_PI_4
  let x := if q % 2 = 0 then f32.sub pi4 (f32.sub pi4 x) else x
  let s := f32.mul x x
  let u := f32.litNeg 927245803177356719970703 26
  let u := madd u s (f32.litNeg 331984995864331722259521 26)
  let u := madd u s (f32.litNeg 242998078465461730957031 25)
  let u := madd u s (f32.litNeg 534495301544666290283203 25)
  let u := madd u s (f32.litNeg 133383005857467651367188 24)
  let u := madd u s (f32.litNeg 333331853151321411132812 24)
  let u := madd s (f32.mul u x) x
  pure (if q % 2 ≠ 0 then f32.div (f32.neg one32) u else u)

/-- `sinh` (nanomath.h:626-644). -/
def sinh (x : Nat) : Option Nat := do
  let a := fabs f32 x
  let half := f32.litNeg 5 1
  if f32.lt one32 a then
    let e ← exp a
    pure (copysign (f32.sub (f32.mul half e) (f32.div half e)) x)
  else
    let a := f32.sub one32 (f32.sub one32 a)
    let a2 := f32.mul a a
    let r := f32.litNeg 203945513931 15
    let r := madd r a2 (f32.litNeg 832990277558 14)
    let r := madd r a2 (f32.litNeg 1666673421859 13)
    let r := madd (f32.mul r a) a2 a
    pure (copysign r x)

/-- `cosh` (nanomath.h:646-651). -/
def cosh (x : Nat) : Option Nat := do
  let e ← exp (fabs f32 x)
  let half := f32.litNeg 5 1
  pure (f32.add (f32.mul half e) (f32.div half e))

/-- `tanh` (nanomath.h:653-659). -/
def tanh (x : Nat) : Option Nat := do
  let e ← exp (f32.mul (f32.litPos 2 0) (fabs f32 x))
  pure (copysign (f32.sub (f32.ofInt 1) (f32.div (f32.ofInt 2) (f32.add (f32.ofInt 1) e))) x)

/-- `erf` (nanomath.h:661-680). -/
def erf (x : Nat) : Nat :=
  let a1 := f32.litNeg 705230784 10
  let a2 := f32.litNeg 422820123 10
  let a3 := f32.litNeg 92705272 10
  let a4 := f32.litNeg 1520143 10
  let a5 := f32.litNeg 2765672 10
  let a6 := f32.litNeg 430638 10
  let a := fabs f32 x
  let b := f32.sub one32 (f32.sub one32 a)
  let r := madd (madd (madd (madd (madd (madd a6 b a5) b a4) b a3) b a2) b a1) b one32
  let s := f32.mul r r
  let t := f32.mul s s
  let u := f32.mul t t
  let v := f32.mul u u
  copysign (f32.sub one32 (f32.div one32 v)) x

/-- `cbrt` (nanomath.h:683-696). -/
def cbrt (x : Nat) : Nat :=
  let x0 := fabs f32 x
  let a := u32 (0x2a5137a0 + Int.tdiv (i32 x0) 3)
  let third := f32.litNeg 333333333 9
  let two := f32.litPos 2 0
  let a := f32.mul third (f32.add (f32.mul two a) (f32.div x0 (f32.mul a a)))
  let a := f32.mul third (f32.add (f32.mul two a) (f32.div x0 (f32.mul a a)))
  let a := if f32.lt (fabs f32 x0) epsilon32 then f32.ofInt 0 else a
  copysign a x

/-- `erfc` (nanomath.h:698-703). -/
def erfc (x : Nat) : Nat := f32.sub one32 (erf x)

/-- `ierf` (nanomath.h:705-735). -/
def ierf (x : Nat) : Nat :=
  let a := fabs f32 x
  let lim := f32.litNeg 99999994 8
  let a := if f32.lt lim a then lim else a
  let w := f32.neg (log (f32.mul (f32.sub one32 a) (f32.add one32 a)))
  let p :=
    if f32.lt w (f32.litPos 5 0) then
      let w := f32.sub w (f32.litNeg 25 1)
      let p := f32.litNeg 281022636 16
      let p := madd p w (f32.litNeg 343273939 15)
      let p := madd p w (negLit 35233877 13)
      let p := madd p w (negLit 439150654 14)
      let p := madd p w (f32.litNeg 21858087 11)
      let p := madd p w (negLit 125372503 11)
      let p := madd p w (negLit 417768164 11)
      let p := madd p w (f32.litNeg 246640727 9)
      madd p w (f32.litNeg 150140941 8)
    else
      let w := f32.sub (sqrt w) (f32.litPos 3 0)
      let p := negLit 200214257 12
      let p := madd p w (f32.litNeg 100950558 12)
      let p := madd p w (f32.litNeg 134934322 11)
      let p := madd p w (negLit 367342844 11)
      let p := madd p w (f32.litNeg 573950773 11)
      let p := madd p w (negLit 76224613 10)
      let p := madd p w (f32.litNeg 943887047 11)
      let p := madd p w (f32.litNeg 100167406 8)
      madd p w (f32.litNeg 283297682 8)
  f32.mul p x

end Nanostl.Math

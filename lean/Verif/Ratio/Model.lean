/-!
Model of `include/nanoratio.h`. Template arguments are integers; a constant expression that overflows `intmax_t` (64 bits), or a failing
`static_assert`, is a compile-time error, `none`.
-/

namespace Nanostl.Ratio

/-- A constant of type `intmax_t`. -/
def ck (v : Int) : Option Int := if -2 ^ 63 ≤ v ∧ v < 2 ^ 63 then some v else none

/-- `nanogcd` (nanoratio.h:37-53) with its specialisations `<0, 0>` and `<a, 0>`; `%` truncates. Fuel bounds the depth of instantiation. -/
def gcdF : Nat → Int → Int → Option Int
  | 0, _, _ => none
  | f + 1, a, b => if b = 0 then if a = 0 then some 1 else some a else gcdF f b (Int.tmod a b)

def nanogcd (a b : Int) : Option Int := gcdF (b.natAbs + 1) a b

/-- `nanolcm` (nanoratio.h:56-60). -/
def nanolcm (a b : Int) : Option Int := do
  let g ← nanogcd a b
  ck (Int.tdiv a g * b)

/-- `nanoabs` (nanoratio.h:63-67). -/
def nanoabs (v : Int) : Option Int := if v < 0 then ck (-v) else some v

/-- `nanosign` (nanoratio.h:69-73). -/
def nanosign (v : Int) : Int := if v = 0 then 0 else if v < 0 then -1 else 1

/-- `ratio<N, D>` (nanoratio.h:78-94): its `num` and `den`. -/
def ratio (N D : Int) : Option (Int × Int) :=
  if D = 0 then none else do
    let nabs ← nanoabs N
    let dabs ← nanoabs D
    let ss ← ck (nanosign N * nanosign D)
    let g ← nanogcd nabs dabs
    let p ← ck (ss * nabs)
    let num ← ck (Int.tdiv p g)
    let den ← ck (Int.tdiv dabs g)
    pure (num, den)

/-- The member `type` (nanoratio.h:92). -/
def ratioType (N D : Int) : Option (Int × Int) := do
  let (num, den) ← ratio N D
  ratio num den

/-- The predefined ratios (nanoratio.h:97-112), by their template arguments. -/
def atto : Option (Int × Int) := ratio 1 1000000000000000000
def femto : Option (Int × Int) := ratio 1 1000000000000000
def pico : Option (Int × Int) := ratio 1 1000000000000
def nano : Option (Int × Int) := ratio 1 1000000000
def micro : Option (Int × Int) := ratio 1 1000000
def milli : Option (Int × Int) := ratio 1 1000
def centi : Option (Int × Int) := ratio 1 100
def deci : Option (Int × Int) := ratio 1 10
def deca : Option (Int × Int) := ratio 10 1
def hecto : Option (Int × Int) := ratio 100 1
def kilo : Option (Int × Int) := ratio 1000 1
def mega : Option (Int × Int) := ratio 1000000 1
def giga : Option (Int × Int) := ratio 1000000000 1
def tera : Option (Int × Int) := ratio 1000000000000 1
def peta : Option (Int × Int) := ratio 1000000000000000 1
def exa : Option (Int × Int) := ratio 1000000000000000000 1

end Nanostl.Ratio

import Verif.UPtr.Model

/-!
Model of the comparisons of `unique_ptr` (`include/nanomemory.h:847-980`). They see the pointers only, converted to their common type: `f` and `g`
are the conversions of the left and of the right pointer (identities if the types are the same, adding the offset of a base class otherwise).
`less` (nanofunctional.h:39-44) is the built-in `<`, taken as the order of addresses; the null pointer is address 0.
`hash<unique_ptr>` (991-1006) cannot be instantiated: it needs `hash` of a pointer type, which nanofunctional.h does not define.
-/

namespace Nanostl.UPtr

variable {D E : Type}

/-- `get()` (nanomemory.h:567-570). -/
def get (u : UP D) : Nat := u.first

/-- `explicit operator bool` (nanomemory.h:579-582). -/
def toBool (u : UP D) : Bool := u.first != 0

/-- `less<P>()(a, b)` (nanofunctional.h:39-44). -/
def less (a b : Nat) : Bool := decide (a < b)

/-! Two `unique_ptr`s (nanomemory.h:847-882) -/

def opEq (f g : Nat → Nat) (x : UP D) (y : UP E) : Bool := f (get x) == g (get y)
def opNe (f g : Nat → Nat) (x : UP D) (y : UP E) : Bool := !opEq f g x y
def opLt (f g : Nat → Nat) (x : UP D) (y : UP E) : Bool := less (f (get x)) (g (get y))
def opGt (f g : Nat → Nat) (x : UP D) (y : UP E) : Bool := opLt g f y x
def opLe (f g : Nat → Nat) (x : UP D) (y : UP E) : Bool := !opLt g f y x
def opGe (f g : Nat → Nat) (x : UP D) (y : UP E) : Bool := !opLt f g x y

/-! With `nullptr` on the right or on the left (nanomemory.h:884-980) -/

def eqN (x : UP D) : Bool := !toBool x
def nEq (x : UP D) : Bool := !toBool x
def neN (x : UP D) : Bool := toBool x
def nNe (x : UP D) : Bool := toBool x
def ltN (x : UP D) : Bool := less (get x) 0
def nLt (x : UP D) : Bool := less 0 (get x)
def gtN (x : UP D) : Bool := nLt x
def nGt (x : UP D) : Bool := ltN x
def leN (x : UP D) : Bool := !nLt x
def nLe (x : UP D) : Bool := !ltN x
def geN (x : UP D) : Bool := !ltN x
def nGe (x : UP D) : Bool := !nLt x

end Nanostl.UPtr

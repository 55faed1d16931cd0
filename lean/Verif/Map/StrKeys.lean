import Verif.Map.Keys

/-!
Strings as keys of `map`: `basic_string<charT>` (`include/nanostring.h`) for any character type, and `map<basic_string<charT>, V>` (`include/nanomap.h`).
A key is what its `data_` holds, characters being unsigned numbers; keys are not changed once they are in a map. That copies of strings may throw is in `Map/Keys`.
-/

namespace Nanostl.Map.Keys.Strs

/-- The characters of `data_`, the terminating one included. -/
abbrev Key := List Nat

/-- `*reinterpret_cast<const unsigned char *>(p)` (nanostring.h:188-189) on a little-endian machine: the first byte of the character. -/
def first (c : Nat) : Nat := c % 256

/-- `compare_` (nanostring.h:182-190) from two places on; nothing if it reads past the characters. -/
def compare : Key → Key → Option Int
  | a :: p, b :: q => if a ≠ 0 ∧ a = b then compare p q else some ((first a : Int) - (first b : Int))
  | _, _ => none

/-- What the map asks of its keys: `==`, `>`, `<` (nanostring.h:156, 168, 174). A comparison that is not defined is shown as `false` here; the theorems are about keys for which all are
defined (`compare_defined`). -/
def strCls {V : Type} (dflt : V) (wreck : V → V → V) : Cls Key V where
  eq a b := (compare a b).any (· == 0)
  gt a b := (compare a b).any (0 < ·)
  lt a b := (compare a b).any (· < 0)
  dflt := dflt
  wreck := wreck

/-- `basic_string(const char *)` (nanostring.h:71-78) of these bytes: all of them and a zero. -/
def ofBytes (l : List UInt8) : Key := l.map (·.toNat) ++ [0]

end Nanostl.Map.Keys.Strs

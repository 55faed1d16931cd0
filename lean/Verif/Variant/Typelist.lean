import Verif.Traits.Storage

/-!
Model of the type lists of `nonstd::variant` (`include/nonstd/variant.hpp`), its storage, `variant_size` and `variant_alternative`. A type is the user's
or one of the sixteen placeholders `T0 … T15` of alternatives not given.
-/

namespace Nanostl.Variant

open Traits (Lay)

inductive Ty where
  | usr (n : Nat)
  | tx (n : Nat)
deriving DecidableEq

/-- `typelist_max<List>::value` (variant.hpp:626-650). -/
def typelistMax (lay : Ty → Lay) : List Ty → Nat
  | [] => 0
  | h :: t => if (lay h).size > typelistMax lay t then (lay h).size else typelistMax lay t

/-- `typelist_max_alignof<List>::value` (variant.hpp:656-674). -/
def typelistMaxAlign (lay : Ty → Lay) : List Ty → Nat
  | [] => 0
  | h :: t => if (lay h).align > typelistMaxAlign lay t then (lay h).align else typelistMaxAlign lay t

/-- `typelist_size<T>::value` of a type that is not a list (variant.hpp:680-701). -/
def tySize : Ty → Nat
  | .tx n => if n < 16 then 0 else 1
  | .usr _ => 1

/-- `typelist_size<List>::value` (variant.hpp:704-710). -/
def typelistSize : List Ty → Nat
  | [] => 0
  | h :: t => tySize h + typelistSize t

/-- `typelist_index_of<List, T>::value` (variant.hpp:714-737). -/
def typelistIndexOf : List Ty → Ty → Int
  | [], _ => -1
  | h :: t, x =>
    if h = x then 0
    else
      let nextVal := typelistIndexOf t x
      if nextVal = -1 then -1 else 1 + nextVal

/-- `typelist_type_at<List, i>::type` (variant.hpp:741-753); `none`: does not compile. -/
def typelistTypeAt : List Ty → Nat → Option Ty
  | [], _ => none
  | h :: _, 0 => some h
  | _ :: t, i + 1 => typelistTypeAt t i

/-- `variant_types` of `variant<A0, …>` (variant.hpp:1195-1217): the alternatives given, then the placeholders of the positions left. -/
def variantTypes (as : List Nat) : List Ty := as.map .usr ++ (List.range' as.length (16 - as.length)).map .tx

/-- `variant_size` (variant.hpp:1126-1133). -/
def variantSize (as : List Nat) : Nat := typelistSize (variantTypes as)

/-- `variant_alternative` (variant.hpp:1146-1153). -/
def variantAlternative (as : List Nat) (k : Nat) : Option Ty := typelistTypeAt (variantTypes as) k

/-- `variant::data` (variant.hpp:1715-1722), with C++11; `w` bits in a `size_t`, `coff` and `rest` as in `aligned_storage`. -/
def storage (w : Nat) (coff : Bool) (rest : List Lay) (lay : Ty → Lay) (as : List Nat) : Option Lay :=
  Traits.aligned_storage w coff rest (typelistMax lay (variantTypes as)) (typelistMaxAlign lay (variantTypes as))

end Nanostl.Variant

/-! `aligned_storage` (nanotype_traits.h:1037-1171). Sizes and alignments are numbers of type `size_t`, of `w` bits; arithmetic wraps. -/

namespace Nanostl.Traits

/-- Alignment and size of a type. -/
structure Lay where
  align : Nat
  size : Nat
  deriving DecidableEq, Repr

/-- Layouts as the ABI makes them: the alignment is a power of two and divides the size, which is not 0. -/
def Lay.Good (l : Lay) : Prop := (∃ k, l.align = 2 ^ k) ∧ l.align ∣ l.size ∧ 0 < l.size

/-- `__all_types` (nanotype_traits.h:1067-1079): `unsigned char`, whose layout the language fixes, and nine others the platform decides
(`unsigned short`, `int`, `long`, `long long`, `double`, `long double`, the two structs, `int*`). -/
def allTypes (rest : List Lay) : List Lay := ⟨1, 1⟩ :: rest

/-- `__fallback_overaligned` (nanotype_traits.h:1081-1082): an empty class of that alignment, so of that size. `alignas` wants a power of two. -/
def fallback (a : Nat) : Option Lay := if 2 ^ a.log2 = a then some ⟨a, a⟩ else none

/-- `__find_pod` (nanotype_traits.h:1084-1104). `conditional` names both its types; the one not chosen is not instantiated as a class. -/
def find_pod : List Lay → Nat → Option Lay
  | [], _ => none
  | [h], a => if a = h.align then some h else fallback a
  | h :: t, a => if a = h.align then some h else find_pod t a

/-- `__select_align` (nanotype_traits.h:1111-1119). -/
def select_align (len a1 a2 : Nat) : Nat :=
  let mn := if a2 < a1 then a2 else a1
  let mx := if a1 < a2 then a2 else a1
  if len < mx then mn else mx

/-- `__find_max_align` (nanotype_traits.h:1106-1109, 1121-1123); there is none for the empty list. -/
def find_max_align : List Lay → Nat → Option Nat
  | [], _ => none
  | [h], _ => some h.align
  | h :: t, len => (find_max_align t len).map (select_align len h.align ·)

/-- The array's length `(_Len + _Align - 1)/_Align * _Align` (nanotype_traits.h:1132, 1146) in `w` bits; none if it does not compile:
division by 0, or an array without elements. -/
def storageLen (w len a : Nat) : Option Nat :=
  if a = 0 then none
  else
    let n := (((len + a) % 2 ^ w + (2 ^ w - 1)) % 2 ^ w / a * a) % 2 ^ w
    if n = 0 then none else some n

/-- The specialisations (nanotype_traits.h:1141-1149, 1151-1168): the powers of two up to 0x4000, that one unless the object format is COFF. -/
def specialised (coff : Bool) (a : Nat) : Bool :=
  [0x1, 0x2, 0x4, 0x8, 0x10, 0x20, 0x40, 0x80, 0x100, 0x200, 0x400, 0x800, 0x1000, 0x2000].contains a || (!coff && a == 0x4000)

/-- Layout of `aligned_storage<_Len, _Align>::type` (nanotype_traits.h:1125-1134, 1141-1149): a struct with `alignas` around the array, or a
union of the array and a type of the alignment, whose size is the larger one rounded up to the alignment. -/
def aligned_storage (w : Nat) (coff : Bool) (rest : List Lay) (len a : Nat) : Option Lay :=
  match storageLen w len a with
  | none => none
  | some n =>
    if specialised coff a then some ⟨a, n⟩
    else
      match find_pod (allTypes rest) a with
      | none => none
      | some p => some ⟨p.align, (max p.size n + p.align - 1) / p.align * p.align⟩

/-- `aligned_storage<_Len>::type` (nanotype_traits.h:1125): the alignment by default. -/
def aligned_storage_default (w : Nat) (coff : Bool) (rest : List Lay) (len : Nat) : Option Lay :=
  (find_max_align (allTypes rest) len).bind (aligned_storage w coff rest len)

end Nanostl.Traits

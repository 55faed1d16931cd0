/-!
Model of `include/tao/seq/*.hpp`. An `integer_sequence<T, Ns...>` is a list of integers together with its type `T`, of which only signedness
and width matter. A template that does not compile (failed `static_assert`, overflow in a constant expression, packs of different length) is
`none`. `nanostl` has no `integer_sequence` of its own, so the branches guarded by `TAO_SEQ_USE_STD_*` cannot be used and the others are
modelled.
-/

namespace Nanostl.Seq

/-- An integral type of at least the width of `int`, so that arithmetic on it is not promoted. -/
structure Ty where
  signed : Bool
  bits : Nat

/-- The values of the type. -/
def Ty.InRange (t : Ty) (v : Int) : Prop := if t.signed then -2 ^ (t.bits - 1) ≤ v ∧ v < 2 ^ (t.bits - 1) else 0 ≤ v ∧ v < 2 ^ t.bits

instance (t : Ty) (v : Int) : Decidable (t.InRange v) := by unfold Ty.InRange; infer_instance

/-- Result of an arithmetic operation in a constant expression: unsigned wraps, signed must fit. -/
def Ty.arith (t : Ty) (v : Int) : Option Int :=
  if t.signed then if t.InRange v then some v else none else some (v % 2 ^ t.bits)

/-- Converted constant expression: no narrowing. -/
def Ty.conv (t : Ty) (v : Int) : Option Int := if t.InRange v then some v else none

/-- Conversion `T(v)` of a `size_t`. -/
def Ty.cast (t : Ty) (v : Int) : Int := if t.signed then Int.bmod v (2 ^ t.bits) else v % 2 ^ t.bits

/-! ### make_integer_sequence.hpp; the arithmetic on `M`, `N`, `S`, `Ns` stays below 2^21 and is exact in every `T` that passes the
static assertion -/

/-- `generate_sequence<V, E>::f<T, M, N, S, Ns...>` (make_integer_sequence.hpp:35-63). Fuel bounds the instantiation depth. -/
def generate (n : Nat) : Nat → Bool → Bool → Nat → Nat → List Nat → Option (List Nat)
  | 0, _, _, _, _, _ => none
  | _ + 1, false, true, _, _, ns => some ns
  | _ + 1, true, true, _, s, ns => some (ns ++ [s])
  | f + 1, false, false, m, s, ns =>
    generate n f (decide (n &&& (m / 2) ≠ 0)) (decide (m / 2 = 0)) (m / 2) (2 * s) (ns ++ ns.map (· + s))
  | f + 1, true, false, m, s, ns =>
    generate n f (decide (n &&& (m / 2) ≠ 0)) (decide (m / 2 = 0)) (m / 2) (2 * s + 1) (ns ++ ns.map (· + s) ++ [2 * s])

/-- The conditional expression of `memoize_sequence` (make_integer_sequence.hpp:72). -/
def startM (n : Nat) : Nat :=
  if n < 2 ^ 1 then 2 ^ 1 else if n < 2 ^ 2 then 2 ^ 2 else if n < 2 ^ 3 then 2 ^ 3 else if n < 2 ^ 4 then 2 ^ 4
  else if n < 2 ^ 5 then 2 ^ 5 else if n < 2 ^ 6 then 2 ^ 6 else if n < 2 ^ 7 then 2 ^ 7 else if n < 2 ^ 8 then 2 ^ 8
  else if n < 2 ^ 9 then 2 ^ 9 else if n < 2 ^ 10 then 2 ^ 10 else 2 ^ 20

/-- `make_integer_sequence<T, N>` (make_integer_sequence.hpp:66-79), also `make_index_sequence` (81-82). -/
def makeSeq (n : Nat) : Option (List Nat) := if n < 2 ^ 20 then generate n 23 false false (startM n) 0 [] else none

/-! ### sum.hpp -/

/-- With fold expressions (sum.hpp:27-31): `(Ns + ... + T(0))`, a right fold. -/
def sumFold (t : Ty) : List Int → Option Int
  | [] => some 0
  | n :: ns => do
    let r ← sumFold t ns
    t.arith (n + r)

/-- `sum<true, N, T, Ns...>` (sum.hpp:55-59): every `chars<I, n>` occupies `n + 1` bytes, the collector inherits from all; the index
sequence must have as many elements as `Ns`. -/
def sumSize (t : Ty) (N : Nat) (ns : List Int) : Option Int := do
  let is ← makeSeq N
  if is.length = ns.length ∧ ns.all (fun n => decide (0 ≤ n)) then pure (t.cast ((ns.map (· + 1)).sum - N)) else none

/-- `sum<false, N, T, Ns...>` (sum.hpp:61-67). -/
def sumSigned (t : Ty) (N : Nat) (ns : List Int) : Option Int := do
  let neg ← (ns.map fun n => if n < 0 then t.arith (-n) else some 0).mapM id
  let positive ← sumSize t N (ns.map fun n => if n > 0 then n else 0)
  let negative ← sumSize t N neg
  t.arith (positive - negative)

/-- Without fold expressions (sum.hpp:71-75). -/
def sumNoFold (t : Ty) (ns : List Int) : Option Int :=
  if t.signed then sumSigned t (ns.length + 1) (ns ++ [0]) else sumSize t (ns.length + 1) (ns ++ [0])

/-! ### Scans -/

/-- `partial_sum<I, S>` (partial_sum.hpp:22-45). -/
def partialSum (sum : Ty → List Int → Option Int) (t : Ty) (i : Nat) (ns : List Int) : Option Int := do
  let is ← makeSeq ns.length
  if i ≤ is.length then sum t (List.zipWith (fun k n => if k < i then n else 0) is ns) else none

/-- `exclusive_scan` (exclusive_scan.hpp:18-42). -/
def exclusiveScan (sum : Ty → List Int → Option Int) (t : Ty) (ns : List Int) : Option (List Int) := do
  let is ← makeSeq ns.length
  is.mapM fun i => partialSum sum t i ns

/-- `zip<OP, A, B>` (zip.hpp:16-27) with common type `ct`. -/
def zip (op : Int → Int → Option Int) (ct : Ty) : List Int → List Int → Option (List Int)
  | [], [] => some []
  | a :: as, b :: bs => do
    let a' ← ct.conv a
    let b' ← ct.conv b
    let r ← op a' b'
    let rs ← zip op ct as bs
    pure (r :: rs)
  | _, _ => none

/-- `plus` (plus.hpp:19-31), `minus` (minus.hpp:18-30). -/
def plus (ct : Ty) (as bs : List Int) : Option (List Int) := zip (fun a b => ct.arith (a + b)) ct as bs
def minus (ct : Ty) (as bs : List Int) : Option (List Int) := zip (fun a b => ct.arith (a - b)) ct as bs

/-- `inclusive_scan` (inclusive_scan.hpp:17-30). -/
def inclusiveScan (sum : Ty → List Int → Option Int) (t : Ty) (ns : List Int) : Option (List Int) := do
  let ex ← exclusiveScan sum t ns
  plus t ex ns

/-- `at_index_t<I, Ts...>` (at_index.hpp:22-47): the only base class `indexed<I, T>` of the indexer. -/
def atIndex {α : Type} (i : Nat) (ts : List α) : Option α := do
  let is ← makeSeq ts.length
  match (is.zip ts).filter (fun x => x.1 == i) with
  | [x] => some x.2
  | _ => none

/-- `select<I, S>` (select.hpp:17-27). -/
def select (i : Nat) (ns : List Int) : Option Int := atIndex i ns

/-- `map<S, M>` (map.hpp:17-27). -/
def map (is : List Nat) (m : List Int) : Option (List Int) := is.mapM fun i => select i m

/-- `is_all` (is_all.hpp:22-28), with and without fold expressions. -/
def isAllFold : List Bool → Bool
  | [] => true
  | b :: bs => b && isAllFold bs

def isAllSame (bs : List Bool) : Bool := decide (true :: bs = bs ++ [true])

end Nanostl.Seq

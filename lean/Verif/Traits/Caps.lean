/-!
What the traits say a wrapper can do and what it can do: destruction, copy and move construction, copy and move assignment and swapping of
`optional` (nonstd/optional.hpp), `expected` and `unexpected_type` (nonstd/expected.hpp) and `variant` (nonstd/variant.hpp), in C++11 and C++14.

A trait asks whether a declaration is found that can be called (`says`); whether its body compiles is another matter, seen only when it is called
(`does`). A member function of a class template whose body does not compile for its arguments still makes the trait say yes.

Simplified: types of which a wrapper can be made by a converting constructor from the wrapper itself (C113, C114, C123) and in-place tags as
contents are left out; `is_trivially_move_constructible` is taken to imply `is_move_constructible`; exception specifications are C120's matter;
`nanostl::swap`, which has a declaration only (nanotype_traits.h:1182-1186), is taken to have the usual body.
-/

namespace Nanostl.Caps

/-- The operations: destruction, construction and assignment from a `const` lvalue (copy) and from an rvalue (move), and `using nanostl::swap; swap(a, b)`. -/
inductive Op where
  | destroy | copy | move | copyAssign | moveAssign | swap
  deriving DecidableEq, Repr

/-- A type: what the traits `is_destructible`, `is_copy_constructible`, `is_move_constructible`, `is_copy_assignable`, `is_move_assignable` and
`std17::is_swappable` say of it, and whether the operation compiles when it is used. -/
structure Cap where
  says : Op → Bool
  does : Op → Bool

/-- `swap(a, b)` of two wrappers. `own` is whether the constraint of the wrapper's own `swap` holds; it is more special than
`nanostl::swap(T&, T&)`, which needs `is_move_constructible` and `is_move_assignable` (nanotype_traits.h:1180-1186). -/
def swapSays (own move moveAssign : Bool) : Bool := own || (move && moveAssign)

/-- Whether it compiles: `body` is the wrapper's own `swap`; the usual body of the other moves three times. -/
def swapDoes (own body saysMove saysMoveAssign doesMove doesMoveAssign : Bool) : Bool :=
  if own then body else saysMove && saysMoveAssign && doesMove && doesMoveAssign

/-- `optional<T>`, the traits. The copy constructor (optional.hpp:975-982), the assignments (1191-1228; the conditions are commented out) and the
destructor (1171-1177) are not constrained. The move constructor is a template for movable `T` (987-1002); an rvalue is copied if it is not viable. -/
def optionalSays (t : Cap) : Op → Bool
  | .destroy => true
  | .copy => true
  | .move => true
  | .copyAssign => true
  | .moveAssign => true
  | .swap => swapSays (t.says .move && t.says .swap) true true

/-- `optional<T>`, the bodies: `construct_value` (optional.hpp:778-793) and `initialize` (1512-1527) make a `T` from a `T const &` or a `T &&`;
the assignments may `reset()` (1191-1228); `swap` (1355-1367) with the constraint of 1725-1731. -/
def optionalDoes (t : Cap) : Op → Bool :=
  let move := if t.says .move then t.does .move else t.does .copy
  let moveAssign := t.does .destroy && t.does .move && t.does .moveAssign
  fun
  | .destroy => t.does .destroy
  | .copy => t.does .copy
  | .move => move
  | .copyAssign => t.does .destroy && t.does .copy && t.does .copyAssign
  | .moveAssign => moveAssign
  | .swap => swapDoes (t.says .move && t.says .swap) (t.does .swap && t.does .move && t.does .destroy) true true move moveAssign

/-- `optional<T>`. -/
def optional (t : Cap) : Cap := ⟨optionalSays t, optionalDoes t⟩

/-- The storage of `expected<T, E>` (expected.hpp:683-832): which specialisation `storage_t<T, E, copy, move>` is. The primary template, for neither,
does not derive from `storage_t_impl` and has none of its members (683-696). -/
structure Storage where
  copy : Bool
  move : Bool

/-- The template arguments of `contained` (expected.hpp:1916-1923). -/
def storage (t e : Cap) : Storage := ⟨t.says .copy && e.says .copy, t.says .move && e.says .move⟩

/-- The template arguments of `contained` in `expected<void, E>` (expected.hpp:2152-2159). -/
def storageVoid (e : Cap) : Storage := ⟨e.says .copy, e.says .move⟩

/-- Whether the storage has the members `expected` calls. -/
def Storage.usable (s : Storage) : Bool := s.copy || s.move

/-- The constraint and the body of `expected<T, E>::swap` (expected.hpp:1715-1742); the whole body is compiled whatever the two hold. -/
def expectedSwapSays (t e : Cap) : Bool := t.says .swap && e.says .swap && (t.says .move || e.says .move)

@[inherit_doc expectedSwapSays]
def expectedSwapDoes (t e : Cap) : Bool :=
  (storage t e).usable && t.does .swap && e.does .swap && t.does .move && e.does .move && t.does .destroy && e.does .destroy

/-- `expected<T, E>`, the traits: the constructors are defaulted (expected.hpp:1384-1385) and deleted if the storage's are; a defaulted move constructor
that is deleted is ignored, so that an rvalue is copied if the storage can be. The assignments (1636-1651) and the destructor (1628-1632) are not constrained;
the constraint of the free `swap` is at 2368-2374. -/
def expectedSays (t e : Cap) : Op → Bool :=
  let s := storage t e
  let own := t.says .move && e.says .move && t.says .swap && e.says .swap
  fun
  | .destroy => true
  | .copy => s.copy
  | .move => s.move || s.copy
  | .copyAssign => true
  | .moveAssign => true
  | .swap => swapSays own (s.move || s.copy) true

/-- `expected<T, E>`, the bodies: the storage copies or moves whichever there is (expected.hpp:709-721, 761-766, 805-810); the assignments make a temporary,
swap and destroy it (1636-1651). -/
def expectedDoes (t e : Cap) : Op → Bool :=
  let s := storage t e
  let own := t.says .move && e.says .move && t.says .swap && e.says .swap
  let destroy := s.usable && t.does .destroy && e.does .destroy
  let member := expectedSwapSays t e && expectedSwapDoes t e
  let copy := s.copy && t.does .copy && e.does .copy
  let move := if s.move then t.does .move && e.does .move else copy
  let copyAssign := copy && member && destroy
  let moveAssign := move && member && destroy
  fun
  | .destroy => destroy
  | .copy => copy
  | .move => move
  | .copyAssign => copyAssign
  | .moveAssign => moveAssign
  | .swap => swapDoes own member (s.move || s.copy) true move moveAssign

/-- `expected<T, E>`. -/
def expected (t e : Cap) : Cap := ⟨expectedSays t e, expectedDoes t e⟩

/-- The constraint and the body of `expected<void, E>::swap` (expected.hpp:2052-2072). -/
def voidSwapSays (e : Cap) : Bool := e.says .swap && e.says .move

@[inherit_doc voidSwapSays]
def voidSwapDoes (e : Cap) : Bool := (storageVoid e).usable && e.does .swap && e.does .move

/-- `expected<void, E>`, the traits (expected.hpp:1945-1946, 2020-2043). The free `swap` asks `is_swappable<void>` (2372), which is false. -/
def voidSays (e : Cap) : Op → Bool :=
  let s := storageVoid e
  fun
  | .destroy => true
  | .copy => s.copy
  | .move => s.move || s.copy
  | .copyAssign => true
  | .moveAssign => true
  | .swap => swapSays false (s.move || s.copy) true

/-- `expected<void, E>`, the bodies (expected.hpp:735-747, 782-787, 826-831, 2020-2043). -/
def voidDoes (e : Cap) : Op → Bool :=
  let s := storageVoid e
  let destroy := s.usable && e.does .destroy
  let member := voidSwapSays e && voidSwapDoes e
  let copy := s.copy && e.does .copy
  let move := if s.move then e.does .move else copy
  let copyAssign := copy && member && destroy
  let moveAssign := move && member && destroy
  fun
  | .destroy => destroy
  | .copy => copy
  | .move => move
  | .copyAssign => copyAssign
  | .moveAssign => moveAssign
  | .swap => swapDoes false member (s.move || s.copy) true move moveAssign

/-- `expected<void, E>`. -/
def expectedVoid (e : Cap) : Cap := ⟨voidSays e, voidDoes e⟩

/-- `unexpected_type<E>`, the traits: constructors and assignments are defaulted (expected.hpp:853-854, 959-960). A deleted copy is the better match before
the templates; a deleted move is ignored: for construction the copy remains, since the templates (920-955) needs `is_constructible<E, E>`, for assignment the
template of 969-974, which is not constrained. -/
def unexpectedSays (e : Cap) : Op → Bool
  | .destroy => e.says .destroy
  | .copy => e.says .copy
  | .move => e.says .move || e.says .copy
  | .copyAssign => e.says .copyAssign
  | .moveAssign => true
  | .swap => true

/-- `unexpected_type<E>`, the bodies. The template assignment (expected.hpp:969-974) makes an `unexpected_type` from an `E &&`, swaps (1004-1013) and destroys it. -/
def unexpectedDoes (e : Cap) : Op → Bool
  | .destroy => e.says .destroy && e.does .destroy
  | .copy => e.says .copy && e.does .copy
  | .move => if e.says .move then e.does .move else e.says .copy && e.does .copy
  | .copyAssign => e.says .copyAssign && e.does .copyAssign
  | .moveAssign => if e.says .moveAssign then e.does .moveAssign else e.says .move && e.does .move && e.does .swap && e.does .destroy
  | .swap => e.does .swap

/-- `unexpected_type<E>`. `none`: the class cannot be used at all, for its member `swap` is no template, and its return type
`enable_if<is_swappable<E>::value, void>::type` (expected.hpp:1004-1006) is an error as soon as the class is instantiated. -/
def unexpected (e : Cap) : Option Cap := if e.says .swap then some ⟨unexpectedSays e, unexpectedDoes e⟩ else none

/-- `variant<T0, ...>`, the traits: nothing is constrained (variant.hpp:1262-1290, 1335-1371) but the free `swap` (1872-1901). `ts`: the alternatives, different
types; the unused ones are empty classes (variant.hpp:1196-1213). -/
def variantSays (ts : List Cap) : Op → Bool
  | .destroy => true
  | .copy => true
  | .move => true
  | .copyAssign => true
  | .moveAssign => true
  | .swap => swapSays (ts.all fun t => t.says .move && t.says .swap) true true

/-- `variant<T0, ...>`, the bodies: every case of the switches is compiled (variant.hpp:955-975, 998-1097); the assignments assign or make (1603-1651); `swap` swaps or
moves three times (1470-1513, 1689-1713). -/
def variantDoes (ts : List Cap) : Op → Bool :=
  let destroy := ts.all fun t => t.does .destroy
  let move := ts.all fun t => t.does .move
  let moveAssign := destroy && move && ts.all fun t => t.does .moveAssign
  fun
  | .destroy => destroy
  | .copy => ts.all fun t => t.does .copy
  | .move => move
  | .copyAssign => destroy && (ts.all fun t => t.does .copy) && ts.all fun t => t.does .copyAssign
  | .moveAssign => moveAssign
  | .swap => swapDoes (ts.all fun t => t.says .move && t.says .swap) ((ts.all fun t => t.does .swap) && move && moveAssign && destroy) true true move moveAssign

/-- `variant<T0, ...>`. -/
def variant (ts : List Cap) : Cap := ⟨variantSays ts, variantDoes ts⟩

end Nanostl.Caps

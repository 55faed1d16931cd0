# Formal model of nanostl: design

## Trusted base

* Lean 4.33.0's kernel. No axioms of our own, no `sorry`, no `native_decide`, no `bv_decide`.
  Every property theorem depends at most on `propext`, `Classical.choice`, `Quot.sound`.
* That the Lean definitions in `lean/Verif/**/Model*.lean` transcribe the C++ text they cite. Nothing checks this link
  mechanically; every definition carries the file and lines it models, and says where it simplifies.
* The C++ abstract machine as used in the comments: `int` 32 bit two's complement, `long long`/`unsigned long long` 64 bit,
  `float`/`double` IEEE-754 binary32/binary64 with the bit layout of the unions in `nanocommon.h`, `char` 8 bit.

## Conventions of the models

* Undefined behaviour is an outcome (`Out.ub`, or `none`/`Except.error` where stated), never assumed away.
  Throwing of `bad_alloc` is a third outcome that carries the state at the throw.
* Machine integers are `Nat`/`Int` with the wrap-around written out (`% 2^64`) at the operation where it occurs, or `BitVec`/`UInt64`
  when the bits matter.
* A property is stated against a small specification that does not mention the model (lists, finite maps, rationals).
* False properties: the negation is proved with a concrete witness (theorem name contains `_false`/`_ub`), and the
  part that holds is proved under the precondition it really needs, in a theorem with suffix `_partial`.

## Plan per property

| id | model | proof |
|----|-------|-------|
| C01 | `vector` as three words (elements,capacity,size) over an explicit heap of blocks; each method transcribed | simulation of `List (Option a)` machine by induction on the history |
| C02 | same | invariant "live blocks = blocks owned by live vectors, injectively"; no `ub` outcome when preconditions hold |
| C03 | same | invariant, monotonicity lemma per operation |
| C04 | instrumented push_back loop counting copies and allocations | potential function induction |
| C05 | same as C01 | frame lemma: operation on one vector keeps the abstract contents of the others |
| C06 | push_back taking a pointer into the heap | false when size=capacity (use after free); true otherwise: partial |
| C07 | same | false at n=0; partial for n>=1 |
| C08 | same | removal proved; returned iterator is end(): false, partial |
| C09 | allocation oracle | state equality at the throw |
| C10 | same; assign from own buffer | induction over loop with aliasing |
| C11-C13 | string as vector of bytes with stored terminator | invariant over histories; self-append false |
| C14 | `compare_` loop, the operators | induction; strict total order; each operator has the meaning of its sign |
| C15, C16 | same | false with witness; partial |
| C17, C18 | digit loop into a bounded local buffer; overflow and out-of-bounds as `ub` | induction; false for big negative / beyond 32 bit: partial |
| C19-C21 | treap as inductive tree with arbitrary priorities | BST/heap invariants, refinement to finite map |
| C22, C23 | same | false with witness; partial |
| C24 | heap of nodes | exactly-once delete; copying false |
| C25 | xorshift32 on bit vectors | linear algebra over GF(2): order of the matrix |
| C26-C30 | direct | direct |
| C31, C32 | direct | induction over histories |
| C33 | recursive definition has no finite evaluation | divergence: for every fuel the call does not return |
| C34 | siphash on bytes and 64-bit words | equal to separately written specification by word list |
| C35 | direct | direct |
| C36 | template recursion as function on Int | gcd theory |
| C37, C38 | owners/objects state machine | invariant |
| C39-C44 | bit patterns, rational value function | case analysis on fields |
| C45 | tables transcribed | whole table checked by kernel computation, lifted by `List.all` lemma |
| C46 | direct | kernel computation over whole finite range or inequality proof |
| C47-C50 | f2d/d2d transcribed | exactness of mulShift by Farey-neighbour certificates, then digit-removal loop invariant |
| C51 | to_chars transcribed | length bounds, text denotes value |
| C52-C54 | s2d_n/s2f_n transcribed | parser characterisation, exactness of mulShift, rounding lemma |
| C55 | direct | arithmetic |
| C56-C58 | labelled transition system, one step per atomic access | invariant over all schedules; false parts by witness schedule |
| C59 | template recursion as function on lists | induction |
| C60 | state machine with lifetime events, throwing operations of `T` | invariant, refinement |
| C61 | the same | case analysis of every operation; false for assignments, see findings |
| C62 | threads, mutex and condition variable as a transition relation | invariant over all reachable states |
| C63-C71 | elementary functions over the `float` model (Math/Elem) | forward error analysis over the reals; polynomials against the true function by certified interval subdivision (`Poly.check`); for `sin` next to pi/2, where the error bounds do not settle whether the result exceeds 1, all 8800 arguments are computed by the kernel and the result lifted (`sinTail_chk`, `window`); for `erf` the formula's 16th power against the Taylor polynomial of the integral, degree 185, in 28 cells: coefficients packed into one natural number (`Float/Pack`) |
| C72-C74 | C++ types as trees, every trait a function with one equation per partial specialisation (`Verif/Traits/Model`); specification `Traits/Spec` by the grammar | structural induction and case analysis |
| C75 | `size_t` arithmetic of `w` bits, layouts of the platform as parameters (`Traits/Storage`) | arithmetic; induction on the type list |
| C76 | variables, temporaries and heap cells with lifetime events, failure oracle (`Verif/Any`) | invariant over all programs, refinement |
| C77 | all three implementations as functions of the addresses and the strings at them (`Verif/TypeInfo`) | induction on strings, case analysis |
| C78-C80 | variables with index and storage, objects with identities, lifetime events, failure oracle (`Verif/Variant`) | lifetime invariant kept by every primitive; weakest preconditions over the contents for every operation; induction over programs |
| C81 | the dispatch as function objects, with the copies of the parameters (`Verif/Variant/Visit`) | induction on the number of variants, any visitor |
| C82 | the operators on reachable states (`Verif/Variant/Compare`) | case analysis; order laws for all contents |
| C83 | type lists as lists, layouts as numbers (`Verif/Variant/Typelist`) | induction on lists, C75 for the storage |
| C84-C86 | bytes of `[first,last)` as a list, every read checked; parsing, fast path, `compute_float`, slow path with big integers as functions (`Verif/FastFloat`) | loop invariants for the scanner; error bounds for the truncated products, the whole table of powers of five checked in the kernel; slow path by comparison with the midpoint; longest-prefix argument for the grammar |
| C87 | with the Ryu printer (`Verif/Ryu`) | C84 and C47/C49/C51 |
| C88, C89 | as C84; Ryu's parsers | uniqueness and monotonicity of the nearest value, C52/C53 |
| C90, C91 | `compute_float`, `bigint` | as parts of C84 |
| C92 | the replacements of built-ins in `float_common.h`, `bigint.h`, `ascii_number.h` | case split of the search, sum of partial products, bytes |
| C93, C94 | type lists and places as lists, the index packs of `tuple_cat` as functions over C59's sequences (`Verif/Tuple`) | prefix sums, induction on the list of tuples |
| C95 | the same; `index_of` as the weighted sum of the code | uniqueness of the position by induction |
| C96 | the recursions, comparisons as functions that may throw | first deciding position by induction; order laws for any strict weak orders |
| C97 | memory as a function of places, elements' operations as effects on two places | induction on the positions, with a frame |
| C98 | the arguments the elements' constructors get | lists |
| C99 | the operators as functions of flag and storage, comparisons of values as functions that may throw (`Verif/Opt/Compare`) | case split; order laws for any order of the values |
| C100 | the operators as functions of the stored addresses (`Verif/UPtr/Compare`) | the ownership invariant of C37 |
| C101 | constructor and `sin` over the heap of C01 (`Verif/Vector/Valarray`) | loop invariant with frame |
| C102 | storage, flag and record of constructions and destructions, commands as in C16 (`Verif/Exp/Model`); variables and temporaries are slots | ownership invariant (`Verif/Exp/Own`) preserved by every command, then induction on the history; for throwing moves a second induction over histories without mixed commands (`Verif/Exp/Throwing`) |
| C103 | the same | refinement of a map from variables to values or errors |
| C104 | observers and operators over the same states; comparisons as functions | case split on the invariant |
| C105 | `expected<void, E>` (`Verif/Exp/Void`): an error built over a living one is lost, no undefined behaviour | ownership invariant with the set of lost objects; their number is that of the mixed commands |
| C106 | the traits as functions that ask a parameter `Lang` (what the compiler knows about the program's constructors, conversions, assignments) the questions the header asks (`Traits/Init`); a hard error is a distinct outcome | specification `Traits/InitSpec` by variable definitions; case analysis on the grammar of types |
| C107 | expressions as value category and type, template argument deduction, calls | case analysis; induction on the chain |
| C108 | recursion through the decayed types with the compiler's instantiation depth as fuel | induction on the list, idempotence of `decay` |
| C109 | the two templates `swap` and what argument-dependent lookup finds (a parameter), `Traits/Swap` | recursion through the dimensions, on top of C106 |
| C110 | the constraints of `unique_ptr`'s constructors and assignments as functions of types and `Lang`, overload resolution between the two constructors from a deleter (`UPtr/Types`) | case analysis; facts of the language about pointer and reference conversions are the hypothesis `Laws`, met by an example |
| C111 | the loop around `nanosleep` with a list of interruptions, the conversions to `timespec` with 32 and 64 bits; the waitable timer of Windows (`Thread/Local`) | induction on the interruptions |
| C112 | keys in use and values per thread; the system's choice of a key is part of the history | invariant: the state is what the calls so far say; induction on the history |
| C113 | the constraints of the constructors and assignments and overload resolution between them (`Traits/Wrap`), over the traits of C106 and an arbitrary `Lang` | the traits are the standard's (C106); case analysis on the argument |
| C114 | the same for `optional` | the same |
| C115 | the loop of a timed wait over a list of wake-ups with their times, the deadline from both clocks (`Thread/Wait`) | induction on the wake-ups |
| C116 | pointers as positions in arrays, `distance`, `initializer_list` and overload resolution between its constructors (`Algo/Range`) | arithmetic; induction on the loop; induction on how a program gets a list |
| C117 | the constraints of `tuple`'s constructors, overload resolution between them and whether the body compiles (`Tuple/Make`), over the traits of C106 and an arbitrary `Lang` | the traits are the standard's (C106); induction on the elements |
| C118 | the same for assignments | the same |
| C119 | overload resolution for `os << x` and for the `to_string` in the member called (`Stream/Insert`), over the types of C105 | a table per fundamental type (whole table), case analysis on pointers, interval arithmetic for the values |
| C120 | the `noexcept` of `tuple`'s operations and, for each, the operations its body runs on the elements (`Tuple/Promise`), over C106, C109 and C117 | the traits are the standard's (C106, C109); induction on the elements |
| C121 | `reference_wrapper`, `__weak_result_type` and what they derive from (`Traits/Result`); function types with all their qualifiers, classes with what they declare and inherit | cases on the form of the type and the number of parameters |
| C122 | the bodies of the converting constructors of `optional` and `expected` (`Traits/Braces`): braces or not, and the move into place; which one is called from `Traits/Wrap` | cases on the constructor that is called |
| C123 | the constructors and assignments of `unexpected_type` and `make_unexpected` (`Traits/Braces`) | cases on the constructor that is called; the traits by C106 |
| C124 | which declarations of the wrappers' copy, move, assignment and swap the traits find, and which bodies compile, from what the contained types say and can do (`Traits/Caps`) | case analysis over the capabilities; induction over the nesting |
| C125 | overload resolution among the constructors `variant(Ti const &)`, `variant(Ti &&)` (assignments alike) by the rank of conversions, which the program decides; which parameter lists make a class (`Variant/Convert`) | the best candidate is unique; case analysis on the kind of argument; injectivity of adding const |
| C126 | the conversions on the way of the result of a thread, the stack size and the name it gets (`Thread/Result`); that the function is called through a pointer of another type is taken as the calling conventions have it | arithmetic modulo powers of two |
| C127 | objects with any number of members of type `unique_ptr<Object>`, `reset`, move assignment, `swap` and the destructors that run within each other (`UPtr/Graph`); what else the objects have is left out, addresses are never used again, the destructor of the object does nothing of its own | induction over the depth of the calls; invariants of all programs; ways from the variables to an object |
| C128 | the ordering operators of `expected` and `unexpected_type` (`Exp/Order`) over any comparisons of the value and the error | by cases against a lexicographic order; equivalences where the code deviates |
| C129 | the vector over blocks of objects that always live, with counts of objects built and destroyed and every call of `new`, `T()` and `operator=` free to throw (`Vector/Elem`) | invariant over reachable states (objects accounted for), loop invariants for copying, shifting and assigning; witnesses by running commands |
| C130 | the treap of `Map/Model` with the comparisons as arbitrary functions and every copy, comparison and assignment free to throw (`Map/Keys`) | invariant over reachable states (tree, heap order, owned nodes) that needs no order; for ordered keys a refinement to a map on ranks; witnesses by running commands with the real priorities |
| C131 | the vector over any element type given by its `T()`, `operator=` and destructor, and from it all of `vector<vector<...>>` by recursion, in a memory of blocks whose places hold scalars or the members of vectors (`Vector/Nest`) | ownership of disjoint sets of blocks; a vector of a class that fulfils the contract of a value type fulfils it, hence all depths by induction; a lemma that reaches into a variable along a path, and one along two paths for `swap` (`Vector/NestSwap`); invariant over reachable states |
| C132 | `compare_` and the operators over characters of any width, as the key class of the map of C130 (`Map/StrKeys`) | induction over the two strings: the sign is the dictionary order of the texts if all characters are below 256; then C130; equal to the comparison of C14's model for `char` (`compare_str`) |
| C133 | as C131, with element types whose `T()` allocates and may throw: `new T[n]` with its unwinding, `basic_string` with its constructors, `=`, `+=` and `clear()`, over the same memory of blocks (`Vector/Nest`) | the contract of a value type extended by its constructor; strings fulfil it, hence all depths of vectors of them by the lemma of C131; invariant over reachable states |
| C134 | `ierf` in arithmetic of `float`, every operation rounded (`Math/Elem`) | bounds for every step of both polynomials with their rounding errors, from the errors of `log` (C64) and `sqrt` (C66); that `Erf` takes `ierf(x)` back to within 0.00125 of x: up to 1021/1024 by a subdivision into 1021 cells, each with bounds of the logarithm, of the first polynomial (which increases, `PA_mono`) and of `Erf` checked by the kernel in natural numbers and lifted to all reals of the cell (`Math/IerfCells`, `Math/IerfInv`), above by four cells and bounds of the second polynomial; 0.00125 is little more than the width of a cell, not the best bound; the relative error near 0 from the derivative of `Erf` (`Math/IerfRelProps`) |
| C135 | the functions of C63, C64, C66, C67 and C69 with rounded products and sums between them (`Math/Elem`) | from the errors of the functions (C63, C64, C66, C67, C69) and of the rounding; the ranges are 2^-125 to 2^125 for `exp(log(x))`, -87 to 87.33 for `log(exp(x))`, 87 for `exp(x)*exp(-x)`, 8192 for `sin` and `cos`, 2^-126 to 2^126 for `sqrt`, 2^-23 to 2^120 for `cbrt`; the bounds are not the best |
| C136 | the functions in arithmetic of `float` on bit patterns (`Math/Elem`) | `copysign` to the opposite sign is the opposite for all bits, and `fabs` of -x and x have the same bits except for zeros, which are computed; for `sin` and `cos` a bound on the difference from C67 |

## Findings (places where the code disagrees with a property)

Each has a theorem; `_false`, `_ub` name the proof of the negation.

* C02: `vector` copy constructor that throws in the middle leaks its block (`c02_copy_throw_leaks_false`).
* C06: `v.push_back(v[i])` with `size()==capacity()` reads freed memory (`c06_push_own_element_ub`, `_false`).
* C07: `resize(0)` does nothing (`c07_resize_zero_false`).
* C08: `erase` returns `end()` (`c08_erase_return_false`).
* C11: an allocation failure inside `+=` leaves the string without terminator (`c11_append_throw_unterminated_false`).
* C13: `s += s` is wrong for every string (`c13_self_append_false`).
* C15: `empty()` is false for the empty string (`c15_empty_false`).
* C16: `string(p,n)` stores no terminator; `string(first,last)` reads `*last` (`c16_count_false`, `c16_range_false`).
* C17: `to_string(int)` overflows its buffer for every `v <= -10^9` (`c17_to_string_false`).
* C18: `to_string(int64_t)` is wrong for every `|v| >= 2^31` (`c18_to_string64_false`).
* C22: `map::begin()` is the root, so iteration misses every key below the root's (`c22_false`, `c22_begin_partial`).
* C23: `it == end()` dereferences null for every iterator that is not the end (`c23_false`). (`!=` checks for the end, but then
  uses `pair !=`, which does not exist, so it does not compile when instantiated.)
* C24: copying a non-empty map and destroying both frees nodes twice (`c24_copy_false`).
* `map::find`/`upper_bound`/`end` `const` pass a `const map*` to a constructor taking `map*` and so do not compile when
  instantiated; they are modelled as if they did (`findP`, `upperP`).
* C32: insertion of an integer inherits C17/C18 (`c32_ostream_false`).
* C33: `operator<<(ostream&, string)` calls itself without end, for every string (`c33_insert_string_false`).
* C40: `fabs(-0.0)` is `-0.0` (`c40_fabs_false`).
* C42: `ceil(x)` is 0 for every `0 < x < eps`, `floor(x)` is 0 for every `-eps < x < 0` (`c42_ceil_false`, `c42_floor_false`).
* C43: before C++20 `j << 31` in `pow` is undefined for every negative base and every integer exponent `|y| < 2^24` but 0, 1 and 2
  (`c43_shift_false`). `pow(x,y)` is 1 for every `|y| < epsilon`, an integer or not (`c43_tiny_exponent_false`), and +0 for every `|x| < epsilon`,
  also for negative `y` (`c43_tiny_base_false`). NaN arguments give finite numbers (`pow_finite`).
* C63: `exp` of `-inf`, `+inf` and NaN is a finite positive number (`c63_exp_positive` holds for every pattern).
* C64: `log` and `log10` of a negative number are `+inf` instead of NaN (`c64_log_negative_false`), of NaN and `+inf` the finite number that
  belongs to the greatest float (`c64_log_nan_false`).
* C66: `sqrt(+inf)` and `sqrt(-inf)` are `-inf` (`c66_sqrt_inf_false`); for subnormal arguments the result is useless
  (`c66_sqrt_subnormal_false`).
* C67: at 10^9 `sin` and `cos` both return 0 (the clamp `if (fabs(u) > 1) u = 0` hides the failed reduction); from about 6.7e9 on, and for
  infinities and NaN, the conversion to `int` is undefined (`c67_large_false`). `pi/2 - (pi/2 - x)` makes `sin` of small numbers 0 and
  destroys the symmetry (`c67_small_false`).
* C68: since `exp` is cut off at 2^126, `cosh` and `sinh` of every finite float from 87.34 on are too small, by more than 0.3% (`c68_cut_false`; the accuracy is proved up to 87.33), though the result would be representable up to 89.4;
  infinities give 2^125 and NaN gives a number (`c68_large_false`). `sinh` and `tanh` of 2^-30 are 0 (`c68_small_false`).
* C69: `cbrt` returns zero for every number below 2^-23 in magnitude and NaN for infinities.
* C70: `tan(1e9)` is 2.4e14 though the tangent is below 2 there; at 5e9, infinities and NaN the conversion to `int` is undefined
  (`c70_large_false`). `tan(2^-30)` is 0.
* C72: every union is `is_class` and none is `is_union` (`c72_union_false`); `char8_t`, `char16_t`, `char32_t`, `__int128` and the type of `nullptr`
  are `is_enum` (`c72_integral_false`, `c72_nullptr_false`); `nanostl::nullptr_t` is a class and scalar (`c72_scalar_false`).
* C74: `is_empty` of a union or a final class does not compile (`c74_empty_false`), so neither does `unique_ptr` with a final deleter (nanomemory.h:218-221
  asks `is_empty` before `is_final`) nor a `tuple` with a final element (tuple.hpp:120).
* C71: `erf(2^-30)` and `erfc(5)` are 0, so their relative error is 1 (`c71_relative_false`); the comment's 1.94e-6 absolute error is measured, 3.5e-6 is proved.

- C61: the copy assignment of `optional` (optional.hpp:1189-1210) is `noexcept` if the *moves* of `T` do not throw, so an exception of `T`'s
  copy constructor or copy assignment (a string, a vector) ends the program instead of reaching the caller (`c61_copy_assign_false`). The move
  assignment (1214-1228) is always `noexcept`.
- `nanostl::swap(T&, T&)` is declared (nanotype_traits.h:1183-1194) but defined nowhere (nanoutility.h:57-66 is `#if 0`), so `unique_ptr::swap`
  and `optional::swap` do not link unless argument-dependent lookup finds another `swap`. They are modelled with the usual three moves.
- C59: `sum` by fold expression (`TAO_SEQ_FOLD_EXPRESSIONS`) fails to compile for signed types when a suffix sum overflows although the total
  fits; the theorem states when each variant compiles. The `TAO_SEQ_USE_STD_*` branches name `std::integer_sequence` members nanostl lacks.
- C37/C38: deleters are modelled as copyable values.
- C53: the parsers accept texts without a digit (`-`, `.`, `e5`, `-e`) as zero, and refuse a leading `+`. Texts must be shorter than
  2^31-10000 bytes (`int` arithmetic).
- C54: `stod` returns `float`, so `stod(to_string(x))` is the float nearest to `x`, in general not `x` (`c54_stod_not_inverse`). `idx` is never
  set. `stof` is compiled out.
- `log2pow5` (__nanostrutil.h) says in its comment that it returns 1 for `e == 0`; it returns 0. The callers only need the code's behaviour (C46).
- C56: a raised `data_ready` or `space_open` signal stays set after the value it was raised for is gone, and `thread_queue_consume` and
  `thread_queue_produce` do not look at `count` again after their wait. So a waiting consumer returns values that were never produced and makes
  `count` negative (`c56_stale_signal_false`). `thread_queue_produce` ignores that its wait timed out and overwrites a value not yet consumed
  (`c56_timeout_overwrites_false`); `thread_queue_consume` waits without end whatever positive timeout it is given. After 2^31 values the slot
  index is negative (`c56_many_values_false`). The initial contents given to `thread_queue_init` are lost on POSIX (`c56_init_false`).
  `thread_queue_produce` returns 0 on success too, although documented otherwise.
- C57: outside Windows `thread_atomic_int_store`, `_swap`, `thread_atomic_ptr_store`, `_swap` call `__sync_lock_release` after writing, which
  writes 0 (`c57_store_false`, `c57_swap_false`, `c57_ptr_false`); the example in the documentation never ends. The cell is a `long`: once
  incremented past `INT_MAX`, `thread_atomic_int_compare_and_swap` reports success without changing anything (`c57_cas_false`).
- C58: `thread(f)` never runs `f`; the thread is never joinable (`c58_false`). Its constructor also uses `__thread_struct::__thread_struct`, which is
  declared but not defined; the move operations, `detach`, `swap`, `get_id` are declared but not defined. `thread_destroy` after `thread_join`
  joins twice, undefined on POSIX (`c58_join_destroy_false`).
- C62: `time` and `gettimeofday` are called one after the other to get the deadline of a timed wait, which is a second off if a second begins in
  between.
- C76: `any(ValueType&&)` is `noexcept` although it allocates and constructs, so any failure in it ends the program (`c76_value_false`), also in
  value assignment and `emplace`. The assignment template (any.hpp:511-519) is never viable, its `ValueType` cannot be deduced; values are
  converted to an `any` that is then moved. `any_cast<T>(any const&)` casts the pointer to `holder<T const>*`, another class: undefined whenever the
  type is right (`c76_cast_false`). `any_cast<T&>` does not compile. `any_cast<T>(any&&)` copies.
- C77: the comment of the third implementation of `type_info` says strings are compared if at least one name is not unique; the code compares
  addresses if at least one *is* (`c77_arm_false`). Correct under the promise that a name marked unique has no copy.
- C78: `emplace<U>` and `in_place_type<U>` accept a type that is no alternative: the object is constructed in the storage, however large, the index
  is -1 and nothing destroys it (`c78_foreign_false`).
- C79: `holds_alternative<U>` of a type that is no alternative is true of a valueless variant and `get`, `get_if` then read an object that is not there
  (`c79_foreign_false`); `get_if(nullptr)` dereferences the pointer (`c79_null_false`). `get` only asserts, as `variant_CONFIG_NO_EXCEPTIONS` is forced to 1.
- C80: a copy or value assignment that changes the alternative destroys the old value first, so a throwing copy leaves the target valueless even if no move
  throws (`c80_keep_false`). The move assignment promises `noexcept` by the alternatives' move *assignments* but also move-constructs, so it can end the
  program, also through `swap` (`c80_term_false`). A broken-off `swap` loses a value (`c80_swap_false`).
- C81: `apply(const Visitor&, const V1&, const V2&, const V ... args)` (variant.hpp:2134) copies the third and later variants, several times; a
  reference to their contents returned by a visitor dangles. Six variants do not compile, `TypedVisitorUnwrapper<6>` is missing (`c81_six_false`). A valueless
  variant ends the program. `hash<variant>` uses a member `get<K>` that does not exist. In C++17 mode `using nanostl::is_swappable` names nothing.
- C84: `exp_number` stops growing once it is 2^28 or more (ascii_number.h:165-171), and the number of digits after the point is subtracted from it. A
  text with more than 2^28 digits after the point can compensate a large exponent: `.00...01e2684354560` with 2^28 zeros is beyond the range, but is read as 0.1
  (`c84_double_not_nearest`). For texts of up to 2^28-343 bytes the cut never matters.
- C84, C86: a number beyond the range is stored as infinity with `ec` = success, never `result_out_of_range`. `chars_format::hex` is accepted and
  ignored, the text is read as decimal. `from_chars` assigns `std::errc`, while the library has its own `nanostl::errc`. `simple_decimal_conversion.h`
  is included nowhere.
- C94: `tuple_cat` names its parameter `v`, an lvalue, in `get<Is>(get<Os>(v))...` (tuple.hpp:935), so elements of rvalue tuples are copied, not moved
  (`c94_copies`, `c94_not_moved`); tuples with move-only elements or rvalue references cannot be concatenated.
- C95: `tuple_element<I, const tuple<...>>` strips the qualifiers of the tuple and does not add them to the element (tuple.hpp:650-667;
  `c95_element_unqualified`).
- C98: `tuple(const tuple<Us...>& v) : base(v)` and its variants (tuple.hpp:435-449, 480-511) pass the whole tuple to the base, which wants one argument
  per element: with one element that element is constructed from the other tuple, otherwise it does not compile. The allocator-extended default constructor
  compiles only for empty tuples, the allocator-extended copy and move only for one element (`c98_converting_partial`).
- C100: `hash<unique_ptr>` (nanomemory.h:991-1006) cannot be instantiated, since `hash` of a pointer type is defined nowhere. `less` is the built-in `<`,
  whose result for pointers into different objects the C++ standard leaves open; the model takes the order of addresses.
- C101: `valarray(n)` leaves the elements of scalar types indeterminate, where `std::valarray` has zeros (`c101_indeterminate`). `operator+=` is declared
  and defined nowhere.
- C102: a swap of a value with an error (expected.hpp:1732-1740) destroys the error before it moves the value in its place, and the value before it
  moves the error in; if that move of `T` or of `E` throws, a variable is left without object and its destructor destroys a dead one (`c102_throwing_value_move_false`,
  `c102_throwing_error_move_false`). All assignments and `emplace` swap and inherit this (`c102_assignment_false`).
- C103: `expected(U &&)` is `noexcept` if `U` is nothrow move constructible (expected.hpp:1514-1522); for an lvalue `U` is a reference and that is
  always true, so an exception of `T`'s copy constructor ends the program (`c103_lvalue_false`).
  A swap, and so an assignment, of two values (or two errors) whose move throws in the middle keeps lifetimes and kinds right (`c102_unmixed_partial`) but
  loses a content (`c103_unmixed_strong_false`). `nanostl::string` and `nanostl::vector` are such types: they have no move constructor.
- C105: the swap of a value with an error in `expected<void, E>` (expected.hpp:2065-2070) never destroys the error it moved from: one error is lost at
  every such swap or assignment, exactly one (`c105_lost`, `c105_leak_false`).
- expected, outside the properties. The header does not compile as it is: `nanostl::unexpected_type` is named but only `nonstd::unexpected_type` exists,
  `nanostl::error_code`, `nanostl::system_error` and `nanostl::exception_ptr` exist nowhere, and the test is commented out (test/test.cc:22, 666, 700).
  The model takes these names as meant. `storage_t<T, E, false, false>` does not derive from the implementation. `get_unexpected` has no assertion and
  is undefined on a value. `operator==` for `expected<void, E>` has a template parameter that cannot be deduced (2176-2180). `operator=(U &&)` tests
  `is_same<T, decay<U>>` without `::type` and is never viable (1653-1665): assigning a value converts to a temporary, which is moved; so it is modelled.
  `swap` asks that `T` *or* `E` be move constructible (1719) and needs both. Not modelled: constructors from `expected<U, G>`, assignments of
  `unexpected_type` itself, `make_expected_from_*` (compiled only for an old proposal, as the relational operators of C128).
- C106: arrays are never default constructible (`c106_array_false`), yet nothrow default constructible (`c106_nothrow_array_false`,
  nanotype_traits.h:898-902). A reference that only an explicit conversion function makes is not called constructible (`c106_explicit_false`); asking
  about a reference and an argument of type void ends the translation, as `ref_test` (768-771) is called outside of any substitution
  (`c106_void_error`). With no or several arguments the question is `decltype(T(args...))` (760-766): since C++17 that needs no destructor
  (`c106_destructor_false`).
- C109: asking about void, or a function type with qualifiers, ends the translation (`c109_void_error`; `T&` is written without a check,
  nanotype_traits.h:1204).
- C110: `unique_ptr<T, D>(p)` of a single object is accepted for a `D` that is a function pointer and leaves it without a value
  (`c110_deleter_value_false`; the constraint is commented out with a FIXME, nanomemory.h:459-466). `unique_ptr<T[], D>` is right.
- C111: on Windows the time is rounded down to a multiple of 100 ns, so that the wait is up to 99 ns short; with a `time_t` of 32 bits a wait of 2^31
  seconds or more makes `nanosleep` fail at once and the loop use the uninitialised `rem` (`c111_false`).
- C112: `thread_tls_create` casts the key to a pointer; key 0, the first of glibc and a valid index on Windows, is returned as the null pointer that
  reports failure (`c112_null_false`). The index works all the same.
- C113, C114: `optional<bool>` from an `optional<int>` and `expected<bool, E>` from an `expected<int, G>` call the explicit `operator bool` of the source and
  always hold a value, the answer to whether the source has one (`c113_false`, `c114_false`; LWG 3836 of the standard).
- C113: the constructor from a value excludes `unexpected_type<E>` but not `unexpected_type<G>`: if `T` can be made from anything, as `any` can, a non-const lvalue
  `unexpected_type<G>` becomes a value (`c113_unexpected_false`).
- C113: `operator=( U && )` requires `is_scalar<T>` and `is_same<T, decay<U>>`, without `::type` and without the negation of the standard, and is never viable
  (expected.hpp:1656); a value that converts only explicitly cannot be assigned (`c113_assign_value_false`).
- C113: the assignments from `unexpected_type<G>` are constrained by what `E` can do, not by `G`; they are chosen and fail to compile in the body
  (`c113_assign_unexpected_false`).
- C115: on Windows a wait that is woken without the signal starts again with the whole timeout, so that it has no bound (libs_thread.h:971-977,
  `c115_windows_false`). On POSIX the deadline is up to a second late if a second begins between the calls of `gettimeofday` and `time`
  (`c115_posix_false`).
- C116: the compiler makes a `std::initializer_list` from braces, and the constructor of `nanostl::initializer_list` from a pointer and a size is private; so
  every list of a program is empty, and braces with elements do not convert to it (`c116_false`).
- C117: `tuple(Us&&...)` is not excluded for a tuple itself: `tuple<any> b(a)` for an `a` that is not const holds a tuple (`c117_copy_false`). All constructors are explicit
  (`c117_implicit_false`). A tuple with an element that can be neither copied nor moved claims to be move constructible, because the unconstrained
  `tuple_base(Us&&...)` replaces the deleted move (`c117_move_false`). A conversion from another tuple that is accepted does not compile with two or more
  elements; with one, the element is made from the whole tuple (`c117_convert_false`). Uses-allocator construction asks about an rvalue of the allocator and
  passes a const lvalue (`c117_alloc_false`).
- C118: the assignments of `tuple_base` have no constraints: `is_assignable` says yes for all tuples, and what cannot be assigned does not compile
  (`c118_false`). An element of a const empty class is a base of `tuple_value`, hence not const: the tuple can be assigned and moved from (`c118_const_false`).
- C119: there are no insertions of characters, `long`, `unsigned long`: a character prints as its code (`c119_characters_false`); `long` and `unsigned long`
  are ambiguous, as is the language's null pointer; those for `unsigned`, `unsigned long long`, `long double` and stream buffers are declared but call or are
  functions that are defined nowhere (`c119_missing_false`). Every pointer that should print an address is read as a C string (`c119_addresses_false`;
  the code says so: "FIXME: Assume const char *").
- C120: the constructors from other tuples promise that an element is made from an element, and make it from the tuple (`c120_convert_false`). An empty class with
  a `swap` of its own is swapped by moving, and the promise is about its `swap` (`c120_swap_false`). An element of a const empty class is assigned by the
  assignment of objects that are not const (`c120_assign_false`).
- C121: there is no specialisation for functions with `...`, for `noexcept` functions in C++17, for pointers that are const, for member functions with `&` or
  `&&`: no `result_type` (`c121_function_false`). `__has_result_type` forms a pointer to `result_type`, so one that is a reference is not seen; the base's is taken
  instead, which may be another type (`c121_class_false`). A class with a private base `unary_function` cannot be wrapped (`c121_private_false`).
- nanofunctional.h, outside the properties: it uses `is_same` and `declval` without including nanotype_traits.h, so it compiles only after that header.
  `__invoke_return` calls `__invoke`, which does not exist. `reference_wrapper` has neither a constructor from a reference nor an access to what it refers to.
- C122: the explicit constructors of `expected` and those of `optional` from an `optional` write `T{ a }`: `expected<vector<int>, E> v( 5 )` holds one element
  (`c122_list_false`); where the braces narrow, `is_constructible` holds and the body does not compile (`c122_narrow_false`). All of them but `optional`'s from a value make a temporary and move it: for types that cannot be moved the body does not
  compile (`c122_moved_false`). `expected<void, E>` asks only whether the conversion is implicit, so explicitly it takes any `unexpected<G>` (`c122_void_false`).
- C123: all constructors of `unexpected_type` from another ask `is_constructible<E, G>`, also those that copy from a `G const &` (`c123_copy_false`), and `is_convertible<G const &, E>`, also those that move
  (`c123_move_false`); the explicit ones use braces (`c123_braces_false`). The assignments have no conditions (`c123_assign_false`).
- C124: nothing in `optional` is constrained (the conditions are commented out): its traits always say yes, also of `optional<unique_ptr<int>>`'s copy (`c124_optional_says_false`, `c124_optional_false`); an rvalue of an `optional` of
  a type that can be copied but not moved cannot be assigned. The assignments of `expected` are not constrained either and need a move constructor and `swap` of both types instead of their assignments (`c124_expected_assign`); an `expected` of types that can be neither copied nor moved
  cannot be destroyed, since the primary `storage_t` lacks its base (`c124_expected_false`). `swap(x, y)` of `expected<void, E>` never finds its own `swap`, for `is_swappable<void>` is false. `variant` always says yes, does not copy an rvalue of types that can only be copied, and
  needs a move assignment to be swapped (`c124_variant_false`).
- C125: two alternatives of one type, or `T` and `T const`, give two constructors with the same parameter: `variant<int, int>` does not compile, though its `emplace<I>`, `get<I>` and `index` are there for it and `std::variant` allows it (`c125_repeat_false`).
  As in `std::variant` before C++20, a text makes a `variant<bool, string>` hold `true`.
- C126: on POSIX `stack_size` is ignored (`c126_stack_false`), and on Linux a name of more than 15 characters is refused by the system without anyone noticing (`c126_name_false`).
  By the language the call of an `int (*)(void*)` as a `void* (*)(void*)` or `DWORD (*)(void*)` is undefined; the model takes what the calling conventions make of it.
- C127: with a deleter that has data `head = move(head->next)` reads the deleter of an object that has been deleted (`c127_pop_false`); move assignment resets first and assigns the deleter then, as the
  words of the standard have it too, so with such deleters the assignment is defined exactly if neither pointer lies in what is deleted (`c127_data_partial`). `p->next = move(p)` leaves an object that nobody owns
  (`c127_cycle_false`). The destructors run within each other as deep as the list is long (`c127_depth`, `c127_deep`); the model has no limit of the stack otherwise.
- C128: with `nsel_P0323R` at most 2, `v > x` is false if `x` is an error, though `x < v` is true and `v >= x` (expected.hpp:2250-2254; `c128_value_greater_false`). Two `expected` errors are never one before the other, while an
  `expected` error and an `unexpected` one are compared (`c128_error_order_false`), and different errors are `<=` each other without being equal (`c128_eq_false`). For `exception_ptr` `<=` means equality between two `unexpected`
  and is true between an `expected` error and an `unexpected` one (`c128_exception_partial`); `exception_ptr` itself is nowhere declared in nanostl.
- C129: elements taken out of a vector are not destroyed: `pop_back`, `erase` and `clear` destroy nothing (`c129_removed_false`), and `resize` within the capacity makes them elements again with their old values
  (nanovector.h:113; `c129_fresh_false`); as many objects live as `capacity()` says. An `operator=` that throws leaks the whole new block in `resize` (nanovector.h:103-108; `c129_leak_false`), leaves an element too many in
  `push_back` (`c129_strong_false`) and loses an element in `erase` (`c129_erase_false`). `assign` and `operator=` that throw, also only for lack of memory, have lost all elements (`c129_assign_false`), and the copy constructor then
  leaks what it had built (nanovector.h:62-65; `c129_copy_false`).
- C130: NaN as a key of a map is never found, inserted as often as asked (`c130_nan_false`), and can hide other keys: after inserting 1.0, 0.5 and NaN in a fresh program `find(0.5)` is `end()` though it was found before NaN came
  (nanomap.h:198-212; `c130_lost_false`). `m[k] = v` whose assignment throws leaves `k` in the map with a value `T()` or worse (nanomap.h:141-143; `c130_set_false`; std::map does the same).
- C131: in vectors of vectors the vectors that `resize` adds need not be empty: after `x.pop_back(); x.resize(x.size() + 1)` the last one has its old elements (nanovector.h:113-114; `c131_stale_false`). When there is memory for the new
  storage of `x` but none for the copies of its elements, `push_back` and `resize` lose the new storage and all copies made (nanovector.h:100-108; `c131_leak_false`).
  `x.push_back(x[0])` reads an element that has been destroyed when the vector grows (nanovector.h:119; `c131_alias_false`, `c133_alias_false`), while `x.push_back(X(x[0]))` is right. A vector whose copy constructor throws keeps its storage for
  ever, because no destructor runs (nanovector.h:62-65; `c131_copy_leak_false`); a string does not (`c133_copy`).
- C132: strings of wider characters than `char` are compared by the low bytes of the first characters that differ (nanostring.h:188-189), so `basic_string<char16_t>` `u"Ł"` equals `u"A"`, and `u"Ā"` equals the empty string; as keys of a map they are one key
  (`c132_wide_false`, `c132_wide_map_false`). Strings with zeros within are the same key if they agree up to the first one.
- C133: a string whose assignment threw need not end with a zero: after `y = "ab"` without memory for the second character `y` has the character `a` and no zero (nanovector.h:165-167; `c133_unended_false`). The strings that `resize` adds
  need not be empty, and a vector of strings that cannot copy them when it grows loses the new storage (nanovector.h:100-114; `c133_stale_false`, `c133_leak_false`).
- C134: `ierf` is not increasing: from 0.99661 to the next `float` it falls by 0.00034, where the second polynomial begins, because of the error of `sqrt` (nanomath.h:712, 723; `c134_monotone_false`). Of 1 and beyond it is a number, `ierf(1)` = 3.8257 and
  `ierf(2)` = 7.6514, though the error function takes no such value (nanomath.h:709; `c134_domain_false`); only NaN gives NaN, no
  number and no infinity does (`c134_nan_iff`).
- C135: at 10^9 `sin` and `cos` are both 0, so that the sum of their squares is 0; `exp(log(x))` of 2^127 is 2^126 (nanomath.h:408-441, 553-556, 578-581; `c135_large_false`). The cube of `cbrt(x)` is 0 for every number of absolute value below 2^-23 (`c135_small_false`).
- C136: `sin(-x)` is not `-sin(x)`, `cos(-x)` not `cos(x)` and `tan(-x)` not `-tan(x)`, for instance at 0.5: denormal numbers are removed by subtracting the argument twice from pi/2 or pi/4, which rounds x and -x differently (nanomath.h:557, 582, 611-613; `c136_sin_cos_false`). Up to 8192 the differences of `sin` and `cos` are at most 1.62e-6 and 2.4e-6 (`c136_sin_cos_partial`).
- unexpected_type, outside the properties: the condition on `swap` is not in a template, so `unexpected_type<E>` with an `E` that cannot be swapped is an error wherever
  it is named (`c124_unexpected_class`). An `unexpected<unexpected<E>>` can be assigned to an `unexpected<E>`, by its inner error.
- tao tuple, outside the properties: `ignore` is const but its `operator=` is not, so `tie(a, ignore)` cannot be assigned to; `nanostl::swap`
  (nanotype_traits.h:1183-1194) is declared but defined nowhere, so swapping tuples of scalars does not link.

## Floating point model

`Verif/Float` models a binary format by its bit patterns (`Nat`), `mag` is the magnitude of a pattern in units of the least
subnormal. Addition, multiplication, conversion round the exact result to nearest, ties to even (`Nearest`, stated without
reference to an algorithm; `roundMag_nearest` proves that the executable rounding satisfies it and `nearest_unique` that nothing
else does). Assumed about the compiler: no contraction to FMA, no excess precision, literals correctly rounded, and the
little-endian layout that the unions in `nanocommon.h` presume. NaN payloads of arithmetic results are canonical; no theorem depends
on the payload.

The elementary functions (`Verif/Math/Elem.lean`) are transcribed operation by operation. `Verif/Float/Real.lean` gives the view in real
numbers: `Is φ x r` (pattern `x` has value `r`) and the error of each rounded operation; `Approx.lean` propagates errors through
expressions; `Poly.lean` bounds polynomials with integer coefficients on an interval by a kernel computation whose soundness for all
real arguments is proved.

## Printing and parsing decimals (C45-C55)

`Verif/Ryu/Tables.lean` transcribes the tables; `Model.lean`, `Chars.lean` the printing, `Parse.lean` the parsing code. Every failed `assert`,
shift by a negative amount or by the width or more, table access out of range, buffer access out of range and signed overflow is `none`. The
parameter `p32` (`p`) selects the `NANOSTL_RYU_32_BIT_PLATFORM` code, so that all theorems hold for both. `buf` stands for the uninitialised local
array. The multiplication by a truncated table entry is shown exact for all significands by certificates: for each exponent, two neighbouring
fractions enclose the exact ratio and its approximation, and no fraction with a denominator in range is between them; the kernel
checks one certificate per table entry (a whole finite table), a lemma lifts it to all significands. The one place where the approximation is not
exact (`s2f_n`, significand 614426533, exponents -25 and -26) is evaluated separately: the result is still correctly rounded. The code under
`HAS_64_BIT_INTRINSICS`, `RYU_FLOAT_FULL_TABLE` and `RYU_OPTIMIZE_SIZE`, which nothing defines, is not modelled. The conversion `double` to `float` in `stod` is the language's.

## Threads (C56-C58, C62, C111, C112, C115)

`Verif/Thread/Queue.lean` interleaves one producer and one consumer, one step per atomic operation or array access; `run` gives `none` for an access
outside the array. All atomic operations are assumed sequentially consistent (`__sync` and `Interlocked` full barriers). `__sync_lock_test_and_set`
is an exchange, `__sync_lock_release` writes 0, as documented by the compiler. `Verif/Thread/Signal.lean` models the signal itself for any number
of threads on a mutex and a condition variable as specified by POSIX, with spurious wake-ups. `Verif/Thread/Class.lean` models `class thread` and
operating system threads as specified by POSIX. `Verif/Thread/Local.lean` models timers and thread local storage. Not modelled: weak memory, priorities, `__thread_specific_ptr`
(nanothread.h:77-146, which does not compile: `_LIBCPP_ASSERT` is not defined), the `#ifndef NDEBUG` checks.
`Verif/Thread/Wait.lean` models the times of a timed wait and the event based signal of old Windows (an event that resets itself, as specified for
`SetEvent` and `WaitForSingleObject`).

## Type traits (C72-C75, C106-C110, C121)

Trusted: what the language does with types, the first section of `Traits/Model` (adding qualifiers, matching `T const`, reference collapsing,
which types can be referred to, conversion of -1 to an integer type), in `Traits/Init` value categories of calls, argument deduction and what
`T(args...)`, `new T(arg)` and passing an argument need, and in `Traits/Storage` the layout of a union and of an `alignas` struct.
Substitution failure is a `false`, a hard error `none`. Not modelled: traits that are an intrinsic of the compiler. For C121 the lookup of `result_type` in a class and its bases and the deduction of a base's template arguments are
written down in `Traits/Result`; virtual bases are not distinguished from bases that occur twice.

## fast_float (C84-C91)

- Words of 64 bits are naturals with explicit wrap-around. Limbs have 64 or 32 bits (`FASTFLOAT_64BIT_LIMB` or not, bigint.h:17-38): the class `Limb`
  has the choice as its only field, the model follows the `#ifdef`s, and every theorem is for both. `__builtin_clzll` and
  the 128-bit product are exact, the portable versions of them
  (float_common.h:134-181) and of big-endian loads are modelled in `FastFloat/Portable.lean` and proved equal (C92).
- The fast path uses one multiplication or division of the floating point model, rounded to nearest (`FLT_EVAL_METHOD` 0).
- Exponents and differences of pointers are unbounded integers; `int64_t` in the code, of which texts of less than 2^62 bytes use a part. `int32_t`
  appears only where `compute_float` has bounded the exponent.
- A `stackvec` is the list of its limbs; the unused rest of the buffer is never read.
- `parse_options` is the pair of bits `scientific`, `fixed` and the decimal point. `PointOK`: the point is no digit, minus sign, `e` or `E`.

## tuple (C93-C98, C117, C118, C120)

An element is its type (as in C72) and its place, a number; a tuple of references has the places of the objects referred to. `none` is "does not compile"
in type-level functions, and "throws" in comparisons. In C93-C98 the `enable_if` conditions appear only as numbers of elements; C117 and C118 (`Tuple/Make`) have the
conditions on types, for elements that are objects. There, arguments are no braced lists and no `allocator_arg_t`, and no element can be made from
`tuple_base`. `noexcept` conditions are those of C120; of defaulted operations they are the compiler's. Both implementations of `==` and of sums of packs (fold expressions or not) are.

## Not modelled

CUDA paths, allocation alignment, iterator category machinery. Whether a template instantiates, and Windows paths, only where a property says so
(C58, C106-C136). Overload resolution, template argument deduction and conversions are the language's: where they decide what is called (C106-C136) they are written
down as definitions beside the code's and belong to the trusted base.

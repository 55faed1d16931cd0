{"id": "C01", "title": "vector behaves as a sequence", "statement": "After any sequence of vector operations (default construction, copy construction, assignment, push_back, pop_back, element write, erase, resize to n>=1, clear, assign from a range, swap), the observable contents of every live vector (size(), empty(), operator[]/at() for each index below size(), iteration begin()..end()) are exactly those of a mathematical sequence to which the same operations were applied; positions added by resize hold unspecified values but nothing else changes.", "quantifier": "all element types, all finite operation histories over any number of vectors, all allocation outcomes", "why_tests_cant": "A test fixes one history; reallocation boundaries, stale capacity after clear and interactions between several vectors give unboundedly many histories.", "anchors": ["include/nanovector.h: vector::{vector,push_back,pop_back,resize,erase,assign,clear,swap,operator=,operator[],at,begin,end,size,empty}"]}
{"id": "C02", "title": "vector never touches memory it does not own and never leaks", "statement": "In every history of vector operations whose C++ preconditions hold (no pop_back on empty, no index or erase position outside the vector, no argument referring into the vector being reallocated), no out-of-bounds access, no use after free, no double free happens; at any moment each live allocation is owned by exactly one live vector, and after all vectors are destroyed no allocation remains.", "quantifier": "all finite histories over any number of vectors, all allocation outcomes", "why_tests_cant": "Ownership errors show up only on particular interleavings of copy, swap, reallocation and destruction; no finite test set covers all histories.", "anchors": ["include/nanovector.h: vector (ctor, dtor, resize, swap, operator=)", "include/nanoallocator.h: allocator::{allocate,deallocate}"]}
{"id": "C03", "title": "vector size and capacity discipline", "statement": "size() <= capacity() always holds, capacity() never decreases during the life of a vector except through swap, and the storage address data() does not change by an operation whose resulting size fits the old capacity().", "quantifier": "all histories", "why_tests_cant": "Must hold in every reachable state.", "anchors": ["include/nanovector.h: capacity, resize, recommended_size, push_back"]}
{"id": "C04", "title": "push_back is amortised constant", "statement": "Building a vector by n push_backs performs fewer than 2n element copies during reallocation in total, and the number of allocations is at most log2(n)+2.", "quantifier": "all n", "why_tests_cant": "A test checks finitely many n; the bound is asymptotic.", "anchors": ["include/nanovector.h: push_back, resize, recommended_size"]}
{"id": "C05", "title": "copies of a vector are independent", "statement": "After copy construction or assignment both vectors have equal contents, and any later operation on one of them leaves the contents of the other unchanged.", "quantifier": "all pairs of vectors, all later histories on either", "why_tests_cant": "Sharing of storage is visible only after particular later mutations.", "anchors": ["include/nanovector.h: vector(const vector&), operator="]}
{"id": "C06", "title": "push_back of an own element", "statement": "v.push_back(v[i]) appends a copy of the old value of v[i], for every v and every valid i.", "quantifier": "all vectors and indices", "why_tests_cant": "Failure depends on whether size()==capacity() at the time of the call.", "anchors": ["include/nanovector.h: push_back, resize"]}
{"id": "C07", "title": "resize sets the size", "statement": "After v.resize(n), size()==n and the first min(n, old size) elements are unchanged, for every n including 0.", "quantifier": "all vectors, all n", "why_tests_cant": "The claim ranges over all n and all prior states; the boundary n=0 behaves specially.", "anchors": ["include/nanovector.h: resize", "include/nanovalarray.h: resize"]}
{"id": "C08", "title": "erase removes exactly one element and returns its successor", "statement": "v.erase(begin()+i) removes element i, shifts the later ones left by one, keeps the earlier ones, and returns an iterator to the element that followed the erased one.", "quantifier": "all vectors, all valid i", "why_tests_cant": "All positions and lengths.", "anchors": ["include/nanovector.h: erase", "include/nanovalarray.h: erase"]}
{"id": "C09", "title": "allocation failure leaves the vector intact", "statement": "If an allocation throws during push_back or resize, the vector afterwards has the same size, capacity, address and contents as before, and nothing leaks.", "quantifier": "all vectors, all arguments, any allocation failure point", "why_tests_cant": "Needs fault injection at every allocation in every state.", "anchors": ["include/nanovector.h: resize, push_back", "include/nanoallocator.h: allocate"]}
{"id": "C10", "title": "assignment from self and from an own subrange", "statement": "v = v leaves v unchanged, and v.assign(p,q) with [p,q) a subrange of v makes v exactly the old contents of [p,q).", "quantifier": "all vectors, all subranges", "why_tests_cant": "Aliasing between source and destination over all ranges.", "anchors": ["include/nanovector.h: assign, operator="]}
{"id": "C11", "title": "strings stay NUL terminated", "statement": "Every string reachable from string(), string(const char*), copies, operator+, operator+=, clear and assignment (not appending a string to itself) has c_str() terminated by NUL inside its storage, with strlen(c_str()) <= size() and equality when no NUL byte was stored through [].", "quantifier": "all histories of string operations", "why_tests_cant": "Termination is an invariant across all histories.", "anchors": ["include/nanostring.h: basic_string"]}
{"id": "C12", "title": "string concatenation", "statement": "(s+t) and, for different string objects, s+=t give exactly the characters of s followed by those of t, unless an allocation fails (C11; s+=s is C13); + is associative, has the empty string as unit, and size() adds up; the operands of + are unchanged.", "quantifier": "all strings", "why_tests_cant": "All lengths, including ones crossing reallocation.", "anchors": ["include/nanostring.h: operator+, operator+="]}
{"id": "C13", "title": "self-append", "statement": "s += s gives the characters of s twice, for every s.", "quantifier": "all strings and capacities", "why_tests_cant": "Depends on aliasing and on spare capacity.", "anchors": ["include/nanostring.h: operator+=(const basic_string&)"]}
{"id": "C14", "title": "string comparison is a total order that decides equality", "statement": "compare() is negative, zero or positive according to lexicographic order of the bytes as unsigned values; ==, !=, <, > agree with it; < is a strict total order; == holds exactly when the character sequences are equal (for strings without interior NUL).", "quantifier": "all pairs and triples of strings", "why_tests_cant": "Trichotomy and transitivity range over all triples.", "anchors": ["include/nanostring.h: compare, compare_, operator==, operator!=, operator<, operator>"]}
{"id": "C15", "title": "empty() agrees with size()", "statement": "s.empty() holds exactly when s.size()==0, for every string.", "quantifier": "all strings", "why_tests_cant": "All reachable strings.", "anchors": ["include/nanostring.h: empty, size"]}
{"id": "C16", "title": "range constructors build exactly the given characters", "statement": "string(p, n) holds the n characters p[0..n) and string(first,last) those of [first,last); both are NUL terminated and read nothing outside the range.", "quantifier": "all buffers and ranges", "why_tests_cant": "All lengths and contents.", "anchors": ["include/nanostring.h: basic_string(const charT*, size_type), basic_string(InputIterator, InputIterator)"]}
{"id": "C17", "title": "to_string(int) is the decimal numeral", "statement": "to_string(v) is the canonical decimal numeral of v (optional minus, no leading zeros) for every int v, distinct values give distinct strings, and no write happens outside the function's local buffer.", "quantifier": "all 2^32 ints", "why_tests_cant": "The tests try two values; correctness and buffer safety must hold for each value.", "anchors": ["include/nanostring.h: to_string(int)"]}
{"id": "C18", "title": "to_string(int64_t) is the decimal numeral", "statement": "to_string(v) is the canonical decimal numeral of v for every 64-bit v, without writing outside its buffer.", "quantifier": "all 2^64 values", "why_tests_cant": "Domain too large to enumerate.", "anchors": ["include/nanostring.h: to_string(int64_t)"]}
{"id": "C19", "title": "map behaves as a finite map", "statement": "After any sequence of insert and operator[] reads/writes, lookup through [] / find gives the value last stored for the key, insert of a present key changes nothing and reports false, insert of an absent key adds exactly that key and reports true, [] on an absent key adds it with a default value; other keys are never affected.", "quantifier": "all strict totally ordered key types, all histories, all values produced by the internal random source", "why_tests_cant": "Tree shape depends on history and random priorities; unboundedly many histories.", "anchors": ["include/nanomap.h: insert, operator[], find, __insert, __find, __rotate"]}
{"id": "C20", "title": "map structure invariants", "statement": "In every reachable map the nodes are in strictly increasing key order in an in-order walk, priorities never decrease from parent to child, and with pairwise distinct priorities the shape depends only on the set of (key,priority) pairs, not on the insertion order.", "quantifier": "all histories, all priority streams", "why_tests_cant": "Invariant over all reachable trees.", "anchors": ["include/nanomap.h: Node, __insert, __rotate, priority_rand"]}
{"id": "C21", "title": "upper_bound and iterator increment", "statement": "upper_bound(k) designates the smallest key greater than k, or end if none; ++ on an iterator moves to the next greater key; so repeated ++ from any element visits exactly the keys greater than it, each once, in ascending order, and then end.", "quantifier": "all maps, keys", "why_tests_cant": "All shapes and keys.", "anchors": ["include/nanomap.h: upper_bound, __upper_bound, iterator::operator++"]}
{"id": "C22", "title": "iterating from begin() to end() visits every key", "statement": "A loop from begin() by ++ until end() visits every key of the map exactly once in ascending order.", "quantifier": "all maps", "why_tests_cant": "Depends on tree shape, i.e. on insertion history and random priorities.", "anchors": ["include/nanomap.h: begin, end, iterator::operator++"]}
{"id": "C23", "title": "map iterator comparison is safe", "statement": "Comparing any two iterators of the same map (including end()) with == is defined, and is true exactly when they designate the same element or both are end.", "quantifier": "all maps, all pairs of iterators", "why_tests_cant": "All pairs in all maps.", "anchors": ["include/nanomap.h: iterator::operator==, iterator::operator!="]}
{"id": "C24", "title": "map owns its nodes", "statement": "Destroying a map frees every node exactly once; after any history of operations on maps (including copying a map) and destruction of all maps nothing is freed twice and nothing leaks.", "quantifier": "all histories", "why_tests_cant": "Ownership over all histories.", "anchors": ["include/nanomap.h: ~map, __delete, implicit copy constructor"]}
{"id": "C25", "title": "priority source", "statement": "The priority generator never yields 0, never repeats a value within 2^32-1 consecutive calls, and hence yields every non-zero 32-bit value.", "quantifier": "all positions in the stream", "why_tests_cant": "The period is 4294967295; the claim is about all pairs of positions.", "anchors": ["include/nanomap.h: priority_rand"]}
{"id": "C26", "title": "min, max, clamp", "statement": "min and max return one of their arguments, a lower resp. upper bound of both, the first one on ties; clamp(x,lo,hi) lies in [lo,hi] and equals x when x does, for all totally ordered arguments with lo<=hi; for unordered (NaN) arguments the result is still one of the arguments and clamp of a NaN is hi, or lo where hi is not greater.", "quantifier": "all totally ordered types and float arguments", "why_tests_cant": "All arguments.", "anchors": ["include/nanoalgorithm.h: min, max", "include/nanomath.h: clamp"]}
{"id": "C27", "title": "max_element", "statement": "max_element(first,last) on a non-empty range returns a position inside the range whose element is not less than any other, and it is the first such; on an empty range it returns last.", "quantifier": "all ranges, all strict weak orders", "why_tests_cant": "All lengths and orders.", "anchors": ["include/nanoalgorithm.h: max_element"]}
{"id": "C28", "title": "fill", "statement": "fill(first,last,v) writes v to each position of [first,last) and to no other position, in finitely many steps.", "quantifier": "all ranges and values", "why_tests_cant": "All ranges.", "anchors": ["include/nanoalgorithm.h: fill"]}
{"id": "C29", "title": "pair ordering", "statement": "pair == is componentwise, pair < is the lexicographic order and is a strict total order whenever the component orders are.", "quantifier": "all component types", "why_tests_cant": "Transitivity over all triples.", "anchors": ["include/nanoutility.h: pair, operator==, operator<, make_pair"]}
{"id": "C30", "title": "memcpy", "statement": "memcpy(d,s,n) copies n bytes when the regions are disjoint or d precedes s, touches no byte outside [d,d+n), and returns d; when s<d<s+n the result is the periodic repetition of the first d-s bytes.", "quantifier": "all memories, all d,s,n", "why_tests_cant": "All sizes and overlaps.", "anchors": ["include/nanocstring.h: memcpy"]}
{"id": "C31", "title": "stringstream accumulates", "statement": "After any sequence of << on a stringstream, str() is the concatenation of the written strings in order since construction or the last clear(); move assignment transfers the contents and leaves the source empty.", "quantifier": "all histories", "why_tests_cant": "All histories.", "anchors": ["include/nanosstream.h: basic_stringstream"]}
{"id": "C32", "title": "ostream output", "statement": "The characters printed by an ostream over any sequence of insertions and flushes followed by a flush are the concatenation of the texts of the inserted values, each exactly once and in order; a flush empties the buffer.", "quantifier": "all histories of insertions and flushes", "why_tests_cant": "All histories.", "anchors": ["include/nanoiostream.h: basic_ostream operator<<, flush"]}
{"id": "C33", "title": "inserting a string into an ostream terminates", "statement": "For every string s, os << s returns and appends s to the output.", "quantifier": "all strings", "why_tests_cant": "Non-termination cannot be confirmed by a test.", "anchors": ["include/nanostring.h: operator<<(ostream&, const string&)"]}
{"id": "C34", "title": "keyed hash equals SipHash-2-4", "statement": "The hash function computes SipHash-2-4 (64-bit and 128-bit output) of the message under the key as defined by its authors, for every key and every message length, reading exactly inlen message bytes and 16 key bytes and writing exactly outlen output bytes.", "quantifier": "all keys, all messages of every length, both output lengths", "why_tests_cant": "Tail handling depends on length mod 8; infinitely many messages.", "anchors": ["src/hash.cc: siphash, SIPROUND, U8TO64_LE, U64TO8_LE"]}
{"id": "C35", "title": "hash functors respect equality", "statement": "For integral, pointer-sized and floating keys, equal values have equal hashes (in particular +0 and -0), and distinct integral values have distinct hashes.", "quantifier": "all values of each type", "why_tests_cant": "Value domains up to 2^64.", "anchors": ["include/nanofunctional.h: hash<...>, __scalar_hash"]}
{"id": "C36", "title": "ratio is kept in lowest terms", "statement": "For all N, D (D nonzero, neither the minimal value) num/den equals N/D as a rational, den>0, num and den are coprime, and ratio<num,den> has the same num and den (type is idempotent).", "quantifier": "all 64-bit N, D", "why_tests_cant": "2^128 pairs.", "anchors": ["include/nanoratio.h: nanogcd, nanolcm, nanoabs, nanosign, ratio"]}
{"id": "C37", "title": "unique_ptr deletes exactly once", "statement": "In any history of construction from new, move construction, move assignment (also from itself), reset, release, swap, = nullptr and destruction over any number of unique_ptrs, every object handed over is deleted exactly once, except those released, which are never deleted by unique_ptr; no two unique_ptrs own the same object.", "quantifier": "all histories", "why_tests_cant": "Histories over several owners.", "anchors": ["include/nanomemory.h: unique_ptr"]}
{"id": "C38", "title": "unique_ptr deletes with the right deleter", "statement": "Each object is deleted by the deleter that was stored together with it when it was handed over, across moves and swaps.", "quantifier": "all histories with stateful deleters", "why_tests_cant": "Needs all histories of moves between owners with different deleters.", "anchors": ["include/nanomemory.h: unique_ptr::operator=(unique_ptr&&), swap, reset"]}
{"id": "C39", "title": "floating-point classification", "statement": "isnan, isinf, isfinite, isnormal of float and double agree with IEEE-754 for every bit pattern, and every value is in exactly one of the classes nan, inf, zero, subnormal, normal.", "quantifier": "all 2^32 floats and all 2^64 doubles", "why_tests_cant": "Double domain cannot be enumerated.", "anchors": ["include/nanomath.h: isnan, isinf, isfinite, isnormal, __is_zero, __is_subnormal"]}
{"id": "C40", "title": "copysign and fabs", "statement": "copysign(x,y) has the magnitude bits of x and the sign bit of y for all bit patterns (including NaN, inf, zero); fabs clears the sign of every non-NaN value.", "quantifier": "all bit patterns", "why_tests_cant": "Domain size.", "anchors": ["include/nanomath.h: copysign, fabs"]}
{"id": "C41", "title": "fmin and fmax", "statement": "fmin/fmax return the smaller/larger of two ordered arguments and the other argument when exactly one is NaN, and NaN when both are.", "quantifier": "all pairs of floats/doubles", "why_tests_cant": "Pairs of bit patterns.", "anchors": ["include/nanomath.h: fmin, fmax"]}
{"id": "C42", "title": "floor and ceil", "statement": "floor(x) is the greatest integer <= x and ceil(x) the least integer >= x, for every finite x representable in range.", "quantifier": "all finite floats in the int range", "why_tests_cant": "Domain; errors are at tiny fractional parts.", "anchors": ["include/nanomath.h: floor, ceil"]}
{"id": "C43", "title": "pow sign for negative base", "statement": "pow(x,y) for x<0 is 0 unless y is an integer, and then is negative exactly when y is odd.", "quantifier": "all bit patterns of y", "why_tests_cant": "All floats y.", "anchors": ["include/nanomath.h: pow"]}
{"id": "C44", "title": "numeric_limits", "statement": "min() and max() are the least (least positive normal for floats) and greatest finite values, digits10 is the greatest number of decimal digits every value with which is representable, epsilon is the gap above 1, denorm_min the least positive value, infinity and NaN patterns are such.", "quantifier": "all types in the header; all values of each type", "why_tests_cant": "Extremality is a statement about all values.", "anchors": ["include/nanolimits.h: numeric_limits"]}
{"id": "C45", "title": "power-of-five tables", "statement": "Every entry of the tables used by float/double conversion equals the scaled power (or inverse power) of five it stands for, exactly rounded as documented.", "quantifier": "all table entries", "why_tests_cant": "A handful of round-trip tests touches few entries; one wrong bit corrupts only some inputs.", "anchors": ["include/ryu/d2s_full_table.h: DOUBLE_POW5_INV_SPLIT, DOUBLE_POW5_SPLIT"]}
{"id": "C46", "title": "logarithm approximations", "statement": "The integer approximations of log2(5^e), log10(2^e), log10(5^e) are exact floors over their whole documented argument ranges and free of overflow.", "quantifier": "all arguments of the documented ranges", "why_tests_cant": "Every argument must be right.", "anchors": ["include/__nanostrutil.h: log2pow5, pow5bits, ceil_log2pow5, log10Pow2, log10Pow5"]}
{"id": "C47", "title": "float to_string round-trips", "statement": "For every finite float x, the decimal number printed by to_string(x) lies in the rounding interval of x, so that any correctly rounding reader gives back x.", "quantifier": "all 2^32 floats", "why_tests_cant": "Enumeration over all floats with an exact reader is not a unit test, and the claim includes the reader-independent interval.", "anchors": ["include/nanostring.h: to_string(float)", "include/__nanostrutil.h: f2s_buffered, f2d"]}
{"id": "C48", "title": "float to_string is shortest and closest", "statement": "No shorter decimal lies in the rounding interval of x, and among the shortest ones the printed one is closest to x.", "quantifier": "all finite floats", "why_tests_cant": "All floats and all competing decimals.", "anchors": ["include/__nanostrutil.h: f2d"]}
{"id": "C49", "title": "double to_string round-trips", "statement": "For every finite double x the decimal printed by to_string(x) lies in the rounding interval of x.", "quantifier": "all 2^64 doubles", "why_tests_cant": "Domain cannot be enumerated.", "anchors": ["include/nanostring.h: to_string(double)", "include/__nanostrutil.h: d2s_buffered, d2d, d2d_small_int"]}
{"id": "C50", "title": "double to_string is shortest and closest", "statement": "No shorter decimal lies in the rounding interval of x and among the shortest the printed one is closest to x.", "quantifier": "all finite doubles", "why_tests_cant": "All doubles and all competing decimals.", "anchors": ["include/__nanostrutil.h: d2d"]}
{"id": "C51", "title": "floating to_string stays inside its buffer", "statement": "to_string(float) writes at most 16 bytes and to_string(double) at most 25 bytes including the terminator, for every bit pattern; the text is a well formed decimal in scientific notation denoting exactly the computed digits and exponent.", "quantifier": "all bit patterns", "why_tests_cant": "Maximum length over all inputs.", "anchors": ["include/nanostring.h: to_string(float), to_string(double)", "include/__nanostrutil.h: to_chars, f2s_buffered_n, d2s_buffered_n, copy_special_str"]}
{"id": "C52", "title": "decimal to binary is correctly rounded", "statement": "For every accepted decimal string the parsed double (float) is the one nearest to the exact decimal value, ties to even, with overflow to infinity and underflow to zero as in IEEE-754.", "quantifier": "all accepted strings", "why_tests_cant": "Infinitely many strings; hard cases are sparse.", "anchors": ["include/__nanostrutil.h: s2d_n, s2f_n"]}
{"id": "C53", "title": "decimal parser accepts exactly its grammar", "statement": "The parser accepts exactly sign? digits (with at most one dot, at most 17 resp. 9 significant digits) followed by an optional exponent of at most 4 digits, never reads outside the given length, and reports an error otherwise.", "quantifier": "all byte strings of all lengths", "why_tests_cant": "Infinitely many strings.", "anchors": ["include/__nanostrutil.h: s2d_n, s2f_n"]}
{"id": "C54", "title": "stod inverts to_string(double)", "statement": "stod(to_string(x)) == x for every finite double x.", "quantifier": "all finite doubles", "why_tests_cant": "Domain cannot be enumerated.", "anchors": ["include/nanostring.h: stod, to_string(double)"]}
{"id": "C55", "title": "32-bit platform division helpers", "statement": "The multiply-and-shift versions of division by 5, 10, 100, 10^8, 10^9 used on 32-bit platforms equal true division for every 64-bit argument, and the portable 128-bit multiplication equals the true product.", "quantifier": "all 64-bit arguments", "why_tests_cant": "2^64 and 2^128 cases.", "anchors": ["include/__nanostrutil.h: umulh, div5, div10, div100, div1e8, div1e9, mod1e9, umul128, shiftright128"]}
{"id": "C56", "title": "thread queue is FIFO", "statement": "Under every interleaving of one producer and one consumer, the values consumed are exactly those produced, in order, none lost, duplicated or invented, and count stays within 0..size.", "quantifier": "all schedules, all queue sizes, all value streams", "why_tests_cant": "Schedules are unbounded; races are rare in tests.", "anchors": ["src/libs_thread.h: thread_queue_init, thread_queue_produce, thread_queue_consume, thread_signal_raise, thread_signal_wait"]}
{"id": "C57", "title": "atomic store and swap", "statement": "After an atomic store (or swap) of v, with no other writer, load returns v.", "quantifier": "all values", "why_tests_cant": "Stated for all values and all later loads.", "anchors": ["src/libs_thread.h: thread_atomic_int_store, thread_atomic_int_swap, thread_atomic_int_load, thread_atomic_int_compare_and_swap"]}
{"id": "C58", "title": "thread runs its function", "statement": "Constructing a thread with a function runs that function exactly once, and join() returns after it has finished.", "quantifier": "all functions, all schedules", "why_tests_cant": "Schedules.", "anchors": ["include/nanothread.h: thread", "src/nanothread.cc: thread::join, joinable, ~thread"]}
{"id": "C59", "title": "compile-time integer sequences", "statement": "make_index_sequence<N> is 0,1,...,N-1 for every admissible N; partial sums, inclusive and exclusive scans, plus, minus, select and map over integer sequences compute the elementwise mathematical results.", "quantifier": "all N below the limit, all sequences", "why_tests_cant": "Each instantiation is a different N.", "anchors": ["include/tao/seq/make_integer_sequence.hpp", "include/tao/seq/sum.hpp", "include/tao/seq/partial_sum.hpp", "include/tao/seq/exclusive_scan.hpp", "include/tao/seq/inclusive_scan.hpp", "include/tao/seq/zip.hpp", "include/tao/seq/map.hpp", "include/tao/seq/is_all.hpp"]}
{"id": "C60", "title": "optional manages one value's lifetime", "statement": "In any history of operations on optionals, each contained value is constructed exactly once before use and destroyed exactly once, has_value() tells truthfully whether there is one, and the observable contents follow the option model (copy copies, reset empties, swap exchanges).", "quantifier": "all histories over any number of optionals", "why_tests_cant": "Histories.", "anchors": ["include/nonstd/optional.hpp: optional"]}
{"id": "C61", "title": "optional lets T's exceptions through and keeps its contents", "statement": "When an operation of T throws inside an operation of optional, the exception reaches the caller and the optional is as before (emplace: empty; swap: both still hold values).", "quantifier": "all histories, all operations, any pattern of throwing constructors and assignments of T", "why_tests_cant": "Every point at which T may throw, in every state.", "anchors": ["include/nonstd/optional.hpp:1189-1228", "include/nonstd/optional.hpp:1323-1367"]}
{"id": "C62", "title": "signals are not lost and not duplicated", "statement": "Under every interleaving of any number of threads that raise and wait on a signal, every successful wait is paid for by a raise of its own, a raised signal stays raised until a wait succeeds, and while it is raised the waiting threads are never all left asleep.", "quantifier": "all schedules, any number of threads, spurious wake-ups and timeouts included", "why_tests_cant": "Lost wake-ups depend on rare interleavings.", "anchors": ["src/libs_thread.h: thread_signal_init, thread_signal_raise, thread_signal_wait"]}
{"id": "C63", "title": "exp is positive, finite and accurate", "statement": "exp(x) is defined for every float and returns a positive finite number; for |x| <= 87 it is within a relative error of 2.4e-5 of e^x.", "quantifier": "all float arguments (positivity); all finite arguments with |x| <= 87 (accuracy)", "why_tests_cant": "About 2^31 arguments, compared with a real number no test computes exactly.", "anchors": ["include/nanomath.h:408-441"]}
{"id": "C64", "title": "log and log10 are accurate and treat special arguments as C does", "statement": "For every positive normal float log(x) and log10(x) differ from the logarithm by at most 8e-7 + 2e-7 times its size, and are exactly 0 at 1. log of zero is -infinity, log of a negative number is NaN, log of NaN is NaN and log of +infinity is +infinity.", "quantifier": "all float arguments", "why_tests_cant": "Accuracy over the whole range of arguments; the exact logarithm is irrational.", "anchors": ["include/nanomath.h:443-510"]}
{"id": "C65", "title": "pow is accurate", "statement": "For a normal base and an exponent for which the result is comfortably in range, pow(x, y) is within a relative error of (3 + |y|/10)e-5 of x^y, for positive bases and, compiled as C++20, for negative bases with integer exponents other than 0, 1 and 2.", "quantifier": "all bases r with 2^-23 <= |r|, all exponents s with 2^-23 <= |s| <= 10^4 and |s log2 |r|| <= 125", "why_tests_cant": "2^64 pairs of arguments.", "anchors": ["include/nanomath.h:513-543"]}
{"id": "C66", "title": "sqrt is accurate and treats special arguments as IEEE 754 does", "statement": "For every positive finite float sqrt(x) is within a relative error of 0.00177 of the square root; sqrt(1) is 1, sqrt of a zero is that zero, sqrt of a negative number, of -infinity and of NaN is NaN, sqrt(+infinity) is +infinity.", "quantifier": "all float arguments", "why_tests_cant": "2^31 positive arguments; the exact root is irrational.", "anchors": ["include/nanomath.h:294-332"]}
{"id": "C67", "title": "sin and cos are accurate and bounded by 1", "statement": "For every finite float sin(x) and cos(x) are defined, in [-1, 1] and within 8.1e-7 and 1.2e-6 of the sine and cosine of x; a result of a defined call is never outside [-1, 1].", "quantifier": "all float arguments", "why_tests_cant": "2^32 arguments; the results next to +-1 decide whether the clamp at the end of the functions returns 0 in place of 1.", "anchors": ["include/nanomath.h:545-595"]}
{"id": "C68", "title": "sinh, cosh and tanh are accurate; tanh is bounded by 1", "statement": "For every finite float whose true result is representable, cosh(x) is within 2.5e-5 of the hyperbolic cosine relatively, sinh(x) within 5e-7 absolutely for |x| <= 1 and 3.5e-5 relatively beyond, tanh(x) within 1.6e-5 absolutely; tanh of any float, also infinite or NaN, is in [-1, 1].", "quantifier": "all float arguments", "why_tests_cant": "2^32 arguments; the bound of tanh must hold for every rounding of three dependent operations.", "anchors": ["include/nanomath.h:626-659"]}
{"id": "C69", "title": "cbrt is accurate", "statement": "For every finite float x, cbrt(x) is within 1.7e-6 relatively of the real cube root of x, with the sign of x; infinities are returned unchanged, NaN gives NaN and zeros keep their sign.", "quantifier": "all float arguments", "why_tests_cant": "2^32 arguments; the starting value comes from the bit pattern and its error differs in every binade.", "anchors": ["include/nanomath.h:683-696"]}
{"id": "C70", "title": "tan is accurate up to a tiny change of its argument", "statement": "For every finite float x, tan(x) is defined and is the tangent of some real number within 7.5e-7 of x; it is infinite only if a pole is that near, and never NaN.", "quantifier": "all float arguments", "why_tests_cant": "2^32 arguments; next to the poles the reciprocal amplifies every rounding error without bound, so comparing results with a tolerance settles nothing.", "anchors": ["include/nanomath.h:597-624"]}
{"id": "C71", "title": "erf and erfc are accurate and stay in range", "statement": "For every finite float x, erf(x) is within 3.5e-6 of the real error function 2/sqrt(pi) * integral of exp(-t^2) from 0 to x, and erfc(x) within 3.7e-6 of one minus it. For every x that is not NaN, erf(x) is a number of [-1,1] on the side of the sign of x and erfc(x) one of [0,2]; erf is odd, infinities give results within 1.8e-7 of the limits, and NaN gives NaN.", "quantifier": "all float arguments", "why_tests_cant": "2^32 arguments; the 16th power amplifies rounding errors and overflows for large arguments, and the reference is an integral with no closed form.", "anchors": ["include/nanomath.h:661-680", "include/nanomath.h:698-703"]}
{"id": "C72", "title": "Type categories", "statement": "For every C++ type, however built, the primary traits (is_void, is_integral, is_floating_point, is_array, is_pointer, is_lvalue_reference, is_rvalue_reference, is_member_pointer, is_enum, is_union, is_class, is_function) hold exactly if the type is of that category, so exactly one holds; is_object, is_scalar, is_signed and is_unsigned agree with the categories they are made of.", "quantifier": "all types of the language, all qualifiers, all depths", "why_tests_cant": "There are infinitely many types; the categories are defined by exclusion and by overload tricks, so a type nobody listed falls into the wrong one.", "anchors": ["include/nanotype_traits.h:91-212", "include/nanotype_traits.h:332-431", "include/nanotype_traits.h:795-808", "include/nanotype_traits.h:1278-1380"]}
{"id": "C73", "title": "Type transformations", "statement": "For every well-formed type: remove_const, remove_volatile and remove_cv give the one type without the qualifier from which the qualified type is got back (through arrays too); remove_reference undoes & and &&; add_lvalue_reference and add_rvalue_reference follow reference collapsing and leave types alone that cannot be referred to; add_pointer points to what is referred to; decay gives the type of an argument passed by value and is idempotent; remove_all_extents gives the element type below all dimensions.", "quantifier": "all well-formed types", "why_tests_cant": "Infinitely many types; the rules interact (qualified arrays, references to functions, functions with qualifiers).", "anchors": ["include/nanotype_traits.h:91-99", "include/nanotype_traits.h:137-152", "include/nanotype_traits.h:332-463", "include/nanotype_traits.h:634-639", "include/nanotype_traits.h:935-951"]}
{"id": "C74", "title": "Destructible and empty types", "statement": "For every well-formed type and program, is_destructible is true exactly if an object of the type can be destroyed (arrays by their elements), and is_empty exactly if it is a class without data.", "quantifier": "all well-formed types, all properties of the classes involved", "why_tests_cant": "Infinitely many types; a test cannot contain the types that do not compile.", "anchors": ["include/nanotype_traits.h:648-702", "include/nanotype_traits.h:814-831"]}
{"id": "C75", "title": "aligned_storage holds what it is made for", "statement": "For every length, alignment and platform, aligned_storage<Len, Align>::type has that alignment, is at least Len bytes large and no larger than need be, or it is refused; it is never silently too small. The default alignment is the largest listed one not above Len, so every listed type of at most Len bytes can be placed in it.", "quantifier": "all lengths and alignments of size_t, all platform layouts", "why_tests_cant": "2^128 pairs of template arguments; every one is a separate instantiation; only the host platform's layouts can be tested.", "anchors": ["include/nanotype_traits.h:1037-1171"]}
{"id": "C76", "title": "any owns its value and hands it out only by its type", "statement": "For every program of any's operations (construction, copy, move, assignment, emplace, reset, swap, destruction) and every pattern of throwing allocations and value operations: every contained value is constructed once and destroyed once, belongs to exactly one any while alive, and none leaks; without failures the variables hold what the operations say; a failure leaves all variables unchanged and reaches the caller; any_cast yields the value exactly if the type asked for is the contained one.", "quantifier": "all programs, all failure patterns, all value types", "why_tests_cant": "Unbounded histories times all failure points; undefined behaviour of a wrong cast is invisible to a test.", "anchors": ["include/nonstd/any.hpp:440-729", "include/nanoany.h"]}
{"id": "C77", "title": "type_info identifies, orders and hashes types", "statement": "On every platform variant, for all type_infos: == holds exactly of two of the same type if the platform keeps its promise about name uniqueness; before is a strict total order whose equivalence is ==; equal type_infos have equal hash codes; the hash is the djb2-xor hash of the whole name; the name is the text at the stored address, without the mark that says whether it is unique.", "quantifier": "all names, all addresses, all three implementations", "why_tests_cant": "Only one implementation is compiled on a host, and the linker decides where names lie.", "anchors": ["include/nanotypeinfo.h:104-262"]}
{"id": "C78", "title": "variant keeps exactly the object its index names", "statement": "For every program of variant's operations (default, value, in-place, copy and move construction, copy, move and value assignment, emplace, swap, destruction; any number of variables) and every pattern of throwing value operations: no object is constructed over a living one, used or destroyed after its end or as another type, or abandoned; each object is constructed once and destroyed once; at every moment a variable's index names the alternative living in it, or the variable is valueless and empty.", "quantifier": "all programs, all failure patterns, 1 to 16 alternatives, all value types", "why_tests_cant": "Unbounded histories times all failure points; a leak or a destructor of the wrong type shows no output.", "anchors": ["include/nonstd/variant.hpp:924-1098", "include/nonstd/variant.hpp:1195-1744"]}
{"id": "C79", "title": "variant holds what was stored and gives it back by alternative", "statement": "Without failures every history leaves each variant with the alternative and value the operations say, also if an operand is the target itself; index, valueless_by_exception, holds_alternative, get and get_if report exactly the contents and change nothing; get_if of an alternative not held is null.", "quantifier": "all programs, all states reached, all alternatives", "why_tests_cant": "Unbounded histories; self-assignment and self-swap across alternatives.", "anchors": ["include/nonstd/variant.hpp:1411-1565", "include/nonstd/variant.hpp:1746-1868"]}
{"id": "C80", "title": "exceptions in variant operations reach the caller and leave defined contents", "statement": "When a value operation throws inside any variant operation the exception reaches the caller; constructors leave all variables as they were; assignments and emplace leave the target unchanged or valueless and the other operand unchanged; if no alternative's moves throw, then moves and swap always succeed and an assignment that throws keeps the old value.", "quantifier": "all reachable states, all operations, all failure patterns", "why_tests_cant": "Every throw point of every operation in every state.", "anchors": ["include/nonstd/variant.hpp:1345-1512", "include/nonstd/variant.hpp:1603-1714"]}
{"id": "C81", "title": "visit passes the contained values to the visitor in order", "statement": "visit of one to five variants calls the visitor once with the values contained, in the order of the variants, returns its result and lets its exception out (from three variants on, which are copied, an exception of a copy may come instead), leaves all variants unchanged and leaks nothing, for every combination of alternatives; it never calls the visitor if a variant is valueless.", "quantifier": "all reachable states, all visitors, all combinations of alternatives, 1 to 5 variants", "why_tests_cant": "16^5 combinations of alternatives through a recursive dispatch that reverses the arguments.", "anchors": ["include/nonstd/variant.hpp:1905-2194"]}
{"id": "C82", "title": "variant comparisons are an order", "statement": "For all reachable variants the six operators are defined and agree with: valueless first, then by alternative, then by the alternative's own operator; == is an equivalence, < a strict weak order, and exactly one of <, ==, > holds, whenever this is so for every alternative; monostate compares as a one-value type.", "quantifier": "all reachable states, all operators of the alternatives", "why_tests_cant": "Transitivity is a statement about all triples.", "anchors": ["include/nonstd/variant.hpp:1113-1120", "include/nonstd/variant.hpp:2228-2341"]}
{"id": "C83", "title": "variant's storage fits every alternative and its type computations are exact", "statement": "For all lists of up to 16 alternatives and all their sizes and alignments: the storage is at least as large and as strictly aligned as each alternative; variant_size is the number of alternatives; variant_alternative and the index of a type are inverse, the index of a type that is no alternative is -1.", "quantifier": "all alternative lists, all layouts, all widths of size_t", "why_tests_cant": "Compile-time recursion over all type lists and layouts, also of platforms not at hand.", "anchors": ["include/nonstd/variant.hpp:618-753", "include/nonstd/variant.hpp:1123-1153", "include/nonstd/variant.hpp:1713-1722"]}
{"id": "C84", "title": "from_chars stores the nearest value of every decimal text", "statement": "For every text whose longest number at the beginning denotes \u00b1c*10^k, however many digits it has, fast_float::from_chars stores the double (float) nearest to it, ties to even, with the sign of the text, and an infinity beyond the range.", "quantifier": "all texts, all decimal points that are no other part of a number, all formats, double and float, limbs of 64 and of 32 bits", "why_tests_cant": "Infinitely many texts; errors of this kind sit at decimals next to midpoints, tens or hundreds of digits long.", "anchors": ["include/fast_float/parse_number.h:64-109", "include/fast_float/decimal_to_binary.h:20-190", "include/fast_float/digit_comparison.h:40-407", "include/fast_float/ascii_number.h:87-227"]}
{"id": "C85", "title": "from_chars reads nothing outside the text", "statement": "For every sequence of bytes from_chars ends, reads no byte outside [first,last), indexes no table and no big integer out of range, fails no assertion, and returns a pointer in [first,last].", "quantifier": "all byte sequences, all formats, all decimal points that are no digits, double and float, limbs of 64 and of 32 bits", "why_tests_cant": "All texts of all lengths; a read past the end shows no output.", "anchors": ["include/fast_float/parse_number.h:22-109", "include/fast_float/ascii_number.h:28-227", "include/fast_float/bigint.h:40-589"]}
{"id": "C86", "title": "from_chars consumes exactly the longest token", "statement": "from_chars consumes the longest beginning of the text that is a number of the chosen format (optional minus sign, digits with at most one point and at least one digit, exponent allowed by scientific and required without fixed); where there is none, the longest of inf, infinity, nan, nan(letters, digits, _) in any case with optional minus sign; otherwise it reports invalid_argument, returns first and stores nothing.", "quantifier": "all byte sequences, all combinations of scientific and fixed, double and float, limbs of 64 and of 32 bits", "why_tests_cant": "A statement about all texts and all their prefixes.", "anchors": ["include/fast_float/ascii_number.h:87-227", "include/fast_float/parse_number.h:22-61", "include/fast_float/float_common.h:95-102"]}
{"id": "C87", "title": "from_chars inverts to_string", "statement": "from_chars applied to what nanostl's to_string(double) and to_string(float) print consumes the whole text and gives the same bits for every value but NaN, for which it gives a NaN.", "quantifier": "all 2^64 doubles and 2^32 floats, limbs of 64 and of 32 bits", "why_tests_cant": "2^64 values.", "anchors": ["include/fast_float/parse_number.h:64-109", "include/__nanostrutil.h:1209-1300"]}
{"id": "C88", "title": "from_chars is monotone and depends on the denoted number only", "statement": "If one text denotes a number at most that of another, the value read from it is at most the other's; two texts of the same number (10e-1, 1.000, 1) are read as the same bits.", "quantifier": "all pairs of texts without sign and shorter than 2^28-343 bytes, limbs of 64 and of 32 bits", "why_tests_cant": "All pairs of texts of any length, across three different algorithms.", "anchors": ["include/fast_float/parse_number.h:64-109"]}
{"id": "C89", "title": "both parsers of the library agree", "statement": "Every text that Ryu's s2d (s2f) accepts and from_chars takes for a number as a whole is given the same bits by both.", "quantifier": "all texts shorter than 2^28-343 bytes accepted by both", "why_tests_cant": "Two unrelated algorithms on infinitely many texts.", "anchors": ["include/fast_float/parse_number.h:64-109", "include/__nanostrutil.h:1310-1600"]}
{"id": "C90", "title": "compute_float is exact or says that it is not", "statement": "For every 64-bit significand w and every power q, compute_float gives the fields of the value nearest to w*10^q, or a negative power2 with a significand within four units of the true one.", "quantifier": "all w below 2^64, all q, double and float, limbs of 64 and of 32 bits", "why_tests_cant": "2^64 significands times 651 powers; correctness rests on the truncated table of powers of five.", "anchors": ["include/fast_float/decimal_to_binary.h:20-190", "include/fast_float/fast_table.h:1-699"]}
{"id": "C91", "title": "bigint computes exactly within its capacity", "statement": "Multiplication by a word, addition of a word, powers of two, five and ten, comparison, leading bits, bit length and construction from a 64-bit number of bigint are exact whenever the result fits the limbs (3968 bits for limbs of 64 bits, 4000 for limbs of 32), and a product that does not fit is reported.", "quantifier": "all values, all operands, both widths of limbs", "why_tests_cant": "Carries and capacity limits over up to 62 or 125 limbs, of which a platform compiles one.", "anchors": ["include/fast_float/bigint.h:40-589"]}
{"id": "C92", "title": "The replacements of compiler built-ins in fast_float agree with them", "statement": "Where a compiler lacks the built-in, the search for the leading bit, the 128-bit product put together from 32-bit halves, the overflow test of scalar_add, the fallback of scalar_mul and the byte order reversal give what the built-ins and little-endian loads give, so that from_chars has the same results on every platform.", "quantifier": "all 64-bit words", "why_tests_cant": "2^128 pairs of operands, and a platform compiles only one of the variants.", "anchors": ["include/fast_float/float_common.h:134-181", "include/fast_float/bigint.h:205-249", "include/fast_float/ascii_number.h:17-45"]}
{"id": "C93", "title": "tuple_cat concatenates", "statement": "tuple_cat of any number of tuples of any sizes, empty ones included, has the element types of the arguments one tuple after the other, and element k of the result is initialised from exactly the element at place k of that sequence. The only limit is the length of index sequences: results of 2^20 or more elements are refused.", "quantifier": "all numbers of tuples, all sizes, both ways of summing packs", "why_tests_cant": "The indices come from prefix sums over packs of types; a test fixes the number and the sizes of the tuples.", "anchors": ["include/tao/tuple/tuple.hpp:888-947"]}
{"id": "C94", "title": "tuple_cat keeps value categories", "statement": "tuple_cat initialises each element of the result by copying from the elements of lvalue tuples and moving from the elements of rvalue tuples.", "quantifier": "all lists of tuples of all categories", "why_tests_cant": "The categories pass through two layers of forwarding that depend on every type in the list.", "anchors": ["include/tao/tuple/tuple.hpp:604-608", "include/tao/tuple/tuple.hpp:930-947"]}
{"id": "C95", "title": "tuple elements are addressed correctly", "statement": "get<I> names element I with the constness and value category of the tuple, get<T> compiles exactly if one element has type T and names it, tuple_size is the number of elements and tuple_element<I> the type of element I, with the qualifiers of the tuple.", "quantifier": "all type lists, all indices, all categories", "why_tests_cant": "There are infinitely many type lists; that an ill-formed access is refused cannot be asserted at run time.", "anchors": ["include/tao/tuple/tuple.hpp:622-748"]}
{"id": "C96", "title": "Comparison of tuples is lexicographic", "statement": "== compares element by element up to the first difference, < decides at the first position where the elements are not equivalent, and elements after the deciding one are not compared, so that an exception of a comparison passes through exactly if the comparison is reached. If the element orders are strict weak orders, < is one, and two tuples are equivalent only if all elements are. !=, >, <=, >= follow from == and <; tuples of different sizes are refused.", "quantifier": "all sizes, all comparison functions, throwing ones included", "why_tests_cant": "Universally quantified over element orders and positions of throwing comparisons.", "anchors": ["include/tao/tuple/tuple.hpp:752-872"]}
{"id": "C97", "title": "Assignment and swap of tuples work element by element", "statement": "Assigning a tuple gives element i the value of element i of the source, swapping exchanges elements i, as long as no two different positions share a place; self-assignment and self-swap included. If the operation on element k throws, elements before k are done, and no element after k and no other object is touched.", "quantifier": "all sizes, all places, all element operations, throwing ones included", "why_tests_cant": "Aliasing patterns of tuples of references and positions of exceptions cannot be enumerated.", "anchors": ["include/tao/tuple/tuple.hpp:195-212", "include/tao/tuple/tuple.hpp:347-377", "include/tao/tuple/tuple.hpp:525-529"]}
{"id": "C98", "title": "Construction of tuples", "statement": "Each element is constructed from the argument at its position and no other, with an allocator by uses-allocator construction; a tuple converts from a tuple of convertible types element by element; make_tuple stores decayed copies or references for reference wrappers, forward_as_tuple references of the arguments' categories, tie lvalue references.", "quantifier": "all numbers of elements, all arguments", "why_tests_cant": "Holds per type list; refusal to compile cannot be asserted at run time.", "anchors": ["include/tao/tuple/tuple.hpp:125-193", "include/tao/tuple/tuple.hpp:330-340", "include/tao/tuple/tuple.hpp:408-511", "include/tao/tuple/tuple.hpp:575-615"]}
{"id": "C99", "title": "Comparisons and hash of optional", "statement": "The 30 comparison operators of optionals among each other (of possibly different types), with nullopt and with values are those of options with the empty one smallest: nullopt counts as an empty optional and a value as an optional holding it. An absent value is never compared, an exception comes out exactly if two present values are compared and that throws. The order is as strict, transitive and total as that of the values. Equal optionals have equal hashes.", "quantifier": "all optionals, all comparison functions, throwing ones included", "why_tests_cant": "Quantified over all element types and comparison functions; order laws are statements about all triples.", "anchors": ["include/nonstd/optional.hpp:1539-1721", "include/nonstd/optional.hpp:1788-1797"]}
{"id": "C100", "title": "Comparisons of unique_ptr", "statement": "In every reachable state two unique_ptrs compare equal exactly if they are the same variable or both own nothing, and < orders all of them strictly and totally, empty ones first. Comparing with nullptr is comparing with an empty unique_ptr. With pointers of different types the comparisons are those of the pointers converted to the common type.", "quantifier": "all programs, all pointers, all conversions", "why_tests_cant": "That no two owners ever compare equal is an invariant over all histories.", "anchors": ["include/nanomemory.h:847-980"]}
{"id": "C101", "title": "valarray from a size and sin of a valarray", "statement": "valarray(n) has n elements, all zero, in memory of its own, for every n. sin(va) has at position k the sine of va[k], for every length; it changes nothing in va and shares no memory with it. If the allocation fails an exception comes out and no memory is lost.", "quantifier": "all sizes, all contents, all behaviours of the allocator", "why_tests_cant": "All lengths and allocation failures at any point; that memory is not shared or lost cannot be seen in results.", "anchors": ["include/nanovalarray.h:66-70", "include/nanovalarray.h:224-233"]}
{"id": "C102", "title": "Lifetimes in expected", "statement": "Over every sequence of constructions, assignments, emplacements, swaps and destructions of expected<T, E> variables, wherever user constructors throw, exactly one object lives in each variable, of the type has_value() says; none is built over a living one, used or destroyed when dead; when all variables have ended every T and E ever constructed has been destroyed exactly once.", "quantifier": "all histories, all types, all points where an operation throws", "why_tests_cant": "The space of histories and of places to throw is unbounded; destroying a dead object shows no symptom.", "anchors": ["include/nonstd/expected.hpp:236-420", "include/nonstd/expected.hpp:1475-1740"]}
{"id": "C103", "title": "Contents and exceptions of expected", "statement": "If nothing throws, every history of expected variables acts as a model in which each holds a value or an error: construction and assignment put it, copies copy, a moved-from one keeps its kind, swap exchanges, emplace puts the value. If an operation throws, the exception reaches the caller (terminate is never called for one the type does not promise away) and the command has no effect.", "quantifier": "all histories, all types, all points where an operation throws", "why_tests_cant": "Refinement over all histories; strong exception safety at each possible point.", "anchors": ["include/nonstd/expected.hpp:1475-1740"]}
{"id": "C104", "title": "Access and comparison of expected", "statement": "In every reachable state value() has the value or throws bad_expected_access with the error, error() the error, value_or the value or the default; == is equality of kind and content, with values and unexpected_types as with expecteds holding them, and != its negation; == is an equivalence if those of T and E are; equal expecteds have equal hashes.", "quantifier": "all reachable states, all comparison functions", "why_tests_cant": "Laws about all pairs and triples in all reachable states.", "anchors": ["include/nonstd/expected.hpp:1770-1900", "include/nonstd/expected.hpp:2160-2320"]}
{"id": "C105", "title": "expected<void, E>", "statement": "Over every sequence of operations on expected<void, E> variables, wherever copies and moves of E throw: no dead error is read or destroyed, the contents are those of the obvious model, value() throws bad_expected_access with the error exactly if there is one, and at the end every error object has been destroyed exactly once.", "quantifier": "all histories, all E, all points where an operation throws", "why_tests_cant": "A leaked error shows no symptom in results; histories are unbounded.", "anchors": ["include/nonstd/expected.hpp:1926-2160"]}
{"id": "C106", "title": "Traits about construction, conversion and assignment", "statement": "For all types, is_constructible<T, As...> is true exactly if the variable definition T t(declval<As>()...) can be written, is_convertible<From, To> exactly if a function returning To can return a From, is_assignable<T, A> exactly if declval<T>() = declval<A>() can be written; the nothrow variants exactly if it moreover cannot throw; the copy and move variants are these for references to T and false for types without references. None of them makes the program ill-formed.", "quantifier": "all types (any nesting of pointers, references, arrays, functions, member pointers, qualifiers), all argument lists, all programs' constructors and conversions", "why_tests_cant": "Types are infinitely many; a wrong answer silently selects another overload.", "anchors": ["include/nanotype_traits.h:469-475", "include/nanotype_traits.h:571-630", "include/nanotype_traits.h:710-785", "include/nanotype_traits.h:836-930", "include/nanotype_traits.h:965-1018"]}
{"id": "C107", "title": "Value categories through forward, move, move_if_noexcept and decay_copy", "statement": "A function template with a parameter T&& that hands forward<T>(t) on passes the argument with its type, qualifiers and value category, through any number of such functions; forward never makes an lvalue of an rvalue; move gives an rvalue of the same type whatever it is given; move_if_noexcept gives a constant lvalue exactly if the move may throw and a copy exists; __decay_copy gives a new object of the decayed type.", "quantifier": "all types, all value categories, call chains of any length", "why_tests_cant": "Types are infinitely many and chains unbounded; a lost category shows as a copy, not as a wrong value.", "anchors": ["include/nanotype_traits.h:338-345", "include/nanoutility.h:93-132"]}
{"id": "C108", "title": "common_type", "statement": "common_type<Ts...> is the type the conditional operator gives for decayed operands, decayed, folded from the left; it does not depend on references and top-level qualifiers of the Ts, nor on whether arrays and functions are given as such or as pointers; where there is no such type there is no member, not an error; the result never is a reference, an array or qualified.", "quantifier": "all lists of types, all conditional operators", "why_tests_cant": "Lists and types are unbounded.", "anchors": ["include/nanotype_traits.h:487-558"]}
{"id": "C109", "title": "Swappability", "statement": "__is_swappable<T> is true exactly if swap(x, y) of two lvalues of type T can be called: another swap is found by its arguments, or T can be move constructed and move assigned, or T is an array of swappable elements; __is_nothrow_swappable exactly if that call moreover is declared not to throw. Neither question makes the program ill-formed.", "quantifier": "all types, all programs' swap functions, arrays of any number of dimensions", "why_tests_cant": "Types are infinitely many; a wrong answer silently removes an overload or a noexcept.", "anchors": ["include/nanotype_traits.h:1175-1250"]}
{"id": "C110", "title": "unique_ptr lets no wrong deletion compile", "statement": "A unique_ptr<T[]> takes, by construction, reset, move construction and move assignment, only pointers to the same elements up to qualifiers, never to a derived class, and nothing from a unique_ptr of a single object, nor the other way round. A deleter of reference type always refers to an object of the caller's, never to a temporary. Whatever constructor is used, the deleter has a value.", "quantifier": "all element types, deleter types, pointer types and argument expressions; all programs' conversions", "why_tests_cant": "What does not compile cannot be in a unit test; types are infinitely many.", "anchors": ["include/nanomemory.h:126-212", "include/nanomemory.h:422-500", "include/nanomemory.h:615-674", "include/nanomemory.h:677-763", "include/nanomemory.h:812-822"]}
{"id": "C111", "title": "A timer waits as long as it is told", "statement": "When thread_timer_wait(timer, ns) returns, at least ns nanoseconds have passed, however often signals interrupt it; it returns when the interruptions end.", "quantifier": "all times of 64 bits, all sequences of interruptions, Windows and POSIX, time_t of 32 and of 64 bits", "why_tests_cant": "Interruptions come at times a test does not control, and long times cannot be waited for.", "anchors": ["src/libs_thread.h:1225-1293"]}
{"id": "C112", "title": "Thread local storage", "statement": "An index made by thread_tls_create gives each thread the value that thread has last stored there, null at first, whatever other threads and other indices do, until it is destroyed. thread_tls_create returns an index different from all those in use, and null exactly if there are no more.", "quantifier": "all histories of calls by any number of threads, all choices of keys by the system", "why_tests_cant": "Interleavings and the system's choice of keys are not under a test's control.", "anchors": ["src/libs_thread.h:1296-1367"]}
{"id": "C113", "title": "Conversions into expected keep what the source holds", "statement": "An expected<T,E> can be made from an expected<U,G> exactly if a T can be made from the U and an E from the G, implicitly exactly if both conversions are implicit, moving from an rvalue if that is possible; it holds a value exactly if the source does. An unexpected<G> becomes or is assigned as an error. A value from which T can be made and assigned can be assigned. An assignment that is chosen compiles.", "quantifier": "all types T, E, U, G, all arguments (lvalue, rvalue, const or not), explicit and implicit, all programs (what the compiler answers about their types)", "why_tests_cant": "Which of ten constructors is called depends on what can be made from what among the user's types; a test instantiates a few.", "anchors": ["include/nonstd/expected.hpp:1387-1572", "include/nonstd/expected.hpp:1653-1689"]}
{"id": "C114", "title": "Conversions into optional keep emptiness", "statement": "An optional<T> can be made from an optional<U> exactly if a T can be made from the U, implicitly exactly if that conversion is implicit, moving from an rvalue if that is possible; it is empty exactly if the source is. The same holds of assignments.", "quantifier": "all types T, U, all arguments (lvalue, rvalue, const or not), explicit and implicit, all programs (what the compiler answers about their types)", "why_tests_cant": "Which constructor is called depends on what can be made from what among the user's types; a test instantiates a few.", "anchors": ["include/nonstd/optional.hpp:1001-1160", "include/nonstd/optional.hpp:1228-1322"]}
{"id": "C115", "title": "A timed wait on a signal takes its time", "statement": "thread_signal_wait(signal, ms) returns 0 no earlier than ms milliseconds after the call (a microsecond excepted), and it returns, with any result, no later than that, apart from the time the system needs to wake a thread; however often the thread is woken in between.", "quantifier": "all timeouts, all times at which the clocks are read and the thread is woken, all sequences of wake-ups with and without the signal, Windows and POSIX", "why_tests_cant": "When and how often the system wakes a thread is not under a test's control.", "anchors": ["src/libs_thread.h:930-1013"]}
{"id": "C116", "title": "distance and initializer_list count the elements", "statement": "distance(first, last) is the number of steps from first to last, negative if last comes first, and distances add up. An initializer_list made from { e1, ..., en } has size n, begin() and end() are n steps apart, and a loop from begin() to end() visits e1, ..., en in this order.", "quantifier": "all arrays, all pairs and triples of positions, ptrdiff_t of any width up to 64 bits, all lists a program can make", "why_tests_cant": "All lengths and positions; that no program can make a list of elements is a fact about all programs.", "anchors": ["include/nanoiterator.h:83-88", "include/nanoinitializer_list.h:45-99"]}
{"id": "C117", "title": "A tuple is made from what its elements are made from", "statement": "tuple<Ts...> can be made from arguments exactly if each T can be made from its argument, implicitly exactly if all conversions are implicit; a copy or moved tuple has copies of the elements, or the elements moved; a tuple converts from another exactly if the elements do, element by element. With an allocator each element gets its argument and the allocator as uses-allocator construction says. What cannot be made is refused by overload resolution, so that is_constructible answers right, and what is accepted compiles.", "quantifier": "all numbers and types of elements, all arguments (lvalue, rvalue, const or not), all programs (what the compiler answers about their types)", "why_tests_cant": "Which of fourteen constructors is called depends on what can be made from what among the user's types; that a program is refused cannot be tested by running it.", "anchors": ["include/tao/tuple/tuple.hpp:111-193", "include/tao/tuple/tuple.hpp:330-345", "include/tao/tuple/tuple.hpp:405-511", "include/nanomemory.h:40-66"]}
{"id": "C118", "title": "A tuple is assigned what its elements are assigned", "statement": "t = u for a tuple t is accepted exactly if u is a tuple (of any cv and value category) with as many elements, each of which can be assigned to that of t at its place; it assigns them, moving from an rvalue. Otherwise it is refused by overload resolution, so that is_assignable answers right.", "quantifier": "all numbers and types of elements, all arguments, all programs", "why_tests_cant": "Which assignment is called depends on what the elements' types can do; that a program is refused cannot be tested by running it.", "anchors": ["include/tao/tuple/tuple.hpp:195-206", "include/tao/tuple/tuple.hpp:342-369", "include/tao/tuple/tuple.hpp:430-433", "include/tao/tuple/tuple.hpp:513-521"]}
{"id": "C119", "title": "os << x prints x as the standard's streams do", "statement": "Inserting an argument that is not of class type compiles, links and ends; it prints a character as the character, any other integer or unscoped enumeration as its value in decimal, a floating-point number as a number, a pointer to characters as text, another pointer to an object as an address, a pointer to a function, to a volatile object or to a member as whether it is null, and nullptr_t as a text. No integer changes its value on the way to to_string.", "quantifier": "all types of arguments of any depth (references, arrays, qualifiers, pointers, member pointers, enumerations), all values of the integer types, all platforms with the usual widths (signed or unsigned char and wchar_t)", "why_tests_cant": "Which overload is called depends on the argument's type and the platform; there are infinitely many pointer types, and a program that does not compile cannot be run.", "anchors": ["include/nanoiostream.h:54-72", "include/nanoiostream.h:89-192", "include/nanostring.h:231-255"]}
{"id": "C120", "title": "A tuple's noexcept tells the truth", "statement": "A constructor, assignment, swap or comparison of tuples that is not defaulted is noexcept exactly if what it does to the elements - making them from the arguments, assigning, calling swap for their type, comparing - cannot throw. So no exception of an element ends in terminate, and generic code that asks gets the best answer there is.", "quantifier": "all numbers and types of elements, all arguments, all programs (what the compiler answers about their types and whether these operations can throw), all outcomes of the elements' comparisons", "why_tests_cant": "A wrong promise shows only when an element's operation throws, for the one combination of types where promise and body differ; that nothing throws cannot be seen from runs that do not throw.", "anchors": ["include/tao/tuple/tuple.hpp:104", "include/tao/tuple/tuple.hpp:127-212", "include/tao/tuple/tuple.hpp:229-306", "include/tao/tuple/tuple.hpp:332-378", "include/tao/tuple/tuple.hpp:408-449", "include/tao/tuple/tuple.hpp:513-529", "include/tao/tuple/tuple.hpp:755-881"]}
{"id": "C121", "title": "reference_wrapper's nested types are those of what it refers to", "statement": "For a function, pointer to function or pointer to member function reference_wrapper<T>::result_type is its result, argument_type is declared exactly if it takes one argument (the object of a member function counts, as a pointer qualified like the function) and is that argument's type, and likewise first_argument_type and second_argument_type for two. For a class result_type is T::result_type, and the argument types are those of its base unary_function or binary_function, declared exactly if there is one. Whatever is declared is right.", "quantifier": "all results, parameter lists, qualifiers, ellipses, ref-qualifiers and exception specifications of functions; all classes, whatever they declare or inherit by the name result_type and from whichever function bases; before and since C++17", "why_tests_cant": "Each specialisation is selected by one form of type; a test names finitely many types, and a missing or wrong specialisation shows only for the types that would have used it.", "anchors": ["include/nanofunctional.h:198-276", "include/nanofunctional.h:278-297", "include/nanofunctional.h:301-449", "include/nanofunctional.h:461-476"]}
{"id": "C122", "title": "What is put into an optional or expected is T(a)", "statement": "A constructor of optional<T> or expected<T,E> (also expected<void,E>) that takes another optional, expected, unexpected or a value makes the contained value or error as T(a) does, whether the constructor is explicit or not; and a construction that the traits call possible compiles.", "quantifier": "all object types T, E, U, G, all arguments (lvalue, rvalue, const or not), explicit and implicit, all programs as to what can be made from what, which types have initializer_list constructors and where braces narrow", "why_tests_cant": "A test fixes the types; T{a} differs from T(a) only for types with an initializer_list constructor or a narrowing one, and a body that does not compile shows only for the types that instantiate it.", "anchors": ["include/nonstd/optional.hpp:1001-1161", "include/nonstd/expected.hpp:1387-1573", "include/nonstd/expected.hpp:1950-1994"]}
{"id": "C123", "title": "unexpected holds the error it was made from", "statement": "An unexpected<E> is made from an unexpected<G> exactly if an E is made from the error as it is given, implicitly exactly if that conversion is implicit; from a value only explicitly, exactly if an E can be; copied and moved as E is. The error is then E(a). It can be assigned an unexpected<G> exactly if an E can be made of the error. make_unexpected(a) has the decayed type of a and the error made of a. What is accepted compiles.", "quantifier": "all error types E, G, all arguments (lvalue, rvalue, const or not, also arrays and functions for make_unexpected), explicit and implicit, all programs as to what can be made from what", "why_tests_cant": "Which of six constructors is called depends on ten traits of two types; a test fixes the types.", "anchors": ["include/nonstd/expected.hpp:840-1020", "include/nonstd/expected.hpp:1173-1178"]}
{"id": "C124", "title": "The traits of the wrappers tell the truth", "statement": "For types whose own traits tell the truth, is_destructible, is_copy_constructible, is_move_constructible, is_copy_assignable, is_move_assignable and is_swappable of optional<T>, expected<T,E>, expected<void,E>, unexpected<E> and variant<T...> are true exactly if the operation compiles, and that is exactly if the contained types allow it; in particular wrappers of types that can do everything can do everything, however they are nested, and no wrapper does an operation without the operations of its parts it needs.", "quantifier": "all contained types (what each can do and says it can), all nestings, all six operations", "why_tests_cant": "A body that does not compile is seen only for the types that instantiate it, and a test that does not compile is no test; all combinations of capabilities of two or more types at any depth.", "anchors": ["include/nonstd/optional.hpp:975-1002", "include/nonstd/optional.hpp:1191-1228", "include/nonstd/expected.hpp:683-832", "include/nonstd/expected.hpp:1636-1651", "include/nonstd/expected.hpp:1715-1742", "include/nonstd/variant.hpp:1262-1371"]}
{"id": "C125", "title": "What a variant made from a value holds", "statement": "A variant made from or assigned a value of the type of one of its alternatives holds that alternative, moved from a non-const rvalue and copied from everything else, whatever the other alternatives are. A value of another type makes the alternative that it converts to better than to every other; if there is none the program does not compile. Any list of object types may be the alternatives.", "quantifier": "all lists of alternatives, all arguments (lvalue, rvalue, const or not), all programs as to which types convert to which and how well, base classes included", "why_tests_cant": "Which of 32 constructors is called depends on all alternatives and on the conversions of the argument to each; a test fixes them, and what is ambiguous does not compile.", "anchors": ["include/nonstd/variant.hpp:1196-1258", "include/nonstd/variant.hpp:1373-1408"]}
{"id": "C126", "title": "What comes back from a thread, and what it is given", "statement": "thread_join returns the value that the function of the thread returned or passed to thread_exit, for every int. The thread has at least the stack that was asked for, and the name.", "quantifier": "all results, both ways to end a thread, both platforms, all sizes of a pointer from 32 bits on, anything left in the upper half of a register, all stack sizes and names", "why_tests_cant": "The result goes through conversions between int, DWORD, void* and uintptr_t and through a call with the wrong function type; a test sees single values with a register that happens to be clean, and cannot see the size of a stack.", "anchors": ["src/libs_thread.h:658-671", "src/libs_thread.h:673-714", "src/libs_thread.h:738-756"]}
{"id": "C127", "title": "Lists and trees of unique_ptr", "statement": "When a unique_ptr to an object that holds further unique_ptrs is reset, assigned or destroyed, every object that belongs to it is deleted, each once, and nothing else is touched; in particular head = move(head->next) deletes the first object of a list and keeps the rest. When the last variable is gone nothing is left.", "quantifier": "all programs of reset, assignment, swap and destruction on variables and on members of objects, all shapes including cycles, all numbers of members, deleters with and without data", "why_tests_cant": "What one reset sets going depends on the whole shape that a program has built; a test sees single shapes, and a double delete or a use after free need not show.", "anchors": ["include/nanomemory.h:513-518", "include/nanomemory.h:549-556", "include/nanomemory.h:584-602"]}
{"id": "C128", "title": "The order of expected", "statement": "With the ordering operators switched on (nsel_P0323R at most 2), expecteds can be sorted: < is a strict weak order with every error before every value. Comparing with a plain value or with an unexpected gives what comparing with the expected made of it gives, and <, >, <=, >= of any two operands agree with each other and with ==.", "quantifier": "all value and error types with any order, all operands, all operators in both directions", "why_tests_cant": "There are twenty-four operators for the pairs of operands; tests try single values of one type, and a law between them is broken only for errors.", "anchors": ["include/nonstd/expected.hpp:1091-1155", "include/nonstd/expected.hpp:2182-2206", "include/nonstd/expected.hpp:2236-2286", "include/nonstd/expected.hpp:2314-2364"]}
{"id": "C129", "title": "A vector of objects that throw", "statement": "A vector of objects of a class can be used whatever their constructors and assignments throw and whenever memory runs out: no command nor the destructor touches an object that does not live; the elements after a command that returns are the expected ones, and after one that throws they are as before; elements taken out are destroyed, elements added by resize are T(), and when the vector is gone every object built has been destroyed.", "quantifier": "all element types, all sequences of commands, all patterns of exceptions in new, T() and operator=, all values left by an assignment that threw", "why_tests_cant": "The place where something throws varies with every run; what is leaked or left is seen by no assertion on the values.", "anchors": ["include/nanovector.h:60-72", "include/nanovector.h:84-120", "include/nanovector.h:145-168", "include/nanoallocator.h:61-81"]}
{"id": "C130", "title": "A map whose keys are objects that throw or are not ordered", "statement": "A map whose keys and values are objects of classes can be used whatever their comparisons say and whatever throws: no command is undefined and the destructor frees every node; a command that throws has changed nothing; and the results are those of a finite map, keys being the same if `==` says so.", "quantifier": "all key and value types, all functions ==, > and <, all sequences of commands, all patterns of exceptions in new, copies, comparisons and assignments, all priorities; all floating-point formats for keys that are floating-point numbers", "why_tests_cant": "A comparison that is no order shows only for certain keys in certain shapes of the tree, which depend on random priorities; exceptions can come from any of the copies a search makes.", "anchors": ["include/nanomap.h:69-76", "include/nanomap.h:121-168", "include/nanomap.h:193-232"]}
{"id": "C131", "title": "Vectors of vectors", "statement": "Vectors of vectors, to any depth, are values: after `x = y`, `x.push_back(y)` and the like `x` has its own copy of all of `y`, and any later change to a part of one variable, such as `x[i][j] = z` or `x[i].push_back(z)`, shows there and nowhere else. A copy `X(x[i])` of an element may be pushed to the vector it is from. `x[i].swap(y)` exchanges the two and changes nothing else, throws nothing and allocates and frees nothing. No storage is used after it was freed or freed twice, and at the end of the variables none is left.", "quantifier": "all depths of nesting, all numbers of variables, all sequences of commands on any parts of them, all patterns of failing allocations", "why_tests_cant": "Sharing between copies shows only when one of them is changed later; double frees and leaks are not seen by assertions, and the number of levels is unbounded.", "anchors": ["include/nanovector.h:60-72", "include/nanovector.h:84-168", "include/nanovector.h:170-174", "include/nanovector.h:183-188", "include/nanovector.h:201-208", "include/nanoallocator.h:61-81"]}
{"id": "C132", "title": "Maps whose keys are strings", "statement": "A map whose keys are nanostl strings, of any character type, is keyed by their texts: every sequence of insertions, assignments, lookups and finds gives what a finite map from texts to values gives, different texts are different keys, and `upper_bound` finds the next text in dictionary order.", "quantifier": "all sequences of commands, all keys, all values, all priorities, all patterns of failing copies and allocations", "why_tests_cant": "The comparison is by single bytes read through a cast and stops at the first zero; which texts it confuses depends on the character type, and how the tree then answers depends on the order of insertion and on the priorities.", "anchors": ["include/nanostring.h:133-190", "include/nanomap.h:141-168", "include/nanomap.h:193-222"]}
{"id": "C133", "title": "Vectors of strings", "statement": "Strings, vectors of strings, vectors of vectors of strings and so on are values: copies are deep, `=`, `+=` and `clear()` of a string that lies anywhere within a variable change that string and nothing else. No storage is used after it was freed or freed twice, also when a constructor throws within `new T[n]` or a copy constructor throws, and at the end of the variables none is left.", "quantifier": "all depths of nesting, all numbers of variables, all character types, all texts, all sequences of commands on any parts of the variables, all patterns of failing allocations", "why_tests_cant": "Every string that a growing vector makes allocates in its constructor, so the allocation that fails may be any of unboundedly many; what is left behind by one that fails is not seen by assertions.", "anchors": ["include/nanostring.h:61-78", "include/nanostring.h:112-115", "include/nanostring.h:149-153", "include/nanostring.h:201-226", "include/nanovector.h:84-168", "include/nanovector.h:201-208", "include/nanoallocator.h:61-81"]}
{"id": "C134", "title": "Inverse error function", "statement": "For every `float` x, `ierf(x)` is a number on the side of the sign of x and of between 0.8 and 4 times its absolute value, `ierf(-x)` is `-ierf(x)`, for x from -1 to 1 the error function of `ierf(x)` is within 0.00125 of x and of a relative error below 1.4% (up to the least `float` above 0), so that `erf(ierf(x))` is x within 0.0013 and `ierf(erf(x))` is x within 0.005, `ierf` is increasing, and the result is NaN for NaN and where the error function takes no value x.", "quantifier": "all floats, for the bounds those of absolute value up to 2^120", "why_tests_cant": "There are 2^32 arguments, and two polynomials in a logarithm and a square root that are themselves approximations; tests see a few arguments.", "anchors": ["include/nanomath.h:705-735"]}
{"id": "C135", "title": "Identities between the elementary functions", "statement": "For `float` arguments whose results are in range, `exp(log(x))` and `cbrt(x)*cbrt(x)*cbrt(x)` give back x within a relative error of 5e-5 and 6e-6, `sqrt(x)*sqrt(x)` within 0.36%, `log(exp(x))` gives back x within 5e-5, `exp(x)*exp(-x)` is 1 within 5e-5, `sin(x)*sin(x) + cos(x)*cos(x)` is 1 within 5e-6, and `log(x*y)` is `log(x) + log(y)` within 1e-4; every operation between the calls is rounded.", "quantifier": "all finite floats x and y whose results and intermediate results are normal floats", "why_tests_cant": "There are 2^32 arguments, 2^64 pairs for the product, and every function has its own approximation and its own cells; tests see a few arguments.", "anchors": ["include/nanomath.h:294-332", "include/nanomath.h:408-488", "include/nanomath.h:545-595", "include/nanomath.h:683-696"]}
{"id": "C136", "title": "Odd and even functions", "statement": "For every `float` x that is not NaN, `sin`, `tan`, `sinh`, `tanh`, `erf` and `cbrt` of -x are the negated results for x, and `cos` and `cosh` of -x are the results for x, to the bit.", "quantifier": "all floats but NaN, zeros and infinities included", "why_tests_cant": "There are 2^32 arguments and the rounding errors of the two sides must agree for each of them; a test compares a few.", "anchors": ["include/nanomath.h:545-696"]}

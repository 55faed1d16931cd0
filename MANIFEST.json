{
 "claims": [
  {
   "property": "C01",
   "status": "proved",
   "theorems": [
    "Nanostl.Vector.c01_vector_is_sequence"
   ],
   "note": "Element copy modelled as a cell copy that does not throw."
  },
  {
   "property": "C02",
   "status": "partial",
   "theorems": [
    "Nanostl.Vector.c02_vector_ownership_partial",
    "Nanostl.Vector.c02_copy_throw_leaks_false"
   ],
   "note": "A copy constructor that throws after its first allocation leaks that block (nanovector.h:62-65); witness proved. Everything else proved."
  },
  {
   "property": "C03",
   "status": "proved",
   "theorems": [
    "Nanostl.Vector.c03_size_le_capacity",
    "Nanostl.Vector.c03_capacity_and_address"
   ],
   "note": ""
  },
  {
   "property": "C04",
   "status": "proved",
   "theorems": [
    "Nanostl.Vector.c04_push_back_amortised"
   ],
   "note": ""
  },
  {
   "property": "C05",
   "status": "proved",
   "theorems": [
    "Nanostl.Vector.c05_copies_independent"
   ],
   "note": ""
  },
  {
   "property": "C06",
   "status": "partial",
   "theorems": [
    "Nanostl.Vector.c06_push_own_element_partial",
    "Nanostl.Vector.c06_push_own_element_ub",
    "Nanostl.Vector.c06_push_own_element_false"
   ],
   "note": "False when size()==capacity(): use after free. Proved otherwise."
  },
  {
   "property": "C07",
   "status": "partial",
   "theorems": [
    "Nanostl.Vector.c07_resize_partial",
    "Nanostl.Vector.c07_resize_zero_false",
    "Nanostl.Vector.c07_resize_zero_program_false"
   ],
   "note": "resize(0) is a no-op in the code; proved for n>=1."
  },
  {
   "property": "C08",
   "status": "partial",
   "theorems": [
    "Nanostl.Vector.c08_erase_partial",
    "Nanostl.Vector.c08_erase_return_false"
   ],
   "note": "Contents proved; the returned iterator is always the new end()."
  },
  {
   "property": "C09",
   "status": "proved",
   "theorems": [
    "Nanostl.Vector.c09_push_back_strong",
    "Nanostl.Vector.c09_resize_strong"
   ],
   "note": ""
  },
  {
   "property": "C10",
   "status": "proved",
   "theorems": [
    "Nanostl.Vector.c10_assign_own_range",
    "Nanostl.Vector.c10_self_assign"
   ],
   "note": ""
  },
  {
   "property": "C11",
   "status": "partial",
   "theorems": [
    "Nanostl.Str.c11_string_history_partial",
    "Nanostl.Str.c11_append_throw_unterminated_false",
    "Nanostl.Str.c11_needs_terminator"
   ],
   "note": "Proved for every history for strings not hit by an allocation failure inside += or =; after such a failure the string has lost its terminator (witness proved)."
  },
  {
   "property": "C12",
   "status": "proved",
   "theorems": [
    "Nanostl.Str.c12_plus",
    "Nanostl.Str.c12_append",
    "Nanostl.Str.c12_assoc_unit",
    "Nanostl.Str.c11_string_history_partial"
   ],
   "note": ""
  },
  {
   "property": "C13",
   "status": "partial",
   "theorems": [
    "Nanostl.Str.c13_self_append_false",
    "Nanostl.Str.c13_self_append_program_false"
   ],
   "note": "False for every string: use after free, throw, or missing terminator. Nothing of the claim remains provable."
  },
  {
   "property": "C14",
   "status": "proved",
   "theorems": [
    "Nanostl.Str.c14_compare",
    "Nanostl.Str.c14_compare_cstr",
    "Nanostl.Str.c14_operators",
    "Nanostl.Str.c14_operators_cstr",
    "Nanostl.Str.c14_order"
   ],
   "note": "Order is on the bytes before the first NUL, as the code compares C strings."
  },
  {
   "property": "C15",
   "status": "partial",
   "theorems": [
    "Nanostl.Str.c15_empty_partial",
    "Nanostl.Str.c15_empty_false"
   ],
   "note": "Holds for non-empty strings; empty() is false for the empty string."
  },
  {
   "property": "C16",
   "status": "partial",
   "theorems": [
    "Nanostl.Str.c16_count_partial",
    "Nanostl.Str.c16_range_partial",
    "Nanostl.Str.c16_count_false",
    "Nanostl.Str.c16_range_false"
   ],
   "note": "Contents proved, but no terminator is stored, and (first,last) includes *last."
  },
  {
   "property": "C17",
   "status": "partial",
   "theorems": [
    "Nanostl.Str.c17_to_string_partial",
    "Nanostl.Str.c17_string",
    "Nanostl.Str.c17_injective",
    "Nanostl.Str.c17_to_string_false"
   ],
   "note": "Proved for v >= -999999999; undefined behaviour proved for all others."
  },
  {
   "property": "C18",
   "status": "partial",
   "theorems": [
    "Nanostl.Str.c18_to_string64_partial",
    "Nanostl.Str.c18_to_string64_false"
   ],
   "note": "Proved for |v| < 2^31; wrong or undefined proved for all others."
  },
  {
   "property": "C19",
   "status": "proved",
   "theorems": [
    "Nanostl.Map.c19_finite_map"
   ],
   "note": "All programs without map copies, all allocators, all priority streams."
  },
  {
   "property": "C20",
   "status": "proved",
   "theorems": [
    "Nanostl.Map.c20_structure",
    "Nanostl.Map.c20_shape",
    "Nanostl.Map.c20_distinct"
   ],
   "note": ""
  },
  {
   "property": "C21",
   "status": "proved",
   "theorems": [
    "Nanostl.Map.c21_upper_bound_incr",
    "Nanostl.Map.contents_exist",
    "Nanostl.Map.contents_unique"
   ],
   "note": ""
  },
  {
   "property": "C22",
   "status": "partial",
   "theorems": [
    "Nanostl.Map.c22_begin_partial",
    "Nanostl.Map.c22_false"
   ],
   "note": "begin() is the root: the loop visits only keys not below the root's key."
  },
  {
   "property": "C23",
   "status": "partial",
   "theorems": [
    "Nanostl.Map.c23_iter_eq_partial",
    "Nanostl.Map.c23_false",
    "Nanostl.Map.contents_exist"
   ],
   "note": "Exactly one iterator at the end: null dereference, proved for all states."
  },
  {
   "property": "C24",
   "status": "partial",
   "theorems": [
    "Nanostl.Map.c24_owns_nodes_partial",
    "Nanostl.Map.c24_copy_false"
   ],
   "note": "Proved without copies; copying a non-empty map is a double free, proved for all reachable maps."
  },
  {
   "property": "C25",
   "status": "proved",
   "theorems": [
    "Nanostl.Map.c25_priority_source"
   ],
   "note": ""
  },
  {
   "property": "C26",
   "status": "proved",
   "theorems": [
    "Nanostl.Algo.c26_min_max",
    "Nanostl.Algo.c26_clamp",
    "Nanostl.Algo.c26_ties",
    "Nanostl.Algo.c26_unordered"
   ],
   "note": "Total orders, and arbitrary comparison operators for the unordered case."
  },
  {
   "property": "C27",
   "status": "proved",
   "theorems": [
    "Nanostl.Algo.c27_max_element"
   ],
   "note": ""
  },
  {
   "property": "C28",
   "status": "proved",
   "theorems": [
    "Nanostl.Algo.c28_fill"
   ],
   "note": ""
  },
  {
   "property": "C29",
   "status": "proved",
   "theorems": [
    "Nanostl.Algo.c29_pair",
    "Nanostl.Algo.c29_pair_weak"
   ],
   "note": ""
  },
  {
   "property": "C30",
   "status": "proved",
   "theorems": [
    "Nanostl.Algo.c30_memcpy"
   ],
   "note": ""
  },
  {
   "property": "C31",
   "status": "proved",
   "theorems": [
    "Nanostl.Stream.c31_stringstream_history",
    "Nanostl.Stream.c31_concat"
   ],
   "note": ""
  },
  {
   "property": "C32",
   "status": "partial",
   "theorems": [
    "Nanostl.Stream.c32_ostream_partial",
    "Nanostl.Stream.c32_ostream_false"
   ],
   "note": "Insertions whose text the library can produce, with the texts of all floats and doubles; integers inherit the C17/C18 defects (witness proved)."
  },
  {
   "property": "C33",
   "status": "partial",
   "theorems": [
    "Nanostl.Stream.c33_insert_string_false"
   ],
   "note": "False for every string: the operator calls itself without end. Nothing of the claim remains provable."
  },
  {
   "property": "C34",
   "status": "proved",
   "theorems": [
    "Nanostl.Hash.c34_siphash"
   ],
   "note": ""
  },
  {
   "property": "C35",
   "status": "proved",
   "theorems": [
    "Nanostl.Hash.c35_integers",
    "Nanostl.Hash.c35_floats"
   ],
   "note": ""
  },
  {
   "property": "C36",
   "status": "proved",
   "theorems": [
    "Nanostl.Ratio.c36_ratio",
    "Nanostl.Ratio.c36_errors",
    "Nanostl.Ratio.c36_lcm",
    "Nanostl.Ratio.c36_si"
   ],
   "note": ""
  },
  {
   "property": "C39",
   "status": "proved",
   "theorems": [
    "Nanostl.Math.c39_float",
    "Nanostl.Math.c39_double",
    "Nanostl.Math.c39_partition"
   ],
   "note": ""
  },
  {
   "property": "C40",
   "status": "partial",
   "theorems": [
    "Nanostl.Math.c40_copysign",
    "Nanostl.Math.c40_fabs_partial",
    "Nanostl.Math.c40_fabs_false"
   ],
   "note": "copysign proved; fabs keeps the sign of -0.0 (witness proved), correct for all other values."
  },
  {
   "property": "C41",
   "status": "proved",
   "theorems": [
    "Nanostl.Math.c41_float",
    "Nanostl.Math.c41_double"
   ],
   "note": ""
  },
  {
   "property": "C42",
   "status": "partial",
   "theorems": [
    "Nanostl.Math.c42_ceil_partial",
    "Nanostl.Math.c42_floor_partial",
    "Nanostl.Math.c42_ceil_false",
    "Nanostl.Math.c42_floor_false"
   ],
   "note": "Proved for all values in the int range but those in (0,eps) for ceil and (-eps,0) for floor, for all of which the result is proved wrong."
  },
  {
   "property": "C44",
   "status": "proved",
   "theorems": [
    "Nanostl.Math.c44_integers",
    "Nanostl.Math.c44_float",
    "Nanostl.Math.c44_double",
    "Nanostl.Math.c44_digits10"
   ],
   "note": ""
  },
  {
   "property": "C37",
   "status": "proved",
   "theorems": [
    "Nanostl.UPtr.c37_exactly_once"
   ],
   "note": ""
  },
  {
   "property": "C38",
   "status": "proved",
   "theorems": [
    "Nanostl.UPtr.c38_right_deleter"
   ],
   "note": ""
  },
  {
   "property": "C59",
   "status": "proved",
   "theorems": [
    "Nanostl.Seq.c59_make_sequence",
    "Nanostl.Seq.c59_sum",
    "Nanostl.Seq.c59_exclusive",
    "Nanostl.Seq.c59_plus_minus",
    "Nanostl.Seq.c59_inclusive",
    "Nanostl.Seq.c59_compiles",
    "Nanostl.Seq.c59_select",
    "Nanostl.Seq.c59_map",
    "Nanostl.Seq.c59_is_all"
   ],
   "note": ""
  },
  {
   "property": "C60",
   "status": "proved",
   "theorems": [
    "Nanostl.Opt.c60_lifetime",
    "Nanostl.Opt.c60_no_leak",
    "Nanostl.Opt.c60_contents",
    "Nanostl.Opt.c60_access"
   ],
   "note": ""
  },
  {
   "property": "C61",
   "status": "partial",
   "theorems": [
    "Nanostl.Opt.c61_exceptions_partial",
    "Nanostl.Opt.c61_copy_assign_false"
   ],
   "note": "Holds for every operation except copy assignment of a T with nothrow moves and move assignment of a T with throwing moves, which end the program (witness proved)."
  },
  {
   "property": "C45",
   "status": "proved",
   "theorems": [
    "Nanostl.Ryu.c45_tables"
   ],
   "note": ""
  },
  {
   "property": "C46",
   "status": "proved",
   "theorems": [
    "Nanostl.Ryu.c46_logs"
   ],
   "note": ""
  },
  {
   "property": "C55",
   "status": "proved",
   "theorems": [
    "Nanostl.Ryu.c55_words"
   ],
   "note": ""
  },
  {
   "property": "C47",
   "status": "proved",
   "theorems": [
    "Nanostl.Ryu.c47_float_roundtrip"
   ],
   "note": ""
  },
  {
   "property": "C48",
   "status": "proved",
   "theorems": [
    "Nanostl.Ryu.c48_float_shortest_closest"
   ],
   "note": ""
  },
  {
   "property": "C49",
   "status": "proved",
   "theorems": [
    "Nanostl.Ryu.c49_double_roundtrip"
   ],
   "note": ""
  },
  {
   "property": "C50",
   "status": "proved",
   "theorems": [
    "Nanostl.Ryu.c50_double_shortest_closest"
   ],
   "note": ""
  },
  {
   "property": "C51",
   "status": "proved",
   "theorems": [
    "Nanostl.Ryu.c51_float_text",
    "Nanostl.Ryu.c51_double_text"
   ],
   "note": ""
  },
  {
   "property": "C52",
   "status": "proved",
   "theorems": [
    "Nanostl.Ryu.c52_double_nearest",
    "Nanostl.Ryu.c52_float_nearest"
   ],
   "note": "Texts shorter than 2^31-10000 bytes (int arithmetic of the code)."
  },
  {
   "property": "C53",
   "status": "proved",
   "theorems": [
    "Nanostl.Ryu.c53_double_grammar",
    "Nanostl.Ryu.c53_float_grammar"
   ],
   "note": "The grammar admits texts without any digit (\"-\", \".\", \"e5\"), read as zero."
  },
  {
   "property": "C54",
   "status": "partial",
   "theorems": [
    "Nanostl.Ryu.c54_s2d_inverts",
    "Nanostl.Ryu.c54_s2f_inverts",
    "Nanostl.Ryu.c54_stod_partial",
    "Nanostl.Ryu.c54_stod_float_partial",
    "Nanostl.Ryu.c54_stod_not_inverse",
    "Nanostl.Ryu.c54_stod_error"
   ],
   "note": "stod returns float: the full claim is false (witness proved). The parser inverts to_string for every finite double; stod gives the nearest float."
  },
  {
   "property": "C56",
   "status": "partial",
   "theorems": [
    "Nanostl.Thread.c56_fifo_partial",
    "Nanostl.Thread.c56_quiet_calls",
    "Nanostl.Thread.c56_stale_signal_false",
    "Nanostl.Thread.c56_timeout_overwrites_false",
    "Nanostl.Thread.c56_many_values_false",
    "Nanostl.Thread.c56_init_false"
   ],
   "note": "Holds for all schedules in which no call waits and up to 2^31 values; false otherwise (witness schedules proved)."
  },
  {
   "property": "C57",
   "status": "partial",
   "theorems": [
    "Nanostl.Thread.c57_store_partial",
    "Nanostl.Thread.c57_swap_partial",
    "Nanostl.Thread.c57_ptr_partial",
    "Nanostl.Thread.c57_cas_partial",
    "Nanostl.Thread.c57_arith",
    "Nanostl.Thread.c57_inc_distinct",
    "Nanostl.Thread.c57_ptr_cas",
    "Nanostl.Thread.c57_store_false",
    "Nanostl.Thread.c57_swap_false",
    "Nanostl.Thread.c57_ptr_false",
    "Nanostl.Thread.c57_cas_false"
   ],
   "note": "Holds on Windows; store and swap leave 0 elsewhere."
  },
  {
   "property": "C58",
   "status": "partial",
   "theorems": [
    "Nanostl.Thread.c58_false",
    "Nanostl.Thread.c58_default_partial",
    "Nanostl.Thread.c58_libs",
    "Nanostl.Thread.c58_obj_join",
    "Nanostl.Thread.c58_obj_destroy",
    "Nanostl.Thread.c58_join_destroy_false"
   ],
   "note": "thread(f) never runs f (proved). thread_create/thread_join of libs_thread.h do what is claimed."
  },
  {
   "property": "C62",
   "status": "proved",
   "theorems": [
    "Nanostl.Signal.c62_wait_needs_raise",
    "Nanostl.Signal.c62_raise_stays",
    "Nanostl.Signal.c62_no_lost_wakeup",
    "Nanostl.Signal.c62_not_all_asleep",
    "Nanostl.Signal.c62_no_race",
    "Nanostl.Signal.c62_deadline",
    "Nanostl.Signal.c62_event"
   ],
   "note": ""
  },
  {
   "property": "C43",
   "status": "partial",
   "theorems": [
    "Nanostl.Math.c43_partial",
    "Nanostl.Math.c43_shift_false",
    "Nanostl.Math.c43_tiny_exponent_false",
    "Nanostl.Math.c43_tiny_base_false"
   ],
   "note": "Holds when the shift is defined (C++20) and neither argument is below epsilon in magnitude; proved false otherwise."
  },
  {
   "property": "C63",
   "status": "proved",
   "theorems": [
    "Nanostl.Math.c63_exp_positive",
    "Nanostl.Math.c63_exp_error"
   ],
   "note": "The accuracy is proved from -87 to 87.33. exp of +-infinity and of NaN is a finite positive number too (c63_exp_positive holds for every pattern)."
  },
  {
   "property": "C64",
   "status": "partial",
   "theorems": [
    "Nanostl.Math.c64_log_error_partial",
    "Nanostl.Math.c64_log_zero",
    "Nanostl.Math.c64_log_negative_false",
    "Nanostl.Math.c64_log_nan_false"
   ],
   "note": "Accuracy and log(0) hold; log of a negative number is +infinity and log of NaN or +infinity is finite (proved)."
  },
  {
   "property": "C65",
   "status": "proved",
   "theorems": [
    "Nanostl.Math.c65_pow_error",
    "Nanostl.Math.c65_pow_negative"
   ],
   "note": "Negative bases: C++20 shift, exponents other than 0, 1, 2."
  },
  {
   "property": "C66",
   "status": "partial",
   "theorems": [
    "Nanostl.Math.c66_sqrt_error_partial",
    "Nanostl.Math.c66_sqrt_special",
    "Nanostl.Math.c66_sqrt_inf_false",
    "Nanostl.Math.c66_sqrt_subnormal_false"
   ],
   "note": "Holds for positive normal numbers, zeros, negative numbers and NaN; false for infinities and subnormal numbers (proved)."
  },
  {
   "property": "C67",
   "status": "partial",
   "theorems": [
    "Nanostl.Math.c67_sin_cos_error_partial",
    "Nanostl.Math.c67_range",
    "Nanostl.Math.c67_large_false",
    "Nanostl.Math.c67_small_false"
   ],
   "note": "Error bounds hold for |x| <= 8192; for larger arguments accuracy is lost, from about 6.7e9 on the conversion to int is undefined (proved). Relative accuracy and symmetry are not claimed and do not hold."
  },
  {
   "property": "C68",
   "status": "partial",
   "theorems": [
    "Nanostl.Math.c68_tanh_range",
    "Nanostl.Math.c68_tanh_error",
    "Nanostl.Math.c68_cosh_partial",
    "Nanostl.Math.c68_sinh_large_partial",
    "Nanostl.Math.c68_sinh_small_partial",
    "Nanostl.Math.c68_cut_false",
    "Nanostl.Math.c68_large_false",
    "Nanostl.Math.c68_small_false"
   ],
   "note": "tanh is proved in full. sinh and cosh are proved for |x| <= 87.33; for every finite float from 87.34 on exp is cut off at 2^126 and they are too small by more than 0.3% (c68_cut_false). sinh and tanh have no relative accuracy at 0 (c68_small_false)."
  },
  {
   "property": "C69",
   "status": "partial",
   "theorems": [
    "Nanostl.Math.c69_cbrt_error_partial",
    "Nanostl.Math.c69_cbrt_tiny_false",
    "Nanostl.Math.c69_cbrt_inf_false"
   ],
   "note": "Holds for |x| >= 2^-23, zeros and NaN; every smaller number gives zero and infinities give NaN (proved)."
  },
  {
   "property": "C70",
   "status": "partial",
   "theorems": [
    "Nanostl.Math.c70_tan_partial",
    "Nanostl.Math.c70_large_false",
    "Nanostl.Math.c70_small_false"
   ],
   "note": "Holds for |x| <= 8192, the range the code's comment names. At 10^9 the result is off by a factor of 10^14 and from about 4e9 on the conversion to int is undefined (proved). The relative error of small results is not bounded (tan(2^-30) = 0)."
  },
  {
   "property": "C71",
   "status": "proved",
   "theorems": [
    "Nanostl.Math.c71_erf_error",
    "Nanostl.Math.c71_erf_range",
    "Nanostl.Math.c71_erf_odd",
    "Nanostl.Math.c71_erf_nan",
    "Nanostl.Math.c71_erfc_error",
    "Nanostl.Math.c71_erfc_range",
    "Nanostl.Math.c71_relative_false"
   ],
   "note": "For all floats. c71_relative_false shows that no such bound holds for the relative error."
  },
  {
   "property": "C72",
   "status": "partial",
   "theorems": [
    "Nanostl.Traits.c72_right",
    "Nanostl.Traits.c72_integral_partial",
    "Nanostl.Traits.c72_integral_false",
    "Nanostl.Traits.c72_class_partial",
    "Nanostl.Traits.c72_union_false",
    "Nanostl.Traits.c72_enum_partial",
    "Nanostl.Traits.c72_nullptr_false",
    "Nanostl.Traits.c72_exactly_one_partial",
    "Nanostl.Traits.c72_object",
    "Nanostl.Traits.c72_scalar_partial",
    "Nanostl.Traits.c72_scalar_false",
    "Nanostl.Traits.c72_signed_partial"
   ],
   "note": "Proved for all types except: unions are called classes, char8_t/char16_t/char32_t/extended integers and the type of nullptr are called enumerations, nanostl::nullptr_t is both class and scalar (each proved)."
  },
  {
   "property": "C73",
   "status": "proved",
   "theorems": [
    "Nanostl.Traits.c73_remove_const",
    "Nanostl.Traits.c73_remove_volatile",
    "Nanostl.Traits.c73_remove_cv",
    "Nanostl.Traits.c73_remove_reference",
    "Nanostl.Traits.c73_add_reference",
    "Nanostl.Traits.c73_add_pointer",
    "Nanostl.Traits.c73_decay",
    "Nanostl.Traits.c73_decay_idem",
    "Nanostl.Traits.c73_remove_all_extents"
   ],
   "note": "For all well-formed types of any depth."
  },
  {
   "property": "C74",
   "status": "partial",
   "theorems": [
    "Nanostl.Traits.c74_destructible",
    "Nanostl.Traits.c74_empty_partial",
    "Nanostl.Traits.c74_empty_false"
   ],
   "note": "is_destructible is proved for all types. is_empty does not compile for unions and final classes (proved)."
  },
  {
   "property": "C75",
   "status": "proved",
   "theorems": [
    "Nanostl.Traits.c75_storage",
    "Nanostl.Traits.c75_compiles",
    "Nanostl.Traits.c75_overflow",
    "Nanostl.Traits.c75_default",
    "Nanostl.Traits.c75_fits",
    "Nanostl.Traits.c75_power"
   ],
   "note": "For all lengths, alignments, widths of size_t and platform layouts."
  },
  {
   "property": "C76",
   "status": "partial",
   "theorems": [
    "Nanostl.Any.c76_lifetime",
    "Nanostl.Any.c76_no_leak",
    "Nanostl.Any.c76_contents",
    "Nanostl.Any.c76_exceptions_partial",
    "Nanostl.Any.c76_value_false",
    "Nanostl.Any.c76_access",
    "Nanostl.Any.c76_cast_partial",
    "Nanostl.Any.c76_cast_false"
   ],
   "note": "Lifetimes, contents and pointer casts are proved. Failures while storing a value terminate the program instead of reaching the caller; any_cast<T>(any const&) is undefined whenever it succeeds (both proved)."
  },
  {
   "property": "C77",
   "status": "proved",
   "theorems": [
    "Nanostl.TypeInfo.c77_eq",
    "Nanostl.TypeInfo.c77_before",
    "Nanostl.TypeInfo.c77_hash",
    "Nanostl.TypeInfo.c77_hash_name",
    "Nanostl.TypeInfo.c77_name",
    "Nanostl.TypeInfo.c77_arm_false"
   ],
   "note": "For all three implementations. Equality of a unique and a non-unique copy of the same name, which the comment promises, is false (proved)."
  },
  {
   "property": "C78",
   "status": "proved",
   "theorems": [
    "Nanostl.Variant.c78_lifetime",
    "Nanostl.Variant.c78_no_leak",
    "Nanostl.Variant.c78_foreign_false"
   ],
   "note": "For programs that name existing alternatives. emplace<U> of a type that is no alternative compiles and leaks (proved)."
  },
  {
   "property": "C79",
   "status": "proved",
   "theorems": [
    "Nanostl.Variant.c79_contents",
    "Nanostl.Variant.c79_access",
    "Nanostl.Variant.c79_foreign_false",
    "Nanostl.Variant.c79_null_false"
   ],
   "note": "For existing alternatives and non-null pointers; outside of that the code differs from the standard (proved)."
  },
  {
   "property": "C80",
   "status": "partial",
   "theorems": [
    "Nanostl.Variant.c80_exceptions_partial",
    "Nanostl.Variant.c80_nothrow_move",
    "Nanostl.Variant.c80_keep_false",
    "Nanostl.Variant.c80_term_false",
    "Nanostl.Variant.c80_swap_false"
   ],
   "note": "What every operation leaves is proved. False of the code: a throwing copy or value assignment keeps the old value; a throwing move construction inside move assignment reaches the caller (it ends the program if assignments are noexcept); a broken-off swap keeps the values."
  },
  {
   "property": "C81",
   "status": "proved",
   "theorems": [
    "Nanostl.Variant.c81_visit",
    "Nanostl.Variant.c81_once",
    "Nanostl.Variant.c81_six_false"
   ],
   "note": "Variants of one type. The third and later variants are copied, and a copy's exception may come instead of the visitor's result; a valueless variant terminates instead of throwing."
  },
  {
   "property": "C82",
   "status": "proved",
   "theorems": [
    "Nanostl.Variant.c82_operators",
    "Nanostl.Variant.c82_equivalence",
    "Nanostl.Variant.c82_order",
    "Nanostl.Variant.c82_trichotomy",
    "Nanostl.Variant.c82_monostate"
   ],
   "note": "For all reachable states and all operators of the alternatives."
  },
  {
   "property": "C83",
   "status": "proved",
   "theorems": [
    "Nanostl.Variant.c83_storage",
    "Nanostl.Variant.c83_size",
    "Nanostl.Variant.c83_alternative",
    "Nanostl.Variant.c83_index",
    "Nanostl.Variant.c83_inverse",
    "Nanostl.Variant.c83_model"
   ],
   "note": "For all lists and layouts; builds on C75."
  },
  {
   "property": "C84",
   "status": "partial",
   "theorems": [
    "Nanostl.FastFloat.c84_double_nearest_partial",
    "Nanostl.FastFloat.c84_float_nearest_partial",
    "Nanostl.FastFloat.c84_double_not_nearest"
   ],
   "note": "For texts of up to 2^28-343 bytes. False beyond: the exponent stops growing at 2^28, so a text with more digits after the point than that is misread (proved for a text of 2^28+13 bytes)."
  },
  {
   "property": "C85",
   "status": "proved",
   "theorems": [
    "Nanostl.FastFloat.c85_double_total",
    "Nanostl.FastFloat.c85_float_total"
   ],
   "note": "For every byte sequence of any length, if the decimal point is not a digit."
  },
  {
   "property": "C86",
   "status": "proved",
   "theorems": [
    "Nanostl.FastFloat.c86_number",
    "Nanostl.FastFloat.c86_special",
    "Nanostl.FastFloat.c86_invalid"
   ],
   "note": "For every byte sequence of any length. The bit hex of the format is ignored by the code and not part of the property."
  },
  {
   "property": "C87",
   "status": "proved",
   "theorems": [
    "Nanostl.FastFloat.c87_double_roundtrip",
    "Nanostl.FastFloat.c87_float_roundtrip"
   ],
   "note": "For all bit patterns."
  },
  {
   "property": "C88",
   "status": "proved",
   "theorems": [
    "Nanostl.FastFloat.c88_double_monotone",
    "Nanostl.FastFloat.c88_float_monotone"
   ],
   "note": "For numbers without sign; texts shorter than 2^28-343 bytes."
  },
  {
   "property": "C89",
   "status": "proved",
   "theorems": [
    "Nanostl.FastFloat.c89_double_agree",
    "Nanostl.FastFloat.c89_float_agree"
   ],
   "note": "For texts shorter than 2^28-343 bytes."
  },
  {
   "property": "C90",
   "status": "proved",
   "theorems": [
    "Nanostl.FastFloat.c90_compute_float"
   ],
   "note": "For all significands and powers, double and float."
  },
  {
   "property": "C91",
   "status": "proved",
   "theorems": [
    "Nanostl.FastFloat.c91_mul",
    "Nanostl.FastFloat.c91_add",
    "Nanostl.FastFloat.c91_pow",
    "Nanostl.FastFloat.c91_compare",
    "Nanostl.FastFloat.c91_hi64",
    "Nanostl.FastFloat.c91_of"
   ],
   "note": "For limbs of 64 and of 32 bits."
  },
  {
   "property": "C92",
   "status": "proved",
   "theorems": [
    "Nanostl.FastFloat.c92_leading_zeroes",
    "Nanostl.FastFloat.c92_umul128",
    "Nanostl.FastFloat.c92_scalar_add",
    "Nanostl.FastFloat.c92_scalar_mul",
    "Nanostl.FastFloat.c92_read",
    "Nanostl.FastFloat.c92_replaced"
   ],
   "note": "For limbs of 64 bits; loads in both byte orders."
  },
  {
   "property": "C93",
   "status": "proved",
   "theorems": [
    "Nanostl.Tuple.c93_types",
    "Nanostl.Tuple.c93_values",
    "Nanostl.Tuple.c93_limit"
   ],
   "note": "For both ways of summing packs; fewer than 2^20 - 1 tuples."
  },
  {
   "property": "C94",
   "status": "partial",
   "theorems": [
    "Nanostl.Tuple.c94_categories_partial",
    "Nanostl.Tuple.c94_copies",
    "Nanostl.Tuple.c94_not_moved"
   ],
   "note": "False for rvalue tuples: their elements are copied. Proved for lvalue tuples and tuples of lvalue references."
  },
  {
   "property": "C95",
   "status": "partial",
   "theorems": [
    "Nanostl.Tuple.c95_get",
    "Nanostl.Tuple.c95_index_of",
    "Nanostl.Tuple.c95_get_type",
    "Nanostl.Tuple.c95_size",
    "Nanostl.Tuple.c95_element_partial",
    "Nanostl.Tuple.c95_element_unqualified"
   ],
   "note": "tuple_element drops the qualifiers of the tuple; everything else is proved."
  },
  {
   "property": "C96",
   "status": "proved",
   "theorems": [
    "Nanostl.Tuple.c96_equal",
    "Nanostl.Tuple.c96_less",
    "Nanostl.Tuple.c96_operators",
    "Nanostl.Tuple.c96_order"
   ],
   "note": "For tuples of fewer than 2^20 elements."
  },
  {
   "property": "C97",
   "status": "proved",
   "theorems": [
    "Nanostl.Tuple.c97_assign",
    "Nanostl.Tuple.c97_swap",
    "Nanostl.Tuple.c97_apart"
   ],
   "note": "For places of different positions that are different."
  },
  {
   "property": "C98",
   "status": "partial",
   "theorems": [
    "Nanostl.Tuple.c98_values",
    "Nanostl.Tuple.c98_converting_partial",
    "Nanostl.Tuple.c98_make"
   ],
   "note": "Converting and allocator-extended copy constructors pass the whole tuple; everything else is proved."
  },
  {
   "property": "C99",
   "status": "proved",
   "theorems": [
    "Nanostl.Opt.c99_optionals",
    "Nanostl.Opt.c99_exceptions",
    "Nanostl.Opt.c99_nullopt",
    "Nanostl.Opt.c99_value",
    "Nanostl.Opt.c99_order",
    "Nanostl.Opt.c99_hash",
    "Nanostl.Opt.holds_reached"
   ],
   "note": "flag and storage agree in every reachable state (holds_reached)"
  },
  {
   "property": "C100",
   "status": "proved",
   "theorems": [
    "Nanostl.UPtr.c100_owners",
    "Nanostl.UPtr.c100_order",
    "Nanostl.UPtr.c100_null"
   ],
   "note": "pointers are ordered by address"
  },
  {
   "property": "C101",
   "status": "partial",
   "theorems": [
    "Nanostl.Vector.c101_size_partial",
    "Nanostl.Vector.c101_indeterminate",
    "Nanostl.Vector.c101_sin"
   ],
   "note": "elements of valarray(n) are indeterminate for scalar types, not zero"
  },
  {
   "property": "C102",
   "status": "partial",
   "theorems": [
    "Nanostl.Exp.c102_lifetime_partial",
    "Nanostl.Exp.c102_no_leak_partial",
    "Nanostl.Exp.c102_throwing_value_move_false",
    "Nanostl.Exp.c102_throwing_error_move_false",
    "Nanostl.Exp.c102_assignment_false",
    "Nanostl.Exp.c102_unmixed_partial",
    "Nanostl.Exp.c102_unmixed_no_leak_partial"
   ],
   "note": "proved where moves do not throw, and for all types in histories that never exchange a value for an error; false for such exchanges of types whose moves throw (proved witnesses)"
  },
  {
   "property": "C103",
   "status": "partial",
   "theorems": [
    "Nanostl.Exp.c103_contents",
    "Nanostl.Exp.c103_exceptions_partial",
    "Nanostl.Exp.c103_lvalue_false",
    "Nanostl.Exp.c103_unmixed_partial",
    "Nanostl.Exp.c103_unmixed_strong_false"
   ],
   "note": "contents proved; for all types an unmixed command that throws keeps the kinds but may lose a value (proved witness); exceptions proved where moves do not throw and values are not given as non-const lvalues; false for those (proved witness)"
  },
  {
   "property": "C104",
   "status": "proved",
   "theorems": [
    "Nanostl.Exp.c104_access",
    "Nanostl.Exp.c104_compare",
    "Nanostl.Exp.c104_equivalence"
   ],
   "note": ""
  },
  {
   "property": "C105",
   "status": "partial",
   "theorems": [
    "Nanostl.Exp.Void.c105_safe",
    "Nanostl.Exp.Void.c105_contents_partial",
    "Nanostl.Exp.Void.c105_kinds",
    "Nanostl.Exp.Void.c105_lost",
    "Nanostl.Exp.Void.c105_no_leak_partial",
    "Nanostl.Exp.Void.c105_leak_false",
    "Nanostl.Exp.Void.c105_access"
   ],
   "note": "no leak is false: every exchange of a value with an error loses exactly one error object (c105_lost); contents after a throwing move are proved up to kind"
  },
  {
   "property": "C106",
   "status": "partial",
   "theorems": [
    "Nanostl.Traits.c106_convertible",
    "Nanostl.Traits.c106_constructible_partial",
    "Nanostl.Traits.c106_reference_partial",
    "Nanostl.Traits.c106_nothrow_partial",
    "Nanostl.Traits.c106_nothrow_constructible",
    "Nanostl.Traits.c106_copy_move",
    "Nanostl.Traits.c106_assignable",
    "Nanostl.Traits.c106_copy_assign",
    "Nanostl.Traits.c106_convertible_constructible",
    "Nanostl.Traits.c106_array_false",
    "Nanostl.Traits.c106_nothrow_array_false",
    "Nanostl.Traits.c106_explicit_false",
    "Nanostl.Traits.c106_void_error",
    "Nanostl.Traits.c106_destructor_false"
   ],
   "note": "is_convertible, is_assignable and the copy and move traits proved for all types; is_constructible false for arrays without arguments, undestroyable types under C++17, explicit conversions to references and void arguments (proved witnesses), proved elsewhere"
  },
  {
   "property": "C107",
   "status": "proved",
   "theorems": [
    "Nanostl.Traits.c107_forward",
    "Nanostl.Traits.c107_forward_chain",
    "Nanostl.Traits.c107_forward_refuses",
    "Nanostl.Traits.c107_move",
    "Nanostl.Traits.c107_move_if_noexcept",
    "Nanostl.Traits.c107_decay_copy"
   ],
   "note": ""
  },
  {
   "property": "C108",
   "status": "proved",
   "theorems": [
    "Nanostl.Traits.c108_common_type",
    "Nanostl.Traits.c108_decay"
   ],
   "note": ""
  },
  {
   "property": "C109",
   "status": "partial",
   "theorems": [
    "Nanostl.Traits.c109_swappable_partial",
    "Nanostl.Traits.c109_array",
    "Nanostl.Traits.c109_void_error"
   ],
   "note": "false for void and functions with qualifiers, which end the translation; proved for all other types"
  },
  {
   "property": "C110",
   "status": "partial",
   "theorems": [
    "Nanostl.UPtr.Types.c110_array",
    "Nanostl.UPtr.Types.c110_array_own",
    "Nanostl.UPtr.Types.c110_move",
    "Nanostl.UPtr.Types.c110_default_deleters",
    "Nanostl.UPtr.Types.c110_deleters",
    "Nanostl.UPtr.Types.c110_reference_deleter",
    "Nanostl.UPtr.Types.c110_deleter_value_partial",
    "Nanostl.UPtr.Types.c110_deleter_value_false"
   ],
   "note": "that the deleter has a value is false of the constructor of a single object's unique_ptr from a pointer with a function pointer as deleter"
  },
  {
   "property": "C111",
   "status": "partial",
   "theorems": [
    "Nanostl.Thread.c111_posix_partial",
    "Nanostl.Thread.c111_windows_partial",
    "Nanostl.Thread.c111_false"
   ],
   "note": "proved for POSIX; on Windows up to 99 ns are missing, and a time_t of 32 bits fails from 2^31 seconds on"
  },
  {
   "property": "C112",
   "status": "partial",
   "theorems": [
    "Nanostl.Thread.c112_values",
    "Nanostl.Thread.c112_create_partial",
    "Nanostl.Thread.c112_null_false"
   ],
   "note": "values proved; that null means failure is false of key 0"
  },
  {
   "property": "C113",
   "status": "partial",
   "theorems": [
    "Nanostl.Traits.Wrap.c113_conversion_partial",
    "Nanostl.Traits.Wrap.c113_value",
    "Nanostl.Traits.Wrap.c113_unexpected_partial",
    "Nanostl.Traits.Wrap.c113_assign_value_partial",
    "Nanostl.Traits.Wrap.c113_assign_unexpected_partial",
    "Nanostl.Traits.Wrap.c113_false",
    "Nanostl.Traits.Wrap.c113_unexpected_false",
    "Nanostl.Traits.Wrap.c113_assign_value_false",
    "Nanostl.Traits.Wrap.c113_assign_unexpected_false"
   ],
   "note": "proved where T cannot be made from the source itself; false for expected<bool, E>, for T made from an unexpected<G>, and for values that convert only explicitly"
  },
  {
   "property": "C114",
   "status": "partial",
   "theorems": [
    "Nanostl.Traits.Wrap.c114_conversion_partial",
    "Nanostl.Traits.Wrap.c114_value",
    "Nanostl.Traits.Wrap.c114_assign_partial",
    "Nanostl.Traits.Wrap.c114_assign_value",
    "Nanostl.Traits.Wrap.c114_false"
   ],
   "note": "proved where T cannot be made from the source itself; false for optional<bool>"
  },
  {
   "property": "C115",
   "status": "partial",
   "theorems": [
    "Nanostl.Signal.c115_posix_partial",
    "Nanostl.Signal.c115_posix_false",
    "Nanostl.Signal.c115_windows_partial",
    "Nanostl.Signal.c115_windows_false"
   ],
   "note": "proved for POSIX, with up to a second of delay if the second changes between two calls of the clocks; no upper bound on Windows"
  },
  {
   "property": "C116",
   "status": "partial",
   "theorems": [
    "Nanostl.Range.c116_distance",
    "Nanostl.Range.c116_list_partial",
    "Nanostl.Range.c116_false"
   ],
   "note": "distance proved; a program can only have empty lists"
  },
  {
   "property": "C117",
   "status": "partial",
   "theorems": [
    "Nanostl.Tuple.Make.c117_values",
    "Nanostl.Tuple.Make.c117_copy_partial",
    "Nanostl.Tuple.Make.c117_convert_partial",
    "Nanostl.Tuple.Make.c117_alloc_partial",
    "Nanostl.Tuple.Make.c117_copy_false",
    "Nanostl.Tuple.Make.c117_move_false",
    "Nanostl.Tuple.Make.c118_const_false",
    "Nanostl.Tuple.Make.c117_convert_false",
    "Nanostl.Tuple.Make.c117_implicit_false",
    "Nanostl.Tuple.Make.c117_alloc_false"
   ],
   "note": "proved for arguments that are no tuples; copies and moves except of a tuple whose only element can be made from it and of elements that cannot be moved or are of a const empty class; conversions between tuples never work"
  },
  {
   "property": "C118",
   "status": "partial",
   "theorems": [
    "Nanostl.Tuple.Make.c118_assign_partial",
    "Nanostl.Tuple.Make.c118_false",
    "Nanostl.Tuple.Make.c118_const_false"
   ],
   "note": "proved except that assignments which cannot be done are accepted and then do not compile, and that elements of a const empty class are assigned"
  },
  {
   "property": "C119",
   "status": "partial",
   "theorems": [
    "Nanostl.Stream.Insert.c119_right_partial",
    "Nanostl.Stream.Insert.c119_accepted_partial",
    "Nanostl.Stream.Insert.c119_accepted_more",
    "Nanostl.Stream.Insert.c119_ends",
    "Nanostl.Stream.Insert.c119_characters_false",
    "Nanostl.Stream.Insert.c119_addresses_false",
    "Nanostl.Stream.Insert.c119_missing_false"
   ],
   "note": "proved: what compiles and links prints right and keeps its value except characters and addresses, exactly which types compile and link, and that insertion ends; characters print as codes, addresses are read as C strings, several types do not compile or link"
  },
  {
   "property": "C120",
   "status": "partial",
   "theorems": [
    "Nanostl.Tuple.Promise.c120_construct_partial",
    "Nanostl.Tuple.Promise.chosen_iff",
    "Nanostl.Tuple.Promise.chosen_consts",
    "Nanostl.Tuple.Promise.c120_assign_partial",
    "Nanostl.Tuple.Promise.c120_swap_partial",
    "Nanostl.Tuple.Promise.c120_compare",
    "Nanostl.Tuple.Promise.c120_compare_throws",
    "Nanostl.Tuple.Promise.c120_convert_false",
    "Nanostl.Tuple.Promise.c120_swap_false",
    "Nanostl.Tuple.Promise.c120_assign_false"
   ],
   "note": "proved except for conversions between tuples, swapping empty classes with their own swap, and elements of a const empty class, where the promise is about another operation than the one run"
  },
  {
   "property": "C121",
   "status": "partial",
   "theorems": [
    "Nanostl.Traits.Result.c121_function_partial",
    "Nanostl.Traits.Result.c121_function_sound",
    "Nanostl.Traits.Result.c121_class_partial",
    "Nanostl.Traits.Result.c121_function_false",
    "Nanostl.Traits.Result.c121_class_false",
    "Nanostl.Traits.Result.c121_private_false"
   ],
   "note": "proved except for functions with an ellipsis, ref-qualifier or (C++17) noexcept, const pointers, classes that declare result_type as a reference, and private function bases; what is declared for a function is right for all"
  },
  {
   "property": "C122",
   "status": "partial",
   "theorems": [
    "Nanostl.Traits.Wrap.c122_optional_partial",
    "Nanostl.Traits.Wrap.c122_expected_value_partial",
    "Nanostl.Traits.Wrap.c122_expected_partial",
    "Nanostl.Traits.Wrap.c122_expected_error_partial",
    "Nanostl.Traits.Wrap.c122_void_partial",
    "Nanostl.Traits.Wrap.c122_list_false",
    "Nanostl.Traits.Wrap.c122_narrow_false",
    "Nanostl.Traits.Wrap.c122_moved_false",
    "Nanostl.Traits.Wrap.c122_void_false"
   ],
   "note": "proved for movable types for which braces mean the same as parentheses; false where they do not, for types that cannot be moved, and for expected<void,E>, which takes any unexpected explicitly"
  },
  {
   "property": "C123",
   "status": "partial",
   "theorems": [
    "Nanostl.Traits.Wrap.c123_convert_partial",
    "Nanostl.Traits.Wrap.c123_whole",
    "Nanostl.Traits.Wrap.c123_value",
    "Nanostl.Traits.Wrap.c123_self",
    "Nanostl.Traits.Wrap.c123_assign_partial",
    "Nanostl.Traits.Wrap.c123_make",
    "Nanostl.Traits.Wrap.c123_copy_false",
    "Nanostl.Traits.Wrap.c123_move_false",
    "Nanostl.Traits.Wrap.c123_braces_false",
    "Nanostl.Traits.Wrap.c123_assign_false"
   ],
   "note": "proved except for conversions of errors that are possible only from rvalues, for braces that mean something else, and that assignments are refused when they cannot compile"
  },
  {
   "property": "C124",
   "status": "partial",
   "theorems": [
    "Nanostl.Caps.c124_nested",
    "Nanostl.Caps.c124_optional_partial",
    "Nanostl.Caps.c124_optional_can_partial",
    "Nanostl.Caps.c124_optional_needs",
    "Nanostl.Caps.c124_optional_says_false",
    "Nanostl.Caps.c124_optional_false",
    "Nanostl.Caps.c124_expected_partial",
    "Nanostl.Caps.c124_expected_made",
    "Nanostl.Caps.c124_expected_assign",
    "Nanostl.Caps.c124_expected_needs",
    "Nanostl.Caps.c124_expected_asks",
    "Nanostl.Caps.c124_expected_false",
    "Nanostl.Caps.c124_void_partial",
    "Nanostl.Caps.c124_void_made",
    "Nanostl.Caps.c124_void_needs",
    "Nanostl.Caps.c124_void_asks",
    "Nanostl.Caps.c124_void_false",
    "Nanostl.Caps.c124_unexpected_class",
    "Nanostl.Caps.c124_unexpected_partial",
    "Nanostl.Caps.c124_unexpected_made",
    "Nanostl.Caps.c124_unexpected_false",
    "Nanostl.Caps.c124_variant_partial",
    "Nanostl.Caps.c124_variant_can_partial",
    "Nanostl.Caps.c124_variant_needs",
    "Nanostl.Caps.c124_variant_false"
   ],
   "note": "each wrapper is honest exactly under the stated condition (equivalences); false otherwise. Proved in full: nestings of types that can do everything, the constructors of expected and unexpected, and that nothing compiles without what it needs."
  },
  {
   "property": "C125",
   "status": "partial",
   "theorems": [
    "Nanostl.Variant.Convert.c125_holds",
    "Nanostl.Variant.Convert.c125_rejected",
    "Nanostl.Variant.Convert.c125_moves",
    "Nanostl.Variant.Convert.c125_own",
    "Nanostl.Variant.Convert.c125_class_partial",
    "Nanostl.Variant.Convert.c125_class_nodup",
    "Nanostl.Variant.Convert.c125_class_objects",
    "Nanostl.Variant.Convert.c125_repeat_false"
   ],
   "note": "what is held is proved in full for every class that is one; false that any alternatives make a class: they must differ, but for const (equivalence)."
  },
  {
   "property": "C126",
   "status": "partial",
   "theorems": [
    "Nanostl.Thread.Result.c126_result",
    "Nanostl.Thread.Result.c126_exit",
    "Nanostl.Thread.Result.c126_narrow",
    "Nanostl.Thread.Result.c126_stack_partial",
    "Nanostl.Thread.Result.c126_stack_least",
    "Nanostl.Thread.Result.c126_stack_false",
    "Nanostl.Thread.Result.c126_name_partial",
    "Nanostl.Thread.Result.c126_name_false"
   ],
   "note": "the result is proved in full; false of the stack size on POSIX, which is ignored, and of names of more than 15 characters on Linux (equivalences)."
  },
  {
   "property": "C127",
   "status": "partial",
   "theorems": [
    "Nanostl.UPtr.Graph.c127_safe",
    "Nanostl.UPtr.Graph.c127_owner",
    "Nanostl.UPtr.Graph.c127_drop",
    "Nanostl.UPtr.Graph.c127_pop",
    "Nanostl.UPtr.Graph.c127_pop_false",
    "Nanostl.UPtr.Graph.c127_data_partial",
    "Nanostl.UPtr.Graph.c127_rooted",
    "Nanostl.UPtr.Graph.c127_no_leak",
    "Nanostl.UPtr.Graph.c127_cycle_false",
    "Nanostl.UPtr.Graph.c127_depth",
    "Nanostl.UPtr.Graph.c127_deep"
   ],
   "note": "proved in full for deleters without data, and that nothing is left if no object is put into what belongs to it; false of move assignment within a list for deleters with data (equivalence) and of what is left of cycles."
  },
  {
   "property": "C128",
   "status": "partial",
   "theorems": [
    "Nanostl.Exp.Order.c128_sorts",
    "Nanostl.Exp.Order.c128_order_partial",
    "Nanostl.Exp.Order.c128_eq_partial",
    "Nanostl.Exp.Order.c128_eq_false",
    "Nanostl.Exp.Order.c128_agree",
    "Nanostl.Exp.Order.c128_with_value",
    "Nanostl.Exp.Order.c128_value_greater_partial",
    "Nanostl.Exp.Order.c128_value_greater_false",
    "Nanostl.Exp.Order.c128_with_error",
    "Nanostl.Exp.Order.c128_errors",
    "Nanostl.Exp.Order.c128_error_order_partial",
    "Nanostl.Exp.Order.c128_error_order_false",
    "Nanostl.Exp.Order.c128_exception_partial"
   ],
   "note": "sorting is proved in full; false of v > x for errors and of the comparison of errors (equivalences)."
  },
  {
   "property": "C129",
   "status": "partial",
   "theorems": [
    "Nanostl.Vector.Elem.c129_safe",
    "Nanostl.Vector.Elem.c129_returns",
    "Nanostl.Vector.Elem.c129_throws",
    "Nanostl.Vector.Elem.c129_strong_partial",
    "Nanostl.Vector.Elem.c129_strong_false",
    "Nanostl.Vector.Elem.c129_erase_false",
    "Nanostl.Vector.Elem.c129_assign_false",
    "Nanostl.Vector.Elem.c129_count",
    "Nanostl.Vector.Elem.c129_end_partial",
    "Nanostl.Vector.Elem.c129_leak_false",
    "Nanostl.Vector.Elem.c129_copy_partial",
    "Nanostl.Vector.Elem.c129_copy_false",
    "Nanostl.Vector.Elem.c129_removed_false",
    "Nanostl.Vector.Elem.c129_fresh_partial",
    "Nanostl.Vector.Elem.c129_fresh_false"
   ],
   "note": "safety, the elements on return and what exceptions leave are proved in full; the strong guarantee and the end of all objects hold if operator= does not throw, and are false otherwise; removed elements are not destroyed."
  },
  {
   "property": "C130",
   "status": "partial",
   "theorems": [
    "Nanostl.Map.Keys.c130_safe",
    "Nanostl.Map.Keys.c130_strong_partial",
    "Nanostl.Map.Keys.c130_set_false",
    "Nanostl.Map.Keys.c130_map_partial",
    "Nanostl.Map.Keys.c130_upper_partial",
    "Nanostl.Map.Keys.c130_float",
    "Nanostl.Map.Keys.c130_nan_false",
    "Nanostl.Map.Keys.c130_lost_false"
   ],
   "note": "safety and destruction are proved for all comparisons; the results for keys that are ordered, which floating-point numbers other than NaN are; false for NaN, and m[k] = v is no transaction."
  },
  {
   "property": "C131",
   "status": "partial",
   "theorems": [
    "Nanostl.Vector.Nest.c131_shows",
    "Nanostl.Vector.Nest.c131_step",
    "Nanostl.Vector.Nest.c131_swap",
    "Nanostl.Vector.Nest.c131_end_partial",
    "Nanostl.Vector.Nest.c131_leak_false",
    "Nanostl.Vector.Nest.c131_copy_leak_false",
    "Nanostl.Vector.Nest.c131_alias_false",
    "Nanostl.Vector.Nest.c131_stale_false"
   ],
   "note": "value semantics, independence of copies and safety are proved for all depths and all failures; that nothing is left holds unless a command on a vector of vectors threw, and is false then."
  },
  {
   "property": "C132",
   "status": "partial",
   "theorems": [
    "Nanostl.Map.Keys.Strs.c132_order_partial",
    "Nanostl.Map.Keys.Strs.c132_map_partial",
    "Nanostl.Map.Keys.Strs.c132_upper_partial",
    "Nanostl.Map.Keys.Strs.c132_char",
    "Nanostl.Map.Keys.Strs.c132_unended_false",
    "Nanostl.Map.Keys.Strs.c132_wide_false",
    "Nanostl.Map.Keys.Strs.c132_wide_map_false"
   ],
   "note": "proved in full for `string` (characters of one byte); false for wider character types, except for strings of characters below 256."
  },
  {
   "property": "C133",
   "status": "partial",
   "theorems": [
    "Nanostl.Vector.Nest.c133_shows",
    "Nanostl.Vector.Nest.c133_step",
    "Nanostl.Vector.Nest.c133_end_partial",
    "Nanostl.Vector.Nest.c133_init",
    "Nanostl.Vector.Nest.c133_new",
    "Nanostl.Vector.Nest.c133_copy",
    "Nanostl.Vector.Nest.c133_leak_false",
    "Nanostl.Vector.Nest.c133_alias_false",
    "Nanostl.Vector.Nest.c133_unended_false",
    "Nanostl.Vector.Nest.c133_stale_false"
   ],
   "note": "value semantics, independence of copies, safety and that a throwing `new T[n]` leaves nothing are proved for all depths and all failures; that nothing is left in the end holds unless a command on a vector of vectors or of strings threw, and is false then."
  },
  {
   "property": "C134",
   "status": "partial",
   "theorems": [
    "Nanostl.Math.c134_range",
    "Nanostl.Math.c134_inverse",
    "Nanostl.Math.c134_relative",
    "Nanostl.Math.c134_erf_ierf",
    "Nanostl.Math.c134_ierf_erf",
    "Nanostl.Math.c134_odd",
    "Nanostl.Math.c134_nan",
    "Nanostl.Math.c134_nan_iff",
    "Nanostl.Math.c134_monotone_false",
    "Nanostl.Math.c134_domain_false"
   ],
   "note": "sign, bounds, oddness, NaN and the error against the inverse of the error function are proved for all arguments; that it is increasing and NaN outside the domain is false."
  },
  {
   "property": "C135",
   "status": "partial",
   "theorems": [
    "Nanostl.Math.c135_exp_log_partial",
    "Nanostl.Math.c135_log_exp_partial",
    "Nanostl.Math.c135_exp_neg_partial",
    "Nanostl.Math.c135_sin_cos_partial",
    "Nanostl.Math.c135_sqrt_partial",
    "Nanostl.Math.c135_cbrt_partial",
    "Nanostl.Math.c135_log_mul_partial",
    "Nanostl.Math.c135_large_false",
    "Nanostl.Math.c135_small_false"
   ],
   "note": "proved on the ranges named in the theorems; false at 10^9 for sin and cos, at 2^127 for exp(log(x)) and below 2^-23 for cbrt."
  },
  {
   "property": "C136",
   "status": "partial",
   "theorems": [
    "Nanostl.Math.c136_exact",
    "Nanostl.Math.c136_sin_cos_partial",
    "Nanostl.Math.c136_sin_cos_false"
   ],
   "note": "exact for sinh, tanh, cosh, erf and cbrt; false for sin, cos and tan, where sin and cos are proved within 1.62e-6 and 2.4e-6 up to 8192."
  }
 ]
}
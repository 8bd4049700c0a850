{
 "claims": [
  {
   "property": "C01",
   "status": "proved",
   "theorems": [
    "Sprout.C01_sort",
    "Sprout.C01_sort_unique"
   ],
   "note": "every strict weak order, every insertion-sort threshold; termination, in-bounds, permutation, sortedness"
  },
  {
   "property": "C02",
   "status": "partial",
   "theorems": [
    "Sprout.C02_stable_sort_false",
    "Sprout.C02_stable_sort_partial",
    "Sprout.C02_stable_sort_defined",
    "Sprout.C02_stable_sort_repaired",
    "Sprout.C02_repaired_full"
   ],
   "note": "The code is refuted (stable_sort of [2,1] is undefined, through move_backward). Proved: any result is the stable sorted arrangement; exact condition of definedness below 15 elements; the full property for the same code with a working move_backward. Missing: definedness."
  },
  {
   "property": "C03",
   "status": "proved",
   "theorems": [
    "Sprout.C03_nth_element",
    "Sprout.C03_nth_last"
   ],
   "note": "full sort-type nth_element incl. early-exit scans"
  },
  {
   "property": "C04",
   "status": "partial",
   "theorems": [
    "Sprout.C04_partial_sort_partial",
    "Sprout.C04_partial_sort_permutes",
    "Sprout.C04_partial_sort_one_partial",
    "Sprout.C04_partial_sort_descending_partial",
    "Sprout.C04_partial_sort_two",
    "Sprout.C04_partial_sort_false",
    "Sprout.C04_partial_sort_copy_partial"
   ],
   "note": "partial_sort/partial_sort_copy rely on the faulty make_heap: full statement refuted with [1,2]; proved: always an in-bounds permutation, and fully correct whenever the make_heap call yields a heap (e.g. middle-first <= 1 or non-increasing front)."
  },
  {
   "property": "C05",
   "status": "partial",
   "theorems": [
    "Sprout.C05_push_heap",
    "Sprout.C05_pop_heap",
    "Sprout.C05_sort_heap",
    "Sprout.C05_permute",
    "Sprout.C05_make_heap_two",
    "Sprout.C05_make_heap_false",
    "Sprout.C05_make_heap_partial"
   ],
   "note": "push_heap, pop_heap, sort_heap proved in full; make_heap refuted ([1,2] left unchanged, make_heap.hpp 27-29 passes i instead of i+1); make_heap proved to permute in bounds, and correct on non-increasing ranges."
  },
  {
   "property": "C06",
   "status": "partial",
   "theorems": [
    "Sprout.C06_is_heap_until_strict",
    "Sprout.C06_is_heap_until_partial",
    "Sprout.C06_is_heap_partial",
    "Sprout.C06_is_heap_sound_partial",
    "Sprout.C06_is_heap_false"
   ],
   "note": "Refuted: leaf test requires child strictly less than parent, so [5,5] is rejected; proved when no element is equivalent to its parent, plus soundness of acceptance."
  },
  {
   "property": "C07",
   "status": "proved",
   "theorems": [
    "Sprout.C07_unique",
    "Sprout.C07_merge",
    "Sprout.C07_inplace_merge"
   ],
   "note": "merge and inplace_merge give the unique stable merge of two sorted ranges; other memory unchanged."
  },
  {
   "property": "C08",
   "status": "proved",
   "theorems": [
    "Sprout.C08_rotate",
    "Sprout.C08_rotate'",
    "Sprout.C08_rotate_copy"
   ],
   "note": "all middles incl. first/last; also rotate_copy"
  },
  {
   "property": "C09",
   "status": "proved",
   "theorems": [
    "Sprout.C09_reverse",
    "Sprout.C09_reverse_copy",
    "Sprout.C09_swap_ranges",
    "Sprout.C09_copy",
    "Sprout.C09_copy_backward"
   ],
   "note": "reverse, reverse_copy, swap_ranges, copy, copy_backward with overlaps"
  },
  {
   "property": "C10",
   "status": "proved",
   "theorems": [
    "Sprout.C10_next_permutation",
    "Sprout.C10_prev_permutation",
    "Sprout.C10_next_least",
    "Sprout.C10_prev_next"
   ],
   "note": "Least greater arrangement / wrap to sorted; prev is the mirror image; prev undoes next for total orders. Stated for strict weak orders."
  },
  {
   "property": "C11",
   "status": "partial",
   "theorems": [
    "Sprout.C11_partition",
    "Sprout.C11_partition_boundary",
    "Sprout.C11_partition_copy",
    "Sprout.C11_stable_partition_noop",
    "Sprout.C11_stable_partition_false",
    "Sprout.C11_stable_partition_partial",
    "Sprout.C11_gather_noop",
    "Sprout.C11_gather_false",
    "Sprout.C11_gather_partial"
   ],
   "note": "partition and partition_copy proved; stable_partition and gather refuted (never move anything), partial theorems for already partitioned ranges"
  },
  {
   "property": "C12",
   "status": "proved",
   "theorems": [
    "Sprout.C12_remove_if",
    "Sprout.C12_remove",
    "Sprout.C12_unique",
    "Sprout.C12_remove_copy_if",
    "Sprout.C12_remove_copy",
    "Sprout.C12_copy_if",
    "Sprout.C12_unique_copy",
    "Sprout.C12_dedup_adjacent"
   ],
   "note": "remove, remove_if, unique and copying variants"
  },
  {
   "property": "C13",
   "status": "proved",
   "theorems": [
    "Sprout.C13_set_union",
    "Sprout.C13_set_intersection",
    "Sprout.C13_set_difference",
    "Sprout.C13_set_symmetric_difference",
    "Sprout.C13_multiplicities",
    "Sprout.C13_includes"
   ],
   "note": "Set operations equal the list operations with exact multiplicities and the documented source of each element; includes is multiset inclusion."
  },
  {
   "property": "C14",
   "status": "proved",
   "theorems": [
    "Sprout.C14_lower_bound",
    "Sprout.C14_upper_bound",
    "Sprout.C14_partition_point",
    "Sprout.C14_equal_range",
    "Sprout.C14_binary_search",
    "Sprout.C14_lower_bound_sorted",
    "Sprout.C14_upper_bound_sorted",
    "Sprout.C14_binary_search_sorted"
   ],
   "note": "incl. call-count bounds; C++11 and C++14 partition_point"
  },
  {
   "property": "C15",
   "status": "proved",
   "theorems": [
    "Sprout.C15_find_if",
    "Sprout.C15_find_if_not",
    "Sprout.C15_find",
    "Sprout.C15_count_if",
    "Sprout.C15_all_of",
    "Sprout.C15_any_of",
    "Sprout.C15_none_of",
    "Sprout.C15_mismatch",
    "Sprout.C15_mismatch2",
    "Sprout.C15_equal",
    "Sprout.C15_equal2"
   ],
   "note": "random-access (halving) and input-iterator (doubling) versions; result equals the sequential list function"
  },
  {
   "property": "C16",
   "status": "partial",
   "theorems": [
    "Sprout.C16_search",
    "Sprout.C16_find_end",
    "Sprout.C16_search_n_partial",
    "Sprout.C16_search_n_zero",
    "Sprout.C16_search_n_zero_false",
    "Sprout.C16_adjacent_find",
    "Sprout.C16_find_first_of"
   ],
   "note": "search_n with count 0 returns last in the code, so that clause is refuted; everything else proved"
  },
  {
   "property": "C17",
   "status": "proved",
   "theorems": [
    "Sprout.C17_is_permutation2",
    "Sprout.C17_is_permutation",
    "Sprout.C17_perm"
   ],
   "note": "Both overloads and both iterator categories, for any equivalence predicate."
  },
  {
   "property": "C18",
   "status": "proved",
   "theorems": [
    "Sprout.C18_min_element",
    "Sprout.C18_max_element",
    "Sprout.C18_minmax_element",
    "Sprout.C18_empty",
    "Sprout.C18_is_sorted_until",
    "Sprout.C18_is_sorted"
   ],
   "note": "min_element, max_element, minmax_element, is_sorted, is_sorted_until: random access (doubling recursion) and forward versions"
  },
  {
   "property": "C19",
   "status": "proved",
   "theorems": [
    "Sprout.C19_lexicographical_compare",
    "Sprout.C19_tristate",
    "Sprout.C19_strict_weak",
    "Sprout.C19_total",
    "Sprout.C19_array_operators",
    "Sprout.C19_array_trichotomy"
   ],
   "note": "Both iterator categories, the tristate variant, order laws, and the six array operators."
  },
  {
   "property": "C20",
   "status": "proved",
   "theorems": [
    "Sprout.C20_shuffle_permutation",
    "Sprout.C20_shuffle_reaches_all",
    "Sprout.C20_sample_reservoir",
    "Sprout.C20_sample_selection"
   ],
   "note": "For every generator within the distribution contract; every permutation reachable."
  },
  {
   "property": "C21",
   "status": "partial",
   "theorems": [
    "Sprout.C21_random_swap_false",
    "Sprout.C21_random_swap_escapes",
    "Sprout.C21_random_swap_partial",
    "Sprout.C21_random_swap_defined"
   ],
   "note": "The code is refuted (closed interval [0,d] reaches last). Proved: draws below d keep it in range and permute; exact condition of definedness."
  },
  {
   "property": "C22",
   "status": "proved",
   "theorems": [
    "Sprout.C22_popcount",
    "Sprout.C22_parity",
    "Sprout.C22_parity_popcount"
   ],
   "note": "Every width (popcount) and every width 8*2^k (parity). The builtin overloads are not modelled."
  },
  {
   "property": "C23",
   "status": "partial",
   "theorems": [
    "Sprout.C23_clz",
    "Sprout.C23_leading_unique",
    "Sprout.C23_ctz",
    "Sprout.C23_trailing_unique",
    "Sprout.C23_cntt1",
    "Sprout.C23_bit_length",
    "Sprout.C23_cntl1_false",
    "Sprout.C23_cntl1_builtin_false",
    "Sprout.C23_cntl1_partial"
   ],
   "note": "Everything proved except cntl1, which is wrong for narrow types (promotion) and with the gcc builtin; refuted, and proved for types at least as wide as int without builtins."
  },
  {
   "property": "C24",
   "status": "partial",
   "theorems": [
    "Sprout.C24_rot_false",
    "Sprout.C24_rot_zero_undefined",
    "Sprout.C24_rot_partial",
    "Sprout.C24_rot_inverse_partial",
    "Sprout.C24_bit_reverse",
    "Sprout.C24_bit_reverse_involution",
    "Sprout.C24_bit_reverse_in"
   ],
   "note": "bit_reverse proved. rotl/rotr with s = 0 on 32/64-bit types shift by the full width (undefined): refuted; all other amounts proved."
  },
  {
   "property": "C25",
   "status": "partial",
   "theorems": [
    "Sprout.C25_single",
    "Sprout.C25_ge",
    "Sprout.C25_le_false",
    "Sprout.C25_le_top_undefined",
    "Sprout.C25_le_partial",
    "Sprout.C25_lowest_one",
    "Sprout.C25_lowest_zero"
   ],
   "note": "Everything proved except the le versions at the topmost bit of 32/64-bit types (shift by the full width): refuted there, proved elsewhere."
  },
  {
   "property": "C26",
   "status": "proved",
   "theorems": [
    "Sprout.C26_default",
    "Sprout.C26_test",
    "Sprout.C26_index",
    "Sprout.C26_set",
    "Sprout.C26_reset",
    "Sprout.C26_flip",
    "Sprout.C26_reference_assign",
    "Sprout.C26_and",
    "Sprout.C26_or",
    "Sprout.C26_xor",
    "Sprout.C26_not",
    "Sprout.C26_set_all",
    "Sprout.C26_reset_all",
    "Sprout.C26_eq"
   ],
   "note": "All word sizes, all N; both the const and the modifying versions; unused bits stay zero."
  },
  {
   "property": "C27",
   "status": "proved",
   "theorems": [
    "Sprout.C27_left",
    "Sprout.C27_right"
   ],
   "note": "Const and compound shifts, all k."
  },
  {
   "property": "C28",
   "status": "partial",
   "theorems": [
    "Sprout.C28_count",
    "Sprout.C28_any",
    "Sprout.C28_none",
    "Sprout.C28_all",
    "Sprout.C28_card",
    "Sprout.C28_find_first_partial",
    "Sprout.C28_find_next_partial",
    "Sprout.C28_to_ulong",
    "Sprout.C28_to_ullong",
    "Sprout.C28_of_string",
    "Sprout.C28_to_string",
    "Sprout.C28_string_roundtrip",
    "Sprout.C28_string_roundtrip_rev"
   ],
   "note": "count/any/none/all/to_ulong/to_ullong/strings proved in full. Missing: bitset::find_first/find_next themselves do not compile (hidden base members, missing argument); proved for the base-class members with the argument supplied."
  },
  {
   "property": "C29",
   "status": "proved",
   "theorems": [
    "Sprout.C29_gcd_unsigned",
    "Sprout.C29_gcd_signed",
    "Sprout.C29_gcd_integer",
    "Sprout.C29_gcd_euclidean",
    "Sprout.C29_gcd_euclidean_unsigned",
    "Sprout.C29_min_undefined"
   ],
   "note": "Binary gcd for unsigned and signed built-in types, Euclidean gcd for every integer type"
  },
  {
   "property": "C30",
   "status": "proved",
   "theorems": [
    "Sprout.C30_lcm_signed",
    "Sprout.C30_lcm_unsigned",
    "Sprout.C30_lcm_unsigned_mod"
   ],
   "note": "Least common multiple for signed types and unsigned types of any width, including the wrapping behaviour"
  },
  {
   "property": "C31",
   "status": "partial",
   "theorems": [
    "Sprout.C31_construct_integer",
    "Sprout.C31_construct",
    "Sprout.C31_canonical",
    "Sprout.C31_neg",
    "Sprout.C31_abs",
    "Sprout.C31_inc_dec",
    "Sprout.C31_add",
    "Sprout.C31_sub",
    "Sprout.C31_mul",
    "Sprout.C31_div",
    "Sprout.C31_addAssign_partial",
    "Sprout.C31_subAssign_partial",
    "Sprout.C31_mulAssign",
    "Sprout.C31_divAssign_partial",
    "Sprout.C31_addAssign_self_partial",
    "Sprout.C31_addAssign_self_false",
    "Sprout.C31_subAssign_self_partial",
    "Sprout.C31_subAssign_self_false",
    "Sprout.C31_divAssign_self_partial",
    "Sprout.C31_divAssign_self_false"
   ],
   "note": "x += x, x -= x, x /= x are wrong in the code (refuted, and exactly described); everything else proved"
  },
  {
   "property": "C32",
   "status": "partial",
   "theorems": [
    "Sprout.C32_eq",
    "Sprout.C32_order",
    "Sprout.C32_eq_int",
    "Sprout.C32_order_int_partial",
    "Sprout.C32_less_int_wrong",
    "Sprout.C32_less_int_false",
    "Sprout.C32_int_less_false"
   ],
   "note": "rational < int (and derived operators) is wrong in the code for some negative non-integers (refuted, characterised); rational/rational comparison proved"
  },
  {
   "property": "C33",
   "status": "partial",
   "theorems": [
    "Sprout.C33_padding",
    "Sprout.C33_make_sha1",
    "Sprout.C33_chunks",
    "Sprout.C33_reset",
    "Sprout.C33_clang_partial",
    "Sprout.C33_clang_false"
   ],
   "note": "Proved for every byte sequence and every sequence of calls in the default configuration, C++11 and C++14 functions; the variant selected on Clang throws for pieces that cross a block boundary (C33_clang_false), C33_clang_partial gives its exact domain."
  },
  {
   "property": "C34",
   "status": "partial",
   "theorems": [
    "Sprout.C34_int_to_string_partial",
    "Sprout.C34_decimal",
    "Sprout.C34_numeral_unique",
    "Sprout.C34_round_trip_partial",
    "Sprout.C34_round_trip_false",
    "Sprout.C34_min_base2_false",
    "Sprout.C34_base16_false",
    "Sprout.C34_base_above_16"
   ],
   "note": "Proved for all values of all standard types in bases 2..10 except the minimum of a signed type that is a power of the base (undefined, C34_min_base2_false); bases 11..16 print wrong characters (C34_base16_false), bases above 16 do not exist; the round trip fails exactly for -max (C34_round_trip_false)."
  },
  {
   "property": "C35",
   "status": "partial",
   "theorems": [
    "Sprout.C35_ascii_to_int_partial",
    "Sprout.C35_str_to_int_partial",
    "Sprout.C35_negative_max_false",
    "Sprout.C35_str_negative_max_false",
    "Sprout.C35_prefix_false",
    "Sprout.C35_negative_max_wrong"
   ],
   "note": "Proved for all strings, standard types and bases except two classes, both refuted: minus sign before the digits of max (returns min), and an 0x prefix in a base other than 0 and 16 (is skipped)."
  },
  {
   "property": "C36",
   "status": "partial",
   "theorems": [
    "Sprout.C36_strlen",
    "Sprout.C36_strnlen",
    "Sprout.C36_strchr",
    "Sprout.C36_strrchr",
    "Sprout.C36_strspn",
    "Sprout.C36_strcspn",
    "Sprout.C36_strpbrk",
    "Sprout.C36_strstr_partial",
    "Sprout.C36_strstr_false",
    "Sprout.C36_strcmp",
    "Sprout.C36_strncmp",
    "Sprout.C36_strcmp_char_partial",
    "Sprout.C36_strncmp_char_partial",
    "Sprout.C36_strcmp_false",
    "Sprout.C36_strncmp_false",
    "Sprout.C36_memcmp",
    "Sprout.C36_memchr"
   ],
   "note": "All functions proved against ISO C on all terminated strings, no reads outside; refuted: strstr of two empty strings, strcmp/strncmp with negative plain chars."
  },
  {
   "property": "C37",
   "status": "partial",
   "theorems": [
    "Sprout.C37_statement_false",
    "Sprout.C37_parse_partial",
    "Sprout.C37_accepts",
    "Sprout.C37_rejects",
    "Sprout.C37_short",
    "Sprout.C37_print",
    "Sprout.C37_roundtrip",
    "Sprout.C37_unambiguous"
   ],
   "note": "Proved: exactly the texts with a textual form as a prefix are accepted, with the denoted bytes; all others throw runtime_error; print then parse is the identity. Refuted: trailing characters after the form are accepted. Missing: stream operators are not modelled."
  },
  {
   "property": "C38",
   "status": "partial",
   "theorems": [
    "Sprout.C38_sha1_bits",
    "Sprout.C38_md5_bits",
    "Sprout.C38_random_bits",
    "Sprout.C38_report",
    "Sprout.C38_make_uuid5",
    "Sprout.C38_md5_report",
    "Sprout.C38_make_uuid3",
    "Sprout.C38_make_uuid5_clang_false",
    "Sprout.C38_random_report"
   ],
   "note": "Proved for all digests, names, namespaces and generator outputs, make_uuid5 down to FIPS 180-4 SHA-1 and make_uuid3 down to RFC 1321 MD5. With the sha1 variant selected on Clang, make_uuid5 throws for long names (C38_make_uuid5_clang_false)."
  },
  {
   "property": "C39",
   "status": "partial",
   "theorems": [
    "Sprout.C39_general_false",
    "Sprout.C39_min_false",
    "Sprout.C39_next_partial",
    "Sprout.C39_next_32",
    "Sprout.C39_mult_iff",
    "Sprout.C39_schrage",
    "Sprout.C39_range_partial",
    "Sprout.C39_seed",
    "Sprout.C39_run",
    "Sprout.C39_minstd"
   ],
   "note": "Proved for every integer type up to 64 bits wherever the product is implemented (all parameters for types up to 32 bits); Schrage exact; seeding; range if c != 0 or a coprime to m. Refuted: unimplemented general product for 64-bit types; state 0 below min() with c = 0."
  },
  {
   "property": "C40",
   "status": "partial",
   "theorems": [
    "Sprout.C40_pow_base_false",
    "Sprout.C40_pow_one_false",
    "Sprout.C40_pow_general_false",
    "Sprout.C40_pow_partial",
    "Sprout.C40_invert",
    "Sprout.C40_invert_gcd",
    "Sprout.C40_invert_zero"
   ],
   "note": "invert proved for all types, moduli and arguments below the modulus; pow for reduced bases and implemented products. Refuted: unreduced bases, pow(a,0) mod 1, unimplemented 64-bit products."
  },
  {
   "property": "C41",
   "status": "partial",
   "theorems": [
    "Sprout.C41_repaired",
    "Sprout.C41_exec_partial",
    "Sprout.C41_minus_false",
    "Sprout.C41_minus_noop",
    "Sprout.C41_isWellFormed",
    "Sprout.C41_balanced",
    "Sprout.C41_input_dropped"
   ],
   "note": "Both directions against a big-step semantics, for every program without '-' and for every program with line 101 repaired; is_well_formed exact. Refuted: '-' is ignored."
  },
  {
   "property": "C42",
   "status": "partial",
   "theorems": [
    "Sprout.C42_repaired",
    "Sprout.C42_code_partial",
    "Sprout.C42_false",
    "Sprout.C42_not_injective"
   ],
   "note": "Refuted: every pair becomes '>'. The translation is right with the intended replacement characters; for the code as it is: one '>' per pair, one blank per other character."
  },
  {
   "property": "C43",
   "status": "partial",
   "theorems": [
    "Sprout.C43_move_backward_undefined",
    "Sprout.C43_move_backward_false",
    "Sprout.C43_copy_backward_full",
    "Sprout.C43_move_backward_partial",
    "Sprout.C43_move"
   ],
   "note": "move proved; move_backward refuted (undefined for every non-empty range)"
  },
  {
   "property": "C44",
   "status": "partial",
   "theorems": [
    "Sprout.C44_undefined",
    "Sprout.C44_false",
    "Sprout.C44_of_ullong_partial"
   ],
   "note": "Refuted on LP64 for N > 64 (shift by 64); proved otherwise."
  },
  {
   "property": "C45",
   "status": "proved",
   "theorems": [
    "Sprout.C45_padding",
    "Sprout.C45_make_md5",
    "Sprout.C45_chunks",
    "Sprout.C45_bits_undefined"
   ],
   "note": "Proved for every message of bits of every length (the length field is the length modulo 2^64, as in the RFC) and every sequence of calls of the C++11 and C++14 functions. process_bits with a count above 32 is undefined (C45_bits_undefined). The C++14 process_block_impl increments a const iterator and is ill-formed when instantiated; not modelled."
  },
  {
   "property": "C46",
   "status": "partial",
   "theorems": [
    "Sprout.C46_classes",
    "Sprout.C46_case",
    "Sprout.C46_case_inverse",
    "Sprout.C46_isclassified_false",
    "Sprout.C46_isclassified_partial"
   ],
   "note": "All classification and case functions proved for all code units; isclassified is refuted: it combines the masks with | instead of &, so it ignores its mask (C46_isclassified_false, exact behaviour in C46_isclassified_partial)."
  },
  {
   "property": "C47",
   "status": "partial",
   "theorems": [
    "Sprout.C47_strcpy",
    "Sprout.C47_strncpy",
    "Sprout.C47_memset",
    "Sprout.C47_memcpy",
    "Sprout.C47_strcat_false",
    "Sprout.C47_strcat_overrun",
    "Sprout.C47_strcat_partial",
    "Sprout.C47_strncat_overrun",
    "Sprout.C47_strncat_false",
    "Sprout.C47_strncat_partial",
    "Sprout.C47_strncat_short",
    "Sprout.C47_memmove_false",
    "Sprout.C47_memmove_ub",
    "Sprout.C47_memmove_partial"
   ],
   "note": "strcpy, strncpy, memcpy, memset proved; strcat, strncat, memmove refuted, with theorems stating what they do instead."
  },
  {
   "property": "C48",
   "status": "partial",
   "theorems": [
    "Sprout.C48_one_undefined",
    "Sprout.C48_one_false",
    "Sprout.C48_zero_power_false",
    "Sprout.C48_gcd_false",
    "Sprout.C48_discard_partial",
    "Sprout.C48_coprime",
    "Sprout.C48_pow2",
    "Sprout.C48_minstd",
    "Sprout.C48_rand48"
   ],
   "note": "Proved for power-of-two moduli, for a and a-1 coprime to m, and the general condition. Refuted: a = 1 (division by zero), a^z = 0 mod m, (a-1)/gcd not coprime to m."
  },
  {
   "property": "C49",
   "status": "partial",
   "theorems": [
    "Sprout.C49_next_partial",
    "Sprout.C49_small",
    "Sprout.C49_statement_false",
    "Sprout.C49_seed"
   ],
   "note": "State recurrence and seeding proved; refuted: the result keeps only 15 bits because the state is cut to 32 bits before the shift."
  },
  {
   "property": "C50",
   "status": "partial",
   "theorems": [
    "Sprout.C50_peg_partial",
    "Sprout.C50_code_partial",
    "Sprout.C50_outcome",
    "Sprout.C50_parse_partial",
    "Sprout.C50_endless",
    "Sprout.C50_list_refuted",
    "Sprout.C50_refuted",
    "Sprout.C50_repeat_refuted",
    "Sprout.C50_repeat_any_refuted",
    "Sprout.C50_stopover_refuted"
   ],
   "note": "All expressions of the language modelled. C50_code_partial gives the exact parsing expression of every expression (soundness, completeness, divergence); C50_peg_partial shows that it is the intended one under Agrees. Refuted: trailing separator of a % b, repeat(n) with exactly n matches, repeat[...] and a stopover limit of 1."
  },
  {
   "property": "C51",
   "status": "partial",
   "theorems": [
    "Sprout.C51_uint_partial",
    "Sprout.C51_int_partial",
    "Sprout.C51_value_partial",
    "Sprout.C51_code_partial",
    "Sprout.C51_min_digits_refuted",
    "Sprout.C51_uint_refuted",
    "Sprout.C51_hex_refuted",
    "Sprout.C51_int_min_refuted",
    "Sprout.C51_int_refuted"
   ],
   "note": "Proved for a minimum of one digit, and for int_p when the numeral is not the least value of a 32/64-bit type; exact behaviour for every minimum in C51_code_partial. Refuted: minimum of two or more digits, hex/oct/bin, int_ on the least value."
  },
  {
   "property": "C52",
   "status": "partial",
   "theorems": [
    "Sprout.C52_set_partial",
    "Sprout.C52_parser_partial",
    "Sprout.C52_iterators_partial",
    "Sprout.C52_code_partial",
    "Sprout.C52_leading_refuted",
    "Sprout.C52_trailing_refuted",
    "Sprout.C52_reversed_refuted",
    "Sprout.C52_refuted"
   ],
   "note": "Proved for items without '-' and nonempty ranges, both iterator categories; exact behaviour for all sets not beginning with '-'. Refuted: leading '-', trailing '-', reversed range."
  },
  {
   "property": "C53",
   "status": "partial",
   "theorems": [
    "Sprout.C53_times_partial",
    "Sprout.C53_stopover_partial",
    "Sprout.C53_empty",
    "Sprout.C53_list_partial",
    "Sprout.C53_stopover_refuted",
    "Sprout.C53_refuted"
   ],
   "note": "Proved for discard and circular with L >= 1 and for stopover with L >= 2. Refuted: stopover with L = 1."
  },
  {
   "property": "C54",
   "status": "partial",
   "theorems": [
    "Sprout.C54_outputs_partial",
    "Sprout.C54_nth_partial",
    "Sprout.C54_sequence",
    "Sprout.C54_range",
    "Sprout.C54_mt19937",
    "Sprout.C54_mt19937_64",
    "Sprout.C54_mt11213b",
    "Sprout.C54_r_zero_false",
    "Sprout.C54_shift_false",
    "Sprout.C54_cxx11_false",
    "Sprout.C54_first_outputs"
   ],
   "note": "C++14 mode, parameters with 0 < r and all shifts below the width: the numbers are those of the standard, for all seeds and lengths; mt19937, mt19937_64 and mt11213b are instances. Refuted: r = 0 takes the parity of the wrong word; w equal to the shift is undefined; C++11 mode has another twist and another tempering."
  },
  {
   "property": "C55",
   "status": "partial",
   "theorems": [
    "Sprout.C55_sound_partial",
    "Sprout.C55_iff_partial",
    "Sprout.C55_refl",
    "Sprout.C55_predefined",
    "Sprout.C55_fresh_false",
    "Sprout.C55_m_one_false"
   ],
   "note": "C++14 mode, a with top bit, 1 < m, tempering shifts positive: equality decides sameness of the futures once a number was drawn from each engine, and is sound also for fresh engines. Refuted: fresh engines (completeness), m = 1 (soundness)."
  },
  {
   "property": "C56",
   "status": "partial",
   "theorems": [
    "Sprout.C56_length",
    "Sprout.C56_short",
    "Sprout.C56_full",
    "Sprout.C56_full_iff",
    "Sprout.C56_false",
    "Sprout.C56_mt19937_false"
   ],
   "note": "Refuted: i + 1 instead of n numbers are written, the first one twice. Proved what is written and read: nothing can be read back if i + 1 < n; at the end of a block the words move up by one."
  },
  {
   "property": "C57",
   "status": "partial",
   "theorems": [
    "Sprout.C57_bounds_partial",
    "Sprout.C57_defined_partial",
    "Sprout.C57_zero",
    "Sprout.C57_power",
    "Sprout.C57_power_zero",
    "Sprout.C57_power_false",
    "Sprout.C57_wide",
    "Sprout.C57_wide_false",
    "Sprout.C57_narrow",
    "Sprout.C57_twice"
   ],
   "note": "Bounds and definedness proved for all engines, types and bounds except: the number of values is a power of the engine's and a is not 0; the result type is wider than the engine's and a is negative (refuted in both cases). Engines with floating-point results not modelled."
  },
  {
   "property": "C58",
   "status": "partial",
   "theorems": [
    "Sprout.C58_uniform_partial",
    "Sprout.C58_zero",
    "Sprout.C58_unsigned",
    "Sprout.C58_power_false"
   ],
   "note": "Equidistribution proved with the same exceptions as C57; refuted for the power case."
  },
  {
   "property": "C59",
   "status": "partial",
   "theorems": [
    "Sprout.C59_smallint_partial",
    "Sprout.C59_bounds_partial",
    "Sprout.C59_truncated",
    "Sprout.C59_truncated_false",
    "Sprout.C59_overflow"
   ],
   "note": "Proved unless the engine's range is truncated by the distribution's type or range + 1 overflows in the engine's type (both refuted by witnesses)."
  },
  {
   "property": "C60",
   "status": "partial",
   "theorems": [
    "Sprout.C60_general_false",
    "Sprout.C60_zero_false",
    "Sprout.C60_next_partial",
    "Sprout.C60_range_partial",
    "Sprout.C60_injective",
    "Sprout.C60_seed",
    "Sprout.C60_32",
    "Sprout.C60_hellekalek1995"
   ],
   "note": "Proved for all integer types, primes and states with (a, b) != (0, 0) where the product is implemented (always for at most 32 bits); refuted for 64-bit products and for a = b = 0"
  },
  {
   "property": "C61",
   "status": "partial",
   "theorems": [
    "Sprout.C61_moduli_false",
    "Sprout.C61_combine_partial",
    "Sprout.C61_next_partial",
    "Sprout.C61_ecuyer1988"
   ],
   "note": "Proved for m2 <= m1, in particular ecuyer1988; refuted for m2 > m1"
  },
  {
   "property": "C62",
   "status": "partial",
   "theorems": [
    "Sprout.C62_next_partial",
    "Sprout.C62_init",
    "Sprout.C62_general_false",
    "Sprout.C62_narrow_false"
   ],
   "note": "Proved if the range times k fits into 64 bits and k <= 2^w; refuted otherwise"
  },
  {
   "property": "C63",
   "status": "partial",
   "theorems": [
    "Sprout.C63_run_partial",
    "Sprout.C63_word_partial",
    "Sprout.C63_low",
    "Sprout.C63_unique",
    "Sprout.C63_seed",
    "Sprout.C63_max_false",
    "Sprout.C63_seed_false"
   ],
   "note": "Recurrence proved for all parameters with w - k < 31 and all types with at least w bits; the bound for types with exactly w bits. Refuted: max() for wider types, seeding for w - k >= 31"
  },
  {
   "property": "C64",
   "status": "partial",
   "theorems": [
    "Sprout.C64_max_false",
    "Sprout.C64_min_false",
    "Sprout.C64_shift_false",
    "Sprout.C64_bounds_partial",
    "Sprout.C64_taus88",
    "Sprout.C64_taus88_bounded"
   ],
   "note": "taus88 proved for all seeds and steps; bounds proved without shifts for ranges [0, 2^k - 1]; refuted in general"
  },
  {
   "property": "C65",
   "status": "proved",
   "theorems": [
    "Sprout.C65_period",
    "Sprout.C65_components"
   ],
   "note": "Exact period for every seed; certificates (inverses of x^(P/r) - 1) are checked by the kernel"
  },
  {
   "property": "C66",
   "status": "proved",
   "theorems": [
    "Sprout.C66_same_as_algorithm",
    "Sprout.C66_set_union_iterator",
    "Sprout.C66_set_intersection_iterator",
    "Sprout.C66_set_difference_iterator",
    "Sprout.C66_set_symmetric_difference_iterator",
    "Sprout.C66_merge_iterator"
   ],
   "note": "Every iterator yields exactly what the algorithm of C07/C13 writes."
  },
  {
   "property": "C67",
   "status": "partial",
   "theorems": [
    "Sprout.C67_one_of_input",
    "Sprout.C67_one_of_partial",
    "Sprout.C67_one_of_false",
    "Sprout.C67_one_of_equal_false",
    "Sprout.C67_is_partitioned",
    "Sprout.C67_is_increasing",
    "Sprout.C67_is_strictly_increasing",
    "Sprout.C67_is_decreasing",
    "Sprout.C67_is_strictly_decreasing",
    "Sprout.C67_clamp",
    "Sprout.C67_min_max_list",
    "Sprout.C67_min_max_empty",
    "Sprout.C67_minmax"
   ],
   "note": "False: one_of and one_of_equal for random access iterators with three or more matches; proved for at most two matches and for input iterators. The rest is proved in full."
  },
  {
   "property": "C68",
   "status": "proved",
   "theorems": [
    "Sprout.C68_accumulate",
    "Sprout.C68_reduce",
    "Sprout.C68_transform_reduce",
    "Sprout.C68_transform_reduce2"
   ],
   "note": "Both versions, every operation."
  },
  {
   "property": "C69",
   "status": "partial",
   "theorems": [
    "Sprout.C69_transform_inclusive_scan",
    "Sprout.C69_partial_sum",
    "Sprout.C69_transform_exclusive_scan_partial",
    "Sprout.C69_exclusive_scan_partial",
    "Sprout.C69_exclusive_scan_in_place_false",
    "Sprout.C69_exclusive_scan_empty_false",
    "Sprout.C69_transform_inclusive_scan_init_partial",
    "Sprout.C69_inclusive_scan_init_false",
    "Sprout.C69_adjacent_difference",
    "Sprout.C69_inverse",
    "Sprout.C69_iota"
   ],
   "note": "False: exclusive_scan in place and on empty ranges, scans with an initial value write one element more than the standard says; what holds is proved. partial_sum, adjacent_difference, iota and inclusive scans without initial value in full."
  },
  {
   "property": "C70",
   "status": "partial",
   "theorems": [
    "Sprout.C70_to_time_t_partial",
    "Sprout.C70_to_time_t_tm_partial",
    "Sprout.C70_year_zero_false",
    "Sprout.C70_negative_year_false",
    "Sprout.C70_overflow"
   ],
   "note": "False before March of year 0 (truncating division); proved from there up to year 5883516, where int overflows."
  },
  {
   "property": "C71",
   "status": "partial",
   "theorems": [
    "Sprout.C71_hton_partial",
    "Sprout.C71_ntoh_partial",
    "Sprout.C71_round_trip_partial",
    "Sprout.C71_one_byte_false"
   ],
   "note": "False for one-byte types on little endian and PDP machines (shift by 2040 bits); proved for all other sizes up to 256 bytes (even sizes for PDP)."
  },
  {
   "property": "C72",
   "status": "partial",
   "theorems": [
    "Sprout.C72_find_partial",
    "Sprout.C72_find_null_refuted",
    "Sprout.C72_rfind_partial",
    "Sprout.C72_rfind_null_refuted",
    "Sprout.C72_find_char",
    "Sprout.C72_rfind_char",
    "Sprout.C72_find_first_of",
    "Sprout.C72_find_last_of",
    "Sprout.C72_find_first_not_of",
    "Sprout.C72_find_last_not_of",
    "Sprout.C72_find_first_not_of_char",
    "Sprout.C72_find_last_not_of_char"
   ],
   "note": "find and rfind compare with strncmp and so take null for the end: false for strings sought that contain null characters; proved without. The other functions are right in full."
  },
  {
   "property": "C73",
   "status": "partial",
   "theorems": [
    "Sprout.C73_compare_partial",
    "Sprout.C73_compare_sub_partial",
    "Sprout.C73_compare_str_partial",
    "Sprout.C73_compare_c_str",
    "Sprout.C73_operators_partial",
    "Sprout.C73_operators_c_str",
    "Sprout.C73_compare_null_refuted"
   ],
   "note": "False if both strings contain null characters (compared like null-terminated strings); proved otherwise, in full for null-terminated arguments."
  },
  {
   "property": "C74",
   "status": "partial",
   "theorems": [
    "Sprout.C74_append",
    "Sprout.C74_append_self",
    "Sprout.C74_append_c_str",
    "Sprout.C74_append_fill_partial",
    "Sprout.C74_push_back",
    "Sprout.C74_append_fill_refuted",
    "Sprout.C74_append_str",
    "Sprout.C74_append_sub_partial",
    "Sprout.C74_append_range",
    "Sprout.C74_append_input_partial",
    "Sprout.C74_assign",
    "Sprout.C74_assign_c_str",
    "Sprout.C74_assign_self_partial",
    "Sprout.C74_assign_self_refuted",
    "Sprout.C74_assign_fill_partial",
    "Sprout.C74_assign_fill_refuted",
    "Sprout.C74_assign_sub_partial",
    "Sprout.C74_assign_str_partial",
    "Sprout.C74_assign_empty_refuted",
    "Sprout.C74_pos_at_end_refuted",
    "Sprout.C74_assign_range",
    "Sprout.C74_assign_input_partial",
    "Sprout.C74_assign_input_refuted",
    "Sprout.C74_resize",
    "Sprout.C74_clear",
    "Sprout.C74_pop_back",
    "Sprout.C74_swap",
    "Sprout.C74_prepend",
    "Sprout.C74_prepend_self",
    "Sprout.C74_prepend_char_partial",
    "Sprout.C74_prepend_ref_refuted",
    "Sprout.C74_at",
    "Sprout.C74_copy_partial",
    "Sprout.C74_construct_range",
    "Sprout.C74_construct_c_str",
    "Sprout.C74_construct_n_partial",
    "Sprout.C74_construct_n_refuted",
    "Sprout.C74_construct_fill",
    "Sprout.C74_construct_array",
    "Sprout.C74_construct_shorter",
    "Sprout.C74_construct_sub_partial",
    "Sprout.C74_construct_sub_refuted",
    "Sprout.C74_substr_partial",
    "Sprout.C74_substr_refuted",
    "Sprout.C74_concat",
    "Sprout.C74_shift_concat",
    "Sprout.C74_shift_prepend"
   ],
   "note": "Most members right in full. False: assigning an empty string (throws out_of_range), assign of an own substring, assign(n, c) with too many characters (wrong exception), input iterators yielding N + 1 characters, append(npos, c), positions equal to the size in append and copy, positions beyond the size in the constructor, null characters in substr and (s, n) constructors, s >>= s[i]."
  },
  {
   "property": "C75",
   "status": "partial",
   "theorems": [
    "Sprout.C75_construct",
    "Sprout.C75_at",
    "Sprout.C75_remove",
    "Sprout.C75_substr_partial",
    "Sprout.C75_substr_refuted",
    "Sprout.C75_find_partial",
    "Sprout.C75_find_of",
    "Sprout.C75_compare_partial",
    "Sprout.C75_compare_sub_partial",
    "Sprout.C75_operators_partial",
    "Sprout.C75_compare_c_str",
    "Sprout.C75_starts_ends_partial",
    "Sprout.C75_starts_ends_char",
    "Sprout.C75_starts_null_refuted",
    "Sprout.C75_copy_partial",
    "Sprout.C75_to_string_partial",
    "Sprout.C75_to_string_refuted"
   ],
   "note": "False: substr does not limit n; to_string needs a null character behind the view and none in it; compare, find, starts_with and ends_with with null characters; copy at the end. Proved otherwise."
  },
  {
   "property": "C76",
   "status": "partial",
   "theorems": [
    "Sprout.C76_dft_element",
    "Sprout.C76_idft_element",
    "Sprout.C76_dft_random_access",
    "Sprout.C76_dft_forward_partial",
    "Sprout.C76_dft_forward_refuted",
    "Sprout.C76_inverse"
   ],
   "note": "Random access iterators: full. Forward iterators: only if the input has as many elements as the result; otherwise refuted. Exact arithmetic instead of floating point."
  },
  {
   "property": "C77",
   "status": "proved",
   "theorems": [
    "Sprout.C77_fft",
    "Sprout.C77_fft_empty",
    "Sprout.C77_ifft",
    "Sprout.C77_inverse",
    "Sprout.C77_length6_ub",
    "Sprout.C77_length3_refuted"
   ],
   "note": "All lengths 2^k. Exact arithmetic instead of floating point. The theorems on lengths 3 and 6 show that other lengths are not supported."
  },
  {
   "property": "C78",
   "status": "partial",
   "theorems": [
    "Sprout.C78_coefficients",
    "Sprout.C78_fixed_fft_partial",
    "Sprout.C78_fixed_fft_refuted",
    "Sprout.C78_inverse",
    "Sprout.C78_bitrev_table_partial",
    "Sprout.C78_bitrev_table_refuted"
   ],
   "note": "fixed::fft computes the transform with the opposite sign, so that it is proved for that and refuted for dft; ifft inverts it. bitrev_table: refuted for one element."
  },
  {
   "property": "C79",
   "status": "partial",
   "theorems": [
    "Sprout.C79_generators_partial",
    "Sprout.C79_offset_refuted",
    "Sprout.C79_sawtooth",
    "Sprout.C79_square_levels",
    "Sprout.C79_square_partial",
    "Sprout.C79_square_refuted",
    "Sprout.C79_triangle",
    "Sprout.C79_default_frequency",
    "Sprout.C79_amplitude",
    "Sprout.C79_phase_partial",
    "Sprout.C79_phase_refuted",
    "Sprout.C79_spectrum_partial",
    "Sprout.C79_spectrum_forward",
    "Sprout.C79_spectrum_refuted"
   ],
   "note": "Containers without offset, duty 1/2, integer components for the phase; the rest refuted."
  },
  {
   "property": "C80",
   "status": "partial",
   "theorems": [
    "Sprout.C80_next",
    "Sprout.C80_prev",
    "Sprout.C80_advance",
    "Sprout.C80_prev_cxx14_partial",
    "Sprout.C80_prev_cxx14_refuted",
    "Sprout.C80_next_prev",
    "Sprout.C80_distance_partial",
    "Sprout.C80_distance_refuted",
    "Sprout.C80_distance_cxx14",
    "Sprout.C80_next_distance"
   ],
   "note": "next, prev, advance for all categories and offsets; distance for less than 2^62 elements. From 2^62 on the doubled block size overflows (C80_distance_refuted); the C++14 prev negates the smallest offset (C80_prev_cxx14_refuted)."
  },
  {
   "property": "C81",
   "status": "partial",
   "theorems": [
    "Sprout.C81_reverse_partial",
    "Sprout.C81_reverse_lt_refuted",
    "Sprout.C81_transform",
    "Sprout.C81_transform2",
    "Sprout.C81_joint_partial",
    "Sprout.C81_joint_diff_partial",
    "Sprout.C81_joint_diff_refuted",
    "Sprout.C81_alternate_partial",
    "Sprout.C81_alternate_add_partial",
    "Sprout.C81_alternate_add_refuted",
    "Sprout.C81_alternate_diff_refuted",
    "Sprout.C81_alternate_diff_ub",
    "Sprout.C81_size_enum_partial",
    "Sprout.C81_size_enum_add_partial",
    "Sprout.C81_size_enum_sub_refuted",
    "Sprout.C81_size_enum_index_refuted",
    "Sprout.C81_size_enum_diff_refuted",
    "Sprout.C81_insert_range_partial",
    "Sprout.C81_insert_range_lt_refuted",
    "Sprout.C81_step_partial",
    "Sprout.C81_step_add_partial",
    "Sprout.C81_step_add_zero_refuted",
    "Sprout.C81_step_end_refuted",
    "Sprout.C81_step_prev_refuted",
    "Sprout.C81_step_decr_refuted",
    "Sprout.C81_step_empty_refuted",
    "Sprout.C81_bytes_partial",
    "Sprout.C81_bytes_prev_refuted",
    "Sprout.C81_bytes_sub_refuted"
   ],
   "note": "Traversal of all eight adaptors and the operators that agree with positions; the wrong operators are refuted with witnesses (reverse <, joint -, alternate + and -, size_enum -, [] and difference, insert_range <, step +0, end, --, bytes prev and -)."
  },
  {
   "property": "C82",
   "status": "partial",
   "theorems": [
    "Sprout.C82_filter",
    "Sprout.C82_filter_end",
    "Sprout.C82_remove_if",
    "Sprout.C82_filter_prev",
    "Sprout.C82_adjacent_filter",
    "Sprout.C82_adjacent_filter_partial",
    "Sprout.C82_adjacent_filter_refuted",
    "Sprout.C82_unique_partial",
    "Sprout.C82_unique_refuted",
    "Sprout.C82_while",
    "Sprout.C82_while_incr_partial",
    "Sprout.C82_while_incr_refuted",
    "Sprout.C82_while_prev_partial",
    "Sprout.C82_while_prev_refuted"
   ],
   "note": "filter and remove_if in full, forwards and backwards; adjacent_filter, unique and while except in the refuted cases (adjacent_filter starts at the first pair of neighbours that satisfies the predicate and is empty without one, while dereferences the end, while goes back behind the sequence)."
  },
  {
   "property": "C83",
   "status": "partial",
   "theorems": [
    "Sprout.C83_plus",
    "Sprout.C83_multiplies_partial",
    "Sprout.C83_multiplies_refuted"
   ],
   "note": "plus in full; multiplies for all pairs but MulBad: there -1 makes the test itself divide the smallest value by -1 (C83_multiplies_refuted)."
  },
  {
   "property": "C84",
   "status": "partial",
   "theorems": [
    "Sprout.C84_get_little_partial",
    "Sprout.C84_get_big_partial",
    "Sprout.C84_get_refuted",
    "Sprout.C84_set_little_partial",
    "Sprout.C84_set_big_partial",
    "Sprout.C84_set_refuted",
    "Sprout.C84_one_byte"
   ],
   "note": "All bytes of types of up to four bytes; for wider types get for the lower four and set for the lower three bytes. The other cases are undefined (C84_get_refuted) or overwrite the upper bytes (C84_set_refuted)."
  },
  {
   "property": "C85",
   "status": "partial",
   "theorems": [
    "Sprout.C85_add",
    "Sprout.C85_sub",
    "Sprout.C85_mul",
    "Sprout.C85_div",
    "Sprout.C85_sign_eq",
    "Sprout.C85_assign",
    "Sprout.C85_assign_real_partial",
    "Sprout.C85_mul_assign_refuted",
    "Sprout.C85_div_assign_refuted",
    "Sprout.C85_range",
    "Sprout.C85_cend_refuted"
   ],
   "note": "Modelled over the reals against Mathlib's field of complex numbers. All operators and complex-valued compound assignments are proved; real-valued compound assignment for an argument which is not a part of the object. Refuted: z *= z.real() and z /= z.real() read the part after it has changed, and cend() returns the beginning."
  },
  {
   "property": "C86",
   "status": "partial",
   "theorems": [
    "Sprout.C86_make",
    "Sprout.C86_make_refuted",
    "Sprout.C86_float_refuted",
    "Sprout.C86_arithmetic_partial",
    "Sprout.C86_sub_refuted",
    "Sprout.C86_div_refuted",
    "Sprout.C86_eq",
    "Sprout.C86_norm",
    "Sprout.C86_norm_refuted",
    "Sprout.C86_sup_l1",
    "Sprout.C86_pow",
    "Sprout.C86_pow_refuted",
    "Sprout.C86_creation",
    "Sprout.C86_assign_partial",
    "Sprout.C86_mul_assign_refuted",
    "Sprout.C86_div_assign"
   ],
   "note": "Modelled over the reals against Mathlib's quaternions. Refuted: the specialisations for floating types store (a, a, c, d) when constructed from (a, b, c, d) so that everything computed from them is wrong (norm of i is 0, pow); T - q and complex - q do not negate the imaginary parts; T / q divides component by component; q *= q.real() style aliasing. Not modelled, because ill-formed: complex * quaternion, general quaternion / (its helper calls itself with one argument), abs."
  },
  {
   "property": "C87",
   "status": "partial",
   "theorems": [
    "Sprout.C87_special",
    "Sprout.C87_trunc",
    "Sprout.C87_round",
    "Sprout.C87_floor_partial",
    "Sprout.C87_ceil_partial",
    "Sprout.C87_wide_partial",
    "Sprout.C87_floor_refuted",
    "Sprout.C87_floor_next_refuted",
    "Sprout.C87_large_partial",
    "Sprout.C87_large_refuted",
    "Sprout.C87_limit_refuted",
    "Sprout.C87_parts",
    "Sprout.C87_parts_special",
    "Sprout.C87_is_integer",
    "Sprout.C87_itrunc",
    "Sprout.C87_iround",
    "Sprout.C87_ifloor_partial",
    "Sprout.C87_ifloor_refuted",
    "Sprout.C87_itrunc_refuted"
   ],
   "note": "Floating-point values with real rounding: any format with correct rounding (instances float, double, extended, quad). trunc, round, integer_part, fractional_part, frac_int, is_integer, itrunc and iround are proved for all values in the range of the integer type; floor, ceil, ifloor and iceil for values which are not within the tolerance of equal_to above (below) an integer. Refuted: floor of a small negative number is -0 and floor of the number before -3 is -3 (comparison with a tolerance); the guard for large values misses 2^64 (and hi+1 for integer results), where the conversion is undefined; in formats of 66 bits or more the guard returns fractions unchanged."
  },
  {
   "property": "C88",
   "status": "partial",
   "theorems": [
    "Sprout.C88_int_order",
    "Sprout.C88_int_equal_partial",
    "Sprout.C88_int_equal_refuted",
    "Sprout.C88_float_trichotomy",
    "Sprout.C88_float_nan",
    "Sprout.C88_float_close",
    "Sprout.C88_float_integers",
    "Sprout.C88_float_order",
    "Sprout.C88_float_symmetric",
    "Sprout.C88_float_transitive_refuted",
    "Sprout.C88_float_inf_refuted"
   ],
   "note": "The order comparisons of integers are proved for all pairs of standard integer types; equality and compare when no negative number meets an unsigned common type. Floating comparisons: trichotomy, strict order, exactness on integers of less than the precision, symmetry (for odd rounding). Refuted: equal_to(-1, UINT_MAX) and compare; equal_to is not transitive; an infinity is equal to everything and nothing is less than it."
  },
  {
   "property": "C89",
   "status": "partial",
   "theorems": [
    "Sprout.C89_classes",
    "Sprout.C89_subnormal_partial",
    "Sprout.C89_subnormal_refuted",
    "Sprout.C89_comparisons",
    "Sprout.C89_islessequal_partial",
    "Sprout.C89_islessequal_refuted",
    "Sprout.C89_fabs",
    "Sprout.C89_copysign_partial",
    "Sprout.C89_copysign_refuted",
    "Sprout.C89_fmax_fmin",
    "Sprout.C89_fdim_partial",
    "Sprout.C89_fdim_refuted",
    "Sprout.C89_fma_partial",
    "Sprout.C89_fma_refuted"
   ],
   "note": "Proved for every format: the predicates, the quiet comparisons but islessequal, fabs, fmax, fmin. Partial: subnormal/normal only in formats with the smallest normal number of double; copysign and signbit but for -0; fdim but for two infinities; fma where the product is exact. Refuted in the other cases: islessequal(x, x) is false; float subnormals are normal and small long doubles subnormal; fdim(inf, inf) = inf; fma rounds twice."
  },
  {
   "property": "C90",
   "status": "partial",
   "theorems": [
    "Sprout.C90_scalbn_special",
    "Sprout.C90_scalbn_partial",
    "Sprout.C90_scalbn_wide_partial",
    "Sprout.C90_scalbn_refuted",
    "Sprout.C90_logb_near",
    "Sprout.C90_logb_partial",
    "Sprout.C90_ilogb",
    "Sprout.C90_logb_special",
    "Sprout.C90_logb_diverges",
    "Sprout.C90_logb_refuted",
    "Sprout.C90_float_sig_exp_partial",
    "Sprout.C90_float_sig_exp_refuted"
   ],
   "note": "scalbn is proved where the power of two is itself representable (and over the whole range when computed in a wider type); logb/ilogb for a logarithm rounded within one unit of the exponent, away from the ends of the range; float_sig_exp inside the range. Refuted: scalbn(1/2, emax) = inf, scalbn(x, INT_MIN) undefined; logb does not end for the greatest and for the least value of the type of computation, or for a worse logarithm; significands 0 and inf at the ends of the range."
  },
  {
   "property": "C91",
   "status": "partial",
   "theorems": [
    "Sprout.C91_fmod_partial",
    "Sprout.C91_fmod_special",
    "Sprout.C91_fmod_float",
    "Sprout.C91_fmod_refuted",
    "Sprout.C91_parity_partial",
    "Sprout.C91_parity_special",
    "Sprout.C91_rem_quo_partial",
    "Sprout.C91_remainder_quotient",
    "Sprout.C91_rem_quo_refuted",
    "Sprout.C91_rem_quo_special"
   ],
   "note": "fmod is exact given the exponents of the arguments (from a correctly rounded logarithm for a type narrower than the type of computation); rem_quo, remainder and quotient likewise while the quotient is less than the limit of its type. Refuted: fmod(1, denorm_min) = inf in the type of computation; remainder is undefined for quotients of 2^31 + 1 and more. Parity: for values whose halves are exact."
  },
  {
   "property": "C92",
   "status": "partial",
   "theorems": [
    "Sprout.C92_factorial_int",
    "Sprout.C92_factorial_limit_partial",
    "Sprout.C92_factorial_limit_refuted",
    "Sprout.C92_factorial_float",
    "Sprout.C92_factorial_float_limit_partial",
    "Sprout.C92_factorial_float_limit_refuted",
    "Sprout.C92_bernoulli_partial",
    "Sprout.C92_bernoulli_limit",
    "Sprout.C92_bernoulli_refuted"
   ],
   "note": "All entries of the factorial tables are n!, correctly rounded for float, double, extended and quadruple precision. All Bernoulli numbers but B_28 have a relative error of at most 3 units of 2^-p. Refuted: factorial_limit of 32-bit types is 11 though 12! fits; of long double is 170; the table has -236364091/870 for B_28 instead of -23749461029/870."
  },
  {
   "property": "C93",
   "status": "partial",
   "theorems": [
    "Sprout.C93_sqrt_near",
    "Sprout.C93_sqrt_partial",
    "Sprout.C93_sqrt_float",
    "Sprout.C93_sqrt_exact",
    "Sprout.C93_sqrt_special",
    "Sprout.C93_sqrt_refuted",
    "Sprout.C93_hypot_special",
    "Sprout.C93_hypot_comm",
    "Sprout.C93_hypot"
   ],
   "note": "The iteration ends for every argument with a relative error of at most the epsilon of the type of computation; squares have exact roots; a type of less than half the precision, as float, gets correctly rounded roots. Refuted: in the type of computation itself the root is not rounded correctly, sqrt(1 - 2^-p) = 1. hypot has a relative error of at most 5 * 2^-p, and does not overflow below about the largest number; it is symmetric."
  },
  {
   "property": "C94",
   "status": "partial",
   "theorems": [
    "Sprout.C94_exp_special",
    "Sprout.C94_exp_series",
    "Sprout.C94_exp_partial",
    "Sprout.C94_exp_refuted"
   ],
   "note": "For all |x| <= 2048 the value is the Taylor polynomial of degree 85, or for x <= -1 the inverse of that of -x, with a relative error of at most (|x| + 13) 2^-p; for |x| <= 25 and p <= 64 it is e^x with a relative error of at most 128 * 2^-p. Special values. Refuted: exp(100) is less than a tenth of e^100, exp(-100) more than ten times e^-100."
  },
  {
   "property": "C95",
   "status": "proved",
   "theorems": [
    "Sprout.C95_literals",
    "Sprout.C95_constants"
   ],
   "note": "|literal - constant| <= 10^-110 for all constants; the value in a format F has a relative error of at most 2^-p(F) + 2 * 2^-p(long double)."
  },
  {
   "property": "C96",
   "status": "partial",
   "theorems": [
    "Sprout.C96_log_special",
    "Sprout.C96_log_partial",
    "Sprout.C96_log_refuted"
   ],
   "note": "For x > 1 the relative error is at most 64 * 2^-p, for 2^(1-emax) <= x < 1 there is an absolute error of at most 2 * 2^-p in addition. Special values. Refuted: log(1 - 2^-p) is about twice ln(1 - 2^-p); if 1 / x overflows, as for the least subnormal numbers, the recursion does not end."
  },
  {
   "property": "C97",
   "status": "partial",
   "theorems": [
    "Sprout.C97_special",
    "Sprout.C97_cos_partial",
    "Sprout.C97_sin_partial",
    "Sprout.C97_tan_partial",
    "Sprout.C97_cos_refuted",
    "Sprout.C97_sin_refuted"
   ],
   "note": "The absolute error of cos is at most (3850 + 4|x|) 2^-p, of sin (3900 + 6|x|) 2^-p, of tan 5 E / cos(x)^2 where E is the sum of these bounds and 2 E <= |cos x|. Special values. Refuted: there is an argument of at most 2^132 with cos x <= 0 for which the result is at least 1/2; sin x = sin(-x) for all |x| < 2^-p, so that the relative error is at least 1 for one of them."
  },
  {
   "property": "C98",
   "status": "partial",
   "theorems": [
    "Sprout.C98_special",
    "Sprout.C98_log2_partial",
    "Sprout.C98_log10_partial",
    "Sprout.C98_log_a_partial",
    "Sprout.C98_log1p_partial",
    "Sprout.C98_log1p_refuted",
    "Sprout.C98_logb",
    "Sprout.C98_ilogb",
    "Sprout.C98_cos_partial",
    "Sprout.C98_sin_partial",
    "Sprout.C98_fmod_partial"
   ],
   "note": "log2 and log10: relative error at most 72 * 2^-p for x > 1, an absolute error of 8 * 2^-p in addition for 2^(1-emax) <= x < 1. log_a: relative error at most 133 * 2^-p for base and argument greater than one. log1p: |error| <= (64 |ln(1+x)| + 5) 2^-p for x <= 2^(emax-2). With the library's own logarithm logb and ilogb are exact for 2 <= |x| < 2^(emax-1); hence fmod is exact for such arguments, and cos and sin are as accurate as in C97. Refuted: log1p of any number of absolute value less than 2^-p / 2 is zero. Not shown: bases less than one, logb of values less than 2 in absolute value."
  },
  {
   "property": "C99",
   "status": "partial",
   "theorems": [
    "Sprout.C99_special",
    "Sprout.C99_exp2_partial",
    "Sprout.C99_exp10_partial",
    "Sprout.C99_exp2_refuted",
    "Sprout.C99_exp10_refuted",
    "Sprout.C99_expm1_partial",
    "Sprout.C99_cosh_partial",
    "Sprout.C99_sinh_partial",
    "Sprout.C99_tanh_partial",
    "Sprout.C99_tiny_refuted",
    "Sprout.C99_tanh_refuted"
   ],
   "note": "For |x| <= 34 (exp2), 8 (exp10), 25 (the others): relative error of exp2 and exp10 at most 512 * 2^-p, of cosh 133 * 2^-p; error of sinh at most 133 * 2^-p * cosh x, of expm1 130 * 2^-p * (e^x + 1), of tanh 269 * 2^-p. Special values. Refuted: exp2(x) is less than a tenth of 2^x for all x from 145 to 500, likewise exp10 from 51; expm1, sinh and tanh are zero for all |x| <= 2^-(p+24); tanh(x) and tanh(-x) are NaN for all x of which the square overflows."
  },
  {
   "property": "C100",
   "status": "partial",
   "theorems": [
    "Sprout.C100_pow_special",
    "Sprout.C100_parity",
    "Sprout.C100_pow_zero_refuted",
    "Sprout.C100_pow_partial",
    "Sprout.C100_pow_small_partial",
    "Sprout.C100_pow_neg_partial",
    "Sprout.C100_pow_large_refuted",
    "Sprout.C100_pow_near_one_refuted",
    "Sprout.C100_cbrt_special",
    "Sprout.C100_cbrt_partial",
    "Sprout.C100_cbrt_refuted"
   ],
   "note": "Special values of F.10.4.4 of the C standard but one, given that the parity of the exponent is determined correctly (C91). For |y ln x| <= 24, |y| <= 2^40: relative error at most (130 + 132 |y ln x|) * 2^-p if x > 1, with a further 5 |y| * 2^-p if x < 1; integral powers of x < -1 likewise with the right sign. cbrt: relative error at most 2^12 * 2^-p for 2^-100 <= |x| <= 2^100. Refuted: pow(-0, y) is +inf for negative odd y; (1 - 2^-p)^(2^p) is less than 1/5, should be more than 1/3; powers from e^100.5 to e^2000 and cubic roots of 2^436 to 2^1000 are less than a tenth of what they should be."
  },
  {
   "property": "C101",
   "status": "partial",
   "theorems": [
    "Sprout.C101_special",
    "Sprout.C101_asinh_partial",
    "Sprout.C101_asinh_neg_partial",
    "Sprout.C101_acosh_partial",
    "Sprout.C101_atanh_partial",
    "Sprout.C101_tiny_refuted",
    "Sprout.C101_overflow_refuted",
    "Sprout.C101_asinh_refuted"
   ],
   "note": "atanh, all arguments: error at most (66 |artanh x| + 8) * 2^-p. asinh, 0 < x <= 10^20: error at most (64 arsinh x + 16) * 2^-p; for negative x a further 20 (1 + x^2) * 2^-p. acosh, 1 < x <= 10^20: error at most (64 arcosh x + 12 + 6 x / sqrt(x^2 - 1)) * 2^-p. Special values. Refuted: asinh and atanh are zero for |x| <= 2^-(p+2); asinh(-2^k) is -inf for p < 2k < emax; asinh(x) is +inf for all x of which the square overflows, also negative ones, and so is acosh(x)."
  },
  {
   "property": "C102",
   "status": "partial",
   "theorems": [
    "Sprout.C102_atan",
    "Sprout.C102_odd",
    "Sprout.C102_special",
    "Sprout.C102_atan2",
    "Sprout.C102_pi_pos",
    "Sprout.C102_atan2_special_partial",
    "Sprout.C102_atan2_refuted"
   ],
   "note": "atan, all numbers (also subnormal): relative error at most 40 * 2^-p. atan2, all pairs of nonzero numbers: error at most 64 * 2^-p relative to Complex.arg plus the least positive number. Special values of infinities, zeros and NaN. Refuted: atan2(-0, x) for x < 0 or -inf is +pi, and atan2(+-0, -0) is +-0 (the broken signbit; listed as an issue in atan2.hpp 57-62). The sign of NaN is not modelled."
  },
  {
   "property": "C103",
   "status": "partial",
   "theorems": [
    "Sprout.C103_decimal_partial",
    "Sprout.C103_double",
    "Sprout.C103_integer",
    "Sprout.C103_nearest",
    "Sprout.C103_inf_refuted",
    "Sprout.C103_exponent_refuted",
    "Sprout.C103_range_refuted"
   ],
   "note": "Decimal strings without an exponent, of n digits and k decimals: relative error at most 2 * (2n + k) * 2^-p; integers up to 2^p exact; the nearest value for 1, 2, 4, 8, 16 decimals and digits up to 2^p. Refuted: 1e5 is 1, 1e-5 is 100000, 1e+5 is at most 1/2, 1e reads past the terminator, inf and nan are 0, out of range exponents give +HUGE_VAL for tiny and for negative numbers. Calls with a non-null end pointer go to the C library and are not modelled."
  },
  {
   "property": "C104",
   "status": "partial",
   "theorems": [
    "Sprout.C104_special",
    "Sprout.C104_dyadic_partial",
    "Sprout.C104_half_refuted",
    "Sprout.C104_negative_refuted",
    "Sprout.C104_41_refuted",
    "Sprout.C104_14_refuted",
    "Sprout.C104_exponent_refuted",
    "Sprout.C104_exponent_endless_refuted"
   ],
   "note": "Infinities, NaN and, for double, all multiples of 1/64 from 1 to 10 and from -9 to -1 (7 under the rule of ties to even) are right. Refuted: 41 gives 40.000000, 1.4 gives 1.399999, 0.5 gives .500000, -9.5 gives -.500000; float_exponent10 returns the integral part of numbers from 1 on and does not end below 1. Correctness for numbers with more digits is not proved (it fails for some)."
  },
  {
   "property": "C105",
   "status": "partial",
   "theorems": [
    "Sprout.C105_insert",
    "Sprout.C105_append",
    "Sprout.C105_erase",
    "Sprout.C105_set",
    "Sprout.C105_resize",
    "Sprout.C105_fit",
    "Sprout.C105_fit_resize_partial",
    "Sprout.C105_fit_erase_n_refuted",
    "Sprout.C105_fit_realign_to_refuted",
    "Sprout.C105_window_of_string_refuted",
    "Sprout.C105_window_of_window_refuted",
    "Sprout.C105_resize_string_refuted"
   ],
   "note": "Proved for arrays, strings and windows of arrays, for all operations of fixed and all of fit but erase_n, and realign_to a smaller container. Strings made by realign and resize end at the first zero. Refuted: fit::erase_n and fit::realign_to make windows of elements that do not exist; windows of strings and of windows are remade wrongly. The fit forms of realign and resize are not proved for strings. valarray is not modelled: its make_construct_impl does not exist."
  },
  {
   "property": "C106",
   "status": "partial",
   "theorems": [
    "Sprout.C106_access",
    "Sprout.C106_sub",
    "Sprout.C106_sub_window",
    "Sprout.C106_window",
    "Sprout.C106_modify",
    "Sprout.C106_order",
    "Sprout.C106_equal_partial",
    "Sprout.C106_equal_refuted",
    "Sprout.C106_equal_undefined_refuted",
    "Sprout.C106_window_refuted"
   ],
   "note": "All but operator== of windows of different lengths and the one-argument member window are proved. Refuted: a proper prefix is equal, the converse comparison reads past the array; window(to_first) on a mutable object loses elements."
  },
  {
   "property": "C107",
   "status": "partial",
   "theorems": [
    "Sprout.C107_copy",
    "Sprout.C107_copy_if",
    "Sprout.C107_copy_backward_partial",
    "Sprout.C107_copy_backward_refuted",
    "Sprout.C107_fill",
    "Sprout.C107_generate",
    "Sprout.C107_recurrence_partial",
    "Sprout.C107_recurrence_refuted",
    "Sprout.C107_transform",
    "Sprout.C107_replace_copy",
    "Sprout.C107_clamp_range_copy",
    "Sprout.C107_remove_copy",
    "Sprout.C107_unique_copy_partial",
    "Sprout.C107_unique_copy_refuted",
    "Sprout.C107_reverse_rotate",
    "Sprout.C107_swap_element_copy",
    "Sprout.C107_partition_copy",
    "Sprout.C107_self"
   ],
   "note": "Proved for all containers except: copy_backward of bidirectional ranges into a string shorter than its capacity, unique_copy into an empty window, recurrence with more first values than room. All three are refuted."
  },
  {
   "property": "C108",
   "status": "partial",
   "theorems": [
    "Sprout.C108_make_heap",
    "Sprout.C108_push_heap",
    "Sprout.C108_pop_heap",
    "Sprout.C108_sort_heap",
    "Sprout.C108_make_partial_heap",
    "Sprout.C108_partial_sort",
    "Sprout.C108_nth_element_partial",
    "Sprout.C108_nth_element_refuted",
    "Sprout.C108_stable_sort_partial",
    "Sprout.C108_stable_sort_refuted"
   ],
   "note": "Proved for all containers and all strict weak orderings except nth_element with nth == end and stable_sort of an empty range in a container of static_size > 1; both read past the end (refuted)."
  },
  {
   "property": "C109",
   "status": "proved",
   "theorems": [
    "Sprout.C109_merge",
    "Sprout.C109_inplace_merge",
    "Sprout.C109_set_union",
    "Sprout.C109_set_intersection",
    "Sprout.C109_set_difference",
    "Sprout.C109_set_symmetric_difference",
    "Sprout.C109_next_permutation",
    "Sprout.C109_prev_permutation"
   ],
   "note": "Proved for all fixed containers. The lazily evaluated versions for results that are not fixed containers are the iterators of C66."
  },
  {
   "property": "C110",
   "status": "partial",
   "theorems": [
    "Sprout.C110_shuffle",
    "Sprout.C110_shuffle_permutes",
    "Sprout.C110_shuffle_reaches_all",
    "Sprout.C110_shuffle_biased",
    "Sprout.C110_shuffle_in_place_fair",
    "Sprout.C110_random_swap",
    "Sprout.C110_random_swap_permutes",
    "Sprout.C110_bogo_sort",
    "Sprout.C110_bozo_sort",
    "Sprout.C110_bogo_sort_in_place",
    "Sprout.C110_bozo_sort_in_place_escapes",
    "Sprout.C110_bozo_sort_in_place_partial"
   ],
   "note": "Proved: outcome of every sequence of draws, number of draws, permutation, reachability, the sorts as the first sorted arrangement. Refuted: equal probability of the outcomes of fixed::shuffle for every window of three or more different elements (C110_shuffle_biased), and that bozo_sort in place keeps to its range (C110_bozo_sort_in_place_escapes)."
  },
  {
   "property": "C111",
   "status": "partial",
   "theorems": [
    "Sprout.C111_inclusive_scan_partial",
    "Sprout.C111_exclusive_scan_partial",
    "Sprout.C111_inclusive_scan_init_partial",
    "Sprout.C111_adjacent_difference_partial",
    "Sprout.C111_iota",
    "Sprout.C111_empty_window_refuted",
    "Sprout.C111_exclusive_scan_empty_refuted",
    "Sprout.C111_inclusive_scan_init_refuted",
    "Sprout.C111_adjacent_difference_refuted"
   ],
   "note": "Proved: inclusive scans (window not empty), exclusive scans (range and window not empty), iota. Refuted: inclusive scans with an initial value write it as an additional element, the exclusive scan of an empty range writes the initial value, scans to an empty window change the array around it, adjacent_difference to a container that is not empty has no viable overload, neither has transform_inclusive_scan with initial value to a container of static_size below 2."
  },
  {
   "property": "C112",
   "status": "partial",
   "theorems": [
    "Sprout.C112_copy",
    "Sprout.C112_copy_if",
    "Sprout.C112_copy_backward_partial",
    "Sprout.C112_transform",
    "Sprout.C112_replace_copy",
    "Sprout.C112_clamp_range_copy",
    "Sprout.C112_remove",
    "Sprout.C112_unique_partial",
    "Sprout.C112_reverse_rotate_swap",
    "Sprout.C112_partition_copy",
    "Sprout.C112_merge",
    "Sprout.C112_set_union",
    "Sprout.C112_set_intersection",
    "Sprout.C112_set_difference",
    "Sprout.C112_set_symmetric_difference",
    "Sprout.C112_whole",
    "Sprout.C112_whole_pair",
    "Sprout.C112_first_n",
    "Sprout.C112_pop_heap",
    "Sprout.C112_partial_sort",
    "Sprout.C112_nth_element_partial",
    "Sprout.C112_partition_partial",
    "Sprout.C112_scan_partial",
    "Sprout.C112_partition_refuted",
    "Sprout.C112_unique_refuted",
    "Sprout.C112_pop_heap_empty_refuted"
   ],
   "note": "Proved for copy, copy_n, copy_if, copy_while, copy_until, transform, replace, clamp, remove, reverse, rotate, swap_element, partition_copy, stable_partition_copy, merge, set operations, fill_n, generate_n, recurrence_n, pop_heap, partial_sort, make_partial_heap, and for all algorithms that return the whole container; for unique with equivalence relations; for copy_backward, nth_element, scans within the limits of C107, C108, C111. Refuted: partition and stable_partition show size - count elements instead of count; unique with a relation that is not transitive shows too few elements; pop_heap of an empty container."
  },
  {
   "property": "C113",
   "status": "partial",
   "theorems": [
    "Sprout.C113_sum_partial",
    "Sprout.C113_sum_false",
    "Sprout.C113_sum_wide",
    "Sprout.C113_xor",
    "Sprout.C113_split"
   ],
   "note": "Proved for sum_basic with 8, 16, 32 and 64 bits and for xor8; the division into calls does not matter for any width. Refuted: sum_basic<24> keeps 32 bits; above 64 bits uint_t names signed char and seven bits are kept (proved exactly)."
  },
  {
   "property": "C114",
   "status": "partial",
   "theorems": [
    "Sprout.C114_pow",
    "Sprout.C114_pow_unsigned",
    "Sprout.C114_pow_negative",
    "Sprout.C114_pow2_partial",
    "Sprout.C114_pow2_false",
    "Sprout.C114_pow2m1_partial",
    "Sprout.C114_pow2m1_false",
    "Sprout.C114_log2",
    "Sprout.C114_carry",
    "Sprout.C114_carry_big",
    "Sprout.C114_carry_neg_partial",
    "Sprout.C114_carry_neg_undefined",
    "Sprout.C114_carry_neg_false",
    "Sprout.C114_carry_unsigned",
    "Sprout.C114_digits_partial",
    "Sprout.C114_digits_false",
    "Sprout.C114_int_t",
    "Sprout.C114_uint_t_partial",
    "Sprout.C114_uint_t_false",
    "Sprout.C114_int_value_t",
    "Sprout.C114_uint_value_t_partial",
    "Sprout.C114_uint_value_t_false",
    "Sprout.C114_exact"
   ],
   "note": "static_pow (exactly when it compiles and with which value), static_log2, int_t, int_max_value_t, int_min_value_t, the exact types and carry_to_exp2 for unsigned and nonnegative arguments proved. Refuted: static_pow2 beyond 2^30 (shifts an int), static_pow2m1<T,0> = 1, carry_to_exp2 between MIN and MIN/2 is undefined for int and wider, integer_digits one short for the minimum of some signed types, uint_t<65> is signed char, uint_value_t compares with the signed maxima."
  },
  {
   "property": "C115",
   "status": "partial",
   "theorems": [
    "Sprout.C115_div",
    "Sprout.C115_unique",
    "Sprout.C115_access",
    "Sprout.C115_make_false",
    "Sprout.C115_abs_partial",
    "Sprout.C115_abs_false"
   ],
   "note": "Quotient, remainder, uniqueness, element access and abs proved. Refuted: make and remake of the container divide their arguments, so make(7, 2) is {3, 1}; abs of the minimum of signed char and short returns the minimum."
  },
  {
   "property": "C116",
   "status": "partial",
   "theorems": [
    "Sprout.C116_ascending_partial",
    "Sprout.C116_descending_partial",
    "Sprout.C116_sound",
    "Sprout.C116_descending_signed_refuted",
    "Sprout.C116_index_range_refuted",
    "Sprout.C116_negative_refuted",
    "Sprout.C116_difference_refuted",
    "Sprout.C116_narrow_refuted",
    "Sprout.C116_integer_n",
    "Sprout.C116_make_integer_sequence_partial",
    "Sprout.C116_make_index_tuple"
   ],
   "note": "Proved for ascending ranges from a nonnegative start, for descending ranges of wide unsigned and narrow signed types, for integer_n and make_integer_sequence; every range of a wide signed type that compiles is right. Refuted: descending ranges of two or more elements of wide signed types never compile (proved for all), negative odd-length ranges, differences above the signed maximum (compile error or silently empty), narrow unsigned descending, step 0."
  },
  {
   "property": "C117",
   "status": "partial",
   "theorems": [
    "Sprout.C117_quantifiers",
    "Sprout.C117_one_of_partial",
    "Sprout.C117_one_of_refuted",
    "Sprout.C117_tpp_one_of_partial",
    "Sprout.C117_tpp_one_of_refuted",
    "Sprout.C117_tpp_quantifiers",
    "Sprout.C117_tpp_extrema",
    "Sprout.C117_count",
    "Sprout.C117_find_index",
    "Sprout.C117_fold",
    "Sprout.C117_partial_sum",
    "Sprout.C117_transform",
    "Sprout.C117_bounds",
    "Sprout.C117_tuple_cat",
    "Sprout.C117_pop_copy",
    "Sprout.C117_pop_empty",
    "Sprout.C117_back",
    "Sprout.C117_iterators",
    "Sprout.C117_prev_end_refuted"
   ],
   "note": "All proved except: types::one_of and tpp::one_of are right up to two matches (and a nonempty list for types::one_of) and wrong for three; prev and advance of an end iterator do not compile. Integer sequences as tuples are not modelled in the operations."
  },
  {
   "property": "C118",
   "status": "partial",
   "theorems": [
    "Sprout.C118_slice",
    "Sprout.C118_gslice",
    "Sprout.C118_mask",
    "Sprout.C118_indirect",
    "Sprout.C118_elements",
    "Sprout.C118_construct",
    "Sprout.C118_assign",
    "Sprout.C118_assign_value",
    "Sprout.C118_compute",
    "Sprout.C118_assign_other",
    "Sprout.C118_assign_same_slice_false",
    "Sprout.C118_assign_same_indexed_false",
    "Sprout.C118_assign_to_valarray",
    "Sprout.C118_assign_list",
    "Sprout.C118_at",
    "Sprout.C118_slice_at_false",
    "Sprout.C118_slice_at_partial"
   ],
   "note": "Proved: the selected positions of all four subsets, element access, construction, assignment from valarrays, values, lists and subsets of another type, compound assignment. Refuted: assignment between slice_arrays of equal capacity assigns nothing, between equal gslice/mask/indirect arrays does not compile; slice_array::at does not check the index."
  },
  {
   "property": "C119",
   "status": "partial",
   "theorems": [
    "Sprout.C119_construct",
    "Sprout.C119_construct_iter",
    "Sprout.C119_make",
    "Sprout.C119_access",
    "Sprout.C119_empty_false",
    "Sprout.C119_fill",
    "Sprout.C119_resize",
    "Sprout.C119_sum",
    "Sprout.C119_min_max",
    "Sprout.C119_cshift_partial",
    "Sprout.C119_cshift_false",
    "Sprout.C119_shift_partial",
    "Sprout.C119_shift_false",
    "Sprout.C119_shift_size_false",
    "Sprout.C119_transform",
    "Sprout.C119_transform2",
    "Sprout.C119_transform_bool",
    "Sprout.C119_computed_value_false",
    "Sprout.C119_binary_functions_false"
   ],
   "note": "Proved: constructors, access, fill, resize, sum, min, max, transformations, cshift within the size. Refuted: empty is inverted, shift keeps old elements, shifts beyond the size leave the block, compound assignment of a value does not compile, atan2/hypot/pow/log_a of two valarrays read from the end of the second."
  },
  {
   "property": "C120",
   "status": "partial",
   "theorems": [
    "Sprout.C120_values",
    "Sprout.C120_access",
    "Sprout.C120_block",
    "Sprout.C120_dropped",
    "Sprout.C120_taken",
    "Sprout.C120_dropped_end",
    "Sprout.C120_taken_end",
    "Sprout.C120_offset",
    "Sprout.C120_window_partial",
    "Sprout.C120_window_refuted",
    "Sprout.C120_sign",
    "Sprout.C120_reversed",
    "Sprout.C120_transformed",
    "Sprout.C120_clamped",
    "Sprout.C120_transformed2_partial",
    "Sprout.C120_transformed2_refuted",
    "Sprout.C120_jointed",
    "Sprout.C120_alternated",
    "Sprout.C120_alternated_refuted",
    "Sprout.C120_moved_refuted",
    "Sprout.C120_moved_partial",
    "Sprout.C120_adapted_dropped",
    "Sprout.C120_adapted_taken",
    "Sprout.C120_adapted_dropped_end",
    "Sprout.C120_adapted_taken_end",
    "Sprout.C120_adapted_window_partial",
    "Sprout.C120_adapted_offset_any",
    "Sprout.C120_adapted_offset_partial",
    "Sprout.C120_adapted_offset_refuted",
    "Sprout.C120_piped_partial",
    "Sprout.C120_piped_refuted"
   ],
   "note": "Proved: all but moved on nonempty ranges, window and adapted_window with the ends in the wrong order, binary transformed with a shorter second range, adapted_offset with overlapping distances, piped with more than two adaptors, random access in alternated ranges; these are refuted."
  },
  {
   "property": "C121",
   "status": "partial",
   "theorems": [
    "Sprout.C121_counting",
    "Sprout.C121_counting_all",
    "Sprout.C121_counting_ra",
    "Sprout.C121_counting_pipe_partial",
    "Sprout.C121_counting_pipe_refuted",
    "Sprout.C121_counting_diff_refuted",
    "Sprout.C121_counting_from",
    "Sprout.C121_counting_default_refuted",
    "Sprout.C121_filled",
    "Sprout.C121_indexed",
    "Sprout.C121_indexed_end_refuted",
    "Sprout.C121_steps_blanked_refuted",
    "Sprout.C121_removed_refuted",
    "Sprout.C121_add_assign_partial",
    "Sprout.C121_add_assign_refuted"
   ],
   "note": "Proved: counting ranges of all integer types, range|counting where the difference is representable, filled, indexed read from the beginning, += of the classes that call sprout::swap. Refuted: range|counting(first) with negative first, negative differences of unsigned counting iterators, counting_range(range), the index of the end of indexed ranges, steps, blanked, removed, removed_if (do not compile), += of seven iterator classes (does not compile)."
  },
  {
   "property": "C122",
   "status": "partial",
   "theorems": [
    "Sprout.C122_holders",
    "Sprout.C122_construct",
    "Sprout.C122_copy",
    "Sprout.C122_move_partial",
    "Sprout.C122_move_ref_refuted",
    "Sprout.C122_assign",
    "Sprout.C122_assign_value",
    "Sprout.C122_reset",
    "Sprout.C122_swap",
    "Sprout.C122_deref",
    "Sprout.C122_get",
    "Sprout.C122_value_or",
    "Sprout.C122_get_pointer",
    "Sprout.C122_free_get_refuted",
    "Sprout.C122_free_get_partial",
    "Sprout.C122_size",
    "Sprout.C122_at",
    "Sprout.C122_index",
    "Sprout.C122_values",
    "Sprout.C122_reverse_refuted",
    "Sprout.C122_reverse_partial",
    "Sprout.C122_begin_partial",
    "Sprout.C122_begin_refuted",
    "Sprout.C122_max_size_refuted",
    "Sprout.C122_eq",
    "Sprout.C122_lt",
    "Sprout.C122_order",
    "Sprout.C122_nullopt",
    "Sprout.C122_hash",
    "Sprout.C122_io_round_trip",
    "Sprout.C122_read_invalid",
    "Sprout.C122_read_refuted",
    "Sprout.C122_read_fail_refuted"
   ],
   "note": "Proved for objects, references and references to const: all but moving optional<T&> and begin of optional references (do not compile), reverse iteration over a value (undefined), free get and get_pointer of empty optionals, max_size, reading an arithmetic value from a single space (undefined) or failing to read it (overwrites); these are refuted."
  },
  {
   "property": "C123",
   "status": "partial",
   "theorems": [
    "Sprout.C123_default",
    "Sprout.C123_construct",
    "Sprout.C123_construct_none",
    "Sprout.C123_copy_partial",
    "Sprout.C123_copy_refuted",
    "Sprout.C123_assign_value",
    "Sprout.C123_swap",
    "Sprout.C123_get_at",
    "Sprout.C123_get",
    "Sprout.C123_visit",
    "Sprout.C123_output",
    "Sprout.C123_eq",
    "Sprout.C123_lt",
    "Sprout.C123_order"
   ],
   "note": "Proved: all but copy construction and assignment from an lvalue that is not const or an rvalue that is const; these are refuted (do not compile)."
  },
  {
   "property": "C124",
   "status": "partial",
   "theorems": [
    "Sprout.C124_combine_lt",
    "Sprout.C124_combine_injective",
    "Sprout.C124_combine_partial",
    "Sprout.C124_combine_refuted",
    "Sprout.C124_range_lt",
    "Sprout.C124_range_append",
    "Sprout.C124_range_equal",
    "Sprout.C124_range_last",
    "Sprout.C124_pair",
    "Sprout.C124_variant",
    "Sprout.C124_int",
    "Sprout.C124_long_unsigned",
    "Sprout.C124_long_small",
    "Sprout.C124_long_signed_partial",
    "Sprout.C124_long_signed_refuted",
    "Sprout.C124_float_special",
    "Sprout.C124_float_partial",
    "Sprout.C124_float_refuted",
    "Sprout.C124_float_top_refuted"
   ],
   "note": "Proved but for: combination of no values and the hash value of tuple<> (do not compile), signed integers longer than size_t near the maximum (overflow), small subnormal floating numbers (undefined) and the topmost binade (all numbers share a value), which are refuted; the exact hash value of floating numbers is proved for types with at most 64 digits."
  },
  {
   "property": "C125",
   "status": "partial",
   "theorems": [
    "Sprout.C125_values",
    "Sprout.C125_front",
    "Sprout.C125_empty_refuted",
    "Sprout.C125_before_begin_refuted",
    "Sprout.C125_frame",
    "Sprout.C125_push_front",
    "Sprout.C125_pop_front",
    "Sprout.C125_insert_after",
    "Sprout.C125_erase_after",
    "Sprout.C125_erase_range",
    "Sprout.C125_clear",
    "Sprout.C125_unlink",
    "Sprout.C125_unlink_range",
    "Sprout.C125_move_refuted",
    "Sprout.C125_compile_refuted"
   ],
   "note": "Proved: iteration, front, push_front, pop_front, insert_after, erase_after (one item and ranges), unlink, clear, with frame conditions. Refuted: empty is inverted, cbefore_begin is cbegin, the moved-from list keeps its items; before_begin of a const list, insertion of ranges, swap, assign and move assignment do not compile."
  },
  {
   "property": "C126",
   "status": "proved",
   "theorems": [
    "Sprout.C126_logic",
    "Sprout.C126_values",
    "Sprout.C126_equal",
    "Sprout.C126_overloads",
    "Sprout.C126_stream_alpha",
    "Sprout.C126_stream_fail",
    "Sprout.C126_stream_prefix",
    "Sprout.C126_stream_num"
   ],
   "note": "Full. C126_stream_prefix shows that the condition on the names is needed."
  },
  {
   "property": "C127",
   "status": "partial",
   "theorems": [
    "Sprout.C127_subtract",
    "Sprout.C127_uniform_01",
    "Sprout.C127_uniform_01_exact",
    "Sprout.C127_uniform_real_partial",
    "Sprout.C127_uniform_real_defined",
    "Sprout.C127_uniform_real_refuted",
    "Sprout.C127_bernoulli",
    "Sprout.C127_geometric_refuted",
    "Sprout.C127_geometric_partial"
   ],
   "note": "Refuted (C127_uniform_real_refuted, C127_geometric_refuted): equal limits and limits whose difference overflows make uniform_real_distribution loop without end; geometric_distribution::p() converts to the integral type and gives 0; for p below epsilon/4 the quotient of logarithms divides by zero. The rest is proved."
  },
  {
   "property": "C128",
   "status": "partial",
   "theorems": [
    "Sprout.C128_single",
    "Sprout.C128_power_partial",
    "Sprout.C128_const_partial",
    "Sprout.C128_const_refuted",
    "Sprout.C128_range_refuted"
   ],
   "note": "Refuted: the version for constant engines gives -epsilon/2 on the least result and 1 on the greatest (C128_const_refuted); with the range of ecuyer1988 and double the assertion result <= 1 fails (C128_range_refuted). Proved for engines where one result suffices and for ranges that are powers of two."
  },
  {
   "property": "C129",
   "status": "partial",
   "theorems": [
    "Sprout.C129_find",
    "Sprout.C129_find_if_prefix",
    "Sprout.C129_adjacent_first_of",
    "Sprout.C129_search",
    "Sprout.C129_bounds",
    "Sprout.C129_extrema",
    "Sprout.C129_two_ranges_partial",
    "Sprout.C129_two_ranges_refuted",
    "Sprout.C129_short_undefined"
   ],
   "note": "equal, mismatch and is_permutation of two ranges use only begin of the second range (refuted with witnesses: 1 equals 1, 2; a shorter second range is read past its end); proved for ranges of the same length. Everything else proved in full."
  },
  {
   "property": "C130",
   "status": "partial",
   "theorems": [
    "Sprout.C130_inversion",
    "Sprout.C130_law",
    "Sprout.C130_range",
    "Sprout.C130_table",
    "Sprout.C130_mean_refuted",
    "Sprout.C130_mean_partial",
    "Sprout.C130_reject_undefined",
    "Sprout.C130_table_overrun",
    "Sprout.C130_generate_refuted",
    "Sprout.C130_agree_refuted"
   ],
   "note": "Refuted with witnesses: mean() is converted to the integer type (2.5 gives 2); the last test reads the table of ten elements at k >= 10 whenever its first part fails; the version for constant engines omits the factor v_r. Proved: inversion returns the quantile and has the law of Poisson, range of the values, mean() of whole means. Numeric statements are about exact real arithmetic; the distribution of the values of the rejection method is not proved."
  },
  {
   "property": "C131",
   "status": "partial",
   "theorems": [
    "Sprout.C131_inversion",
    "Sprout.C131_law",
    "Sprout.C131_symmetry",
    "Sprout.C131_range",
    "Sprout.C131_ratio",
    "Sprout.C131_fc_refuted",
    "Sprout.C131_fc_partial",
    "Sprout.C131_far_partial",
    "Sprout.C131_p_refuted",
    "Sprout.C131_p_partial",
    "Sprout.C131_const_undefined",
    "Sprout.C131_const_partial",
    "Sprout.C131_agree_refuted"
   ],
   "note": "Refuted with witnesses: p() is converted to the integer type; the table of fc holds factorials instead of corrections; the version for constant engines never ends properly for a value below the mode at a distance of at most 15 (64 trials, p = 1/2, draws 0.9 and 0.4). Proved: inversion and its law, range, the test near the mode, fc from ten on with a sharp bound, the test far from the mode if fc is not asked below ten, agreement of the test near the mode from the mode on. Numeric statements are about exact real arithmetic; the distribution of the values of the rejection method and the two quick tests are not proved."
  },
  {
   "property": "C132",
   "status": "partial",
   "theorems": [
    "Sprout.C132_agree",
    "Sprout.C132_run",
    "Sprout.C132_law",
    "Sprout.C132_reset",
    "Sprout.C132_param",
    "Sprout.C132_eq_refuted",
    "Sprout.C132_eq_partial"
   ],
   "note": "Equality refuted: operator== compares the stored draws even if they are not used any more, so a distribution that was reset differs from a new one; equal distributions generate the same values (proved). Everything else proved in full; the law (theorem of Box and Muller) is about exact real arithmetic."
  },
  {
   "property": "C133",
   "status": "proved",
   "theorems": [
    "Sprout.C133_generate",
    "Sprout.C133_const",
    "Sprout.C133_length",
    "Sprout.C133_init",
    "Sprout.C133_make",
    "Sprout.C133_size"
   ],
   "note": "Word type of exactly 32 bits; the result container of the constant version is an array. param is not modelled."
  },
  {
   "property": "C134",
   "status": "partial",
   "theorems": [
    "Sprout.C134_one_int_partial",
    "Sprout.C134_lcg_partial",
    "Sprout.C134_large_undefined",
    "Sprout.C134_full_refuted",
    "Sprout.C134_zero_undefined",
    "Sprout.C134_const_undefined",
    "Sprout.C134_meant_differs",
    "Sprout.C134_copy_undefined"
   ],
   "note": "Proved for mutable sequences and moduli up to 2^32 or powers of two. Refuted: other moduli always fail an assertion, modulus 0 and the overloads for constant sequences and iterators are ill-formed, and direct initialisation from a non-const engine selects the seeding constructor."
  },
  {
   "property": "C135",
   "status": "partial",
   "theorems": [
    "Sprout.C135_range",
    "Sprout.C135_range_refuted",
    "Sprout.C135_range_partial",
    "Sprout.C135_advance",
    "Sprout.C135_distance",
    "Sprout.C135_result",
    "Sprout.C135_eq",
    "Sprout.C135_variate",
    "Sprout.C135_reference_undefined",
    "Sprout.C135_make_range_undefined",
    "Sprout.C135_array",
    "Sprout.C135_array_const_partial",
    "Sprout.C135_array_const_undefined",
    "Sprout.C135_seed_seq_partial",
    "Sprout.C135_seed_seq_undefined"
   ],
   "note": "Sequences proved. Refuted: a range of n values draws n + 1; variate_generator for a mutable reference and make_range(engine) are ill-formed; generate_array and make_seed_seq have no size 0 in their constant versions."
  },
  {
   "property": "C136",
   "status": "partial",
   "theorems": [
    "Sprout.C136_arithmetic",
    "Sprout.C136_normalize",
    "Sprout.C136_normalize_zero",
    "Sprout.C136_resize",
    "Sprout.C136_reflect",
    "Sprout.C136_refract_total",
    "Sprout.C136_refract",
    "Sprout.C136_cross_refuted",
    "Sprout.C136_cross_partial",
    "Sprout.C136_detached"
   ],
   "note": "Everything except cross proved over the reals. Refuted: cross is not the vector product (second component); proved exactly for which vectors it is."
  },
  {
   "property": "C137",
   "status": "partial",
   "theorems": [
    "Sprout.C137_sphere_hit",
    "Sprout.C137_sphere_point",
    "Sprout.C137_sphere_material",
    "Sprout.C137_sphere_total",
    "Sprout.C137_plane_refuted",
    "Sprout.C137_plane_partial",
    "Sprout.C137_plane_on",
    "Sprout.C137_plane_inside",
    "Sprout.C137_plane_material",
    "Sprout.C137_plane_total",
    "Sprout.C137_triangle_horizontal",
    "Sprout.C137_triangle_wrong",
    "Sprout.C137_triangle_refuted",
    "Sprout.C137_triangle_partial",
    "Sprout.C137_list"
   ],
   "note": "Spheres and lists proved; planes for rays that do not start on them; triangles for those whose normal is perpendicular to (0,1,1), where cross is right. Refuted: planes for rays starting on them; horizontal triangles cannot be made, other triangles are hit at wrong points."
  },
  {
   "property": "C138",
   "status": "partial",
   "theorems": [
    "Sprout.C138_colors",
    "Sprout.C138_to_rgb",
    "Sprout.C138_decode",
    "Sprout.C138_bilinear",
    "Sprout.C138_plaid_refuted",
    "Sprout.C138_plaid_partial",
    "Sprout.C138_make_plaid_undefined",
    "Sprout.C138_make_texture_map_undefined",
    "Sprout.C138_tile_refuted",
    "Sprout.C138_tile_partial",
    "Sprout.C138_tile_bilinear_refuted",
    "Sprout.C138_tile_bilinear_partial",
    "Sprout.C138_once",
    "Sprout.C138_ambient",
    "Sprout.C138_shadow_refuted",
    "Sprout.C138_point_partial",
    "Sprout.C138_parallel_partial",
    "Sprout.C138_intensity",
    "Sprout.C138_light_list"
   ],
   "note": "Proved except: plaid and tile on negative grid lines (refuted), bilinear tiles left of 0 (refuted), shadows if the nearest surface is closer than epsilon (refuted), make_plaid with a scale that is not double and make_texture_map without a default colour are ill-formed."
  },
  {
   "property": "C139",
   "status": "partial",
   "theorems": [
    "Sprout.C139_camera",
    "Sprout.C139_camera_refuted",
    "Sprout.C139_camera_partial",
    "Sprout.C139_center_refuted",
    "Sprout.C139_gradation",
    "Sprout.C139_render",
    "Sprout.C139_whitted",
    "Sprout.C139_diffuse",
    "Sprout.C139_total_refuted",
    "Sprout.C139_exit",
    "Sprout.C139_exit_refuted",
    "Sprout.C139_miss_refuted",
    "Sprout.C139_miss_partial",
    "Sprout.C139_generate",
    "Sprout.C139_scene"
   ],
   "note": "Whitted's equation, bounds, totality for spheres and planes in ambient and parallel light, square pixels, generate proved. Refuted: view plane of a tilted camera, vertical cameras, symmetry, Snell's law at the exit, total reflection without reflection, rays that hit nothing with a point light in the origin."
  },
  {
   "property": "C140",
   "status": "partial",
   "theorems": [
    "Sprout.C140_lpf",
    "Sprout.C140_hpf",
    "Sprout.C140_resonator",
    "Sprout.C140_lpf_gain",
    "Sprout.C140_hpf_gain",
    "Sprout.C140_resonator_gain",
    "Sprout.C140_notch_partial",
    "Sprout.C140_notch_refuted",
    "Sprout.C140_bpf_partial",
    "Sprout.C140_bef_partial",
    "Sprout.C140_bpf_refuted",
    "Sprout.C140_bef_refuted",
    "Sprout.C140_band_intended",
    "Sprout.C140_low_shelving_partial",
    "Sprout.C140_low_shelving_refuted",
    "Sprout.C140_high_shelving_partial",
    "Sprout.C140_high_shelving_refuted",
    "Sprout.C140_peaking_partial",
    "Sprout.C140_peaking_refuted",
    "Sprout.C140_apply",
    "Sprout.C140_steady",
    "Sprout.C140_real"
   ],
   "note": "iir_lpf, iir_hpf, iir_resonator: full frequency response, gains and stability proved; apply_iir: difference equation and response to exponentials proved. Refuted: iir_bpf, iir_bef (centre misplaced by a factor pi), iir_notch (is a low-pass filter), iir_low_shelving, iir_high_shelving, iir_peaking (gains wrong even for g = 0); for these the actual responses or gains, and stability, are proved (partial)."
  },
  {
   "property": "C141",
   "status": "partial",
   "theorems": [
    "Sprout.C141_clamp",
    "Sprout.C141_clamp_mono",
    "Sprout.C141_rectify",
    "Sprout.C141_distort",
    "Sprout.C141_fuzz",
    "Sprout.C141_overdriveClip",
    "Sprout.C141_overdrive",
    "Sprout.C141_noiseGate",
    "Sprout.C141_compress_partial",
    "Sprout.C141_compress_zero",
    "Sprout.C141_compress_refuted",
    "Sprout.C141_volume",
    "Sprout.C141_pcmSigned",
    "Sprout.C141_pcmUnsigned",
    "Sprout.C141_superpose",
    "Sprout.C141_superpose_short",
    "Sprout.C141_channels_refuted",
    "Sprout.C141_channels_intended"
   ],
   "note": "All effects on samples, as_pcm_wave and superposed proved. Refuted: left_channel and right_channel (a template parameter cannot be deduced, so neither can be used, and with them effected_each_cannel and vocal_cancelled; the intended templates are proved right), compressed with a threshold above full scale (proved for 0 < threshold <= 1); superposed with a shorter range reads beyond its end."
  },
  {
   "property": "C142",
   "status": "partial",
   "theorems": [
    "Sprout.C142_tremolo",
    "Sprout.C142_autoPan",
    "Sprout.C142_autoPan_range",
    "Sprout.C142_pseudoStereo_partial",
    "Sprout.C142_pseudoStereo_refuted",
    "Sprout.C142_pseudoStereo_negative",
    "Sprout.C142_reverb_partial",
    "Sprout.C142_reverb_refuted",
    "Sprout.C142_vibrato_partial",
    "Sprout.C142_chorus",
    "Sprout.C142_vibrato_refuted",
    "Sprout.C142_vibrato_last",
    "Sprout.C142_vibrato_bound"
   ],
   "note": "tremolo, auto_pan, chorus in terms of vibrato: proved for all parameters. Partial: pseudo_stereo once the delayed signal has begun (before that both channels are silent: refuted), reverbed for delays of a whole number of samples (for others the first sample is echoed twice: refuted), vibrato where there are samples on both sides (between -1 and 0 it extrapolates beyond the bounds of the signal, the last sample is lost: refuted)."
  },
  {
   "property": "C143",
   "status": "partial",
   "theorems": [
    "Sprout.C143_wave_iterator",
    "Sprout.C143_wave_range",
    "Sprout.C143_wave_bound",
    "Sprout.C143_wave_period",
    "Sprout.C143_wave_fixed",
    "Sprout.C143_dft_undefined",
    "Sprout.C143_dft_refuted",
    "Sprout.C143_dft_partial",
    "Sprout.C143_noise_range",
    "Sprout.C143_noise_pipe_partial",
    "Sprout.C143_noise_refuted"
   ],
   "note": "Waves: proved for all parameters. Refuted: dft_iterator and idft_iterator cannot be advanced or compared, hence range | dft, range | idft cannot be traversed (partial: operator* and operator[] are the coefficients); range | white_noise(gen, sigma) begins after the first two values (partial: this is what is proved; white_noise_range made with the range has all values)."
  },
  {
   "property": "C144",
   "status": "partial",
   "theorems": [
    "Sprout.C144_bezier",
    "Sprout.C144_bezierN",
    "Sprout.C144_bezier_hull",
    "Sprout.C144_bezier_ends",
    "Sprout.C144_bezier_reverse",
    "Sprout.C144_bezier_tangent",
    "Sprout.C144_catmull",
    "Sprout.C144_catmull_unique",
    "Sprout.C144_catmull_start_end",
    "Sprout.C144_catmull_join",
    "Sprout.C144_catmull_int_refuted",
    "Sprout.C144_catmull_int_partial"
   ],
   "note": "Real coordinates: proved for all points and parameters. Refuted: splines through points with integral coordinates, which miss the third point (partial: even coordinates). Two points (a line) and more than six are not supported by bezier."
  },
  {
   "property": "C145",
   "status": "partial",
   "theorems": [
    "Sprout.C145_bind_partial",
    "Sprout.C145_positional",
    "Sprout.C145_literal",
    "Sprout.C145_const_ref_refuted",
    "Sprout.C145_tail_refuted",
    "Sprout.C145_tail_refuted'",
    "Sprout.C145_res_tail_refuted",
    "Sprout.C145_literal_tail_refuted"
   ],
   "note": "Proved for expressions of any nesting, all four kinds of binders, const or not, empty and multiple tails, provided that tails begin in the arguments, bind<R> has no tails, and const objects made by bind or cbind have no ref. Each condition is needed: refuted by witnesses. The literals k_tail are refuted; k_ and _ are proved. Volatile objects are not modelled."
  },
  {
   "property": "C146",
   "status": "partial",
   "theorems": [
    "Sprout.C146_join",
    "Sprout.C146_join_seq",
    "Sprout.C146_join_sep_partial",
    "Sprout.C146_content",
    "Sprout.C146_join_strings_partial",
    "Sprout.C146_join_sep_empty_refuted",
    "Sprout.C146_join_sep_zero_refuted",
    "Sprout.C146_join_seq_sep_refuted"
   ],
   "note": "Proved: join without separator for random access and other iterators (result padded with value_type()); with separator for random access iterators, at least one container and a capacity above 0; contents of strings without null characters. Refuted: separators for other iterators (ill-formed), for no containers (ill-formed) and for strings without capacity (separators lost)."
  },
  {
   "property": "C147",
   "status": "proved",
   "theorems": [
    "Sprout.C147_while_loop",
    "Sprout.C147_until_loop",
    "Sprout.C147_fold_while",
    "Sprout.C147_fold_until",
    "Sprout.C147_of_equal"
   ],
   "note": "Loops are compared with a relation (the sequence of values up to the exit), including loops that do not end and operations with undefined behaviour. Counters are unbounded. Equality of elements is a lawful comparison."
  },
  {
   "property": "C148",
   "status": "partial",
   "theorems": [
    "Sprout.C148_doubling",
    "Sprout.C148_find_input",
    "Sprout.C148_accumulate_input",
    "Sprout.C148_find_intersection",
    "Sprout.C148_find",
    "Sprout.C148_all_of",
    "Sprout.C148_any_of",
    "Sprout.C148_count",
    "Sprout.C148_accumulate",
    "Sprout.C148_lower_bound",
    "Sprout.C148_mask_index_refuted"
   ],
   "note": "Proved with constants: ceil(log2 N) + 1 for halving recursions, 2 ceil(log2(N + 1)) + 1 for doubling recursions (for any step that lowers a measure; instances find, accumulate, find_intersection), ceil(log2(N + 1)) + 1 for bisection; values agree with the models without depth. Calls of predicates, next and reads are not counted. Refuted for mask_index, whose depth is N + 1."
  },
  {
   "property": "C149",
   "status": "partial",
   "theorems": [
    "Sprout.C149_int",
    "Sprout.C149_complex",
    "Sprout.C149_complex_real",
    "Sprout.C149_complex_refuted",
    "Sprout.C149_complex_fail_refuted",
    "Sprout.C149_quaternion",
    "Sprout.C149_quaternion_real_partial",
    "Sprout.C149_quaternion_pair",
    "Sprout.C149_quaternion_refuted",
    "Sprout.C149_quaternion_pair_refuted",
    "Sprout.C149_rational",
    "Sprout.C149_rational_read",
    "Sprout.C149_holder",
    "Sprout.C149_holder_refuted",
    "Sprout.C149_lcg",
    "Sprout.C149_lcg_range",
    "Sprout.C149_lfsr",
    "Sprout.C149_pair",
    "Sprout.C149_shuffle",
    "Sprout.C149_lfsr_refuted",
    "Sprout.C149_shuffle_refuted"
   ],
   "note": "Round trips proved for all of them (a number alone read as a quaternion: only if something follows). Reading fractions and linear congruential engines is characterised for every input. Refuted: complex, quaternion ((a,b), and value holder read an uninitialised variable at the end of the stream; a quaternion read from a number at the end of the stream is not assigned; complex is assigned on failure; linear feedback shift engines accept 0 and shuffle-order engines a last value that leads out of the table. Reading and writing of numbers is abstract with decimal integers as instance; the modulus of engines is not 0; no locale, no exceptions of streams."
  },
  {
   "property": "C150",
   "status": "partial",
   "theorems": [
    "Sprout.C150_string_read",
    "Sprout.C150_string_partial",
    "Sprout.C150_string_write",
    "Sprout.C150_string_refuted",
    "Sprout.C150_string_fail",
    "Sprout.C150_bitset",
    "Sprout.C150_bitset_read",
    "Sprout.C150_bitset_refuted",
    "Sprout.C150_uuid_read",
    "Sprout.C150_uuid_partial",
    "Sprout.C150_uuid_total",
    "Sprout.C150_uuid_left_refuted",
    "Sprout.C150_uuid_showbase_refuted",
    "Sprout.C150_uuid_width_refuted"
   ],
   "note": "Reading of a word is characterised for every old string (null characters where the old string ended); it is right for words not longer than the old string. Bitset: round trip and reading of shorter texts proved; that failure is reported is refuted. Uuid: reading is total and yields 16 bytes or fails without change; round trip proved unless left or showbase is set, refuted with them; the width is ignored when no adjustment is set. skipws is set; stream exceptions and locales are not modelled."
  },
  {
   "property": "C151",
   "status": "partial",
   "theorems": [
    "Sprout.C151_unique",
    "Sprout.C151_make",
    "Sprout.C151_make2",
    "Sprout.C151_ptr",
    "Sprout.C151_deref",
    "Sprout.C151_at",
    "Sprout.C151_add",
    "Sprout.C151_sub",
    "Sprout.C151_inc",
    "Sprout.C151_dec",
    "Sprout.C151_compare_partial",
    "Sprout.C151_compare",
    "Sprout.C151_add_sub",
    "Sprout.C151_compare_refuted",
    "Sprout.C151_end_refuted",
    "Sprout.C151_convert_refuted"
   ],
   "note": "Proved for all operations; comparisons and differences for iterators made from the same pointer, and by how much they are off otherwise. Refuted: == compares indices only, so iterators to the same element may differ and iterators to different elements be equal; the conversion names ptr_index_iterator<T const*> and is ill-formed. Indices are unbounded; volatile is left out."
  },
  {
   "property": "C152",
   "status": "partial",
   "theorems": [
    "Sprout.C152_recurrence_partial",
    "Sprout.C152_half_refuted",
    "Sprout.C152_factorial",
    "Sprout.C152_pos_partial",
    "Sprout.C152_large_refuted",
    "Sprout.C152_huge_refuted",
    "Sprout.C152_poles"
   ],
   "note": "In exact real arithmetic. Proved: the functional equation for all x between 3/2 - lim and lim + 3/2 (lim = factorial_limit, 170) except 3/2, where the ends of the polynomial meet and it holds to 1e-15 only; the factorials up to the last coefficient of the polynomial; positivity below lim + 5/2; poles. Refuted: from lim + 6 on the result is negative (the polynomial is used far outside of its interval), and arguments that do not fit int throw. How well the polynomial approximates 1/gamma(w + 2) between integers is not proved."
  },
  {
   "property": "C153",
   "status": "partial",
   "theorems": [
    "Sprout.C153_pieces",
    "Sprout.C153_piece_partial",
    "Sprout.C153_piece_refuted",
    "Sprout.C153_accuracy_refuted",
    "Sprout.C153_reflection",
    "Sprout.C153_one_two",
    "Sprout.C153_poles"
   ],
   "note": "In exact real arithmetic. Proved: the choice of the polynomial from 1.886 to 8; that adjacent polynomials agree to 1e-15; that the reflection is exact with respect to the gamma function of Mathlib; the values at 1 and 2; poles. Refuted: between 1/2 and 1.886 the index is truncated where it should be rounded down, the next polynomial is used outside of its interval, and the result is off by more than 2.9e-9 near 1. The error elsewhere is not proved."
  },
  {
   "property": "C154",
   "status": "partial",
   "theorems": [
    "Sprout.C154_accuracy",
    "Sprout.C154_odd",
    "Sprout.C154_pos",
    "Sprout.C154_range",
    "Sprout.C154_saturate",
    "Sprout.C154_erfc_partial",
    "Sprout.C154_erfc_symm",
    "Sprout.C154_erfc_range",
    "Sprout.C154_erfc_refuted"
   ],
   "note": "In exact real arithmetic, against the integral of exp(-s^2). Proved for all x: the error of erf, oddness, sign, range; erfc to 1e-18 and its symmetry. Refuted: from 6.9 on erfc is zero, so that its relative error is one. Rounding is not modelled."
  },
  {
   "property": "C155",
   "status": "partial",
   "theorems": [
    "Sprout.C155_string",
    "Sprout.C155_view_partial",
    "Sprout.C155_view_refuted",
    "Sprout.C155_view_end_refuted",
    "Sprout.C155_idx_partial",
    "Sprout.C155_idx_refuted"
   ],
   "note": "Proved: for strings; for views followed by a terminator; with idx for types of 64 bits where str_to_int agrees with strtol, without a minus sign. Refuted: a view that is not followed by a terminator is read past its end (into other digits, or out of the array); with idx, narrower types are converted from long, modulo 2^w, where without idx they saturate. The position stored in idx is not modelled; strtol is taken from the specification."
  },
  {
   "property": "C156",
   "status": "partial",
   "theorems": [
    "Sprout.C156_eq",
    "Sprout.C156_lex",
    "Sprout.C156_order",
    "Sprout.C156_rel",
    "Sprout.C156_assign_partial",
    "Sprout.C156_assign_refuted",
    "Sprout.C156_assign_types_refuted",
    "Sprout.C156_get",
    "Sprout.C156_swap",
    "Sprout.C156_swap_nested",
    "Sprout.C156_swap_array"
   ],
   "note": "Proved: equality, dictionary order, strict weak order, construction, assignment from pairs and moved tuples, access by number, swap of pairs and arrays. Refuted: the assignment from a const tuple takes the element 0 twice. Swap of an object with itself and exceptions are not modelled."
  },
  {
   "property": "C157",
   "status": "partial",
   "theorems": [
    "Sprout.C157_switch",
    "Sprout.C157_values_partial",
    "Sprout.C157_swap_partial",
    "Sprout.C157_empty_second_refuted",
    "Sprout.C157_single",
    "Sprout.C157_single_refuted"
   ],
   "note": "Proved: for all versions but that for an empty second type and a first that is not. Refuted: that version is derived from the first type and initialises the second, which is ill-formed; a pair constructed from its first value leaves the second indeterminate if default-initialisation does. Classes derived from one another and types that differ in cv only are not modelled."
  },
  {
   "property": "C158",
   "status": "partial",
   "theorems": [
    "Sprout.C158_domain",
    "Sprout.C158_odd",
    "Sprout.C158_asin",
    "Sprout.C158_complement",
    "Sprout.C158_acos",
    "Sprout.C158_exact",
    "Sprout.C158_sign",
    "Sprout.C158_long_double_refuted",
    "Sprout.C158_impl_odd"
   ],
   "note": "Proved over the reals, with exact sqrt and pi: relative error at most 2.7e-14 of both on [-1, 1], domain, oddness, signs, exact values at 0 and +-1, acos = pi/2 - asin. The numerical error is near 2e-17 (not proved). Refuted: the accuracy of long double; at 1/2 the error exceeds 1e-17. Rounding is not modelled."
  },
  {
   "property": "C159",
   "status": "partial",
   "theorems": [
    "Sprout.C159_partial",
    "Sprout.C159_symbol_refuted",
    "Sprout.C159_octal_refuted",
    "Sprout.C159_other_refuted"
   ],
   "note": "Proved: for texts without the symbol 0x815B and without other characters of two bytes whose second byte is a bracket or the first byte of a symbol. Refuted: 0x815B is misspelt as an octal escape and becomes a blank and '['; other characters such as 0x835B are read as a blank and '['. Characters are taken as bytes from 0 to 255; exec_range is the brainfuck machine of C41 on the translation."
  },
  {
   "property": "C160",
   "status": "partial",
   "theorems": [
    "Sprout.C160_ill_formed_refuted",
    "Sprout.C160_max",
    "Sprout.C160_const_partial",
    "Sprout.C160_zero_refuted",
    "Sprout.C160_call_refuted"
   ],
   "note": "Refuted: max() calls min of an int and a size_t, which is ill-formed; with equal types, the non-const operator lacks a pair of parentheses and never gives 0. Proved for equal types: max() has all bits set, the const operator is uniform. Rounding is not modelled."
  },
  {
   "property": "C161",
   "status": "partial",
   "theorems": [
    "Sprout.C161_nodes_partial",
    "Sprout.C161_vector_partial",
    "Sprout.C161_vector_refuted",
    "Sprout.C161_kinds_refuted",
    "Sprout.C161_back",
    "Sprout.C161_front",
    "Sprout.C161_remake",
    "Sprout.C161_agree",
    "Sprout.C161_front_refuted"
   ],
   "note": "Proved: assignments in lists of nodes, at the back and at the front; the copies, their number of elements, and that they agree with the assignments but at the front. Refuted: in a vector the second assignment uses an invalid iterator; at the front the copy keeps the order that assignments reverse. Copies are taken to have room for all elements; containers are those of the standard library."
  },
  {
   "property": "C162",
   "status": "partial",
   "theorems": [
    "Sprout.C162_flex_partial",
    "Sprout.C162_recursive_partial",
    "Sprout.C162_recursive_refuted",
    "Sprout.C162_flex_levels",
    "Sprout.C162_same"
   ],
   "note": "Proved: flex on the outer level, recursive_flex on two levels, and that whatever is converted is converted as specified. Refuted: recursive_flex applies flex to the elements, so on the third level the numbers of elements must agree."
  },
  {
   "property": "C163",
   "status": "partial",
   "theorems": [
    "Sprout.C163_partial",
    "Sprout.C163_char32_refuted",
    "Sprout.C163_false"
   ],
   "note": "Proved for all types but char32_t. Refuted: the limits of char32_t are cast to char16_t. The macros of the C headers are taken to have the right values."
  },
  {
   "property": "C164",
   "status": "partial",
   "theorems": [
    "Sprout.C164_state",
    "Sprout.C164_arith",
    "Sprout.C164_bounds",
    "Sprout.C164_steps",
    "Sprout.C164_elements",
    "Sprout.C164_order_partial",
    "Sprout.C164_null_order_refuted",
    "Sprout.C164_arrays_refuted",
    "Sprout.C164_swap_refuted"
   ],
   "note": "Proved: state, arithmetic, bounds, steps, elements, order and equality inside an array. Refuted: swap is ill-formed; null and pointers into different arrays are not ordered. Conversions between pointers to different types are not modelled."
  },
  {
   "property": "C165",
   "status": "partial",
   "theorems": [
    "Sprout.C165_sigmoid",
    "Sprout.C165_range",
    "Sprout.C165_derivative_partial",
    "Sprout.C165_second_partial",
    "Sprout.C165_large",
    "Sprout.C165_signs",
    "Sprout.C165_refuted"
   ],
   "note": "Proved in exact arithmetic: values, range, symmetry, first and second derivatives with and without slope. Refuted with rounding: from 37 on both derivatives are 0, a relative error of 1. Bounds on the error for other arguments are missing; overflow is not modelled."
  },
  {
   "property": "C166",
   "status": "partial",
   "theorems": [
    "Sprout.C166_convert",
    "Sprout.C166_shrink",
    "Sprout.C166_room",
    "Sprout.C166_literal_partial",
    "Sprout.C166_holder_refuted"
   ],
   "note": "Proved for strings, and for literals with a given capacity. Refuted: shrink of a literal without a capacity is ill-formed."
  },
  {
   "property": "C167",
   "status": "partial",
   "theorems": [
    "Sprout.C167_static",
    "Sprout.C167_static_refuted",
    "Sprout.C167_partial",
    "Sprout.C167_dynamic_partial",
    "Sprout.C167_array_refuted",
    "Sprout.C167_adapted_refuted",
    "Sprout.C167_vector_refuted",
    "Sprout.C167_false"
   ],
   "note": "Proved: the static size if all parts have one; copies for an adapted range joined with an array and for a vector joined with anything but an array. Refuted: an array on the left has no type of copies; two adapted arrays give the size of the left one; a vector and an array give the size of the array."
  },
  {
   "property": "C168",
   "status": "proved",
   "theorems": [
    "Sprout.C168_unique",
    "Sprout.C168_arithmetic",
    "Sprout.C168_arithmetic_order",
    "Sprout.C168_float",
    "Sprout.C168_float_unique",
    "Sprout.C168_compute",
    "Sprout.C168_single"
   ],
   "note": "The integral promotions and the usual arithmetic conversions of the language are part of the trusted base. char, wchar_t, char16_t and char32_t are not modelled. One type alone is not promoted by arithmetic_promote (C168_single)."
  },
  {
   "property": "C169",
   "status": "partial",
   "theorems": [
    "Sprout.C169_values_partial",
    "Sprout.C169_result",
    "Sprout.C169_generate",
    "Sprout.C169_iterators_refuted",
    "Sprout.C169_iterators_intended",
    "Sprout.C169_generator_iterator",
    "Sprout.C169_generate_skips",
    "Sprout.C169_generate_refuted"
   ],
   "note": "C169_values_partial and C169_generate prove the property for callable objects and results, C169_generator_iterator for stepping a generator_iterator. It fails for iterators and pointers (C169_iterators_refuted) and for generate with a generator_iterator (C169_generate_refuted, C169_generate_skips)."
  },
  {
   "property": "C170",
   "status": "partial",
   "theorems": [
    "Sprout.C170_front",
    "Sprout.C170_subscript",
    "Sprout.C170_at",
    "Sprout.C170_at_throws",
    "Sprout.C170_back_partial",
    "Sprout.C170_back_first",
    "Sprout.C170_back_refuted",
    "Sprout.C170_at_wf_partial",
    "Sprout.C170_at_wf_refuted"
   ],
   "note": "Proved for front, subscript_at and at (C170_front, C170_subscript, C170_at, C170_at_throws). back of a mutable container without the member and without castable references is the first element (C170_back_first, C170_back_refuted; C170_back_partial covers all others). at is ill-formed for containers whose subscript can be applied to mutable ones only (C170_at_wf_refuted; C170_at_wf_partial covers the others)."
  },
  {
   "property": "C171",
   "status": "partial",
   "theorems": [
    "Sprout.C171_range_partial",
    "Sprout.C171_range_refuted",
    "Sprout.C171_order",
    "Sprout.C171_silence",
    "Sprout.C171_again8",
    "Sprout.C171_again16",
    "Sprout.C171_again_refuted"
   ],
   "note": "Range proved for 8 and 16 bits (C171_range_partial), refuted for 24 bits (C171_range_refuted). Order and silence proved. Written again, every sample but 0 changes by one (C171_again8, C171_again16, C171_again_refuted)."
  },
  {
   "property": "C172",
   "status": "partial",
   "theorems": [
    "Sprout.C172_count_n_if",
    "Sprout.C172_count_n_if_undefined",
    "Sprout.C172_count_n",
    "Sprout.C172_equiv",
    "Sprout.C172_equiv_iff",
    "Sprout.C172_forward_partial",
    "Sprout.C172_forward_refuted"
   ],
   "note": "count_n, count_n_if and the equivalence are proved. The value categories matter if the comparison takes its parameters by value and the arguments are rvalues (C172_forward_refuted); C172_forward_partial covers the other cases."
  },
  {
   "property": "C173",
   "status": "proved",
   "theorems": [
    "Sprout.C173_nocase",
    "Sprout.C173_not",
    "Sprout.C173_equivalence",
    "Sprout.C173_converted",
    "Sprout.C173_upper"
   ],
   "note": "Both characters have the same type; the table of the classes is the one of C42."
  }
 ]
}

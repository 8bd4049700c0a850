{"id": "C01", "title": "sort orders every range", "statement": "For every random-access range and every strict weak ordering comp, sprout::sort(first,last,comp) terminates without touching any position outside [first,last), leaves a permutation of the original elements, and the result is sorted (no later element compares less than an earlier one).", "quantifier": "all element types, all finite sequences (any length, any multiplicity), all strict weak orders", "why_tests_cant": "The algorithm switches between 0..5-element networks, insertion sort below 31, a 3-median or 5-median pivot at 1000, an unguarded partition and an early-exit insertion pass; the unguarded scans are only safe by an invariant over all inputs, which finite tests can never exhaust.", "anchors": ["sprout/algorithm/cxx14/sort.hpp: sort, detail::sort_impl", "sprout/algorithm/cxx14/detail/sort_tool.hpp: sort3/sort4/sort5", "sprout/algorithm/cxx14/detail/insertion_sort.hpp"]}
{"id": "C02", "title": "stable_sort is the stable sort", "statement": "sprout::stable_sort(first,last,comp) yields exactly the unique stable sorted permutation: elements that compare equivalent keep their original relative order; it stays inside [first,last) and terminates.", "quantifier": "all finite sequences, all strict weak orders", "why_tests_cant": "Stability depends on the interplay of lower_bound/upper_bound and rotations across all recursive splits; tests fix particular keys and lengths.", "anchors": ["sprout/algorithm/cxx14/stable_sort.hpp: stable_sort", "sprout/algorithm/cxx14/inplace_merge.hpp: inplace_merge"]}
{"id": "C03", "title": "nth_element places the n-th order statistic", "statement": "After nth_element(first,nth,last,comp) with nth in [first,last), the range is a permutation of the input, no element before nth is greater than *nth and no element after nth is smaller than *nth; no access leaves [first,last).", "quantifier": "all finite sequences, all valid nth, all strict weak orders", "why_tests_cant": "Unguarded partition scans and the early-exit checks need an invariant over all inputs.", "anchors": ["sprout/algorithm/cxx14/nth_element.hpp: nth_element"]}
{"id": "C04", "title": "partial_sort puts the smallest elements in order in front", "statement": "After partial_sort(first,middle,last,comp), [first,middle) is sorted, no element of [middle,last) is less than any element of [first,middle), and the whole range is a permutation of the input; partial_sort_copy writes the min(n,m) smallest elements in sorted order.", "quantifier": "all finite sequences, all valid middles / result sizes, all strict weak orders", "why_tests_cant": "Correctness rests on heap invariants preserved by an unbounded number of sift operations.", "anchors": ["sprout/algorithm/cxx14/partial_sort.hpp: partial_sort", "sprout/algorithm/cxx14/partial_sort_copy.hpp: partial_sort_copy", "sprout/algorithm/cxx14/detail/heap_tool.hpp"]}
{"id": "C05", "title": "heap operations maintain the heap and sort", "statement": "make_heap turns any range into a max-heap; push_heap extends a heap by the last element; pop_heap moves a maximum to the end and leaves a heap in front; sort_heap turns a heap into a sorted range; each permutes its range and never leaves it.", "quantifier": "all finite sequences, all strict weak orders", "why_tests_cant": "The heap invariant quantifies over every parent/child pair of ranges of any length; tests check a few sizes.", "anchors": ["sprout/algorithm/cxx14/make_heap.hpp: make_heap", "sprout/algorithm/cxx14/push_heap.hpp: push_heap", "sprout/algorithm/cxx14/pop_heap.hpp: pop_heap", "sprout/algorithm/cxx14/sort_heap.hpp: sort_heap", "sprout/algorithm/cxx14/detail/heap_tool.hpp"]}
{"id": "C06", "title": "is_heap recognises exactly the heaps", "statement": "is_heap(first,last,comp) returns true iff no element compares greater than its parent, and is_heap_until returns the first position whose element compares greater than its parent (or last).", "quantifier": "all finite sequences, all strict weak orders", "why_tests_cant": "Heaps with equal parent/child keys are a measure-zero corner in random tests; the claim is about all sequences.", "anchors": ["sprout/algorithm/is_heap_until.hpp: is_heap_until", "sprout/algorithm/is_heap.hpp: is_heap"]}
{"id": "C07", "title": "merge and inplace_merge are stable merges", "statement": "Given two sorted inputs, merge writes, and inplace_merge produces in place, the stable merge: the output is sorted, is a permutation of both inputs, and on ties elements of the first input precede those of the second, each in original order.", "quantifier": "all pairs of sorted finite sequences, all strict weak orders", "why_tests_cant": "inplace_merge recurses through rotations at data-dependent cut points; stability and coverage must hold for each cut.", "anchors": ["sprout/algorithm/cxx14/merge.hpp: merge", "sprout/algorithm/cxx14/inplace_merge.hpp: inplace_merge"]}
{"id": "C08", "title": "rotate performs the left rotation", "statement": "rotate(first,middle,last) replaces the range by [middle,last) followed by [first,middle) and returns first+(last-middle), for forward iterators, with all accesses inside the range.", "quantifier": "all finite sequences, all middles in [first,last]", "why_tests_cant": "The swap-cycling loop resets its pivot a data-length dependent (gcd-like) number of times; tests cover a few lengths.", "anchors": ["sprout/algorithm/cxx14/rotate.hpp: rotate"]}
{"id": "C09", "title": "reverse and the element-moving primitives", "statement": "reverse reverses the range, reverse_copy writes the reversal, swap_ranges exchanges the two ranges, copy_backward copies ranges correctly even when the destination overlaps to the right of the source.", "quantifier": "all finite sequences and all (permitted) overlaps", "why_tests_cant": "Overlap behaviour depends on iteration order for every length and offset.", "anchors": ["sprout/algorithm/cxx14/reverse.hpp: reverse", "sprout/algorithm/cxx14/reverse_copy.hpp: reverse_copy", "sprout/algorithm/cxx14/swap_ranges.hpp: swap_ranges", "sprout/algorithm/cxx14/copy_backward.hpp: copy_backward"]}
{"id": "C10", "title": "next_permutation steps to the lexicographic successor", "statement": "next_permutation turns a range into the lexicographically next greater permutation of the same multiset and returns true, or, if none exists, produces the sorted (smallest) arrangement and returns false; prev_permutation is its mirror image.", "quantifier": "all finite sequences over any strict total order", "why_tests_cant": "There are factorially many arrangements; that no arrangement lies strictly between input and output is a universal statement.", "anchors": ["sprout/algorithm/cxx14/next_permutation.hpp: next_permutation", "sprout/algorithm/cxx14/prev_permutation.hpp: prev_permutation"]}
{"id": "C11", "title": "partition and stable_partition separate by predicate", "statement": "partition permutes the range so that all elements satisfying pred come first and returns the boundary; stable_partition additionally keeps the relative order inside both groups; gather collects the satisfying elements stably around the pivot.", "quantifier": "all finite sequences, all predicates, all pivots", "why_tests_cant": "Both forward and bidirectional algorithms have data-dependent control flow; stability is a relation between all pairs of elements.", "anchors": ["sprout/algorithm/cxx14/partition.hpp: partition", "sprout/algorithm/cxx14/stable_partition.hpp: stable_partition", "sprout/algorithm/cxx14/gather.hpp: gather"]}
{"id": "C12", "title": "unique and remove compact in place", "statement": "remove_if/remove leave exactly the non-matching elements in order in front and return their end; unique leaves the first element of every run of equal elements; the copying variants write the same sequences and report their length.", "quantifier": "all finite sequences, all predicates / equivalence relations", "why_tests_cant": "Self-overwriting compaction must be right for every pattern of matches.", "anchors": ["sprout/algorithm/cxx14/remove_if.hpp: remove_if", "sprout/algorithm/cxx14/remove.hpp: remove", "sprout/algorithm/cxx14/unique.hpp: unique", "sprout/algorithm/cxx14/unique_copy.hpp: unique_copy", "sprout/algorithm/cxx14/remove_copy_if.hpp: remove_copy_if"]}
{"id": "C13", "title": "set operations compute multiset union, intersection and differences", "statement": "On sorted inputs set_union, set_intersection, set_difference and set_symmetric_difference write a sorted sequence whose multiplicity of each key is max(m,n), min(m,n), m-n (truncated) and |m-n|; includes decides multiset inclusion.", "quantifier": "all pairs of sorted finite sequences over any total order", "why_tests_cant": "Multiplicity laws must hold for any number of duplicates on both sides.", "anchors": ["sprout/algorithm/cxx14/set_union.hpp: set_union", "sprout/algorithm/cxx14/set_intersection.hpp: set_intersection", "sprout/algorithm/cxx14/set_difference.hpp: set_difference", "sprout/algorithm/cxx14/set_symmetric_difference.hpp: set_symmetric_difference", "sprout/algorithm/includes.hpp: includes"]}
{"id": "C14", "title": "binary searches find the partition boundary", "statement": "lower_bound, upper_bound, equal_range, binary_search and partition_point return the exact boundary of the predicate-partitioned range (number of elements satisfying the predicate), for random-access and forward/recursive variants, in logarithmically many predicate calls.", "quantifier": "all sequences partitioned with respect to the probe, all values", "why_tests_cant": "The midpoint recursion must be right for every length and boundary position, including empty ranges.", "anchors": ["sprout/algorithm/lower_bound.hpp: lower_bound", "sprout/algorithm/upper_bound.hpp: upper_bound", "sprout/algorithm/equal_range.hpp: equal_range", "sprout/algorithm/binary_search.hpp: binary_search", "sprout/algorithm/partition_point.hpp: partition_point"]}
{"id": "C15", "title": "find family agrees with the left-to-right scan", "statement": "find, find_if, find_if_not, count, count_if, all_of, any_of, none_of, mismatch, equal return what the sequential left-to-right definition returns although they are evaluated by halving or doubling recursion (logarithmic depth).", "quantifier": "all finite sequences, all predicates, both iterator categories", "why_tests_cant": "Logarithmic-depth recursion splits the range differently for every length; an off-by-one only shows at particular lengths.", "anchors": ["sprout/algorithm/find.hpp: find", "sprout/algorithm/find_if.hpp: find_if", "sprout/algorithm/find_if_not.hpp: find_if_not", "sprout/algorithm/count.hpp: count", "sprout/algorithm/count_if.hpp: count_if", "sprout/algorithm/all_of.hpp: all_of", "sprout/algorithm/any_of.hpp: any_of", "sprout/algorithm/none_of.hpp: none_of", "sprout/algorithm/mismatch.hpp: mismatch", "sprout/algorithm/equal.hpp: equal"]}
{"id": "C16", "title": "subsequence searches return the right occurrence", "statement": "search returns the first occurrence of the pattern, find_end the last, search_n the first run of count equal elements, adjacent_find the first adjacent equal pair, find_first_of the first element in the set; last when absent; search_n with count 0 returns first.", "quantifier": "all texts and patterns, including empty ones", "why_tests_cant": "Early-exit shortcuts when the remaining text is shorter than the pattern are sound only by an argument over all lengths.", "anchors": ["sprout/algorithm/search.hpp: search", "sprout/algorithm/find_end.hpp: find_end", "sprout/algorithm/search_n.hpp: search_n", "sprout/algorithm/adjacent_find.hpp: adjacent_find", "sprout/algorithm/find_first_of.hpp: find_first_of"]}
{"id": "C17", "title": "is_permutation decides multiset equality", "statement": "is_permutation(first1,last1,first2,last2) is true iff the two ranges have equal length and the same number of occurrences of every element.", "quantifier": "all pairs of finite sequences over a type with an equivalence ==", "why_tests_cant": "Equality of all multiplicities is a statement over all element values.", "anchors": ["sprout/algorithm/is_permutation.hpp: is_permutation"]}
{"id": "C18", "title": "min/max element positions and tie rules", "statement": "min_element returns the first smallest, max_element the first largest, minmax_element the first smallest and the last largest element; is_sorted_until returns the end of the longest sorted prefix; is_sorted decides sortedness.", "quantifier": "all finite sequences, all strict weak orders", "why_tests_cant": "Tie-breaking must be right for all tie patterns under pairwise-halving recursion.", "anchors": ["sprout/algorithm/min_element.hpp: min_element", "sprout/algorithm/max_element.hpp: max_element", "sprout/algorithm/minmax_element.hpp: minmax_element", "sprout/algorithm/is_sorted_until.hpp: is_sorted_until", "sprout/algorithm/is_sorted.hpp: is_sorted"]}
{"id": "C19", "title": "lexicographical_compare is the dictionary order", "statement": "lexicographical_compare decides the dictionary order induced by comp; it is a strict weak order (a strict total order on sequences if comp is total), and container comparison operators built from it are mutually consistent.", "quantifier": "all pairs of finite sequences, all strict weak orders", "why_tests_cant": "Transitivity and trichotomy range over all triples of sequences.", "anchors": ["sprout/algorithm/lexicographical_compare.hpp: lexicographical_compare", "sprout/array/comparison.hpp"]}
{"id": "C20", "title": "shuffle and sample produce permutations and subsets, in bounds", "statement": "Whatever values the generator yields, shuffle leaves a permutation of the range and every access is in range; every permutation is reachable by some generator output; sample writes min(n,k) elements forming a sub-multiset of the population (order preserving for selection sampling).", "quantifier": "all finite sequences and all generator behaviours within the distribution contract", "why_tests_cant": "The generator is adversarial; all its outcomes must be covered.", "anchors": ["sprout/algorithm/cxx14/shuffle.hpp: shuffle", "sprout/algorithm/cxx14/sample.hpp: sample", "sprout/algorithm/cxx14/random_swap.hpp: random_swap"]}
{"id": "C21", "title": "random_swap stays in range", "statement": "random_swap(first,last,g) swaps *first with an element of [first,last): it accesses only positions inside the range whatever the generator returns.", "quantifier": "all non-empty ranges and all generator outcomes within [0,last-first]", "why_tests_cant": "Only one generator outcome in n+1 exposes an out-of-range access.", "anchors": ["sprout/algorithm/cxx14/random_swap.hpp: random_swap"]}
{"id": "C22", "title": "popcount and parity count set bits", "statement": "popcount(x) is the number of one bits of x and parity(x) is popcount(x) mod 2, for every unsigned width.", "quantifier": "all values of 8/16/32/64-bit (and any) unsigned types", "why_tests_cant": "2^64 inputs; the xor-folding and clear-lowest loops are only verified exhaustively by proof.", "anchors": ["sprout/bit/popcount.hpp: popcount", "sprout/bit/parity.hpp: parity"]}
{"id": "C23", "title": "leading/trailing zero counts and bit length", "statement": "ctz(x), clz(x) for x != 0 are the position of the lowest one bit and the number of zeros above the highest one bit; cntt0/cntt1/cntl0/cntl1 count trailing/leading zeros/ones; bit_length(x) is the least n with x < 2^n.", "quantifier": "all values of 8/16/32/64-bit unsigned types", "why_tests_cant": "Binary-search table code over 2^64 inputs.", "anchors": ["sprout/bit/clz.hpp: clz", "sprout/bit/ctz.hpp: ctz", "sprout/bit/cntl0.hpp: cntl0", "sprout/bit/cntt1.hpp: cntt1", "sprout/bit/bit_length.hpp: bit_length"]}
{"id": "C24", "title": "rotations and reversals are bit permutations", "statement": "rotl and rotr by s are inverse to each other and move bit i to (i+s) mod width; bit_reverse is an involution moving bit i to width-1-i.", "quantifier": "all values and all rotation amounts 0 <= s < width", "why_tests_cant": "Every bit position and amount; s = 0 is a shift-by-width corner.", "anchors": ["sprout/bit/rotl.hpp: rotl", "sprout/bit/rotr.hpp: rotr", "sprout/bit/bit_reverse.hpp: bit_reverse"]}
{"id": "C25", "title": "single-bit and trailing-bit manipulations", "statement": "setbit/rstbit/flipbit/testbit and the ge/le range versions affect exactly the named bits; isols0b, isols1b, rstls1b, setls0b, rstt1, sett0, maskt0, maskt1, maskt0ls1b, maskt1ls0b produce the documented masks relative to the lowest zero/one bit.", "quantifier": "all values and bit positions", "why_tests_cant": "Characterisation is per bit for every value of a 64-bit word.", "anchors": ["sprout/bit/operation.hpp (isols1b, rstls1b, maskt0, ...)", "sprout/bit/setbit.hpp", "sprout/bit/testbit.hpp"]}
{"id": "C26", "title": "bitset is an N-bit vector", "statement": "bitset<N> operations set/reset/flip/test/&/|/^/~ act as the pointwise boolean operations on N-bit vectors; unused high bits of the last word are never observable; out-of-range positions throw out_of_range.", "quantifier": "all N (including multiples of and non-multiples of the word size), all bitsets and positions", "why_tests_cant": "Word-boundary arithmetic must be right for every N.", "anchors": ["sprout/bitset/bitset.hpp: bitset, detail::base_bitset"]}
{"id": "C27", "title": "bitset shifts move bits across words", "statement": "(b << k)[i] = b[i-k] for i >= k and 0 otherwise; (b >> k)[i] = b[i+k] if i+k < N and 0 otherwise; for every shift amount, including 0, multiples of the word size, and k >= N; compound forms agree.", "quantifier": "all N, all k, all bitsets", "why_tests_cant": "The two-word carry logic depends on k div 64 and k mod 64 and N jointly.", "anchors": ["sprout/bitset/bitset.hpp: operator<<, operator>>, do_left_shift, do_right_shift"]}
{"id": "C28", "title": "bitset counting, scanning and conversions", "statement": "count/any/none/all agree with the number of set bits; find_first/find_next enumerate set positions in increasing order; to_ullong throws exactly if a bit >= 64 is set and otherwise returns the value; string constructor and to_string are inverse to each other.", "quantifier": "all N, all bitsets, all strings of zero/one characters", "why_tests_cant": "Statement over all lengths and contents; overflow detection needs all high words.", "anchors": ["sprout/bitset/bitset.hpp: count, find_first, find_next, to_ullong, to_string"]}
{"id": "C29", "title": "gcd is the greatest common divisor", "statement": "gcd(a,b) returns the non-negative greatest common divisor for the Euclidean and binary algorithms, for signed and unsigned arguments whose absolute values are representable.", "quantifier": "all pairs of integers (any width), including zeros", "why_tests_cant": "Quadratically many pairs; termination of the binary variant is a well-foundedness argument.", "anchors": ["sprout/math/gcd.hpp: gcd"]}
{"id": "C30", "title": "lcm is the least common multiple", "statement": "lcm(a,b) is the least non-negative common multiple when representable, and 0 if either argument is 0; gcd(a,b)*lcm(a,b) = |a*b|.", "quantifier": "all pairs of integers with representable result", "why_tests_cant": "All pairs; divisibility argument needed to show division before multiplication is exact.", "anchors": ["sprout/math/lcm.hpp: lcm"]}
{"id": "C31", "title": "rational arithmetic is exact field arithmetic in lowest terms", "statement": "Every rational has positive denominator and coprime numerator/denominator after any construction or operation; +,-,*,/ compute the exact rational result; construction with denominator zero and division by zero throw bad_rational.", "quantifier": "all rationals over unbounded integers", "why_tests_cant": "Field laws and normal form quantify over all pairs of rationals.", "anchors": ["sprout/rational/rational.hpp: rational, operator+=, operator-=, operator*=, operator/=", "sprout/rational/arithmetic.hpp"]}
{"id": "C32", "title": "rational comparison is the numeric order", "statement": "operator<, ==, <=, >, >= on rationals agree with the order of the represented numbers; < is computed by continued-fraction expansion without overflow-prone cross multiplication.", "quantifier": "all pairs of rationals, and rational/integer pairs", "why_tests_cant": "Termination and correctness of the continued-fraction loop over all pairs.", "anchors": ["sprout/rational/comparison.hpp: operator<"]}
{"id": "C33", "title": "SHA-1 equals FIPS 180", "statement": "sha1 over any byte sequence yields the FIPS 180 digest, including padding at every residue of the length modulo 64; processing a message in arbitrary chunks gives the same digest as processing it at once.", "quantifier": "all byte sequences shorter than 2^61 bytes and all ways to split them", "why_tests_cant": "All message lengths/chunkings; test vectors only sample them.", "anchors": ["sprout/checksum/sha1.hpp: sha1"]}
{"id": "C34", "title": "integer to decimal string and back", "statement": "int_to_string(x, base) produces the standard representation (minus sign, no leading zeros) and parsing it with str_to_int in the same base returns x.", "quantifier": "all integers of all widths, all bases 2..36", "why_tests_cant": "2^64 values times bases, including the extreme negative value.", "anchors": ["sprout/string/int_to_string.hpp", "sprout/cstdlib/str_to_int.hpp: str_to_int", "sprout/string/string_to_int.hpp"]}
{"id": "C35", "title": "string to integer saturates exactly on overflow", "statement": "str_to_int / ascii_to_int return the value of the longest digit prefix if it is representable, and the nearest limit of the type otherwise, for either sign.", "quantifier": "all strings, all integer types", "why_tests_cant": "The boundary values are single points among 2^64.", "anchors": ["sprout/cstdlib/str_to_int.hpp", "sprout/cstdlib/ascii_to_int.hpp"]}
{"id": "C36", "title": "C string functions match the C standard", "statement": "strcmp, strncmp, strlen, strchr, strrchr, strstr, strspn, strcspn, memcmp return the C-standard results on all null-terminated strings and never read past a terminator.", "quantifier": "all null-terminated strings", "why_tests_cant": "Doubling recursion visits different split points for every length.", "anchors": ["sprout/cstring/strcmp.hpp", "sprout/cstring/strlen.hpp", "sprout/cstring/strstr.hpp", "sprout/cstring/strchr.hpp", "sprout/cstring/strspn.hpp"]}
{"id": "C37", "title": "UUID text form parses and validates", "statement": "make_uuid accepts exactly the textual forms with 32 hex digits, optional dashes at the standard places (all or none), and optional matching braces, and returns the denoted 16 bytes; printing and re-parsing is the identity.", "quantifier": "all strings and all 2^128 uuids", "why_tests_cant": "2^128 values and infinitely many malformed strings.", "anchors": ["sprout/uuid/string_generator.hpp: string_generator", "sprout/uuid/uuid.hpp: uuid", "sprout/uuid/io.hpp"]}
{"id": "C38", "title": "name-based UUIDs carry version and variant", "statement": "make_uuid5 / make_uuid3 / random generators return uuids whose variant() is RFC 4122 and whose version() is 5, 3 and 4; the other bits come unchanged from the digest / generator.", "quantifier": "all names, all namespaces, all digests / generator outputs", "why_tests_cant": "All 2^160 digests.", "anchors": ["sprout/uuid/sha1_name_generator.hpp: sha1_name_generator", "sprout/uuid/md5_name_generator.hpp", "sprout/uuid/random_generator.hpp", "sprout/uuid/uuid.hpp: variant, version"]}
{"id": "C39", "title": "linear congruential engine follows its recurrence", "statement": "linear_congruential_engine<a,c,m> produces x' = (a*x+c) mod m without overflow in the result type, stays in [min(),max()], and modular multiplication uses Schrage's method correctly.", "quantifier": "all valid parameters a,c,m representable in the type and all states", "why_tests_cant": "The choice among mask, small, Schrage and general multiplication depends on parameters; all (a,m,x) must be covered.", "anchors": ["sprout/random/linear_congruential.hpp: linear_congruential_engine", "sprout/random/detail/const_mod.hpp: const_mod"]}
{"id": "C40", "title": "modular inverse and power in const_mod", "statement": "const_mod::pow(a,e) is a^e mod m and invert(x) is the multiplicative inverse modulo m whenever gcd(x,m)=1.", "quantifier": "all moduli, bases and exponents", "why_tests_cant": "Extended Euclid invariants over all inputs.", "anchors": ["sprout/random/detail/const_mod.hpp: const_mod::pow, const_mod::invert"]}
{"id": "C41", "title": "brainfuck interpreter implements the language", "statement": "brainfuck execution of a well-formed program transforms tape, pointer, input and output according to the eight-instruction semantics; bracket matching is by nesting; is_well_formed accepts exactly balanced programs.", "quantifier": "all programs, inputs and buffer contents", "why_tests_cant": "Programs and executions are unbounded.", "anchors": ["sprout/brainfuck/brainfuck.hpp: exec, is_well_formed"]}
{"id": "C42", "title": "Ook! translates to brainfuck one instruction per token pair", "statement": "ook::to_brainfuck maps the eight Ook! token pairs to the eight brainfuck instructions bijectively.", "quantifier": "all Ook! programs", "why_tests_cant": "All token sequences.", "anchors": ["sprout/brainfuck/ook.hpp: to_brainfuck"]}
{"id": "C43", "title": "move_backward moves like copy_backward", "statement": "move(first,last,result) and move_backward(first,last,result) transfer the range element by element so that the destination afterwards holds the original sequence, also for the permitted overlaps, with accesses only inside both ranges.", "quantifier": "all finite sequences and all permitted overlaps", "why_tests_cant": "An overlap-sensitive loop direction error shows only for particular offsets and the loop may leave the range; constexpr tests instantiate fixed arrays.", "anchors": ["sprout/algorithm/cxx14/move.hpp: move", "sprout/algorithm/cxx14/move_backward.hpp: move_backward"]}
{"id": "C44", "title": "bitset(unsigned long long) sets exactly the bits of its argument", "statement": "bitset<N>(val) has bit i equal to bit i of val for i < min(N, 64) and all other bits zero, without undefined behaviour.", "quantifier": "all N, all val, word sizes 32 and 64", "why_tests_cant": "Compilers fold or mask a full-width shift differently, so a test of bitset<65>(v) may pass by accident; the failure is undefined behaviour rather than a wrong value.", "anchors": ["sprout/bitset/bitset.hpp: base_bitset(unsigned long long), sanitize_val"]}
{"id": "C45", "title": "MD5 equals RFC 1321", "statement": "md5 over any message of bits yields the RFC 1321 digest, including the padding at every residue of the length modulo 512; bits, groups of bits and bytes may be handed over in any order and not aligned; make_md5 gives the digest of its bytes.", "quantifier": "all bit sequences, all ways to split them into process_bit, process_bits (at most 32 bits), process_byte, process_bytes calls", "why_tests_cant": "All message lengths and splits; test vectors only sample them.", "anchors": ["sprout/checksum/md5.hpp: md5", "sprout/checksum/md5.hpp: make_md5"]}
{"id": "C46", "title": "ASCII character classification", "statement": "isalnum ... isxdigit, tolower and toupper agree with the C locale for every code unit of every character type, and isclassified(m, c) tests whether c belongs to one of the classes in the mask m.", "quantifier": "all code units of char, wchar_t, char16_t, char32_t and all masks", "why_tests_cant": "Code units outside ASCII and all combinations of masks; a table entry is a single point.", "anchors": ["sprout/ctype/ascii.hpp: isalnum, isclassified, tolower, toupper", "sprout/ctype/mask.hpp: mask"]}
{"id": "C47", "title": "Writing C string functions", "statement": "strcpy, strncpy, strcat, strncat, memcpy, memmove and memset leave exactly the ISO C contents in the destination and read and write nothing outside the required ranges.", "quantifier": "all null-terminated strings, all buffers of the required size", "why_tests_cant": "Off-by-one writes land in memory that a test usually owns.", "anchors": ["sprout/cstring/strcpy.hpp", "sprout/cstring/strncpy.hpp", "sprout/cstring/strcat.hpp", "sprout/cstring/strncat.hpp", "sprout/cstring/memcpy.hpp", "sprout/cstring/memmove.hpp", "sprout/cstring/memset.hpp"]}
{"id": "C48", "title": "LCG discard(z) equals z steps", "statement": "linear_congruential_engine::discard(z) leaves the engine in the state reached by z calls of operator().", "quantifier": "all valid parameters a,c,m, all states and all z", "why_tests_cant": "Jump-ahead uses modular powers, inverses and a gcd case split; exhaustive parameter coverage impossible.", "anchors": ["sprout/random/linear_congruential.hpp: discard", "sprout/random/detail/const_mod.hpp: pow, invert"]}
{"id": "C49", "title": "rand48 is lrand48", "statement": "rand48 produces the sequence of POSIX lrand48: state x' = 0x5DEECE66D*x+0xB mod 2^48, result the 31 high bits of the state, within [min(),max()].", "quantifier": "all seeds and states", "why_tests_cant": "2^48 states.", "anchors": ["sprout/random/linear_congruential.hpp: rand48"]}
{"id": "C50", "title": "weed expressions are parsing expressions", "statement": "Every expression of the sprout/weed parser combinator language, evaluated at a position of a text, succeeds, fails or loops exactly as the corresponding parsing expression grammar (ordered choice, greedy repetition with limits, lists without a trailing separator, counted repetition, predicates) prescribes, stops where it prescribes, and does not move on failure.", "quantifier": "all expressions, texts and positions", "why_tests_cant": "Infinitely many expressions and texts; tests fix a handful of grammars.", "anchors": ["sprout/weed/context/parse_context/operator/: all operators", "sprout/weed/parser/directive/repeat.hpp: repeat_p", "sprout/weed/parser/lim.hpp: limit_p", "sprout/weed/parse.hpp: parse"]}
{"id": "C51", "title": "weed numeric parsers", "statement": "uint_p/int_p<T, Radix, Min, Max> accept an optional sign (int_p) and between Min and Max digits of the radix, as many as possible, and yield the value of the numeral converted to T; otherwise they fail at the start.", "quantifier": "all texts, positions, standard types, radices 2/8/10/16 and digit limits", "why_tests_cant": "The space of types, limits and texts is unbounded; corner cases at the digit limits.", "anchors": ["sprout/weed/parser/numeric/uint_p.hpp: uint_p", "sprout/weed/parser/numeric/int_p.hpp: int_p", "sprout/weed/parser/numeric/hex.hpp: hex, hex8f"]}
{"id": "C52", "title": "weed character sets", "statement": "char_(set) accepts a character iff it is one of the single characters or lies in one of the ranges lo-hi of which the set string consists; a '-' at either end stands for itself.", "quantifier": "all sets of items and all characters", "why_tests_cant": "Unboundedly many sets; reads next to the ends of the string.", "anchors": ["sprout/weed/detail/find_character_set.hpp: find_character_set", "sprout/weed/parser/char/char.hpp: char_set_p"]}
{"id": "C53", "title": "weed limited repetitions collect the right attributes", "statement": "*lim<L>(p), +lim<L>(p) and lim<L>(p) % q collect the first L attributes with discard, the last L with circular, and with stopover stop after L elements with all their attributes.", "quantifier": "all operands, limits L >= 1, categories and numbers of elements", "why_tests_cant": "Unbounded number of elements and limits.", "anchors": ["sprout/weed/limited.hpp: limited", "sprout/weed/context/parse_context/operator/dereference.hpp: call", "sprout/weed/context/parse_context/operator/modulus.hpp: call"]}
{"id": "C54", "title": "mersenne_twister_engine produces the Mersenne twister sequence", "statement": "For all parameters the standard admits, every seed and every k, the k-th number is the tempered k-th word of the Mersenne twister recurrence with that seed ([rand.eng.mers]), with no undefined behaviour; in C++11 and in C++14 mode.", "quantifier": "all word types, parameters, seeds and numbers of calls", "why_tests_cant": "Unbounded parameters, seeds and sequence length; the period is astronomically long.", "anchors": ["sprout/random/mersenne_twister.hpp: do_twist", "sprout/random/mersenne_twister.hpp: init_seed", "sprout/random/mersenne_twister.hpp: operator()", "sprout/random/mersenne_twister.hpp: twist", "sprout/random/mersenne_twister.hpp: generate"]}
{"id": "C55", "title": "mersenne_twister_engine equality", "statement": "Two engines obtained from seeds by drawing numbers compare equal iff all their future numbers agree.", "quantifier": "all parameters, seeds and numbers of calls on both sides", "why_tests_cant": "Infinite futures; positions in the block on both sides interact.", "anchors": ["sprout/random/mersenne_twister.hpp: do_equal_impl", "sprout/random/mersenne_twister.hpp: do_rewind", "sprout/random/mersenne_twister.hpp: rewind_find", "sprout/random/mersenne_twister.hpp: operator=="]}
{"id": "C56", "title": "mersenne_twister_engine stream round trip", "statement": "An engine written with operator<< and read with operator>> has the same future as the original.", "quantifier": "all parameters, engines and contents of uninitialised memory", "why_tests_cant": "Depends on all positions in the block and on an infinite future.", "anchors": ["sprout/random/mersenne_twister.hpp: operator<<", "sprout/random/mersenne_twister.hpp: operator>>", "sprout/random/mersenne_twister.hpp: rewind"]}
{"id": "C57", "title": "uniform_int_distribution stays within its bounds", "statement": "uniform_int_distribution<T>(a, b) returns a number between a and b for every sequence of engine numbers, and nothing undefined happens.", "quantifier": "all engines with integral results and at least two values, all integer types, all bounds, all engine sequences", "why_tests_cant": "The rejection and digit-composition branches depend on the ranges of engine and distribution; only unlucky ratios and sequences reach the corner cases.", "anchors": ["sprout/random/uniform_int_distribution.hpp: generate_uniform_int_cxx14", "sprout/random/uniform_int_distribution.hpp: generate_uniform_int", "sprout/random/detail/signed_unsigned_tools.hpp: add", "sprout/random/detail/signed_unsigned_tools.hpp: subtract"]}
{"id": "C58", "title": "uniform_int_distribution is uniform", "statement": "If the engine's numbers are independent and equally likely, all numbers between a and b are equally likely results: for every n, each is produced by the same number of engine sequences of length n.", "quantifier": "all engines with integral results and at least two values, all integer types, all bounds, all lengths", "why_tests_cant": "Exact uniformity is a counting statement about all engine sequences; statistical tests cannot see small biases.", "anchors": ["sprout/random/uniform_int_distribution.hpp: generate_uniform_int_cxx14", "sprout/random/uniform_int_distribution.hpp: generate_uniform_int"]}
{"id": "C59", "title": "uniform_smallint", "statement": "uniform_smallint<T>(a, b) maps an engine number v to a + (v - engine.min()) mod (b - a + 1).", "quantifier": "all engines with integral results, all integer types, all bounds, all engine numbers", "why_tests_cant": "The conversions between the types of engine and distribution go wrong only for particular combinations of widths and ranges.", "anchors": ["sprout/random/uniform_smallint.hpp: generate", "sprout/random/detail/signed_unsigned_tools.hpp: add", "sprout/random/detail/signed_unsigned_tools.hpp: subtract"]}
{"id": "C60", "title": "inversive congruential engine", "statement": "For every prime p, multiplier and increment below p, and every state x in the range of the engine, the next state is a / x + b in the field with p elements (with 1 / 0 = 0), and it is in the range again.", "quantifier": "all integer types, primes, parameters and states", "why_tests_cant": "A wrong inverse or a truncated product shows up only for particular states and moduli.", "anchors": ["sprout/random/inversive_congruential.hpp: inversive_congruential_engine", "sprout/random/detail/const_mod.hpp: invert"]}
{"id": "C61", "title": "additive_combine_engine", "statement": "The numbers x in [1, m1) and y in [1, m2) of the two engines are combined to the representative of x - y modulo m1 - 1 in [1, m1 - 1].", "quantifier": "all integer types, moduli and numbers", "why_tests_cant": "Only particular pairs of moduli and numbers leave the range.", "anchors": ["sprout/random/additive_combine.hpp: additive_combine_engine"]}
{"id": "C62", "title": "shuffle_order_engine", "statement": "Construction and operator() of shuffle_order_engine are those of [rand.adapt.shuf] for every base engine, and the table index is always in range.", "quantifier": "all base engines, integer types, table sizes and states", "why_tests_cant": "The index arithmetic has three branches selected by the range of the engine; overflow depends on rare combinations.", "anchors": ["sprout/random/shuffle_order.hpp: shuffle_order_engine"]}
{"id": "C63", "title": "linear_feedback_shift_engine", "statement": "For all parameters that satisfy the static assertions and all seeds, the leading k bits of the n-th state are bits n*s .. n*s+k-1 of a sequence with b(i+k) = b(i+q) + b(i) that is nowhere zero on k consecutive positions, and all numbers are at most max().", "quantifier": "all parameters, unsigned types with at least w bits, seeds and numbers of steps", "why_tests_cant": "The word-level shift-and-xor step equals the bit recurrence only under inequalities between w, k, q and s.", "anchors": ["sprout/random/linear_feedback_shift.hpp: linear_feedback_shift_engine"]}
{"id": "C64", "title": "xor_combine_engine and taus88", "statement": "The numbers of xor_combine_engine lie between min() and max() if those of the two engines do; every bit of every number of taus88 is the sum of bits of three Tausworthe sequences.", "quantifier": "all engines, shifts, seeds and numbers of steps", "why_tests_cant": "The bounds are violated only by particular engines; the bit identity is about all seeds and steps.", "anchors": ["sprout/random/xor_combine.hpp: xor_combine_engine", "sprout/random/taus88.hpp: taus88"]}
{"id": "C65", "title": "the period of taus88", "statement": "For every seed T is a period of the numbers of taus88 iff it is a multiple of (2^31-1)(2^29-1)(2^28-1).", "quantifier": "all 2^32 seeds, all T", "why_tests_cant": "The period is about 2^88.", "anchors": ["sprout/random/taus88.hpp: taus88", "sprout/random/linear_feedback_shift.hpp: linear_feedback_shift_engine"]}
{"id": "C66", "title": "merge and set operation iterators", "statement": "A loop over merge_iterator, set_union_iterator, set_intersection_iterator, set_difference_iterator or set_symmetric_difference_iterator stays inside the two ranges, ends, and sees exactly what the corresponding algorithm writes; for sorted ranges that is the stable merge, multiset union, intersection or difference.", "quantifier": "all comparison functions and ranges (sorted by a strict weak order for the multiset statements)", "why_tests_cant": "The iterators advance lazily and look ahead; wrong elements show only for particular interleavings of equivalent elements.", "anchors": ["sprout/iterator/merge_iterator.hpp: merge_iterator", "sprout/iterator/set_union_iterator.hpp: set_union_iterator", "sprout/iterator/set_intersection_iterator.hpp: set_intersection_iterator", "sprout/iterator/set_difference_iterator.hpp: set_difference_iterator", "sprout/iterator/set_symmetric_difference_iterator.hpp: set_symmetric_difference_iterator"]}
{"id": "C67", "title": "quantifiers over ranges, clamp, min and max", "statement": "one_of and one_of_equal are true iff exactly one element matches; is_partitioned, is_increasing, is_strictly_increasing, is_decreasing and is_strictly_decreasing decide their predicates; clamp, min, max and minmax on lists return what the standard says.", "quantifier": "all predicates, orders and ranges", "why_tests_cant": "one_of is wrong only with three or more matches in a certain position.", "anchors": ["sprout/algorithm/one_of.hpp: one_of", "sprout/algorithm/one_of_equal.hpp: one_of_equal", "sprout/algorithm/is_partitioned.hpp: is_partitioned", "sprout/algorithm/is_increasing.hpp: is_increasing", "sprout/algorithm/is_decreasing.hpp: is_decreasing", "sprout/algorithm/clamp.hpp: clamp", "sprout/algorithm/min.hpp: min", "sprout/algorithm/max.hpp: max", "sprout/algorithm/minmax.hpp: minmax"]}
{"id": "C68", "title": "accumulate, reduce and transform_reduce", "statement": "accumulate, reduce and transform_reduce combine the elements from the left in order, in the random access and in the input iterator version.", "quantifier": "all operations (not assumed associative), initial values and ranges", "why_tests_cant": "The random access version divides the range; the order matters only for operations that are not associative.", "anchors": ["sprout/numeric/accumulate.hpp: accumulate", "sprout/numeric/reduce.hpp: reduce", "sprout/numeric/transform_reduce.hpp: transform_reduce"]}
{"id": "C69", "title": "partial_sum, scans, adjacent_difference and iota", "statement": "The outputs are the inclusive or exclusive prefix sums, the differences and the successors the standard prescribes, nothing else is written, also when input and output are the same range; adjacent_difference inverts partial_sum.", "quantifier": "all operations, initial values, ranges and output positions", "why_tests_cant": "The deviations need an empty range, an operation in place, or a sentinel behind the output.", "anchors": ["sprout/numeric/partial_sum.hpp: partial_sum", "sprout/numeric/transform_inclusive_scan.hpp: transform_inclusive_scan", "sprout/numeric/transform_exclusive_scan.hpp: transform_exclusive_scan", "sprout/numeric/exclusive_scan.hpp: exclusive_scan", "sprout/numeric/inclusive_scan.hpp: inclusive_scan", "sprout/numeric/adjacent_difference.hpp: adjacent_difference", "sprout/numeric/iota.hpp: iota"]}
{"id": "C70", "title": "to_time_t", "statement": "to_time_t(year, mon, day, hour, min, sec) is the number of seconds from the beginning of 1970 by the Gregorian calendar, for every year, month and all days, hours, minutes and seconds (also out of range) for which nothing overflows.", "quantifier": "all years, months 1 to 12, all int values of the other fields", "why_tests_cant": "About 10^6 years times 366 days; the error for years before 1 is in one formula with truncating division.", "anchors": ["sprout/ctime/to_time_t.hpp: to_time_t"]}
{"id": "C71", "title": "hton and ntoh", "statement": "For every unsigned type and byte order of the machine the memory image of hton(x) is the bytes of x, most significant first, and ntoh reads it back.", "quantifier": "all sizes, all values, the three byte orders", "why_tests_cant": "2^64 values; the failing case is a size that no caller in the library uses.", "anchors": ["sprout/net/endian.hpp: hton", "sprout/net/endian.hpp: ntoh", "sprout/net/endian.hpp: reverse", "sprout/net/endian.hpp: reverse_words"]}
{"id": "C72", "title": "Searching in strings", "statement": "find, rfind, find_first_of, find_last_of, find_first_not_of and find_last_not_of of basic_string and basic_string_view return the lowest (highest) position not before (behind) pos at which the characters occur (one, none of them occurs), or npos.", "quantifier": "all strings (with any characters, also null), all characters sought, all positions", "why_tests_cant": "Strings of any length over 256 characters; the failing inputs need null characters inside a string.", "anchors": ["sprout/string/detail/find.hpp: find_impl", "sprout/string/detail/find.hpp: find_c_impl", "sprout/string/detail/find.hpp: rfind_impl", "sprout/string/detail/find.hpp: rfind_c_impl", "sprout/string/detail/find.hpp: find_first_of_impl", "sprout/string/detail/find.hpp: find_last_of_impl", "sprout/string/detail/find.hpp: find_first_not_of_impl", "sprout/string/detail/find.hpp: find_last_not_of_impl"]}
{"id": "C73", "title": "Comparison of strings", "statement": "compare and the relational operators of basic_string order strings lexicographically; compare throws out_of_range exactly if a position is greater than the size.", "quantifier": "all strings, positions and numbers", "why_tests_cant": "Pairs of strings of any length; the failing inputs need null characters inside both strings.", "anchors": ["sprout/string/string.hpp: compare", "sprout/string/detail/compare.hpp: compare_impl", "sprout/string/comparison.hpp: operator==", "sprout/string/comparison.hpp: operator<", "sprout/string/char_traits.hpp: compare"]}
{"id": "C74", "title": "basic_string", "statement": "Constructors, assign, append, push_back, pop_back, resize, clear, swap, copy, at, substr, operator+, << , >>, <<= and >>= of basic_string<T, N> give the string they should, stored with null characters behind it, or throw length_error if it has more than N characters (out_of_range for a position beyond the end); nothing outside of the array is accessed.", "quantifier": "all N, all strings, all arguments", "why_tests_cant": "All strings and arguments, including those that alias the string and positions at the very end.", "anchors": ["sprout/string/string.hpp: append", "sprout/string/string.hpp: assign", "sprout/string/string.hpp: resize", "sprout/string/string.hpp: put_terminator", "sprout/string/string.hpp: pop_back", "sprout/string/string.hpp: swap", "sprout/string/string.hpp: copy", "sprout/string/string.hpp: substr", "sprout/string/concat.hpp: operator+", "sprout/string/char_traits.hpp: move"]}
{"id": "C75", "title": "basic_string_view", "statement": "The members of basic_string_view: construction, at, remove_prefix, remove_suffix, substr, find and its kin, compare, starts_with, ends_with, copy and to_string do what they should with the characters shown, and access nothing else.", "quantifier": "all blocks of memory, all views into them, all arguments", "why_tests_cant": "All views; the failing cases need null characters in or no null character behind the view, or a length beyond its end.", "anchors": ["sprout/utility/string_view/string_view.hpp: substr", "sprout/utility/string_view/string_view.hpp: remove_prefix", "sprout/utility/string_view/string_view.hpp: compare", "sprout/utility/string_view/string_view.hpp: starts_with", "sprout/utility/string_view/string_view.hpp: ends_with", "sprout/utility/string_view/string_view.hpp: to_string", "sprout/utility/string_view/string_view.hpp: copy"]}
{"id": "C76", "title": "Discrete Fourier transform", "statement": "dft_element and idft_element are the sums that define the discrete Fourier transform and its inverse; fixed::dft and fixed::idft fill the result with them and access nothing outside the input; idft inverts dft.", "quantifier": "all inputs of any length, all results of any size", "why_tests_cant": "Every length and every complex input; the iterators that fail are rarely used.", "anchors": ["sprout/numeric/dft/dft_element.hpp: dft_element", "sprout/numeric/dft/idft_element.hpp: idft_element", "sprout/numeric/dft/fixed/dft.hpp: dft", "sprout/numeric/dft/fixed/idft.hpp: idft"]}
{"id": "C77", "title": "In-place fast Fourier transform", "statement": "The C++14 fft and ifft of a range whose length is a power of two replace it by its discrete Fourier transform and inverse transform and access no other element; ifft inverts fft.", "quantifier": "all lengths 2^k, all complex inputs", "why_tests_cant": "The index calculations of bit reversal and of the split butterflies differ for every length; only some lengths can be tried.", "anchors": ["sprout/numeric/fft/cxx14/fft.hpp: fft", "sprout/numeric/fft/cxx14/ifft.hpp: ifft"]}
{"id": "C78", "title": "Constant-expression fast Fourier transform", "statement": "fft coefficients are the powers of the root of unity, fixed::fft computes the discrete Fourier transform of the input padded with zeros, ifft inverts it, bitrev_table is the table of reversed indices.", "quantifier": "all lengths 2^k, all complex inputs", "why_tests_cant": "Every power of two; the sign of the exponent is not visible with real symmetric inputs.", "anchors": ["sprout/numeric/fft/fixed/fft.hpp: fft", "sprout/numeric/fft/fixed/ifft.hpp: ifft", "sprout/numeric/fft/coefficients.hpp: make_fft_coefficients", "sprout/numeric/fft/fixed/bitrev_table.hpp: bitrev_table"]}
{"id": "C79", "title": "Wave forms and spectra", "statement": "sinusoid, sawtooth, square and triangle fill a container with the wave form of the given frequency, amplitude, phase and duty; amplitude_spectrum and phase_spectrum give absolute values and arguments, and access nothing outside the input.", "quantifier": "all containers, frequencies, amplitudes, phases; all complex inputs", "why_tests_cant": "Real parameters; the failing cases need containers with offset, other duties or values that are not integers.", "anchors": ["sprout/numeric/dft/fixed/sinusoid.hpp: sinusoid", "sprout/numeric/dft/fixed/sawtooth.hpp: sawtooth", "sprout/numeric/dft/fixed/square.hpp: square", "sprout/numeric/dft/fixed/triangle.hpp: triangle", "sprout/numeric/dft/fixed/amplitude_spectrum.hpp: amplitude_spectrum", "sprout/numeric/dft/fixed/phase_spectrum.hpp: phase_spectrum", "sprout/numeric/dft/phase_spectrum_value.hpp: phase_spectrum_value"]}
{"id": "C80", "title": "next, prev, advance and distance", "statement": "next and prev move an iterator by the given number of steps for every iterator category, advance likewise, distance counts the steps between two iterators, and prev undoes next.", "quantifier": "all positions, all 64-bit distances, all iterator categories", "why_tests_cant": "Distances near the limits of difference_type are out of reach of constant evaluation.", "anchors": ["sprout/iterator/next.hpp: next", "sprout/iterator/prev.hpp: prev", "sprout/iterator/advance.hpp: advance", "sprout/iterator/distance.hpp: distance"]}
{"id": "C81", "title": "Iterator adaptors", "statement": "reverse, transform, joint, alternate, size_enum, insert_range, step and bytes iterators visit the elements of the sequence they denote in order, are random access iterators of it (sum, difference, order and indexing agree with positions), and can be walked backwards.", "quantifier": "all underlying sequences, all positions and offsets", "why_tests_cant": "Needs all pairs of positions and negative offsets; each of the wrong operators is right for some of them.", "anchors": ["sprout/iterator/reverse_iterator.hpp: reverse_iterator", "sprout/iterator/transform_iterator.hpp: transform_iterator", "sprout/iterator/joint_iterator.hpp: joint_iterator", "sprout/iterator/alternate_iterator.hpp: alternate_iterator", "sprout/iterator/size_enum_iterator.hpp: size_enum_iterator", "sprout/iterator/insert_range_iterator.hpp: insert_range_iterator", "sprout/iterator/step_iterator.hpp: step_iterator", "sprout/iterator/bytes_iterator.hpp: bytes_iterator"]}
{"id": "C82", "title": "Filtering iterators", "statement": "filter_iterator and remove_if_iterator visit the elements that do (not) satisfy the predicate, adjacent_filter and unique visit the elements not related to their predecessor, while_iterator visits the longest prefix satisfying the predicate, without access outside the sequence.", "quantifier": "all sequences, all predicates", "why_tests_cant": "Needs arbitrary predicates and the end of the sequence; reading one past the end is not visible in arrays that are part of larger ones.", "anchors": ["sprout/iterator/filter_iterator.hpp: filter_iterator", "sprout/iterator/remove_if_iterator.hpp: remove_if_iterator", "sprout/iterator/adjacent_filter_iterator.hpp: adjacent_filter_iterator", "sprout/iterator/unique_iterator.hpp: unique_iterator", "sprout/iterator/while_iterator.hpp: while_iterator"]}
{"id": "C83", "title": "Saturating arithmetic of limited", "statement": "limited::plus and limited::multiplies give the exact sum and product limited to the range of the type, without overflow.", "quantifier": "all pairs of values of all integer types", "why_tests_cant": "2^128 pairs; the overflow occurs for single pairs.", "anchors": ["sprout/utility/limited.hpp: plus", "sprout/utility/limited.hpp: multiplies"]}
{"id": "C84", "title": "get_byte and set_byte of the endian traits", "statement": "get_byte yields the byte of the given index in the given byte order, set_byte replaces exactly this byte.", "quantifier": "all values, all indices, all integer types", "why_tests_cant": "Values of 64 bits; undefined shifts may give the expected result.", "anchors": ["sprout/endian_traits.hpp: get_byte", "sprout/endian_traits.hpp: set_byte", "sprout/endian_traits.hpp: little_endian_traits", "sprout/endian_traits.hpp: big_endian_traits"]}
{"id": "C85", "title": "Complex numbers form the field of complex numbers", "statement": "The operators of sprout::complex compute the operations of the complex field: sums, differences, products and quotients (by nonzero divisors) of complexes and reals, sign, conjugation and equality; compound assignment gives the value of the corresponding operator, whatever the argument refers to; and iteration visits the real and then the imaginary part.", "quantifier": "all complex numbers with real components, all real operands, all aliasing arguments of compound assignment", "why_tests_cant": "the field laws are universally quantified identities over an infinite set, and aliasing of an argument with a part of the object is not what tests exercise", "anchors": ["sprout/complex/complex.hpp: complex", "sprout/complex/operators.hpp: operator+, operator-, operator*, operator/, operator=="]}
{"id": "C86", "title": "Quaternions form the division ring of quaternions", "statement": "The members and operators of sprout::math::quaternion, generic and specialised for floating types, compute the operations of the quaternion division ring: construction from components and complexes, sums, differences, products and quotients with quaternions, complexes and reals, equality, conjugation, norm, sup, l1, natural powers, the creation functions, and compound assignment.", "quantifier": "all quaternions with real components, all real and complex operands, all natural exponents", "why_tests_cant": "the product is a polynomial identity in eight unknowns and each of the overloads has a specialised copy that tests of the generic class do not reach", "anchors": ["sprout/math/quaternion.hpp: quaternion", "sprout/math/quaternion.hpp: operator+, operator-, operator*, operator/"]}
{"id": "C87", "title": "Rounding functions of floating-point numbers are exact", "statement": "For every binary floating-point format with correct rounding to nearest, the constant-expression implementations of floor, ceil, trunc, round, integer_part, fractional_part, frac_int, is_integer, itrunc, ifloor, iceil and iround return the mathematically correct integer (or fraction) of every finite value, keep its sign, and return zeros, infinities and NaN unchanged.", "quantifier": "all formats (precision at least 2), all values, all integer result types, both settings of the strict error option", "why_tests_cant": "there are 2^64 doubles, and the defects are at values next to an integer, next to zero, and at the limit of the widest integer type", "anchors": ["sprout/math/floor.hpp: floor", "sprout/math/ceil.hpp: ceil", "sprout/math/trunc.hpp: trunc", "sprout/math/round.hpp: round", "sprout/math/integer_part.hpp: integer_part", "sprout/math/fractional_part.hpp: fractional_part", "sprout/math/itrunc.hpp: itrunc", "sprout/math/iround.hpp: iround", "sprout/math/ifloor.hpp: ifloor", "sprout/math/iceil.hpp: iceil"]}
{"id": "C88", "title": "Comparisons of numbers agree with their mathematical order", "statement": "sprout::math::less, greater, less_equal, greater_equal, equal_to, not_equal_to and compare agree with the mathematical order of integers whatever the (signed or unsigned) integer types of the arguments; of floating values they form a trichotomy, less is a strict order, values within the tolerance are equal and values apart by twice the tolerance are ordered.", "quantifier": "all integer types and values, all floating formats with correct rounding and all their values, including infinities and NaN", "why_tests_cant": "the promotion rules give 64 pairs of types, of which only mixed signedness with negative values is wrong; order properties are quantified over triples of floating values", "anchors": ["sprout/math/equal_to.hpp: equal_to", "sprout/math/less.hpp: less", "sprout/math/greater.hpp: greater", "sprout/math/less_equal.hpp: less_equal", "sprout/math/greater_equal.hpp: greater_equal", "sprout/math/compare.hpp: compare"]}
{"id": "C89", "title": "Classification, sign, minimum, maximum and fused functions of floating values", "statement": "isnan, isinf, isfinite, iszero, isnormal, issubnormal and fpclassify classify every value of every floating type; isless, islessequal, isgreater, isgreaterequal, islessgreater and isunordered are the quiet comparisons; signbit, copysign and fabs give and set the sign; fmax and fmin ignore NaN; fdim is the positive difference; fma is rounded once.", "quantifier": "all floating formats with correct rounding and all their values, including zeros, infinities and NaN", "why_tests_cant": "subnormal ranges of each type, signed zeros and infinite arguments are exactly the values which sample tests omit", "anchors": ["sprout/math/fpclassify.hpp: fpclassify", "sprout/math/issubnormal.hpp: issubnormal, issubnormal_or_zero", "sprout/math/islessequal.hpp: islessequal", "sprout/math/copysign.hpp: copysign, broken_signbit", "sprout/math/fdim.hpp: fdim", "sprout/math/fmax.hpp: fmax", "sprout/math/fmin.hpp: fmin", "sprout/math/fma.hpp: fma"]}
{"id": "C90", "title": "Scaling by powers of two and exponents of floating values", "statement": "scalbn, scalbln and ldexp of a floating value are its correctly rounded product with a power of two; logb and ilogb of a finite nonzero value are the exponent e with 2^e <= |x| < 2^(e+1); float_significand, float_exponent and float_sig_exp split a value into a significand in [1/2, 1) or [1, 2) and a power of two. Special values follow IEC 60559.", "quantifier": "all floating formats with correct rounding, all values and all exponents of the argument type", "why_tests_cant": "the failures are at the ends of the exponent range and near powers of two, where the estimate of the logarithm is off by one; a sample cannot show that the correction loop ends for all values", "anchors": ["sprout/math/scalbn.hpp: scalbn", "sprout/math/scalbln.hpp: scalbln", "sprout/math/ldexp.hpp: ldexp", "sprout/math/logb.hpp: logb", "sprout/math/ilogb.hpp: ilogb", "sprout/math/float_significand.hpp: float_significand", "sprout/math/float_exponent.hpp: float_exponent", "sprout/math/float_sig_exp.hpp: float_sig_exp", "sprout/detail/pow.hpp: pow_n"]}
{"id": "C91", "title": "Remainders and parity of floating values", "statement": "fmod(x, y) is exactly x - q*y with the quotient q truncated and the sign of x; remainder(x, y) and rem_quo are exactly x - n*y with n the integer nearest to x/y (even in a tie), rem_quo and quotient also giving the sign and the low three bits of n; is_odd and is_even tell the parity of an integer-valued argument. Special values follow IEC 60559.", "quantifier": "all floating formats with correct rounding and all pairs of values", "why_tests_cant": "exactness must hold for quotients of up to 2^2000, through thousands of subtraction steps; the quotient overflows only for far larger arguments than tests use", "anchors": ["sprout/math/fmod.hpp: fmod", "sprout/math/rem_quo.hpp: rem_quo", "sprout/math/remainder.hpp: remainder", "sprout/math/quotient.hpp: quotient", "sprout/math/is_odd.hpp: is_odd", "sprout/math/is_even.hpp: is_even"]}
{"id": "C92", "title": "Factorials and Bernoulli numbers", "statement": "factorial<T>(n) and unchecked_factorial<T>(n) are n! for an integer type T, correctly rounded for a floating type; factorial_limit<T>() is the greatest n whose factorial T can hold; bernoulli_number<T>(n) is the Bernoulli number B_n up to the roundings of its evaluation, for n up to bernoulli_number_limit<T>().", "quantifier": "all integer and floating types and all n", "why_tests_cant": "a wrong entry in a table of 51 literals passes every test which does not ask for this entry; the tables feed the Taylor series of exp, sin, cos and the Stirling series of lgamma", "anchors": ["sprout/math/factorial.hpp: factorial", "sprout/math/factorial.hpp: factorial_limit", "sprout/math/bernoulli.hpp: bernoulli_number", "sprout/math/bernoulli.hpp: bernoulli_number_limit"]}
{"id": "C93", "title": "Square roots and hypotenuses of floating values", "statement": "sqrt(x) is the correctly rounded square root of x >= 0, NaN for negative x; hypot(x, y) is sqrt(x^2 + y^2) without undue overflow or underflow and to within a few units in the last place. Special values follow IEC 60559.", "quantifier": "all floating formats with correct rounding, of at least 8 bits of precision and an exponent range of at least four times the precision, and all values", "why_tests_cant": "that Newton's iteration ends, and that it ends at most one unit off, must hold for 2^64 arguments; the arguments for which the root is not rounded correctly are rare", "anchors": ["sprout/math/sqrt.hpp: sqrt", "sprout/math/hypot.hpp: hypot"]}
{"id": "C94", "title": "The exponential function of floating values", "statement": "exp(x) is e^x to within a few units in the last place of the type of computation, for every x whose exponential lies in the range of the type; exp(+inf) = +inf, exp(-inf) = 0, exp(NaN) = NaN, exp(0) = 1.", "quantifier": "all floating formats with correct rounding, of at least 53 bits of precision and the exponent range of double, all tie rules, and all values", "why_tests_cant": "the truncation error of the series grows slowly with the argument; tests near zero do not show it", "anchors": ["sprout/math/exp.hpp: exp", "sprout/math/exp.hpp: exp_impl", "sprout/math/exp.hpp: exp_impl_1", "sprout/detail/pow.hpp: pow_n"]}
{"id": "C95", "title": "Mathematical constants", "statement": "Each constant of sprout/math/constants.hpp (pi and its multiples and roots, e, ln 2, ln 10, square roots, the golden ratio, simple fractions) is the number it is named for: the literal to all its 110 decimal places, the value of every floating type up to the rounding to long double and to the type.", "quantifier": "all 25 constants, all pairs of formats of the type and of long double with correct rounding and at least eight bits, all tie rules", "why_tests_cant": "a wrong digit beyond the sixteenth shows only for long double, and in the last bit", "anchors": ["sprout/math/constants.hpp: pi", "sprout/math/constants.hpp: e", "sprout/math/constants.hpp: ln_ten", "sprout/math/constants.hpp: root_two_div_pi", "sprout/math/constants.hpp: phi"]}
{"id": "C96", "title": "The natural logarithm of floating values", "statement": "log(x) is ln x to within a few units in the last place of the type of computation for every x > 0 and terminates; log(0) = -inf, log(+inf) = +inf, NaN for negative x and for NaN, log(1) = +0.", "quantifier": "all floating formats with correct rounding, of at least 53 bits of precision and the exponent range of double, all tie rules, and all values", "why_tests_cant": "the recursion takes square roots until the argument is at most sqrt 2; that it ends, and that the roundings do not add up, must hold for all arguments; arguments just below one and subnormal arguments are rarely tested", "anchors": ["sprout/math/log.hpp: log", "sprout/math/log.hpp: log_impl", "sprout/math/log.hpp: log_impl_1", "sprout/math/log.hpp: log_impl_2"]}
{"id": "C97", "title": "Cosine, sine and tangent of floating values", "statement": "cos(x), sin(x) and tan(x) approximate the real functions to within a few units in the last place of the type of computation, without undefined behaviour, for every finite x; NaN for NaN and for the infinities; sin and tan keep zeros with their sign, cos of a zero is 1.", "quantifier": "all floating formats with correct rounding, of 53 to 113 bits of precision and at least the exponent range of double, all tie rules, all logarithm functions which return exponents correctly, and all values", "why_tests_cant": "the error of the reduction modulo two pi grows with the argument and the worst arguments are nowhere near those of a test; loss of all digits of sin for tiny arguments depends on the phase of the rounding of pi / 2", "anchors": ["sprout/math/cos.hpp: cos", "sprout/math/cos.hpp: cos_impl", "sprout/math/sin.hpp: sin", "sprout/math/sin.hpp: sin_impl", "sprout/math/tan.hpp: tan", "sprout/math/tan.hpp: tan_impl"]}
{"id": "C98", "title": "Logarithms to other bases, log1p, and the functions which rely on the logarithm", "statement": "log2(x), log10(x), log_a(b, x) and log1p(x) approximate the real functions to within a few units in the last place of the type of computation, with the special values of the C standard; logb, ilogb, fmod, cos and sin computed with the logarithm of the library itself are those of C90, C91 and C97.", "quantifier": "all floating formats with correct rounding, of 53 to 113 bits of precision and at least the exponent range of double, all tie rules, and all values", "why_tests_cant": "logb truncates a rounded logarithm, so that a single argument just below a power of two with a wrong logarithm breaks the remainder and all trigonometric functions; log1p fails for tiny arguments only", "anchors": ["sprout/math/log2.hpp: log2", "sprout/math/log10.hpp: log10", "sprout/math/log_a.hpp: log_a", "sprout/math/log1p.hpp: log1p", "sprout/math/logb.hpp: logb_impl_1", "sprout/math/ilogb.hpp: ilogb"]}
{"id": "C99", "title": "exp2, exp10, expm1 and the hyperbolic functions of floating values", "statement": "exp2(x), exp10(x), expm1(x), sinh(x), cosh(x) and tanh(x) approximate the real functions to within a few units in the last place of the type of computation, with the special values of the C standard, for every finite x whose result is in range.", "quantifier": "all floating formats with correct rounding, of 53 to 64 bits of precision and at least the exponent range of double, all tie rules, and all values", "why_tests_cant": "the Taylor polynomial is only good for small arguments and cancellation is total only for tiny arguments; a test with usual arguments sees neither, and infinity minus or over infinity only arises where squares overflow", "anchors": ["sprout/math/exp2.hpp: exp2", "sprout/math/exp10.hpp: exp10", "sprout/math/expm1.hpp: expm1", "sprout/math/sinh.hpp: sinh", "sprout/math/cosh.hpp: cosh", "sprout/math/tanh.hpp: tanh"]}
{"id": "C100", "title": "pow and cbrt of floating values", "statement": "pow(x, y) and cbrt(x) approximate x^y and the real cubic root of x to within a few units in the last place of the type of computation, with the special values of the C standard, for all arguments whose result is in range.", "quantifier": "all floating formats with correct rounding, of 53 to 64 bits of precision and at least the exponent range of double, all tie rules, and all values", "why_tests_cant": "the special cases are a table of some twenty combinations of zeros, infinities, parities and signs; the error of exp(y * log(x)) grows with the exponent and jumps for bases just below one, which no usual test value meets", "anchors": ["sprout/math/pow.hpp: pow", "sprout/math/cbrt.hpp: cbrt"]}
{"id": "C101", "title": "asinh, acosh and atanh of floating values", "statement": "asinh(x), acosh(x) and atanh(x) approximate the inverse hyperbolic functions to within a few units in the last place of the type of computation, with the special values of the C standard, for every x in the domain.", "quantifier": "all floating formats with correct rounding, of 53 to 113 bits of precision and at least the exponent range of double, all tie rules, and all values", "why_tests_cant": "cancellation is only total for negative arguments of about half the precision, and overflow of the square only arises in the upper half of the exponents; tests with usual arguments see neither", "anchors": ["sprout/math/asinh.hpp: asinh", "sprout/math/acosh.hpp: acosh", "sprout/math/atanh.hpp: atanh"]}
{"id": "C102", "title": "atan and atan2 of floating values", "statement": "atan(x) is the arc tangent and atan2(y, x) the argument of x + iy, to within a few units in the last place of the type of computation, with the special values of the C standard, for all arguments.", "quantifier": "all floating formats with correct rounding, of 53 to 113 bits of precision and at least the exponent range of double, all tie rules, and all values", "why_tests_cant": "the three branches of the series and the underflow of the powers of tiny arguments cannot be covered by examples; signed zeros are rarely tested", "anchors": ["sprout/math/atan.hpp: atan, atan_impl, atan_impl_1", "sprout/math/atan2.hpp: atan2, atan2_impl"]}
{"id": "C103", "title": "strings to floating values (str_to_float, strtod, stod)", "statement": "str_to_float reads white space, a sign, digits with an optional point, and an optional exponent, and gives the number written, to within a few units in the last place, and the nearest value where one rounding suffices; special strings, overflow and underflow are as of strtod.", "quantifier": "all floating formats with correct rounding, all tie rules, and all strings with up to as many digits as the range allows (300 for double)", "why_tests_cant": "the roundings of long mantissas and of the powers of ten cannot be covered by examples; the exponent part is untested in the library", "anchors": ["sprout/cstdlib/str_to_float.hpp: str_to_float, str_to_float_impl, str_to_float_impl_decimal, str_to_float_impl_exponent, str_to_float_impl_scale", "sprout/string/string_to_float.hpp: string_to_float, stod"]}
{"id": "C104", "title": "floating values to strings (to_string, to_string_of, float_to_string_exp)", "statement": "to_string of a floating value gives the characters of printf %f: sign, the digits of the integral part, a point and six decimals; inf and nan are given as such; float_to_string_exp gives the characters of %e, with the decimal exponent from float_exponent10.", "quantifier": "all floating formats with correct rounding, both error modes, assertions on or off; numbers with one digit before the point that are multiples of 1/64, of double", "why_tests_cant": "each digit is taken by division, floor and multiplication in floating arithmetic, and rounding spoils digits only for some numbers", "anchors": ["sprout/string/float_to_string.hpp: float_to_string, float_to_string_exp, to_string", "sprout/detail/math/float.hpp: float_digit_at, float_digits, float_digits_checked, float_round_at, float_exponent10"]}
{"id": "C105", "title": "container operations of sprout::fixed and sprout::fit", "statement": "insert, push_back, push_front, append (and the repeated and front/back forms), erase, pop_back, pop_front (and the _n forms), set, realign, realign_to, resize and resize_backward build a container that shows the sequence with the elements inserted, removed, replaced, cut or padded; the fit forms build a window of exactly these elements.", "quantifier": "all containers that are arrays, strings or windows of arrays, all positions within, all numbers and values of elements", "why_tests_cant": "the result is a pack expansion over its indexes with offset arithmetic in each element; the wrong offsets appear only for windows that do not start at zero, strings inside windows, or more than one element", "anchors": ["sprout/operation/fixed/*.hpp", "sprout/operation/fit/*.hpp", "sprout/container/container_construct_traits.hpp: remake, make", "sprout/sub_array/container.hpp: remake_impl", "sprout/string/container.hpp: remake"]}
{"id": "C106", "title": "sub_array: windows of arrays", "statement": "A sub_array shows the elements of its array from to_first to to_last: size, empty, operator[], at, front, back, nth and index_of agree with that sequence; sub, sub_window and sub_offset (and the c- and _copy forms) give the windows of an array or of a window; push_back, push_front, pop_back, pop_front, drop_back, drop_front and fill change the sequence accordingly and nothing else; the comparisons are equality and the dictionary order of the sequences.", "quantifier": "all arrays, all windows within them, all positions and values", "why_tests_cant": "windows at the ends of the array, and comparisons of windows of different lengths, are rarely tested, and a read just past a window usually falls into the array", "anchors": ["sprout/sub_array/sub_array.hpp", "sprout/sub_array/sub.hpp", "sprout/sub_array/sub_window.hpp", "sprout/sub_array/sub_offset.hpp", "sprout/sub_array/comparison.hpp"]}
{"id": "C107", "title": "fixed algorithms: copying, filling, transformation, removal, order", "statement": "Each of the algorithms of sprout::fixed that return a container (copy, copy_n, copy_if, copy_while, copy_until, copy_backward, fill, fill_n, generate, generate_n, unfold, unfold_n, recurrence, recurrence_n, transform, replace_copy, replace_copy_if, clamp_range_copy, remove_copy, remove_copy_if, unique_copy, reverse_copy, rotate_copy, swap_element_copy, partition_copy, stable_partition_copy, and the forms on the container itself) gives a container of the same static_size and window as its argument, which shows the values of the std algorithm of that name from the beginning as far as there is room, then the old elements; elements outside of the window do not change. The versions for random access and for other iterators agree.", "quantifier": "all arrays, strings and windows of arrays; all input ranges, shorter or longer than the window", "why_tests_cant": "a static size is fixed at compile time for each test; windows strictly inside an array, strings shorter than their capacity, and inputs longer than the room for them are hardly ever combined", "anchors": ["sprout/algorithm/fixed/copy.hpp", "sprout/algorithm/fixed/copy_backward.hpp", "sprout/algorithm/fixed/fill.hpp", "sprout/algorithm/fixed/generate.hpp", "sprout/algorithm/fixed/recurrence.hpp", "sprout/algorithm/fixed/transform.hpp", "sprout/algorithm/fixed/unique_copy.hpp", "sprout/algorithm/fixed/rotate_copy.hpp", "sprout/algorithm/fixed/partition_copy.hpp", "sprout/detail/container_complate.hpp", "sprout/detail/container_complate_backward.hpp"]}
{"id": "C108", "title": "fixed algorithms: heaps and sorting", "statement": "The heap and sorting algorithms of sprout::fixed return a container of the same static_size and window as their argument, with nothing changed outside of the window, whose elements are a permutation of those of the argument: make_heap and push_heap give a heap, pop_heap puts the greatest element at the end and leaves a heap before it, sort_heap sorts a heap, make_partial_heap and partial_sort put the smallest m elements first, as a heap and sorted, nth_element puts at its position the element that belongs there, with no greater one before and no less one behind, and stable_sort (and sort, which calls it) sorts and keeps the order of equivalent elements.", "quantifier": "all strict weak orderings, all arrays, strings and windows of arrays of any size, all positions", "why_tests_cant": "the recursion of each algorithm depends on the order of all elements; a test fixes one static size and a few orders, without equivalent but distinguishable elements, and never uses a window inside an array or an empty range", "anchors": ["sprout/algorithm/fixed/make_heap.hpp", "sprout/algorithm/fixed/push_heap.hpp", "sprout/algorithm/fixed/pop_heap.hpp", "sprout/algorithm/fixed/sort_heap.hpp", "sprout/algorithm/fixed/make_partial_heap.hpp", "sprout/algorithm/fixed/partial_sort.hpp", "sprout/algorithm/fixed/nth_element.hpp", "sprout/algorithm/fixed/stable_sort.hpp", "sprout/algorithm/fixed/sort.hpp"]}
{"id": "C109", "title": "fixed algorithms: merging, set operations, permutations", "statement": "merge, inplace_merge, set_union, set_intersection, set_difference and set_symmetric_difference of sprout::fixed write over the beginning of the window of the result, as far as there is room, the sorted list that std gives for sorted ranges: the stable merge, and of each class of equivalent elements the multiset union, intersection, difference or symmetric difference, with elements of the first range preferred. next_permutation and prev_permutation return the next greater or smaller arrangement of the elements with true, or the first or last one with false. Nothing changes outside of the window.", "quantifier": "all strict weak orderings, all sorted input ranges, all arrays, strings and windows of arrays, of any size", "why_tests_cant": "tests use two short ranges and a result with exactly enough room; results too short for the whole list, windows and classes with different multiplicities in both ranges are not tried", "anchors": ["sprout/algorithm/fixed/merge.hpp", "sprout/algorithm/fixed/inplace_merge.hpp", "sprout/algorithm/fixed/set_union.hpp", "sprout/algorithm/fixed/set_intersection.hpp", "sprout/algorithm/fixed/set_difference.hpp", "sprout/algorithm/fixed/set_symmetric_difference.hpp", "sprout/algorithm/fixed/next_permutation.hpp", "sprout/algorithm/fixed/prev_permutation.hpp"]}
{"id": "C110", "title": "fixed algorithms: shuffle, random_swap, bogo_sort, bozo_sort", "statement": "shuffle and random_swap of sprout::fixed rearrange the window for every generator within the contract of the distribution and change nothing else; every arrangement of the window can be the outcome of shuffle, and, as std requires, with the same probability. The versions with _result return the engine after the draws. bogo_sort and bozo_sort, in place or returning a container, end with the first sorted arrangement, a permutation of the window, and change nothing outside of it.", "quantifier": "all generators within the contract of uniform_int_distribution, all strict weak orderings, all arrays, strings and windows of arrays", "why_tests_cant": "tests run one engine with one seed; whether arrangements are equally probable, and draws at the ends of the interval, are not seen by that", "anchors": ["sprout/algorithm/fixed/shuffle.hpp: shuffle", "sprout/algorithm/fixed/shuffle_result.hpp: shuffle_result", "sprout/algorithm/fixed/random_swap.hpp: random_swap", "sprout/algorithm/fixed/random_swap_result.hpp: random_swap_result", "sprout/algorithm/fixed/bogo_sort.hpp: bogo_sort", "sprout/algorithm/fixed/bogo_sort_result.hpp: bogo_sort_result", "sprout/algorithm/fixed/bozo_sort.hpp: bozo_sort", "sprout/algorithm/fixed/bozo_sort_result.hpp: bozo_sort_result", "sprout/algorithm/cxx14/bogo_sort.hpp: bogo_sort", "sprout/algorithm/cxx14/bozo_sort.hpp: bozo_sort"]}
{"id": "C111", "title": "numeric algorithms that return containers: scans, adjacent_difference, iota", "statement": "The algorithms of sprout::fixed in numeric write to the window of the result, as far as there is room, what the std algorithms of the same name write: partial_sum, inclusive_scan, transform_inclusive_scan the prefix sums (with an initial value: the sums with the initial value in front), exclusive_scan and transform_exclusive_scan the sums of the elements before, adjacent_difference the differences of neighbours, iota value, value + 1, and so on. Nothing outside of the window changes.", "quantifier": "all operations, all ranges, all arrays, strings and windows of arrays", "why_tests_cant": "tests have one array of ten elements and one operation; empty ranges, empty windows, results of other sizes and the overloads with an initial value or for small containers are not instantiated", "anchors": ["sprout/numeric/fixed/partial_sum.hpp: partial_sum", "sprout/numeric/fixed/inclusive_scan.hpp: inclusive_scan", "sprout/numeric/fixed/exclusive_scan.hpp: exclusive_scan", "sprout/numeric/fixed/transform_inclusive_scan.hpp: transform_inclusive_scan", "sprout/numeric/fixed/transform_exclusive_scan.hpp: transform_exclusive_scan", "sprout/numeric/fixed/adjacent_difference.hpp: adjacent_difference", "sprout/numeric/fixed/iota.hpp: iota"]}
{"id": "C112", "title": "algorithms that return windows: sprout::fit", "statement": "The algorithms of sprout::fit return a window of the changed container that begins where the container begins (copy_backward: ends where it ends) and shows exactly the elements that the algorithm of the same name in sprout::fixed has produced, i.e. what the std algorithm puts between the result iterator and the returned iterator, as far as there is room: n for copy_n, fill_n and the like, those with the property for copy_if, partition and partition_copy, those without it for remove, one of each group for unique, the elements of the merged sequence for the set operations, the heap that remains for pop_heap, the sorted ones for partial_sort, all of them for the algorithms that rearrange.", "quantifier": "all ranges with random access or forward iterators, all predicates, orders and operations, all arrays, strings and windows of arrays", "why_tests_cant": "tests use ranges of ten elements of which exactly one half has the property; the count of the elements is computed by other functions than those that write them", "anchors": ["sprout/algorithm/fit/copy.hpp: copy", "sprout/algorithm/fit/copy_if.hpp: copy_if", "sprout/algorithm/fit/remove_if.hpp: remove_if", "sprout/algorithm/fit/unique.hpp: unique", "sprout/algorithm/fit/partition.hpp: partition", "sprout/algorithm/fit/stable_partition.hpp: stable_partition", "sprout/algorithm/fit/set_union.hpp: set_union", "sprout/algorithm/fit/pop_heap.hpp: pop_heap", "sprout/detail/algorithm/overlap_count.hpp: overlap_count", "sprout/detail/algorithm/set_overlap_count.hpp: set_overlap_count", "sprout/detail/algorithm/count_n_if.hpp: count_n_if", "sprout/container/fit_size.hpp: fit_size", "sprout/numeric/fit/inclusive_scan.hpp: inclusive_scan"]}
{"id": "C113", "title": "byte sums and exclusive or", "statement": "sum_basic<Bits> computes the sum of all bytes of the message and the initial value modulo 2^Bits, and xor8 the exclusive or of all bytes and the low byte of the initial value, however the message is divided among calls of process_byte, process_block, process_bytes and process_range.", "quantifier": "all messages, all divisions into calls, all initial values, random access and input iterators, all multiples of 8 for Bits, LP64 and LLP64", "why_tests_cant": "the library has no tests for the checksums; widths other than 8, 16 and 32 and sums that pass 2^Bits need long messages", "anchors": ["sprout/checksum/sum.hpp: sum_basic", "sprout/checksum/sum.hpp: checksum", "sprout/checksum/xor.hpp: xor8", "sprout/detail/integer.hpp: uint_t"]}
{"id": "C114", "title": "compile-time integers", "statement": "static_pow<T,X,Y> is X^Y, static_pow2<T,X> is 2^X, static_pow2m1<T,X> is 2^X - 1 whenever that is a value of T; static_log2<x> is the integer logarithm; carry_to_exp2(x) is the smallest power of two not below x, with the exceptions stated in the header; integer_digits<T,Base> digits suffice for every value of T; int_t, uint_t, int_max_value_t, int_min_value_t, uint_value_t name the narrowest standard type with the given number of bits or the given value.", "quantifier": "all standard integer types, all arguments, bases 2 to 16, LP64 and LLP64", "why_tests_cant": "each instantiation is a separate compilation; tests of the library cover a handful of values", "anchors": ["sprout/integer/static_pow.hpp: static_pow", "sprout/integer/static_pow.hpp: static_pow2", "sprout/integer/static_pow.hpp: static_pow2m1", "sprout/integer/carry_to_exp2.hpp: carry_to_exp2", "sprout/integer/integer_digits.hpp: integer_digits", "sprout/detail/integer/static_log2.hpp: static_log2", "sprout/detail/integer.hpp: int_t", "sprout/detail/integer.hpp: uint_value_t"]}
{"id": "C115", "title": "div and abs of the C library", "statement": "div, ldiv, lldiv and imaxdiv return the quotient truncated towards zero in quot and the remainder in rem whatever the order of the members, undefined exactly for a zero divisor and MIN / -1; the result is a tuple and a container of quot and rem, and remaking the container from its elements gives it back; abs, labs, llabs and imaxabs return the absolute value when it is a value of the type and are undefined otherwise.", "quantifier": "all values of the standard integer types, both orders of the members, all indices", "why_tests_cant": "order of the members depends on the C library; corner cases are undefined behaviour", "anchors": ["sprout/cstdlib/div.hpp: div", "sprout/cstdlib/div.hpp: div_at", "sprout/cstdlib/div.hpp: container_construct_traits", "sprout/cstdlib/abs.hpp: abs", "sprout/cinttypes/div.hpp: imaxdiv", "sprout/cinttypes/abs.hpp: imaxabs"]}
{"id": "C116", "title": "index sequences", "statement": "integer_range<T,First,Last,Step> is the arithmetic progression from First with step Step up to the excluded bound Last; index_range uses ptrdiff_t, the default step is 1 or -1; make_integer_sequence<T,N> is 0,...,N-1; integer_n<T,I,N> is N times I.", "quantifier": "all standard integer types, all bounds and steps of the type that satisfy the static_assert", "why_tests_cant": "each instantiation is a separate compilation, the library has no tests of index_tuple, and the failures are compile errors for whole classes of arguments", "anchors": ["sprout/index_tuple/integer_range.hpp: integer_range", "sprout/index_tuple/integer_n.hpp: integer_n", "sprout/index_tuple/make_integer_sequence.hpp: make_integer_sequence", "sprout/index_tuple/index_range.hpp: index_range", "sprout/index_tuple/make_index_tuple.hpp: make_index_tuple"]}
{"id": "C117", "title": "lists of types", "statement": "The algorithms on type lists (all_of, any_of, none_of, one_of, contains, count, find_index, fold, accumulate, partial_sum, transform, lower_bound_index, upper_bound_index, and tpp::all_of ... max_element) compute what their namesakes compute on values; tuple_cat, append_*, push_*, pop_*, assign and tuples::copy build the expected tuples; the index iterators walk the list in both directions.", "quantifier": "all lists of types, all predicates and operations, all tuple classes", "why_tests_cant": "compile-time computations by recursive halving are tested, if at all, with two or three elements; the error of one_of needs three matches", "anchors": ["sprout/type/algorithm/one_of.hpp: one_of", "sprout/type/algorithm/find_index_if.hpp: find_index_if", "sprout/type/algorithm/fold.hpp: fold", "sprout/type/algorithm/lower_bound_index.hpp: lower_bound_index", "sprout/tpp/algorithm/one_of.hpp: one_of", "sprout/tpp/algorithm/max_element.hpp: max_element", "sprout/type/operation/tuple_cat.hpp: tuple_cat", "sprout/type/operation/pop_back.hpp: pop_back", "sprout/type/iterator/index_iterator.hpp: index_iterator", "sprout/tuple/algorithm/copy.hpp: copy"]}
{"id": "C118", "title": "subsets of valarrays", "statement": "slice, gslice, mask and indirect subsets of a valarray select the positions of the standard; reading, constructing, assigning and compound-assigning through a subset touch exactly the selected elements; assigning one subset to another copies the elements; at is range-checked.", "quantifier": "all valarrays (capacity below 2^64), all slices, generalised slices of any dimension, masks and index arrays, all element types and operators", "why_tests_cant": "the library has no tests of valarray; the failures are overload resolution choosing an implicit operator, and a missing check", "anchors": ["sprout/valarray/slice_array.hpp: slice_array", "sprout/valarray/gslice_array.hpp: gslice_array", "sprout/valarray/mask_array.hpp: mask_array", "sprout/valarray/indirect_array.hpp: indirect_array", "sprout/detail/algorithm/mask_index.hpp: mask_index", "sprout/numeric/fixed/partial_sum.hpp: partial_sum"]}
{"id": "C119", "title": "valarray", "statement": "valarray<T, N> is an array of at most N elements: constructors, element access, iteration, empty, fill, resize, sum, min, max, shift, cshift, the unary, binary, comparison and logical operators, compound assignments and mathematical functions do what std::valarray does elementwise.", "quantifier": "all valarrays (capacity below 2^64), all element types, functions and counts", "why_tests_cant": "the library has no tests of valarray; several members are never instantiated", "anchors": ["sprout/valarray/valarray.hpp: valarray", "sprout/valarray/arithmetic.hpp: operator+", "sprout/valarray/comparison.hpp: operator==", "sprout/valarray/logical.hpp: operator&&", "sprout/valarray/power.hpp: pow", "sprout/valarray/trigonometric.hpp: atan2", "sprout/valarray/make_valarray.hpp: make_valarray", "sprout/functional/bind2nd.hpp: binder2nd"]}
{"id": "C120", "title": "range adaptors", "statement": "The adaptors dropped, taken, dropped_end, taken_end, offset, window, sized, reversed, transformed, jointed, alternated, moved, adapted_dropped, adapted_taken, adapted_dropped_end, adapted_taken_end, adapted_window, adapted_offset and piped yield the elements their names say, also when applied to the results of other adaptors.", "quantifier": "all ranges over any iterators with the laws of positions, all element types, functions, distances (sizes below 2^63), any nesting", "why_tests_cant": "there are no tests of range adaptors; the failures are swapped ends, overlapping distances, or do not compile", "anchors": ["sprout/range/adaptor/dropped.hpp: operator|", "sprout/range/adaptor/taken.hpp: operator|", "sprout/range/adaptor/dropped_end.hpp: operator|", "sprout/range/adaptor/taken_end.hpp: operator|", "sprout/range/adaptor/offset.hpp: operator|", "sprout/range/adaptor/window.hpp: operator|", "sprout/range/adaptor/jointed.hpp: jointed_range", "sprout/range/adaptor/alternated.hpp: alternated_range", "sprout/range/adaptor/moved.hpp: moved_range", "sprout/range/adaptor/adapted_window.hpp: operator|", "sprout/range/adaptor/adapted_offset.hpp: operator|", "sprout/range/adaptor/piped.hpp: apply_adaptors_impl", "sprout/range/range_container.hpp: range_container"]}
{"id": "C121", "title": "counting, constant and indexed ranges", "statement": "counting ranges contain the integers from first to last; range|counting, range|filled, range|indexed, range|steps, range|blanked, range|removed yield as many elements as their range; iterators have the same value however they are reached; it += n is it = it + n for all iterator classes.", "quantifier": "all integer types, all starts and ends, all ranges with the laws of positions, all iterator classes with a member swap", "why_tests_cant": "there are no tests of these; most of the failures are template members that are never instantiated", "anchors": ["sprout/iterator/counting_iterator.hpp: counting_iterator", "sprout/range/adaptor/counting.hpp: counting_range", "sprout/iterator/value_iterator.hpp: value_iterator", "sprout/range/adaptor/filled.hpp: filled_range", "sprout/iterator/indexed_iterator.hpp: indexed_iterator", "sprout/range/adaptor/indexed.hpp: indexed_range", "sprout/range/adaptor/steps.hpp: steps_range", "sprout/range/adaptor/blanked.hpp: blanked_range", "sprout/range/adaptor/removed.hpp: removed_range", "sprout/range/adaptor/removed_if.hpp: removed_if_range", "sprout/iterator/reverse_iterator.hpp: swap"]}
{"id": "C122", "title": "optional", "statement": "sprout::optional<T> holds a value of T or nothing: constructors, copy, move, assignment, reset, emplace and swap have the stated values; operator*, get, value, value_or, get_pointer, size, at and iteration observe them; comparisons are those of values with nothing first (a strict weak ordering if < is one); equal optionals have equal hashes; what is written to a stream can be read back.", "quantifier": "all types of objects and references, all values, all streams", "why_tests_cant": "the tests of optional check single values of optional<int>; they read no stream and use no reverse iterators or references", "anchors": ["sprout/optional/optional.hpp: optional", "sprout/utility/value_holder/value_holder.hpp: value_holder", "sprout/optional/comparison.hpp: operator==", "sprout/utility/compare_pointees.hpp: less_pointees", "sprout/optional/get.hpp: get_pointer", "sprout/optional/io.hpp: operator>>", "sprout/optional/hash.hpp: hash_value", "sprout/iterator/value_iterator.hpp: value_iterator"]}
{"id": "C123", "title": "variant", "statement": "sprout::variant holds a value of one of its alternatives: it is constructed from and assigned exactly the values of its alternatives (the first of the type), copied, moved and swapped; get, get_at, apply_visitor and output see the active value only; == compares values of the same alternative, < orders by alternative, then by value.", "quantifier": "all lists of alternative types, all values, all visitors", "why_tests_cant": "the tests copy constexpr variables, which are const; a variable that is not const takes another constructor", "anchors": ["sprout/variant/variant.hpp: variant", "sprout/variant/get.hpp: get", "sprout/variant/apply_visitor.hpp: apply_visitor", "sprout/variant/tuple.hpp: tuple_get", "sprout/variant/io.hpp: operator<<"]}
{"id": "C124", "title": "hash values", "statement": "sprout::to_hash and hash_value map equal values to equal values of size_t: hash_combine gives a value of size_t and, for a fixed seed, different values for different hash values; hash_values and hash_range combine from the left whatever the kind of range; integers not longer than size_t have different hash values, longer ones and floating values have hash values too.", "quantifier": "all widths of size_t, all integer and floating types of radix 2, all values, all ranges", "why_tests_cant": "the tests of hash check that a few values compile; signed overflow shows only near the largest value of a type longer than size_t", "anchors": ["sprout/functional/hash/hash_combine.hpp: hash_combine", "sprout/functional/hash/hash_values.hpp: hash_values", "sprout/functional/hash/hash_range.hpp: hash_range", "sprout/functional/hash/hash_value.hpp: hash_value_signed", "sprout/functional/hash/detail/hash_float.hpp: float_hash_value", "sprout/tuple/tuple/hash.hpp: hash_value", "sprout/variant/hash.hpp: hash_value"]}
{"id": "C125", "title": "intrusive forward lists", "statement": "sprout::forward_clist links items without copying them: iteration sees the linked items in order; push_front, pop_front, insert_after, erase_after, unlink and clear insert and remove exactly the stated items, unlink what they remove and touch no other item; empty tells whether there are items; moving transfers the items.", "quantifier": "all lists of items, all positions, all items", "why_tests_cant": "forward_clist has no test; each operation is a sequence of pointer assignments whose order matters", "anchors": ["sprout/forward_clist.hpp: forward_clist", "sprout/forward_clist.hpp: forward_item_iterator", "sprout/utility/value_holder/value_holder.hpp: value_holder"]}
{"id": "C126", "title": "three-valued logic", "statement": "sprout::tribool is Kleene's three-valued logic: !, && and || are complement, minimum and maximum of truth values, == and != are indeterminate if an operand is; overloads for bool and the keyword agree with conversion; what is written to a stream with names of which none is the beginning of another, or as a number, can be read back.", "quantifier": "all values, all names of the values, all streams", "why_tests_cant": "the tests of tribool read no streams, and reading compares three names at once", "anchors": ["sprout/logic/tribool/tribool.hpp: tribool", "sprout/logic/tribool/io.hpp: operator>>", "sprout/logic/tribool/hash.hpp: hash_value"]}
{"id": "C127", "title": "distributions of real numbers", "statement": "uniform_01 gives values at least 0 and below 1, exactly result/2^w for engines of 2^w results; uniform_real_distribution(a,b) gives values at least a and below b for every a <= b the constructor accepts; bernoulli_distribution(p) is true for a fraction p of the engine's results up to 2 results, for p = 0 never and for p = 1 always; geometric_distribution gives values from 0 up for every p in (0,1), and p() returns p.", "quantifier": "all floating formats with correct rounding, all integral engines, all parameters the constructors accept, all states", "why_tests_cant": "the tests compare a few values of one engine; ends of intervals, tiny parameters and rounding of the range do not occur", "anchors": ["sprout/random/uniform_01.hpp: uniform_01", "sprout/random/uniform_real_distribution.hpp: generate_uniform_real", "sprout/random/bernoulli_distribution.hpp: bernoulli_distribution", "sprout/random/geometric_distribution.hpp: geometric_distribution", "sprout/random/detail/signed_unsigned_tools.hpp: subtract"]}
{"id": "C128", "title": "generate_canonical", "statement": "generate_canonical gives a value at least 0 and below 1, for the version that changes the engine and for the version for constant engines, and its assertions hold.", "quantifier": "all floating formats with correct rounding, all integral engines, all states", "why_tests_cant": "the failing results are the least and the greatest of an engine, which tests with fixed seeds do not meet", "anchors": ["sprout/random/generate_canonical.hpp: generate_canonical"]}
{"id": "C129", "title": "algorithms on ranges", "statement": "The searching algorithms of sprout::range (find, find_if, find_if_not, adjacent_find, find_first_of, search, find_end, lower_bound, upper_bound, equal_range, is_sorted_until, min_element, minmax_element) return for every range, at any position of a block of memory, the iterator of the iterator algorithm; with return_begin_found the returned range shows exactly the elements in front of it, with return_found_end exactly those from it on. equal, mismatch and is_permutation of two ranges regard exactly the elements of both ranges.", "quantifier": "all ranges, predicates, strict weak orders, all surrounding memory and the three kinds of result", "why_tests_cant": "A test compares two or three arrays of the same length; that the end of the second range is ignored shows only with arrays of different length.", "anchors": ["sprout/range/range_return.hpp: range_return", "sprout/range/algorithm/find.hpp: find", "sprout/range/algorithm/equal.hpp: equal", "sprout/range/algorithm/mismatch.hpp: mismatch", "sprout/range/algorithm/is_permutation.hpp: is_permutation", "sprout/range/algorithm/equal_range.hpp: equal_range", "sprout/range/algorithm/search.hpp: search"]}
{"id": "C130", "title": "Poisson distribution", "statement": "For every mean poisson_distribution draws values of the Poisson distribution: with a mean below ten it draws one uniform number u and returns the u-quantile; with a larger mean every draw ends with a value that is not negative and fits into the type, or rejects and draws again, without undefined behaviour. The version for constant engines returns the same values as the version with a reference to the engine. mean() returns the mean.", "quantifier": "all means above zero, all sequences of uniform numbers in [0, 1), all integer types", "why_tests_cant": "A test draws a few numbers from one engine; the draws for which the table is read past its end, and those that distinguish the two versions, are rare.", "anchors": ["sprout/random/poisson_distribution.hpp: poisson_distribution"]}
{"id": "C131", "title": "binomial distribution", "statement": "For every number of trials and every probability binomial_distribution draws values of the binomial distribution: with a mode below eleven it draws one uniform number u and returns the u-quantile (of the failures if p > 1/2); otherwise every returned value is between 0 and t, and a value k is accepted by comparing with the ratio of the probabilities of k and of the mode. fc is the correction of Stirling's formula. The version for constant engines returns the same values as the version with a reference to the engine. p() returns the probability.", "quantifier": "all numbers of trials, probabilities in [0, 1], sequences of uniform numbers in [0, 1), integer types", "why_tests_cant": "A test draws a few numbers from one engine; the wrong table is read only for rare values, and the endless loop depends on the draw.", "anchors": ["sprout/random/binomial_distribution.hpp: binomial_distribution"]}
{"id": "C132", "title": "normal distribution", "statement": "normal_distribution draws values of the normal distribution: for every mean and deviation, two independent uniform draws are turned by two successive calls into two independent normal values, and later calls continue with new draws. Both versions return the same value, engine and next distribution. After reset or param the values are those of a new distribution. Two distributions are equal exactly if they have the same parameters and generate the same values.", "quantifier": "all means and deviations, all engines, all numbers of calls", "why_tests_cant": "A test looks at a few values; the law of the values is a statement about all draws, and equality after reset is not tested.", "anchors": ["sprout/random/normal_distribution.hpp: normal_distribution"]}
{"id": "C133", "title": "seed_array generates the words of seed_seq", "statement": "seed_array<N>(seeds).generate, both for mutable ranges and for containers in constant expressions, gives for every list of seeds and every number of words exactly the words that the standard prescribes for seed_seq. No access leaves the array. Every seed of at most 64 bits counts modulo 2^32.", "quantifier": "all lists of seeds of any length, all numbers of words", "why_tests_cant": "The standard's constants change at 7, 39, 68 and 623 words, and rounds differ for positions that coincide; tests try one or two lengths. The two versions are written completely differently.", "anchors": ["sprout/random/seed_array.hpp: seed_array::generate", "sprout/random/seed_array.hpp: seed_array_init"]}
{"id": "C134", "title": "seeding an engine from a sequence", "statement": "seed_one_int and get_one_int give, for every modulus, the sum of the words from the third on times powers of 2^32 modulo m, with as many words as the modulus needs, for mutable and constant sequences and for iterators; a linear congruential engine then starts in that state, or in 1 where 0 is no state. An engine that is made from another engine is its copy.", "quantifier": "all moduli of 32 and 64 bits, all sequences, all engines", "why_tests_cant": "Tests seed with numbers; the overloads for sequences are templates that nothing instantiates.", "anchors": ["sprout/random/detail/seed_impl.hpp: seed_one_int", "sprout/random/detail/seed_impl.hpp: get_one_int", "sprout/random/linear_congruential.hpp: init_seed"]}
{"id": "C135", "title": "iterators, ranges and arrays of random values", "statement": "The values seen through random::begin/end and make_range, through increments of random_result, and in the arrays of generate_array are exactly the values that the generator gives one after the other; a range of n values needs n draws; all forms are usable for engines alone, for engines held by value, by reference to const and by mutable reference, and for every size including 0. make_seed_seq<N> is the sequence of repeated combinations of the hash value.", "quantifier": "all generators, all counts, all sizes", "why_tests_cant": "Tests look at fixed engines and a few values; the overload for mutable references, make_range for an engine alone and size 0 are never instantiated.", "anchors": ["sprout/random/random_result.hpp: random_result", "sprout/random/variate_generator.hpp: variate_generator", "sprout/iterator/generator_iterator.hpp: generator_iterator", "sprout/random/iterator.hpp: begin", "sprout/random/range.hpp: make_range", "sprout/random/generate_array.hpp: generate_array", "sprout/random/unique_seed.hpp: make_seed_seq"]}
{"id": "C136", "title": "vectors and rays of the ray tracer", "statement": "add, sub, scale, negate, dot, length_sq and length are the operations of Euclidean space; normalize and resize give the vector with the same direction and length 1 or k (and fail for the zero vector only); reflect is the mirror image in the plane perpendicular to the normal; refract is the direction that satisfies Snell's law, or the zero vector in the case of total reflection; cross is the vector product; make_detached_ray starts at distance 256 epsilon from the point.", "quantifier": "all vectors with real components", "why_tests_cant": "Tests take a few vectors; the wrong component of cross shows only for vectors with certain components.", "anchors": ["sprout/darkroom/coords/vector.hpp: cross", "sprout/darkroom/coords/vector.hpp: refract", "sprout/darkroom/coords/vector.hpp: reflect", "sprout/darkroom/rays/ray.hpp: make_detached_ray"]}
{"id": "C137", "title": "spheres, planes, triangles and lists of objects", "statement": "For a ray with a unit direction: a sphere is hit if and only if the ray enters or leaves the ball ahead of its start, at the first such point, with the unit normal towards the ray and the material at the longitude and latitude; an axis-aligned plane is hit if and only if the ray crosses it ahead of its start, at that point, with the normal towards the start; a triangle is hit if and only if the ray meets the closed triangle; a list of objects gives the nearest hit.", "quantifier": "all objects, all rays over the reals", "why_tests_cant": "Tests trace a few rays; degenerate directions, rays starting on a surface and triangles in general position are not covered.", "anchors": ["sprout/darkroom/objects/sphere.hpp: basic_sphere", "sprout/darkroom/objects/aa_plane.hpp: basic_aa_plane", "sprout/darkroom/objects/polygon/triangle.hpp: basic_triangle", "sprout/darkroom/objects/intersect.hpp: intersect_list"]}
{"id": "C138", "title": "colours, textures and lights of the ray tracer", "statement": "add, mul and filter with several arguments are componentwise sums and products; rgb_f to pixel is the floor of 255 c, monotone and cut off outside [0, 1], and inverts the decoding of texture pixels; bilinear interpolation stays between the corners; a plaid is a chessboard with squares of half the scale; a tiled texture repeats in all directions, one placed once covers the square of the scale around the offset and nothing else; a light is hidden if and only if an object lies between the point and the light; otherwise it gives its colour, filtered by that of the material, with an intensity between epsilon and 1; several lights are added; all factories are usable.", "quantifier": "all colours, textures, lights and objects over the reals", "why_tests_cant": "Tests render fixed scenes; the coordinates on negative grid lines and two surfaces within epsilon of a point are never reached, and the factories with a scale are not instantiated.", "anchors": ["sprout/darkroom/colors/rgb.hpp: rgb_f_to_rgb", "sprout/darkroom/materials/interpolation.hpp: bilinear", "sprout/darkroom/materials/plaid.hpp: plaid_element", "sprout/darkroom/materials/texture_map.hpp: texture_map", "sprout/darkroom/lights/point_light.hpp: basic_point_light", "sprout/darkroom/lights/parallel_light.hpp: basic_parallel_light", "sprout/darkroom/lights/calculate.hpp: calculate_list"]}
{"id": "C139", "title": "camera, renderer and pixels of the ray tracer", "statement": "simple_camera gives for every pixel a ray of unit direction from the camera through the point of a view plane perpendicular to the view, with square pixels and the reference side of length 1, symmetric about the fixation point; whitted_style gives at a hit (1 - rho - alpha) times the light there plus rho times the mirrored ray plus alpha times the ray refracted by Snell's law on entry and on exit (everything to the mirrored ray in the case of total reflection), and the colour at infinity if nothing is hit; for bounded lights the result stays in the same bounds; generate gives in pixel (i, j) the colour of the ray (x + i, y + j); none of it fails.", "quantifier": "all cameras, scenes, depths, sizes over the reals", "why_tests_cant": "Tests and samples render one scene at low resolution; that rays leave glass unbent, that the view plane is tilted and that a light in the origin divides by zero is not visible there.", "anchors": ["sprout/darkroom/cameras/simple_camera.hpp: basic_simple_camera", "sprout/darkroom/renderers/whitted_style.hpp: whitted_mirror", "sprout/darkroom/renderers/whitted_style.hpp: whitted_transmit", "sprout/darkroom/renderers/whitted_style.hpp: whitted_style", "sprout/darkroom/renderers/infinity.hpp: direction_gradation", "sprout/darkroom/tracers/raytracer.hpp: raytracer", "sprout/darkroom/pixels/generate.hpp: generate"]}
{"id": "C140", "title": "second order filters", "statement": "The coefficients given by iir_lpf, iir_hpf, iir_bpf, iir_bef, iir_resonator, iir_notch, iir_low_shelving, iir_high_shelving and iir_peaking are those of the filters of their names: the frequency response is that of the analog prototype under the prewarped bilinear transform (low-pass: gain 1 for constant signals, q at fc, 0 at half of the sampling rate; band filters: centre passed or removed, half power at the edges; notch: fc removed; shelving: g + 1 on the shelf and 1 elsewhere; peaking: 1 far from the peak), and all poles are inside the unit circle; apply_iir computes the difference equation, hence multiplies complex exponentials by the transfer function.", "quantifier": "all frequencies 0 < fc < 1/2, q > 0, gains; all signals, over the reals (apply_iir: over any field)", "why_tests_cant": "No test uses the filters; a wrong sign in one coefficient of a filter still compiles and gives plausible sound, and stability is a statement about infinitely many samples.", "anchors": ["sprout/compost/utility/iir_filter.hpp: iir_lpf", "sprout/compost/utility/iir_filter.hpp: iir_hpf", "sprout/compost/utility/iir_filter.hpp: iir_bpf", "sprout/compost/utility/iir_filter.hpp: iir_bef", "sprout/compost/utility/iir_filter.hpp: iir_resonator", "sprout/compost/utility/iir_filter.hpp: iir_notch", "sprout/compost/utility/iir_filter.hpp: iir_low_shelving", "sprout/compost/utility/iir_filter.hpp: iir_high_shelving", "sprout/compost/utility/iir_filter.hpp: iir_peaking", "sprout/compost/utility/iir_filter.hpp: apply_iir"]}
{"id": "C141", "title": "sound effects on samples and wave formats", "statement": "Each effect does to a sample what its name says: clamping gives the nearest value of the interval and is in order and idempotent, rectified the absolute value, distorted is proportional up to clipping and bounded by the level, overdriven strictly increasing and bounded, fuzzed is level * min(1, gain * |x|), noise_gated removes exactly what is not above the threshold, compressed is odd, increasing, keeps full scale at full scale and does not make samples quieter; as_pcm_wave neither overflows nor errs by a step, reaches full scale and keeps order; superposed adds element by element; left_channel and right_channel give the channels of a stereo signal, and stereo of both gives back the signal.", "quantifier": "all real samples and parameters, all ranges", "why_tests_cant": "No test uses the effects; for wrong thresholds or clipping the result is still sound, and the templates that cannot be used at all are only noticed when instantiated.", "anchors": ["sprout/compost/effects/changed_volume.hpp: changed_volume", "sprout/compost/effects/clipped.hpp: clipped", "sprout/compost/effects/rectified.hpp: rectify_value", "sprout/compost/effects/distorted.hpp: distorted", "sprout/compost/effects/overdriven.hpp: overdrive_clip_value", "sprout/compost/effects/fuzzed.hpp: fuzzed", "sprout/compost/effects/superposed.hpp: superposed", "sprout/compost/effects/noise_gated.hpp: noise_gate_value", "sprout/compost/effects/compressed.hpp: compress_value", "sprout/compost/effects/vocal_cancelled.hpp: vocal_cancelled", "sprout/compost/formats/as_pcm_wave.hpp: normalized_to_pcm_wave", "sprout/compost/formats/left_channel.hpp: operator|", "sprout/compost/formats/right_channel.hpp: operator|", "sprout/compost/formats/effected_each.hpp: operator|", "sprout/compost/formats/stereo.hpp: stereo", "sprout/algorithm/clamp.hpp: clamp"]}
{"id": "C142", "title": "sound effects that depend on time", "statement": "tremolo multiplies the signal by 1 + depth * sin(2 pi rate t); auto_pan moves the signal between the channels whose sum stays twice the signal; pseudo_stereo gives the sum and the difference of the signal and the delayed signal; reverbed adds rep echoes, the i-th delayed by i * delay and attenuated i times; vibrato gives the signal at a varying delay by linear interpolation, within the bounds of the signal, chorus the signal plus this; silence before the beginning.", "quantifier": "all signals, positions, delays, depths, rates, sampling rates", "why_tests_cant": "The effects have no tests; the beginning and the end of the signal and fractional delays are rare positions in a wave.", "anchors": ["sprout/compost/effects/tremolo.hpp: tremolo_outdirected_value", "sprout/compost/effects/auto_pan.hpp: auto_pan_outdirected_value", "sprout/compost/effects/pseudo_stereo.hpp: pseudo_stereo_outdirected_value", "sprout/compost/effects/reverbed.hpp: reverb_outdirected_value", "sprout/compost/effects/vibrato.hpp: vibrato_outdirected_value", "sprout/compost/effects/chorus.hpp: chorus_outdirected_value", "sprout/compost/formats/stereo.hpp: stereo"]}
{"id": "C143", "title": "iterators over waves, transforms and noise", "statement": "The iterators sinusoid_iterator, sawtooth_iterator, square_iterator, triangle_iterator are random access iterators over the wave of their parameters; range | sinusoidal(f, a, p) and the other wave adaptors have the elements of the wave for the indices of the range, bounded by the amplitude and periodic, and agree with fixed::sinusoid etc. range | dft and range | idft have the coefficients of the transform as elements. range | white_noise(gen, sigma) has the first values of the normal distribution with the engine gen.", "quantifier": "all parameters, indices, ranges, engines", "why_tests_cant": "The adaptors are not tested; member functions of templates that cannot be compiled are not noticed until used; a shift in a random sequence cannot be seen by looking at it.", "anchors": ["sprout/iterator/sinusoid_iterator.hpp: sinusoid_iterator", "sprout/iterator/sawtooth_iterator.hpp: sawtooth_iterator", "sprout/iterator/square_iterator.hpp: square_iterator", "sprout/iterator/triangle_iterator.hpp: triangle_iterator", "sprout/iterator/dft_iterator.hpp: dft_iterator", "sprout/iterator/idft_iterator.hpp: idft_iterator", "sprout/range/adaptor/sinusoidal.hpp: operator|", "sprout/range/adaptor/sawtooth_wave.hpp: operator|", "sprout/range/adaptor/square_wave.hpp: operator|", "sprout/range/adaptor/triangle_wave.hpp: operator|", "sprout/range/adaptor/dft.hpp: operator|", "sprout/range/adaptor/idft.hpp: operator|", "sprout/compost/waves/white_noise.hpp: white_noise_range"]}
{"id": "C144", "title": "Bezier curves and Catmull-Rom splines", "statement": "bezier(t, points) of 3 to 6 points is the Bezier curve of de Casteljau's construction: it begins at the first and ends at the last control point, stays in the convex hull of the points for t in [0, 1], and is reversed by reversing the points. catmull_rom_spline(t, p0, p1, p2, p3) goes from p1 to p2 with velocities (p2 - p0)/2 and (p3 - p1)/2; the pieces start, inner pieces and end join with equal values and velocities.", "quantifier": "all points, all parameters", "why_tests_cant": "A wrong coefficient bends the curve slightly; tests look at few parameter values, and the joins are a relation between two functions.", "anchors": ["sprout/math/curve/bezier.hpp: bezier_impl", "sprout/math/curve/bezier.hpp: bezier", "sprout/math/curve/catmull_rom_spline.hpp: catmull_rom_spline_impl", "sprout/math/curve/catmull_rom_spline.hpp: catmull_rom_spline_start_impl", "sprout/math/curve/catmull_rom_spline.hpp: catmull_rom_spline_end_impl", "sprout/detail/pow.hpp: pow2"]}
{"id": "C145", "title": "bind expressions", "statement": "bind(f, e1, ..., em)(x1, ..., xn) calls f with what the bound arguments stand for: values themselves, ref(x) the variable, _k the k-th argument, _ the next argument not yet used by an unnumbered placeholder, _va all arguments, _ktail the arguments after the k-th, nested bind expressions their value for the same arguments. The same holds for cbind, bind<R>, cbind<R>, for const objects, and for the literals k_ and k_tail.", "quantifier": "all functions, bound arguments, nestings, numbers of arguments", "why_tests_cant": "Bound arguments are found by index computations on types, for all numbers and positions of variadic placeholders, including empty ones; tests use a few fixed expressions.", "anchors": ["sprout/functional/bind/bind.hpp: mu", "sprout/functional/bind/bind.hpp: bound_size", "sprout/functional/bind/bind.hpp: bounds_partial_size", "sprout/functional/bind/bind.hpp: bound_position", "sprout/functional/bind/bind.hpp: bound_element", "sprout/functional/bind/bind.hpp: binder_impl", "sprout/functional/bind/bind.hpp: res_binder_impl", "sprout/functional/bind/bind.hpp: binder_complete_placeholders_impl", "sprout/functional/bind/bind.hpp: bind", "sprout/functional/bind/placeholder.hpp: variadic_placeholder", "sprout/functional/bind/literals.hpp: variadic_placeholders_result", "sprout/type/algorithm/lower_bound_index.hpp: lower_bound_index"]}
{"id": "C146", "title": "joining containers and strings", "statement": "join(cont) is the elements of the containers of cont one after the other, join(cont, sep) the same with sep between consecutive containers. For arrays that is the result; for strings it is the contents of the result, whose capacity is that of all the strings together. This holds for all iterator categories, numbers of containers, capacities and sizes.", "quantifier": "all containers of containers, sizes within the capacity, separators", "why_tests_cant": "Positions are found by binary search in the partial sums of sizes, for all numbers and sizes of strings, empty ones included; tests join a few short strings.", "anchors": ["sprout/algorithm/string/join.hpp: join_impl_ra_2", "sprout/algorithm/string/join.hpp: join_impl_ra", "sprout/algorithm/string/join.hpp: join_impl", "sprout/algorithm/string/join.hpp: join_impl_1", "sprout/algorithm/string/join.hpp: join", "sprout/range/adaptor/size_enumed.hpp: size_enumed_range", "sprout/string/string.hpp: make_construct_impl"]}
{"id": "C147", "title": "loops as expressions", "statement": "while_loop(init, pred, op) and until_loop(init, pred, op) are the first element of init, op(init), op(op(init)), ... for which pred does not hold (holds), and do not end if there is none; so are the flat versions. fold_while and fold_until are the left fold that stops when the predicate on the value fails (holds). any_of_equal, all_of_equal, none_of_equal say whether the value is among the elements, all elements equal it, or none does, for random access and input iterators.", "quantifier": "all operations, predicates, values, ranges", "why_tests_cant": "The loops are run in batches of 1, 2, 4, ... steps, nested by halving; whether a step too many or too few is made depends on the number of iterations, of which tests cover a few.", "anchors": ["sprout/utility/while_loop.hpp: while_loop_impl_1", "sprout/utility/while_loop.hpp: flat_while_loop", "sprout/utility/until_loop.hpp: until_loop_impl_1", "sprout/utility/until_loop.hpp: flat_until_loop", "sprout/algorithm/fold_while.hpp: fold_while_impl", "sprout/algorithm/fold_until.hpp: fold_until_impl", "sprout/algorithm/any_of_equal.hpp: any_of_equal_impl", "sprout/algorithm/all_of_equal.hpp: all_of_equal_impl", "sprout/algorithm/none_of_equal.hpp: none_of_equal_impl"]}
{"id": "C148", "title": "recursion depth of algorithms", "statement": "As documented at each algorithm, the functions are nested O(log N) deep (O(log(N1+N2)) for two ranges): find, find_if, find_if_not, count, count_if, all_of, any_of, none_of, accumulate, lower_bound, upper_bound, set searches, mask_index, for random access and input iterators.", "quantifier": "all lengths, elements, predicates", "why_tests_cant": "The limit on nested constexpr calls (512) is hit at lengths above those of tests.", "anchors": ["sprout/algorithm/find_if.hpp: find_if_impl_ra", "sprout/algorithm/find_if.hpp: find_if_impl_1", "sprout/algorithm/find_if.hpp: find_if_impl", "sprout/algorithm/all_of.hpp: all_of_impl_ra", "sprout/algorithm/any_of.hpp: any_of_impl_ra", "sprout/algorithm/count_if.hpp: count_if_impl_ra", "sprout/algorithm/lower_bound.hpp: lower_bound", "sprout/algorithm/find_intersection.hpp: find_intersection_impl_1", "sprout/numeric/accumulate.hpp: accumulate_ra", "sprout/detail/algorithm/mask_index.hpp: mask_index_impl"]}
{"id": "C149", "title": "stream operators of numbers and random number engines", "statement": "A complex number, quaternion, normal fraction, value holder or engine state written with operator<< and read with operator>> is the same again, whatever the variable held and whatever follows; reading is defined for every input and leaves the variable as it was if the stream fails; it accepts only valid states of engines.", "quantifier": "all values, all old values, all inputs, all ways to write and read numbers that are inverse to each other", "why_tests_cant": "Inputs that end early, or hold something else than a number, are many, and an uninitialised variable usually shows nothing.", "anchors": ["sprout/complex/stream_operators.hpp: operator>>", "sprout/math/quaternion/stream_operators.hpp: operator>>", "sprout/rational/io.hpp: operator>>", "sprout/utility/value_holder/io.hpp: operator>>", "sprout/random/linear_congruential.hpp: operator>>", "sprout/random/inversive_congruential.hpp: operator>>", "sprout/random/linear_feedback_shift.hpp: operator>>", "sprout/random/xor_combine.hpp: operator>>", "sprout/random/additive_combine.hpp: operator>>", "sprout/random/shuffle_order.hpp: operator>>"]}
{"id": "C150", "title": "stream operators of strings, bitsets and uuids", "statement": "A word, a bitset or a uuid written with operator<< and read with operator>> is the same again, whatever the variable held and whatever follows, for all flags of the stream; if there is nothing to read the stream fails.", "quantifier": "all strings without white space, bitsets, uuids, old values, inputs, stream flags", "why_tests_cant": "The result depends on the old value of the variable and on flags of the stream that are rarely set.", "anchors": ["sprout/string/io.hpp: operator>>", "sprout/string/io.hpp: operator<<", "sprout/bitset/io.hpp: operator>>", "sprout/bitset/io.hpp: operator<<", "sprout/uuid/io.hpp: operator>>", "sprout/uuid/io.hpp: operator<<"]}
{"id": "C151", "title": "ptr_index_iterator stands for a pointer", "statement": "ptr_index_iterator(p, n) stands for the pointer p + n: dereferencing, subscripts, increments, arithmetic, comparisons and differences of iterators into an array are those of the pointers they stand for; an iterator converts to the iterator of constants.", "quantifier": "all arrays, pointers, indices", "why_tests_cant": "Iterators compared in tests are made from the same pointer.", "anchors": ["sprout/iterator/ptr_index_iterator.hpp: ptr_index_iterator", "sprout/iterator/ptr_index_iterator.hpp: operator==", "sprout/iterator/ptr_index_iterator.hpp: operator-", "sprout/iterator/ptr_index_iterator.hpp: make_ptr_index_iterator", "sprout/iterator/ptr_index_iterator.hpp: ptr_unindex"]}
{"id": "C152", "title": "tgamma satisfies the functional equation", "statement": "tgamma, computed without builtins, satisfies tgamma(x + 1) = x tgamma(x), is (n - 1)! at the positive integers n, positive for positive x, and has no value at zero and the negative integers.", "quantifier": "all real x (exact arithmetic)", "why_tests_cant": "Tests compare a handful of arguments with std::tgamma within a tolerance.", "anchors": ["sprout/math/tgamma.hpp: tgamma_impl_y", "sprout/math/tgamma.hpp: tgamma_impl_t_pos", "sprout/math/tgamma.hpp: tgamma_impl_t_neg", "sprout/math/tgamma.hpp: tgamma_impl_t_pos_rec", "sprout/math/tgamma.hpp: tgamma_impl_t_neg_rec", "sprout/math/tgamma.hpp: tgamma_impl_1", "sprout/math/tgamma.hpp: tgamma_impl", "sprout/math/tgamma.hpp: tgamma"]}
{"id": "C153", "title": "lgamma uses the polynomial made for its argument", "statement": "lgamma approximates log|gamma|: between 1/2 and 8 the polynomial used is the one made for the interval of the argument, adjacent polynomials agree where they meet, negative arguments are reduced by the formula of reflection, and there is no value at zero and the negative integers.", "quantifier": "all real x (exact arithmetic, exact log, sin and pi)", "why_tests_cant": "Tests compare a handful of arguments with std::lgamma within a tolerance larger than the error.", "anchors": ["sprout/math/lgamma.hpp: lgamma_impl_3", "sprout/math/lgamma.hpp: lgamma_impl_2_d", "sprout/math/lgamma.hpp: lgamma_impl_2_c", "sprout/math/lgamma.hpp: lgamma_impl_2_b_2", "sprout/math/lgamma.hpp: lgamma_impl_2_b", "sprout/math/lgamma.hpp: lgamma_impl_2_a", "sprout/math/lgamma.hpp: lgamma_impl_1", "sprout/math/lgamma.hpp: lgamma"]}
{"id": "C154", "title": "erf is the error function", "statement": "erf, computed without builtins, differs from the error function by at most 1e-18, and by at most 1e-18 |x| for small x; it is odd, positive for positive arguments and at most one; erfc approximates the complement with a small relative error.", "quantifier": "all real x (exact arithmetic)", "why_tests_cant": "Tests compare a handful of arguments with std::erf within a tolerance; the error of a polynomial between the arguments tested is not seen, and neither is that of erfc, which is compared by difference.", "anchors": ["sprout/math/erf.hpp: erf_impl_3", "sprout/math/erf.hpp: erf_impl_2_b", "sprout/math/erf.hpp: erf_impl_2_a_1", "sprout/math/erf.hpp: erf_impl_2_a", "sprout/math/erf.hpp: erf_impl_1", "sprout/math/erf.hpp: erf_impl", "sprout/math/erf.hpp: erf", "sprout/math/erfc.hpp: erfc_impl", "sprout/math/erfc.hpp: erfc"]}
{"id": "C155", "title": "integers are read from the characters of a string or view", "statement": "string_to_int (stoi, stol, ..., from_string) of a string or a string view depends on its characters only, not on what follows them in memory, and gives the same result with and without idx.", "quantifier": "all integer types, bases, strings, views and contents of memory", "why_tests_cant": "Tests read whole literals, whose terminator ends every view; no view into the middle of a number is tested, nor idx with numbers too large for the type.", "anchors": ["sprout/string/string_to_int.hpp: string_to_int_dynamic", "sprout/string/string_to_int.hpp: string_to_int", "sprout/string/string_to_int.hpp: stoi", "sprout/utility/string_view/string_to_int.hpp: string_to_int", "sprout/cstdlib/str_to_int.hpp: str_to_int"]}
{"id": "C156", "title": "pairs are compared, assigned and exchanged element by element", "statement": "Pairs compare as in dictionaries, which is a strict weak order if the orders of the elements are; construction and assignment from pairs and tuples take each element from its place; swap exchanges pairs and arrays.", "quantifier": "all element types, orders, values and lengths", "why_tests_cant": "Tests compare and assign a few pairs of int; the assignment of a tuple is not tested.", "anchors": ["sprout/utility/pair/pair_decl.hpp: pair", "sprout/utility/pair/pair_decl.hpp: swap", "sprout/utility/pair/pair.hpp: operator=", "sprout/utility/pair/comparison.hpp: operator==", "sprout/utility/pair/comparison.hpp: operator<", "sprout/utility/pair/tuple.hpp: tuple_get", "sprout/utility/swap.hpp: swap_impl"]}
{"id": "C157", "title": "compressed pairs behave as pairs", "statement": "A compressed_pair of any two types can be constructed from two values and returns them, whichever of the types are empty, and swap exchanges the values.", "quantifier": "all combinations of same and empty types, all values", "why_tests_cant": "There are no tests of compressed_pair; the version for an empty second type is not instantiated anywhere.", "anchors": ["sprout/compressed_pair.hpp: compressed_pair_switch", "sprout/compressed_pair.hpp: compressed_pair_impl", "sprout/compressed_pair.hpp: compressed_pair"]}
{"id": "C158", "title": "arc sine and arc cosine are accurate on the whole domain", "statement": "asin and acos (without the builtin functions) approximate the arc sine and arc cosine with a small relative error on [-1, 1], are NaN elsewhere, the arc sine is odd, and they add up to a quarter of a turn.", "quantifier": "all real arguments", "why_tests_cant": "Accuracy is a statement about all arguments; the two polynomials meet at 1/2 and the arc cosine vanishes at 1, where absolute errors say nothing.", "anchors": ["sprout/math/asin.hpp: asin_impl_center", "sprout/math/asin.hpp: asin_impl_tail", "sprout/math/asin.hpp: asin_impl", "sprout/math/asin.hpp: asin", "sprout/math/acos.hpp: acos_impl", "sprout/math/acos.hpp: acos"]}
{"id": "C159", "title": "misa programs are translated to brainfuck", "statement": "to_brainfuck of sprout/brainfuck/misa.hpp replaces every symbol of the language, in Shift JIS, by its instruction and every other character by blanks.", "quantifier": "all texts of characters of one and two bytes, all sizes of the result", "why_tests_cant": "There is no test of misa; one program would have to contain all symbols, and other characters with every second byte.", "anchors": ["sprout/brainfuck/misa.hpp: to_brainfuck", "sprout/brainfuck/detail/convert.hpp: parsed_to_brainfuck", "sprout/weed/parser/directive/replace.hpp: replace_p"]}
{"id": "C160", "title": "integers from engines of floating point numbers are uniform", "statement": "uniform_int_float gives, for a uniform number in [0, 1), every integer from 0 to max() on an interval of the same length, by both of its call operators.", "quantifier": "all numbers of digits of the types, all rational numbers in [0, 1)", "why_tests_cant": "uniform_int_distribution is tested with integer engines only, so the class is never instantiated.", "anchors": ["sprout/random/detail/uniform_int_float.hpp: uniform_int_float", "sprout/random/detail/generator_bits.hpp: generator_bits", "sprout/algorithm/detail/min.hpp: min"]}
{"id": "C161", "title": "insert iterators insert the values in their order", "statement": "Assigning values one after another through inserter puts them before the position in their order, through back_inserter at the end and through front_inserter reversed at the front; the copies made by algorithms of sprout::fixed with these iterators are the same.", "quantifier": "all containers, positions and values", "why_tests_cant": "Tests use the iterators with algorithms of sprout::fixed on arrays; assignments, which need a container that grows, are not tested.", "anchors": ["sprout/iterator/insert_iterator.hpp: insert_iterator", "sprout/iterator/insert_iterator.hpp: container_construct_traits", "sprout/iterator/front_insert_iterator.hpp: front_insert_iterator", "sprout/iterator/back_insert_iterator.hpp: back_insert_iterator", "sprout/iterator/insert_range_iterator.hpp: insert_range_iterator"]}
{"id": "C162", "title": "flexible conversions of tuples", "statement": "flex converts a tuple to a tuple with another number of elements: elements without a place are left out, places without an element are value initialised; recursive_flex does it on all levels.", "quantifier": "all nested tuples of numbers and all types of nested tuples", "why_tests_cant": "Tests would convert tuples of one or two levels; the defect appears on the third.", "anchors": ["sprout/tuple/flex.hpp: flex_tuple", "sprout/tuple/flex.hpp: recursive_flex_tuple", "sprout/tuple/flex.hpp: flex", "sprout/tuple/flex.hpp: recursive_flex", "sprout/tuple/tuple/tuple_decl.hpp: tuple_base"]}
{"id": "C163", "title": "limits of integer types", "statement": "numeric_limits of sprout/limits.hpp gives the least and the greatest value of every integer type.", "quantifier": "all integer types with specialisations, all numbers of bits", "why_tests_cant": "The specialisations are compiled only where the standard library lacks constexpr limits, so no test sees them on current compilers.", "anchors": ["sprout/limits.hpp: numeric_limits", "sprout/limits.hpp: numeric_limits_base", "sprout/limits.hpp: numeric_limits_impl"]}
{"id": "C164", "title": "exempt_ptr behaves as the pointer in it", "statement": "get, reset, release, swap, arithmetic, subscripts and comparisons of exempt_ptr do what they do for pointers; the order is total as that of std::less.", "quantifier": "all arrays, pointers into them, and distances", "why_tests_cant": "There is no test of swap, and comparisons of pointers into different arrays have results that vary with the compiler.", "anchors": ["sprout/memory/exempt_ptr.hpp: exempt_ptr", "sprout/memory/exempt_ptr.hpp: swap", "sprout/functional/less.hpp: less"]}
{"id": "C165", "title": "the logistic function and its derivatives", "statement": "sigmoid is the logistic function; d_sigmoid and d2_sigmoid are its first and second derivatives with respect to x, with a small relative error in floating point arithmetic.", "quantifier": "all real arguments and slopes; all roundings to nearest with 53 digits", "why_tests_cant": "There is no test of these functions; values at single points do not show that one function is the derivative of another.", "anchors": ["sprout/math/sigmoid.hpp: sigmoid_impl", "sprout/math/sigmoid.hpp: d_sigmoid_impl", "sprout/math/sigmoid.hpp: d2_sigmoid_impl", "sprout/math/sigmoid.hpp: sigmoid"]}
{"id": "C166", "title": "strings converted to other capacities keep their first characters", "statement": "shrink converts a string or a literal to a string of any capacity; the result has the first characters, as many as there is room for, and ends with a null character.", "quantifier": "all strings, literals and capacities", "why_tests_cant": "There is no test of shrink; single strings do not cover the three relations of capacities and lengths.", "anchors": ["sprout/string/shrink.hpp: shrink_string", "sprout/string/shrink.hpp: shrink", "sprout/string/string.hpp: string_construct_access", "sprout/string/string.hpp: to_string"]}
{"id": "C167", "title": "copies of joined ranges have room for all elements", "statement": "The static size of a joined range is its number of elements, and the type of its copies has room for all of them.", "quantifier": "all ranges built from arrays, containers without a static size, adaptors and joining", "why_tests_cant": "There are no tests of the adaptor; an instance with two arrays does not compile, and the other cases lose elements silently.", "anchors": ["sprout/range/adaptor/detail/jointed_range_default.hpp: jointed_range_size", "sprout/range/adaptor/detail/jointed_range_default.hpp: jointed_range_copied_type", "sprout/range/adaptor/detail/jointed_range_default.hpp: container_construct_traits", "sprout/range/adaptor/jointed.hpp: jointed_range", "sprout/container/weak_rebind_size.hpp: weak_rebind_size"]}
{"id": "C168", "title": "promotions of arithmetic types do not depend on the order", "statement": "arithmetic_promote of two types or more is the type of the sum of their values in any order; float_promote is long double if it is among the types, float if all of them are, and double otherwise; float_compute is at least double.", "quantifier": "all lists of arithmetic types, all platforms on which the number of bits grows with the rank", "why_tests_cant": "The conversions are applied from left to right; that the order does not matter depends on the platform, and tests see one.", "anchors": ["sprout/type_traits/arithmetic_promote.hpp: arithmetic_promote", "sprout/type_traits/float_promote.hpp: float_promote", "sprout/math/detail/float_compute.hpp: float_compute"]}
{"id": "C169", "title": "callable objects, results and iterators are generators", "statement": "From a callable object, from a result of it (a pair of a value and the next object, however deeply nested) and from an input iterator, next_value and generated_value enumerate the values in order; generate fills a container with the values that follow, also from a generator_iterator.", "quantifier": "all generators, all nestings of results, all sequences and positions, all numbers of values", "why_tests_cant": "Which overload is chosen depends on traits of the argument's type; tests use random engines and their results only.", "anchors": ["sprout/generator/detail/next_value.hpp: generate_next_value_impl", "sprout/generator/detail/generated_value.hpp: get_generated_value_impl", "sprout/generator/detail/next_generator.hpp: get_next_generator_impl", "sprout/iterator/generator_iterator.hpp: generator_iterator", "sprout/algorithm/fixed/generate.hpp: generate"]}
{"id": "C170", "title": "front, back, subscript_at and at find the element", "statement": "Whatever members a container has: if the call is well-formed, front is the first element, back the last one, subscript_at and at the one with the given number, and at throws if there is none; at is well-formed for every container with begin.", "quantifier": "all containers, const or not, with any subset of the members, all numbers", "why_tests_cant": "The overload depends on the members, on whether they can be called for const containers and on the conversions between the references; tests use containers with all members.", "anchors": ["sprout/container/detail/range_front.hpp: range_front_impl", "sprout/container/detail/range_back.hpp: range_back_impl", "sprout/container/detail/range_subscript_at.hpp: range_subscript_at_impl", "sprout/container/detail/range_at.hpp: range_at_impl", "sprout/container/range_index_check.hpp: range_index_check"]}
{"id": "C171", "title": "sound sources are normalised and can be written again", "statement": "The samples of a sound source become numbers from -1 (inclusive) to 1 (exclusive), in order, with silence at 0; written again with the same number of bits they are the samples of the source.", "quantifier": "all lists of samples, all numbers of bits", "why_tests_cant": "Tests do not load sounds; the range depends on the number of bits and the loss on every single sample value.", "anchors": ["sprout/compost/sources/source.hpp: sound_type", "sprout/compost/formats/as_pcm_wave.hpp: normalized_to_pcm_wave"]}
{"id": "C172", "title": "count_n counts, equiv is an equivalence", "statement": "count_n and count_n_if count in the n elements from the position and are undefined if there are fewer; equiv of a strict weak ordering is an equivalence that does not depend on the value categories of the arguments.", "quantifier": "all lists, positions, numbers, predicates, comparisons and arguments", "why_tests_cant": "The recursion halves n, so that each n takes another path; tests of equiv use numbers, which are not changed by a move.", "anchors": ["sprout/detail/algorithm/count_n.hpp: count_n", "sprout/detail/algorithm/count_n_if.hpp: count_n_if", "sprout/functional/equiv.hpp: equiv_adaptor_impl"]}
{"id": "C173", "title": "comparison without regard to case", "statement": "nocase_equal_to is an equivalence; two characters of a type are equal under it exactly if they are equal or the upper and the lower form of one letter of the basic alphabet; nocase_not_equal_to is its negation; to_lower and to_upper stay in the class.", "quantifier": "all values of all character types", "why_tests_cant": "Characters next to the letters, negative ones and those beyond the table are easily confused; tests compare a few letters.", "anchors": ["sprout/ctype/functor.hpp: nocase_equal_to"]}

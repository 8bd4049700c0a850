# Design: a Lean 4 model of Sprout

The subject is the header-only C++11/14 `constexpr` library in `/repo/sprout`.
The code is modelled by hand in Lean, function by function; each Lean definition cites
the file and lines it mirrors. Nothing of `/repo` is compiled or run.

## How C++ is represented

* **Ranges and iterators.** A mutable range is a `List α` (the memory block) plus positions
  (`Nat`) for `first`, `last`, ...  Reading or writing a position that is not below the length of
  the block is undefined behaviour and yields `none` (`Option`). So a theorem whose conclusion has
  the form `prog ... = some r` also proves "no out-of-range access".
  Theorems additionally state that positions outside `[first,last)` are unchanged.
* **Loops** are `partial_fixpoint` definitions in `Option` (least fixpoint): a diverging loop is
  `none`, so `= some r` also proves termination. Recursions with an evident decreasing argument are structural.
* **Exceptions** (`throw`) are a distinct outcome (`Except`-style), never conflated with UB.
* **Input/output iterators** of copying algorithms are the list still to be read and the list
  written so far.
* **Comparators/predicates** are pure functions to `Bool`. `StrictWeak comp` is the standard's
  strict weak ordering requirement, and only a hypothesis where the standard requires it.
* **Machine integers**: `BitVec w` (or explicit range side conditions) where the property depends
  on the width, otherwise unbounded `Nat`/`Int` (said at each place). Iterator differences are
  unbounded.
* Logarithmic-depth "doubling recursion" used all over Sprout is modelled by one combinator with
  the same recursion tree as the C++ functions.

## Trusted base

Lean 4 kernel; axioms `propext`, `Classical.choice`, `Quot.sound` only (no own axioms, no `sorry`,
no `native_decide`/`bv_decide`). Trusted, not proved: that each Lean definition is a faithful reading
of the cited C++ lines; C++ overload resolution and template instantiation, SFINAE, `constexpr`
evaluation limits, copy/move/exception behaviour of element types, aliasing between separate ranges,
floating point and I/O streams are not modelled.

## Properties

Per property: model, proof method. (Extended as the work proceeds; the status is in `MANIFEST.json`.)

| id | model | proof |
|----|-------|-------|
| C01 sort | `sort_impl` with its nested loops over a memory block | invariants for each loop, strong induction on the range length |
| C02 stable_sort | recursive halves + `inplace_merge` | induction; equality with an independent stable insertion sort |
| C03 nth_element | loops as C01 | invariants |
| C04 partial_sort(_copy) | heap tool functions | heap invariant |
| C05 heaps | sift loops | heap invariant "heap except at hole" |
| C06 is_heap | recursion over positions | the code demands a strictly smaller child: negation proved with a witness, partial theorem describes what it computes |
| C07 merge | list recursion / rotations | equality with the spec merge |
| C08 rotate | swap loop | loop invariant, result equality |
| C09 reverse... | loops | result equality |
| C10 next_permutation | loops | lexicographic successor characterisation |
| C11 partition | loops | permutation and boundary; `stable_partition` refuted (never moves anything) |
| C12 unique/remove | loops | equality with list specs |
| C13 set operations | list recursion | multiplicity counts |
| C14 binary search | halving loops | boundary invariant, call-count bound |
| C15 find family | doubling/halving combinators | equality with list functions |
| C16 search family | as C15 | equality with spec; `search_n(0)` refuted |
| C17 is_permutation | recursion | equality of counts |
| C18 min/max | halving recursion | first/last extremum specs |
| C19 lexicographical_compare | recursion | order laws |
| C20 shuffle/sample | loops over an oracle stream | permutation, reachability |
| C21 random_swap | one step | refuted (index `last` reachable) |
| C22-C25 bit operations | `BitVec w` functions | bit-level characterisations |
| C26-C28, C44 bitset | list of `B`-bit words for every `B`, in-place and const versions, exceptions as outcomes | refinement: `Spec.Rep` relates words to a bit vector; every operation maps representations to representations |
| C29, C30 gcd, lcm | `IntTy`: a signed type as a predicate of representable values (any two's complement width, unbounded); unsigned types are `BitVec w`; overflow, division by zero and unrepresentable quotients are undefined | strong induction on an absolute value; specification by divisibility |
| C31, C32 rational | numerator/denominator over unbounded integers; compound assignment on objects in memory so that the operand may be the object itself | exact values in Mathlib's `ℚ`; coprimality via Bezout; continued fractions by strong induction on the denominator |
| C33 SHA-1 | object state (`h`, block, index, bit count) with every processing function: C++11 parameter-pack, C++14 loops, and the variant for Clang with its template-depth counter | invariant `Inv s m`: the object represents the message `m` so far; equality with an independent transcription of FIPS 180-4 (checked against the test vector "abc") |
| C34, C35 int/string | `CInt`: width, signedness, promotion to `int`, signed overflow undefined, unsigned modular; strings are lists of code units, reading past the end is `none` | independent specs: `IsNumeral` (digits, value, no leading zero; shown unique) and ISO C `strtol`; induction over the string / digit positions |
| C46 ASCII classes | the table transcribed from the source by a script | table checked by kernel evaluation; code units outside by range |
| C36 cstring, reading | the doubling recursion with a finished-test that reads memory (`sdbl`); strings are zero-terminated blocks, every read outside is `none` | runs of the step function (`SRun`), induction over the characters; ISO C specs (`Spec/Cstring`): first/last occurrence, longest span, first substring, sign of the dictionary order |
| C47 cstring, writing | the C++14 loops; the destination block is exactly as large as ISO C requires | induction; contents of the whole block afterwards |
| C37,C38 uuid | the parser's `next_char` state machine over 16 recursive pack expansions; bytes are `BitVec 8`; stream operators are C150 | parser reduced to a list function, which is characterised by an inductive grammar (`Spec/Uuid`); bit fields by kernel evaluation over bytes; `make_uuid5` reuses C33, `make_uuid3` C45 |
| C45 MD5 | object state (`k`, block of 16 words, 64-bit bit count) with every processing function, down to single bits; table-driven rounds as in the code | invariant `Inv s m`: the object represents the message `m` of bits so far; equality with an independent transcription of RFC 1321 (checked in the kernel against the RFC's test "abc") |
| C39, C40, C48, C49 | `const_mod`, `linear_congruential_engine`, `discard`, `rand48` over `CInt` machine integers; `none` is undefined behaviour or a failed assertion; streams and seed sequences are not modelled; `m = 0` is excluded by the code's own assertions | modular arithmetic with range bookkeeping; Schrage's method; extended Euclid invariant; geometric sums for `discard` |
| C50–C53 | `weed` (`Verif/Model/Weed.lean`): terminals, numeric parsers and operators as functions of the position; `Expr` is the expression tree; `none` is a read outside the text or a loop that does not end (`partial_fixpoint`). Attributes are modelled only for numeric parsers and for limited repetitions; type-level attribute conversion (`attr_cnv`) is not. Template instantiations that never end (`lim<0>`, `repeat(n)[lim<1>(p)]`, `MaxDigits < 2`) are excluded | spec: Ford's PEG semantics (`Spec/Peg.lean`) and the intended reading of each operator (`Spec/WeedMeaning.lean`); `Denotes` (soundness and completeness) is closed under every operator; repetition by induction on derivations and `partial_correctness` |
| C54–C56 | `mersenne_twister_engine` (`Verif/Model/Mt.lean`) over `BitVec W`: seeding, `do_twist`, tempering, `==` with `do_rewind`, streams (`operator<<` with arbitrary contents of the uninitialised array); shifts by the width or more are `none`. C++14 mode, and separately the C++11 functions `twist`, `generate`, `rewind`. Streams are lists of numbers; seed sequences are not modelled | spec `Spec/Mersenne.lean`: the recurrence on natural numbers; loop invariant of the twist (new words below, old above), tempering and recurrence on bits; backwards recurrence for `==`, agreement carried forth and back between windows of `n` words |
| C57–C59 | `uniform_int_distribution` and `uniform_smallint` for engines with integral results (`Verif/Model/UniformInt.lean`): all types are `CInt`, the engine is its type, its bounds and the list of the numbers it will produce; `none` is undefined behaviour, a list that is too short, or a loop that does not end. With and without C++14 constexpr (they differ in one branch). Engines with floating-point results are not modelled | spec (`Verif/Spec/Uniform.lean`): counts over all engine sequences of length `n`. Proof: the machine code equals a reference sampler on natural numbers (`UniformInt2`), whose counts are computed by induction over the recursion (`UniformInt3`); definedness: a list that is too short can be continued to a result (`UniformInt4`). Partial: the two defects are excluded (`DistOk`) |
| C60–C62 | `inversive_congruential_engine`, `additive_combine_engine`, `shuffle_order_engine` (`Verif/Model/Engines.lean`): the functions of `const_mod` are those of C39; base engines are arbitrary step functions; `none` is undefined behaviour or the assertion for what is not implemented | spec in the property files: a field with `p` elements (Mathlib `ZMod`), residues modulo `m1 - 1`, the transition of [rand.adapt.shuf]. Partial: see disagreements |
| C63–C65 | `linear_feedback_shift_engine`, `xor_combine_engine`, `taus88` (`Verif/Model/Lfsr.lean`): `BitVec W` with any `W >= w`; shifts by at least the width are `none`. Both engines of `xor_combine_engine` have the same result type | spec (`Verif/Spec/Taus.lean`): bit sequences with `b (n + k) = b (n + q) + b n`. Proof: bits of the step (`Proofs/Lfsr.lean`), then induction over the steps. Period: polynomials in the shift acting on sequences, powers of the variable by repeated squaring and inverses of `x^(P/r) - 1`, checked by kernel evaluation (`Proofs/TausPeriod.lean`); the period of a sum of sequences with coprime periods |
| C66 | the five iterators (`Verif/Model/SetIter.lean`) as triples of two positions and the side to read from; construction, `operator*`, `operator++`, `==`; the loop `for (it = begin; it != end; ++it)` collects `*it` | what is seen equals the merge function `zm` of C07/C13 by induction over the two remaining ranges; then the statements of C13 |
| C67 | `one_of`, `one_of_equal`, `is_partitioned`, monotonicity, `clamp`, `min`, `max`, `minmax` (`Verif/Model/Quantifiers.lean`), random access and input versions | counting matches up to two as a finite automaton; monotonicity from C15, C18 |
| C68, C69 | `accumulate`, `reduce`, `transform_reduce`, `partial_sum`, scans, `adjacent_difference`, `iota` (`Verif/Model/Numeric.lean`): input and output in one block so that they may overlap. `inner_product` cannot be instantiated (see disagreements) and is not modelled | left folds; the output loops by induction with the block overwritten so far |
| C70 | `to_time_t` on numbers and on `tm` (`Verif/Model/Ctime.lean`), 32-bit `int`, 64-bit `time_t`. The overload on characters cannot be instantiated | spec (`Verif/Spec/Calendar.lean`): days counted year by year and month by month with the leap year rule; closed forms by induction, then linear arithmetic |
| C71 | `hton`, `ntoh` and their helpers (`Verif/Model/Endian.lean`) over `BitVec (8 * N)`; `uint_fast8_t` has 8 bits | spec (`Verif/Spec/ByteOrder.lean`): memory images; bits of one swap, then induction over the swaps |
| C72 | `find_impl` and the other functions of `string/detail/find.hpp` (`Verif/Model/StringSearch.lean`), with `char_traits::compare`, `find`; a character is the number by which it is compared | spec (`Verif/Spec/StringFind.lean`): lowest or highest position with a property; two induction schemes `up_spec`, `down_spec` |
| C73 | `compare` and the operators (`Verif/Model/StringClass.lean`) | spec: lexicographic order on lists; the doubling recursion of `tristate_lexicographical_compare` scans like a loop (`tri2_seg`), then `verdict_cmp3` |
| C74 | the members of `basic_string` (`Verif/Model/StringClass.lean`): array and length, wrap-around of `size_type`, exceptions, arguments pointing into the string as separate functions. What is left of the string after an exception is not represented; constructors from iterators and `std::string` are not modelled separately | spec (`Verif/Spec/StringClass.lean`): `Represents N elems len cs`; every modifier is an `overwrite` of a segment followed by `put_terminator` (`finish_overwrite`) |
| C75 | `basic_string_view` (`Verif/Model/StringView.lean`): position and length in a block | `Shows m v cs`; reduction to C72, C73 |
| C76 | discrete Fourier transform by definition: `dft_element`, `idft_element`, `fixed::dft`, `fixed::idft` for random access and forward iterators (`Verif/Model/Fourier.lean`), exact complex arithmetic | `Spec.dft`, `Spec.idft` as sums with the `n`-th root of unity; the recursion by ranges is the sum; inversion from the geometric sum |
| C77 | `cxx14/fft.hpp`, `cxx14/ifft.hpp` (`Verif/Model/Fft.lean`): bit reversal, stages with split butterflies, every access checked | the counter `revInc` steps through the reversed numbers, so `scramble` is a permutation; each stage changes disjoint places (`Upd`), lanes hold transforms of residue classes (`Inv`) |
| C78 | `fixed/fft.hpp`, `coefficients.hpp`, `bitrev_table.hpp` (`Verif/Model/FixedFft.lean`) | `fftLoop_full`: induction on the stage; the table by `Spec.Width` reversal |
| C79 | wave forms and spectra (`Verif/Model/Wave.lean`), exact real arithmetic | `floor`, `arcsin` lemmas; `Generated`, `SpectrumOf` describe the container |
| C80 | `next`, `prev`, `advance`, `distance` for random access and other iterators (`Verif/Model/IterOps.lean`), 64-bit `difference_type` | induction on the doubling recursion; `steps` in `Verif/Spec/Iter.lean` describes positions |
| C81 | eight iterator adaptors over positions in a list, pointer arithmetic checked against the block (`Verif/Model/Adaptor.lean`) | laws `IterDeref`, `IterNext`, `IterPrev`, `IterAdd`, `IterSub`, `IterDiff`, `IterLt`, `IterIndex` of `Verif/Spec/Iter.lean` against the denoted list; each refuted operator has a witness |
| C82 | filter, remove_if, adjacent_filter, unique, while iterators (`Verif/Model/FilterIter.lean`) | induction on the rest of the list; results are `List.filter`, `adjFilter`, `List.takeWhile` |
| C83 | `limited::plus`, `limited::multiplies` with checked machine arithmetic (in `Verif/Model/Adaptor.lean`) | case analysis on signs; result is `clampTo` of the exact value |
| C84 | get_byte, set_byte with promotion to `int` and checked shifts on bit vectors (`Verif/Model/EndianTraits.lean`) | bit by bit; `IsByte`, `IsWith` |
| C85 | `complex` and its operators over exact reals, with an explicit store for arguments which alias a part (`Verif/Model/Complex.lean`) | against Mathlib's `ℂ` through `toC` |
| C86 | generic and specialised `quaternion`, selected by a flag (`Verif/Model/Quaternion.lean`) | against Mathlib's `ℍ[ℝ]` through the components |
| C87 | floating-point values (NaN, infinities, signed zeros, reals `m·2^e`) of an arbitrary format with correct rounding (`Verif/Model/Float.lean`), and the rounding functions on them (`Verif/Model/MathRound.lean`); conversion to an integer type out of its range is undefined behaviour | relations `IsFloor`, `IsCeil`, `IsTrunc`, `IsRound` on reals (`Verif/Spec/Rounding.lean`); instances `Fmt.float`, `double`, `extended`, `quad` show that formats exist |
| C88 | usual arithmetic conversions of integer types and the comparisons on them; tolerance comparisons on floating values (`Verif/Model/MathCompare.lean`) | against the order of `Int` and `ℝ`; `tol` is the tolerance as a real number |
| C89 | classification, sign, `fmin`/`fmax`/`fdim`/`fma` without builtins on floating values (`Verif/Model/MathClass.lean`) | `classOf` by the real value; IEC 60559 order `FV.lt`, `FV.eq` |
| C90 | `pow_n`, `scalbn`, the correction loops of `logb`, `ilogb`, significand and exponent (`Verif/Model/MathScale.lean`); the logarithm is a parameter | against `x * 2^n` and the exponent `IsExp k x` as real numbers; `LogRounds` says what is assumed of the logarithm |
| C91 | the long divisions of `fmod` and `rem_quo`, `remainder`, `quotient`, `is_odd`, `is_even` without builtins (`Verif/Model/MathMod.lean`); `ilogb` is a parameter | `IsRem`, `IsNearRem` over the reals; the invariant `State`: significands on a common grid |
| C41 | `exec`, bracket search, `is_well_formed`; tape and output of machine integers; `pos` is a 64-bit `size_t` with wrap-around; program and tape fit in memory; the variant without input (endless zeros) is the variant with a long list of zeros | both directions of a simulation against the big-step semantics of `Spec/Brainfuck.lean`; partial correctness with a stack of enclosing loops |
| C42 | the grammar of `to_brainfuck` evaluated as `weed` does (alternatives in order, greedy repetition with limit) | decomposition of the text into pairs and white space |
| C92 | the tables with their literals as decimal rationals (`Verif/Model/MathTables.lean`) | against `Nat.factorial` and Mathlib's `bernoulli`; entries compared by evaluation in the kernel, Bernoulli numbers by a Pascal-triangle recurrence |
| C93 | `sqrt`, Newton's iteration until it no longer decreases (partial, by `partial_fixpoint`), `hypot` (`Verif/Model/MathSqrt.lean`) | against `Real.sqrt`; error analysis with `Val`, `rnd_err` (`Verif/Proofs/FloatErr.lean`), the invariant of the iteration in `Verif/Proofs/MathSqrt.lean` |
| C94 | `exp` with its sum tree over `pow_n(x, n) / n!` (`Verif/Model/MathExp.lean`) | against `Real.exp`; interval calculus `Near` for sums, products and quotients with their underflow errors (`Verif/Proofs/Series.lean`), `pow_n` (`Verif/Proofs/MathPow.lean`), Taylor rest by comparison of factorials in the kernel |
| C95 | the literals as rationals, rounded to `long double` and then to `T` (`Verif/Model/MathConst.lean`) | against `Real.pi`, `Real.exp 1`, `Real.log`, square roots (`Verif/Spec/MathConst.lean`); rational enclosures by Machin's formula and the series of log and exp, compared in the kernel (`Verif/Proofs/MathConst.lean`) |
| C96 | `log` with its recursion over `sqrt` (partial, by `partial_fixpoint`) and its series of 170 terms (`Verif/Model/MathLog.lean`) | against `Real.log`; the calculus `Near`, Mathlib's bound of the series of the logarithm, induction over the square roots (`Verif/Proofs/MathLog.lean`) |
| C97 | `cos` with its reduction by `fmod` and its series of 85 terms, `sin` and `tan` by means of it (`Verif/Model/MathTrig.lean`) | against `Real.cos`, `Real.sin` and `Real.tan`; the calculus `Near` for the sum, Mathlib's bounds of the series of the exponential function for the tail, exactness of `fmod` (C91) for the reduction (`Verif/Proofs/MathTrig.lean`) |
| C98 | `log2`, `log10`, `log_a`, `log1p`, and `log_a(2, x)` as the logarithm of `logb` (`Verif/Model/MathLogs.lean`) | against `Real.logb` and `Real.log`; a rule for quotients of approximations; C96 for the logarithm; `C90_logb_near`, by which a logarithm wrong by less than one suffices (`Verif/Proofs/MathLogs.lean`) |
| C99 | `exp2`, `exp10`, `expm1`, `sinh`, `cosh`, `tanh` (`Verif/Model/MathHyp.lean`) | against the real functions of Mathlib; a calculus of relative errors (`Verif/Proofs/NearRel.lean`); the series with overflowing or absorbed terms for the refutations (`Verif/Proofs/MathHyp.lean`) |
| C100 | `pow`, `cbrt` (`Verif/Model/MathPower.lean`) | against `Real.rpow`, integral powers and cubes; the errors of logarithm, product and exponential composed (`Verif/Proofs/MathPower.lean`) |
| C101 | `asinh`, `acosh`, `atanh` (`Verif/Model/MathArea.lean`) | against `Real.arsinh`, `Real.arcosh` and `Real.artanh` of Mathlib; errors of sums, roots and logarithms composed (`Verif/Proofs/MathArea.lean`) |
| C102 | `atan`, `atan2` (`Verif/Model/MathAtan.lean`) | against `Real.arctan` and `Complex.arg` of Mathlib; the series by halving with its rounding errors, the powers of tiny arguments bounded apart (`Verif/Proofs/MathAtan.lean`) |
| C103 | `str_to_float` and its callers (`Verif/Model/StrFloat.lean`) | decimal strings as digits (`Verif/Spec/DecimalString.lean`); roundings counted by a factor `1 / (1 - u)` each (`Verif/Proofs/StrFloat.lean`) |
| C104 | `float_to_string`, `float_to_string_exp`, `detail/math/float.hpp` (`Verif/Model/FloatStr.lean`) | characters of `%f` (`fixedStr`); the digit at a position as a real expression with roundings (`Verif/Proofs/FloatStr.lean`, `FloatStr2.lean`) |
| C105 | `operation/fixed`, `operation/fit` with `make`/`remake` of arrays, strings and `sub_array` (`Verif/Model/ContOp.lean`) | sequences shown (`Cont.vis`, `splice`, `cut`, `fitTo`); the packed elements are a list `X ++ W ++ Z` around the window (`Verif/Proofs/ContOp.lean`) |
| C106 | `sub_array` (`Verif/Model/SubArray.lean`) | sequences shown, before and behind (`Verif/Spec/SubArray.lean`); lists in three parts (`Verif/Proofs/SubArray.lean`) |
| C107 | the functional algorithms of `algorithm/fixed` (`Verif/Model/FixedAlg.lean`), on the containers of C105 | `writeFront`, `writeBack`, `Rewrites` (`Verif/Spec/FixedAlg.lean`); pack expansions and collection loops in general, then each algorithm (`Verif/Proofs/FixedAlg.lean`, `FixedAlg2.lean`) |
| C108 | the heap and sorting algorithms of `algorithm/fixed` (`Verif/Model/FixedSort.lean`), on the containers of C105 | `Spec.IsHeap`, `SortedBy`, `Spec.StableSorted`, `Rewrites`; subtrees, sifting down and up on lists (`Verif/Proofs/FixedHeap.lean`), then on containers (`FixedSort.lean`, `FixedSort2.lean`); selection of the next class of equivalent elements for `stable_sort` (`FixedSort3.lean`) |
| C109 | the merging loops and permutations of `algorithm/fixed` (`Verif/Model/FixedMerge.lean`), on the containers of C105 | `cls`, `StableSorted`, `LexLt`, `Rewrites`; the loop gives the list `zm` of C13 cut at the size (`Verif/Proofs/FixedMerge.lean`), the permutation is that of the block of elements (C10) |
| C110 | the index arrays of `fixed/shuffle.hpp`, `shuffle_result.hpp`, `random_swap*.hpp`, the doubling loops of `bogo_sort_result.hpp`, `bozo_sort_result.hpp` and the loops in place (`Verif/Model/FixedShuffle.lean`), on the containers of C105 with the generators of C20 | `swapsFrom`, `drawn`, `stateAfter`, `FirstWith` (`Verif/Spec/FixedShuffle.lean`); the array of positions follows the elements; `n!` does not divide `n ^ n` for `n >= 3`; the doubling loop iterates one attempt |
| C111 | the recursions of `numeric/fixed/*.hpp` over the range with the values collected (`Verif/Model/FixedNumeric.lean`), on the containers of C105 and `container_complate` of C107 | `Inclusive`, `Exclusive`, `InclusiveInit` of C69; the recursions write `List.scanl` |
| C112 | the counts of `detail/algorithm/*count*.hpp`, `fit_size` and `sub_copy` around the models of C107–C111 (`Verif/Model/FitAlg.lean`); result = window of the inner container | `Fits`: all elements of the window exist, it begins where the container begins and shows the list; the counts equal the lengths of what is written |
| C113 | state `sum_` and the calls as accumulations over the models of C68 (`Verif/Model/SumXor.lean`) | bytes fed by the calls concatenated; `foldl` of additions modulo 2^64 reduces to the sum modulo 2^k |
| C114 | templates as functions into `Option`, `none` = does not compile (`Verif/Model/StaticInt.lean`); `popcount` and `cntl0` of C22, C23 | induction over the exponent, intermediate powers fit when the last one does; leading zeros give the binade; finite tables by `decide` |
| C115 | `CInt.div`, `CInt.rem` and aggregate initialisation in both orders (`Verif/Model/Div.lean`) | `Truncated`: quotient times divisor plus remainder, size and sign of the remainder; unique |
| C116 | the doubling dispatch with the C++ types of every template argument (`Verif/Model/IndexSeq.lean`) | induction on the number of elements; per type class that each argument is evaluated without narrowing |
| C117 | types as elements, predicates as Bool functions, the recursions by pivot, size and middle as partial functions (`Verif/Model/TypeList.lean`) | homomorphism lemmas for the halving recursions; binary search invariant |
| C118 | a subset as its size and the map from indexes to positions of the block (`Verif/Model/Valarray.lean`) | induction over the dimensions with suffix products; over the mask; over the copied range |
| C119 | a block and a size; the fixed algorithms as pack expansions over the block (`Verif/Model/Valarray.lean`) | one lemma on pack expansions, then elementwise comparison |
| C120 | a range as iterator operators with two iterators, an adaptor as a function of ranges (`Verif/Model/RangeAdaptor.lean`) | `Ra r l` (spec: the iterators are positions of `l`) is preserved by each adaptor; loops by induction |
| C121 | iterators as values of the integer type with machine arithmetic; template deduction, constructor arguments and name lookup as partial functions (`Verif/Model/CountIter.lean`) | positions `f + i`, `n - i`; case analysis |
| C122 | a flag and a holder, which is a policy (object, pointer, pointer to const) (`Verif/Model/OptionalT.lean`) | `Holds o x` relates it to `Option α`; case analysis |
| C123 | a list of values and an index; overload resolution between the constructors by ranks (`Verif/Model/VariantT.lean`) | `VHolds` (spec: index, type, value); induction on the index |
| C124 | hash values as natural numbers below `2 ^ w`, signed sums partial, floating values as in C90 (`Verif/Model/Hash.lean`, `Verif/Model/HashFloat.lean`) | folds; injectivity of xor and of addition modulo `2 ^ w`; the significand times `2 ^ 64` is an integer |
| C125 | the member `next` of all items as a function from addresses (`Verif/Model/ForwardClist.lean`) | `Chain` (spec); induction on the chain, which has no repetitions |
| C126 | an enumeration; the loop of `operator>>` over the characters (`Verif/Model/Tribool.lean`) | the flag of a name tells whether what has been read is a beginning of it; induction on the characters left |
| C127 | an engine as a step function; values in an arbitrary correctly rounded format; loops as least fixed points (`Verif/Model/RandReal.lean`) | rounding is monotone, so that bounds that are values of the format are kept; partial correctness of the loops; counting of integers below the rounded product |
| C128 | the loop as a least fixed point over the format of `Verif/Model/RandReal.lean` | invariant: the sum is at most the power of the range, which is representable; for the refutation, rounding on a grid |
| C129 | | C129 | the wrappers of `range/algorithm/*.hpp` and `range_return` (`Verif/Model/RangeAlg.lean`) around the models of C14–C18, random access iterators | `shows`, `Cut` (`Verif/Spec/RangeAlg.lean`): the elements that a returned range shows; `EqualFull`, `MismatchFull`, `IsPermutationFull` | |
| C130 | | C130 | `poisson_distribution`, both versions, over any arithmetic `Arith R` (`Verif/Model/Poisson.lean`, `RandArith.lean`); the workaround for recursive templates is not modelled | `Quantile`, `poissonProb`, `Uniform` over exact reals (`Verif/Spec/RandArith.lean`) | |
| C131 | | C131 | `binomial_distribution`, both versions, over any arithmetic `Arith R` (`Verif/Model/Binomial.lean`, `RandArith.lean`); the workaround for recursive templates, `param(parm)` and the streams are not modelled | `Quantile`, `binomialProb`, `stirlingCorrection`, `smaller` over exact reals (`Verif/Spec/RandArith.lean`, `Binomial.lean`) | |
| C132 | | C132 | `normal_distribution`, both versions, over any arithmetic `Arith R` (`Verif/Model/Normal.lean`); the streams are not modelled | `normalPairs`, `twoDraws`, `twoNormal` (product of two Gaussian measures of Mathlib) over exact reals (`Verif/Spec/Normal.lean`) | |
| C133 | | C133 | `seed_array`: constructors, `generate(begin, end)` with its loops, `generate(result)` with `gen`, `gen1_0` … `gen2`, `set1`, `set2` (`Verif/Model/SeedArray.lean`) | `SeedSpec.generate`: the algorithm of [rand.util.seedseq] as updates of a function (`Verif/Spec/SeedSeq.lean`); the example is the published vector for the seeds 1 … 5 | |
| C134 | | C134 | `seed_log`, `seed_k`, `seed_one_int`, `get_one_int`, `init_seed(Sseq&)`, deduction of template arguments, choice of the constructor (`Verif/Model/SeedOne.lean`) | `SeedSpec.oneInt`, `lcgState`: the sum of [rand.eng.lcong] with `k = clog (2 ^ 32) m` (`Verif/Spec/SeedOne.lean`) | |
| C135 | | C135 | `random_result`, `variate_generator`, `generator_iterator`, `random::begin`, `end`, `make_range`, `generate_array`, `make_seed_seq` over any generator that may fail (`Verif/Model/RandIter.lean`) | `DrawSpec.take`: the first n values and the generator after them (`Verif/Spec/Draws.lean`) | |
| C136 | | C136 | `darkroom::coords` and `rays` over real numbers, division by zero fails (`Verif/Model/DarkVec.lean`) | inner and outer product, unit vectors in ℝ³ (`Verif/Spec/Geometry.lean`) | |
| C137 | | C137 | `basic_sphere`, `basic_aa_plane`, `basic_triangle`, `intersect_list` over real numbers, function by function (`Verif/Model/DarkObj.lean`) | distance in ℝ³, `along`, `InTriangle` as convex combination (`Verif/Spec/Geometry.lean`) | |
| C138 | | C138 | `colors`, `materials`, `textures`, `lights` over real numbers (`Verif/Model/DarkShade.lean`) | floor, parity, remainder of integers, sums and products of lists; shadows by the list of all hits (`Verif/Props/C138.lean`) | |
| C139 | | C139 | `simple_camera`, `infinity`, `whitted_style` (recursion on the depth), `raytracer`, `pixels::generate` over real numbers (`Verif/Model/DarkRender.lean`) | ℝ³, Snell's law by vector products, Whitted's equation (`Verif/Spec/Geometry.lean`, `Verif/Props/C139.lean`) | |
| C140 | | C140 | the functions `iir_…` and `apply_iir` (`Verif/Model/Iir.lean`); real coefficients, exact `tan` and `sqrt`, division by zero `none`; `apply_iir` over any field | transfer function on the unit circle against analog prototypes (`Verif/Spec/Iir.lean`, `Verif/Props/C140.lean`) | |
| C141 | | C141 | the effects on single samples, `as_pcm_wave`, `superposed`, the channels (`Verif/Model/Effects.lean`); samples are real numbers, division by zero `none`; template deduction by the set of deduced parameters | against bounds, order, closest value (`Verif/Props/C141.lean`) | |
| C142 | | C142 | `tremolo`, `auto_pan`, `pseudo_stereo`, `reverbed`, `vibrato`, `chorus` (`Verif/Model/Effects.lean`); reads outside of the signal are `none` | against the signal extended by silence (`sampleAt`), sums of echoes, linear interpolation (`Verif/Props/C142.lean`) | |
| C143 | | C143 | the iterators and adaptors for waves, `dft_iterator`, `idft_iterator`, `white_noise` (`Verif/Model/WaveIter.lean`); real numbers, one structure for the four waves; constructors by number of arguments | against the wave functions, `fixed::…` (C79), the transform (C76), the values of the normal distribution (C132) (`Verif/Props/C143.lean`) | |
| C144 | | C144 | `bezier` for 3 to 6 points, `catmull_rom_spline` and its start and end pieces (`Verif/Model/Curve.lean`); real numbers | against de Casteljau's construction, the convex hull (Mathlib), derivatives (Mathlib); values and velocities at the ends, joins (`Verif/Props/C144.lean`) | |
| C145 | | C145 | `bind`, `cbind`, `bind<R>`, `cbind<R>`, placeholders, literals (`Verif/Model/Bind.lean`): the index computations with 64 bit numbers and `types::lower_bound_index` (C117); nested bind expressions as call operators | against the meaning of expression trees (`Verif/Spec/Bind.lean`); `Verif/Proofs/Bind.lean`: the element at an index is that of the expanded list (`Verif/Props/C145.lean`) | |
| C146 | | C146 | `join` (`Verif/Model/Join.lean`): partial sums of `size_enumed` ranges (C81), `lower_bound` (C14) for every index, the sequential recursion, the contents of strings | `join_found`: the part an index belongs to; against `List.flatten` and `List.intercalate` (`Verif/Props/C146.lean`) | |
| C147 | | C147 | `while_loop`, `until_loop`, flat versions, `fold_while`, `fold_until`, `*_of_equal` (`Verif/Model/Loops.lean`) on the doubling schema | `run_of_dbl`: doubling recursions that end are runs of the loop (`Verif/Proofs/Loops.lean`), converse in `Verif/Proofs/Doubling.lean` (`Verif/Props/C147.lean`) | |
| C148 | | C148 | depth of nested calls of the doubling and halving recursions and bisection (`Verif/Model/Depth.lean`), instrumented copies of the models of C14, C15, C18 | the first component equals the model without depth, the second is bounded by induction on the length (`Verif/Props/C148.lean`) | |
| C149 | | C149 | `operator<<`, `operator>>` of complex, quaternion, rational, value_holder and engines on a stream of characters with `fail` and `eof` (`Verif/Model/NumIo.lean`) | `Codec`: a way to write and read numbers (`Verif/Spec/NumIo.lean`); decimal integers satisfy it (`Verif/Proofs/NumIo.lean`); readers are run on the text (`Verif/Props/C149.lean`); engines compose | |
| C150 | | C150 | `operator<<`, `operator>>` of basic_string, bitset, uuid (`Verif/Model/TextIo.lean`), on the streams of C149, the string model of C74, the bitset model of C28 | loops by induction over the text (`Verif/Proofs/TextIo.lean`); `put_terminator`, string constructors and `Hex` from C74, C28, C37 (`Verif/Props/C150.lean`) | |
| C151 | | C151 | `ptr_index_iterator` as pointer and index into a block (`Verif/Model/PtrIndex.lean`); pointer arithmetic out of the block is undefined | linear arithmetic on the position an iterator stands for (`Verif/Props/C151.lean`) | |
| C152 | | C152 | `tgamma` in exact real arithmetic, division by zero undefined, recursion by halves as a partial function (`Verif/Model/Gamma.lean`) | products over intervals; bounds of the polynomial by absolute values; expansion at 4 for the sign (`Verif/Proofs/Gamma.lean`, `Verif/Props/C152.lean`) | |
| C153 | | C153 | `lgamma` in exact real arithmetic with exact `log`, `sin`, `pi` (`Verif/Model/LogGamma.lean`) | floor and ceiling of the index; exact evaluation of the polynomials; continuity of the gamma function at 1; Euler's formula of reflection (`Verif/Props/C153.lean`) | |
| C154 | | C154 | `erf`, `erfc` in exact real arithmetic (`Verif/Model/Erf.lean`), the error function as an integral (`Verif/Spec/Erf.lean`) | the series of `exp` integrated, its remainder bounded (`Verif/Proofs/ErfSeries.lean`); the difference of each polynomial and the series, moved to `[-1, 1]`, is compared with an expansion in Chebyshev polynomials by integer arithmetic in the kernel (`Verif/Proofs/ErfPoly.lean`, `Verif/Proofs/ErfCheck.lean`, `Verif/Proofs/ErfBound.lean`, `Verif/Props/C154.lean`) | |
| C155 | | C155 | `string_to_int` of strings and views as a call of `str_to_int` on the memory from the beginning (`Verif/Model/StoI.lean`) | induction: the parser stops at the terminator; `C35` for `strtol` (`Verif/Props/C155.lean`) | |
| C156 | | C156 | `pair`, its comparisons and assignments, `swap` (`Verif/Model/Pair.lean`) | case analysis of the order; induction on the array (`Verif/Props/C156.lean`) | |
| C157 | | C157 | the versions of `compressed_pair_impl` as sets of subobjects (`Verif/Model/CompPair.lean`) | case analysis (`Verif/Props/C157.lean`) | |
| C158 | | C158 | `asin`, `acos` over the reals (`Verif/Model/Asin.lean`) | the derivative of the approximation against that of the arc sine, bounded by kernel-checked Chebyshev expansions; monotonicity (`Verif/Proofs/Asin.lean`, `Verif/Props/C158.lean`) | |
| C159 | | C159 | the grammar of misa over bytes (`Verif/Model/Misa.lean`) | no literal is a prefix of another (decided); induction on the text (`Verif/Props/C159.lean`) | |
| C160 | | C160 | `uniform_int_float`, with the types of the arguments of `min` (`Verif/Model/IntFloat.lean`) | floor inequalities (`Verif/Props/C160.lean`) | |
| C161 | | C161 | `insert_iterator` and its likes on containers with valid or invalidated iterators; `remake` as a walk over `insert_range_iterator` (`Verif/Model/InsertIter.lean`) | induction on the values; `C81` for the walk (`Verif/Props/C161.lean`) | |
| C162 | | C162 | conversions of nested tuples by `flex` and `recursive_flex` (`Verif/Model/Flex.lean`) | mutual induction on types, against a relational specification (`Verif/Props/C162.lean`) | |
| C163 | | C163 | min, max and lowest of the integer types on a platform with given numbers of bits, conversions modulo powers of two (`Verif/Model/Limits.lean`) | linear arithmetic; values of a type are fixed by conversions to it (`Verif/Props/C163.lean`) | |
| C164 | | C164 | `exempt_ptr` over null and positions in arrays (`Verif/Model/ExemptPtr.lean`) | linear arithmetic on positions (`Verif/Props/C164.lean`) | |
| C165 | | C165 | `sigmoid`, `d_sigmoid`, `d2_sigmoid` over the reals with a rounding after every operation (`Verif/Model/Sigmoid.lean`) | `HasDerivAt` in exact arithmetic; monotone roundings for large arguments (`Verif/Props/C165.lean`) | |
| C166 | | C166 | `shrink` over arrays of characters with a length (`Verif/Model/Shrink.lean`) | extensionality of lists (`Verif/Props/C166.lean`) | |
| C167 | | C167 | static sizes and types of copies of ranges (`Verif/Model/Jointed.lean`) | induction on ranges (`Verif/Props/C167.lean`) | |
| C168 | | C168 | arithmetic types by rank, signedness and number of bits; the conversions of the language (`Verif/Model/Promote.lean`) | the common type is characterised by greatest ranks and widths, which are independent of the order; induction (`Verif/Props/C168.lean`) | |
| C169 | | C169 | the choice of the overloads by the traits of a reference to the argument; calls of `generator_iterator`; `fixed::generate` (`Verif/Model/GenDispatch.lean`) | induction on the number of values and on the nesting; the refutations hold for every iterator and every generator (`Verif/Props/C169.lean`) | |
| C170 | | C170 | containers by their members, their constness and their references; the overloads in the order of their conditions (`Verif/Model/ContAccess.lean`) | each branch is right if it is well-formed; witnesses for the refutations (`Verif/Props/C170.lean`) | |
| C171 | | C171 | elements of `sound_type` as real numbers, `as_pcm_wave8` and `as_pcm_wave16` after it (`Verif/Model/PcmSource.lean`) | the exact result of loading and writing for every sample; witnesses (`Verif/Props/C171.lean`) | |
| C172 | | C172 | the recursion of `count_n_impl` on positions; `equiv_adaptor_impl` with arguments that may be moved from (`Verif/Model/CountN.lean`) | strong induction on n; case analysis (`Verif/Props/C172.lean`) | |
| C173 | | C173 | the functors over the model of the character classes (`Verif/Model/Nocase.lean`, `Verif/Model/Ascii.lean`) | the classes are intervals; case analysis (`Verif/Props/C173.lean`) | |

## Disagreements between code and property

Each is proved as a theorem (`..._false`) with a concrete witness; the `_partial` theorem states what does hold.

* **C43 move_backward** (`cxx14/move_backward.hpp`): the loop decrements `first` instead of `last`, so it runs away from the range: undefined for every nonempty range.
* **C02 stable_sort**: `detail/insertion_sort.hpp` calls `move_backward`; `[2,1]` has no result. Everything else in it is right (`C02_repaired_full`).
* **C04/C05 make_heap, partial_sort, partial_sort_copy**: `make_heap` passes `i` where `i + 1` is needed, so the result need not be a heap.
* **C06 is_heap(_until)**: children equal to the parent are rejected.
* **C11 stable_partition / gather**: nothing is ever moved.
* **C16 search_n** with count 0 returns `last`, not `first`.
* **C21 random_swap**: draws from the closed interval `[0, last - first]`, so `last` may be dereferenced; and both swapped positions are random.
* **C23 cntl1**: for 8/16-bit types `~x` is an `int`, so the result is always 0; with the gcc builtin `__builtin_clrsb` the 32/64-bit versions count sign bits instead.
* **C24 rotl/rotr** with `s = 0` on 32/64-bit types shift by the full width (undefined behaviour).
* **C25 setbitsle/rstbitsle/flipbitsle** at the topmost bit of 32/64-bit types shift by the full width.
* **C28 find_first/find_next**: `bitset::find_first()`/`find_next(prev)` call `this->find_first(N)`/`this->find_next(prev, N)`, but the base-class overloads are hidden by the members of the same name: ill-formed when instantiated. `find_next_impl_2` (multi-word base) also omits an argument in its recursive call. Ill-formedness is outside a semantic model; the theorems (`_partial`) are about the base-class members, with the missing argument supplied.
* **C28 string constructor**: the overload for `Char const*` names `size_typeype` and is never viable; the theorems are about the `std::basic_string` constructors.
* **C44 bitset(unsigned long long)** with more than one word on LP64 shifts a 64-bit value by 64: undefined for every argument.
* **C31 self-assignment**: `x += x`, `x -= x`, `x /= x` read `rhs` after changing `*this`: `1/3 += 1/3` gives `1`, `1/3 -= 1/3` gives `-1`, `2/3 /= 2/3` gives `1/0` (`C31_*_self_false`). `C31_*_self_partial` says exactly what they compute; for distinct objects all four are right.
* **C32 rational < int**: `rational_less_impl` (comparison.hpp 124-127) passes `r + den, q - 1` for the parameters `q, r`. `-1/2 < 0` is false and `0 < -1/2` is true (`C32_less_int_false`, `C32_int_less_false`); `C32_less_int_wrong` characterises all wrong answers.
* **C33 sha1 on Clang**: `SPROUT_WORKAROUND_NOT_TERMINATE_RECURSIVE_CONSTEXPR_FUNCTION_TEMPLATE` selects a variant in which a piece of the message that does not fit into the current 64-byte block throws (the continuation is commented out, "!!! TEMP"): `C33_clang_false`; `C33_clang_partial` says exactly which pieces work. `make_sha1` for `wchar_t`, `char16_t`, `char32_t` pointers calls `char_traits<char>::length` on them (ill-formed when instantiated; not modelled).
* **C34 int_to_string**: the buffer and `int_pow` do not cover `-2^(w-1)` when it is a power of the base (base 2; base 8 for 16 and 64 bits): undefined/garbage (`C34_min_base2_false`). Bases 11..16 call `int_to_char(val)` for decimal digits only: 10 prints ':' (`C34_base16_false`); bases 17..36 have no `integer_digits`.
* **C35 str_to_int, ascii_to_int**: the overflow test for negative numbers is off by two: "-2147483647" gives `INT_MIN` (`C35_negative_max_false`). An `0x` prefix is skipped in every base: "0x12" in base 10 gives 12 (`C35_prefix_false`). For unsigned types '-' is not recognised, so the result is 0, which is the nearest value (but not what C's `strtoul` does).
* **C46 isclassified** (`ctype/ascii.hpp` 251-266): `m | mask && ...` instead of `m & mask && ...`; true for every ASCII character (`C46_isclassified_false`).
* **C36 strstr("", "")** returns null instead of its first argument: `str_find_check` takes a pointer to the terminator for "not found" (`C36_strstr_false`).
* **C36 strcmp/strncmp** compare plain `char` with `<`; ISO C compares as `unsigned char`: with signed `char`, "\x80" < "a" (`C36_strcmp_false`, `C36_strncmp_false`).
* **C47 strcat**: `while (*s1++) ;` steps over the terminator, so nothing is concatenated, and an exactly sized destination is overrun (`C47_strcat_false`, `C47_strcat_overrun`).
* **C47 strncat** writes a second terminator behind the first when the source is shorter than `n`, overrunning an exactly sized destination (`C47_strncat_false`).
* **C47 memmove** passes the beginning instead of the end of the destination to `copy_backward`: the bytes land before the destination (`C47_memmove_false`, `C47_memmove_ub`).
* **C37 make_uuid** stops after the last digit or closing brace and never checks that the text ends there: 32 digits followed by `}` are accepted (`C37_statement_false`); what is accepted is a textual form followed by anything (`C37_parse_partial`).
* **C39 linear congruential engine**: for 64-bit types whose product neither fits nor satisfies Schrage's condition, `mult_general` ends in an assertion "not implemented" (`C39_general_false`). With `c = 0` and `a` not coprime to `m` the state can become 0, below `min() = 1` (`C39_min_false`).
* **C40 const_mod::pow** does not reduce its base (`C40_pow_base_false`), gives 1 for exponent 0 modulo 1 (`C40_pow_one_false`) and inherits the unimplemented product (`C40_pow_general_false`).
* **C48 discard** divides by `a - 1` and is undefined for `a = 1` (`C48_one_undefined`, `C48_one_false`); it is wrong when `a^z = 0 (mod m)` (`C48_zero_power_false`) and when `(a - 1) / gcd` is not coprime to `m` (`C48_gcd_false`).
* **C49 rand48** casts the 48-bit state to 32 bits before shifting by 17, so results have 15 bits instead of 31 (`C49_statement_false`, `C49_small`).
* **C41 brainfuck**: line 101 tests for `'+'` a second time instead of `'-'`: the instruction `-` is ignored (`C41_minus_false`). With that line repaired the interpreter is right (`C41_repaired`). Reading input just behind the tape drops the character silently (`C41_input_dropped`).
* **C42 Ook!**: all eight pairs are replaced by `'>'` (`C42_false`, `C42_not_injective`). With the intended characters the translation is right (`C42_repaired`).
* **C45 md5**: `process_bits(bits, n)` shifts a promoted byte by `n - 1`, so `n > 32` is undefined (`C45_bits_undefined`). The C++14 `process_block_impl` takes its iterators by reference to const and increments one of them: ill-formed when instantiated, so the non-const `process_block`, `process_bytes`, `process_range` cannot be used; not modelled. `make_md5` for `wchar_t`, `char16_t`, `char32_t` pointers calls `char_traits<char>::length` on them (ill-formed).
* **C38 make_uuid5 on Clang** inherits C33: a name that does not fit into the block begun by the 16 bytes of the namespace throws (`C38_make_uuid5_clang_false`).
* **C50 `a % b`** accepts and consumes a separator after the last element (`C50_list_refuted`).
* **C50 repeat(n)[a]** moves on only from the (n+1)-th match on: with exactly `n` matches it succeeds without consuming anything (`C50_repeat_refuted`); `repeat[a]`, with `n = size_t(-1)`, never consumes (`C50_repeat_any_refuted`).
* **C50, C53 lim<1>(p, stopover)**: the first element is collected before the limit is compared, so a limit of 1 never stops the repetition; it then acts like `circular` (`C50_stopover_refuted`, `C53_stopover_refuted`).
* **C51 MinDigits**: before a non-digit the count is one too high, and it saturates at `limit_digits - 1`: `hex8f` accepts `1g` (`C51_min_digits_refuted`). `hex`, `oct` and `bin` pass `size_t(-1)` as `MinDigits` instead of `MaxDigits` and reject `ff` (`C51_hex_refuted`). `int_p` negates the converted magnitude: `-2147483648` overflows (`C51_int_min_refuted`).
* **C52 character sets**: a leading `-` reads before the string (`C52_leading_refuted`); a trailing `-` is the range up to the terminator and does not contain `-` (`C52_trailing_refuted`); the ends of a reversed range are accepted as single characters (`C52_reversed_refuted`).
* **C54 mersenne twister**: with `r = 0` the parity is taken from the next word, whose bits do not enter `y` (`C54_r_zero_false`); shifts equal to the width of the type are undefined (`C54_shift_false`). In C++11 mode the precedence of `|` and `>>` in `twist` and the nesting of the tempering steps are wrong: other numbers come out (`C54_cxx11_false`, for `mt19937` itself).
* **C55 ==**: compares the first word of a fresh engine in full though only its upper bits matter (`C55_fresh_false`); for `m = 1` the backwards recurrence reads the wrong words and engines with different futures compare equal (`C55_m_one_false`).
* **C56 operator<<** writes `data[0]` twice and only `i` words (`C56_false`, `C56_short`, `C56_full_iff`, `C56_mt19937_false`).
* **C57, C58 uniform_int_distribution**: when `b - a + 1` is a power of the number of engine values, line 72 returns the composed digits without adding `a` (`C57_power`, `C57_power_false`, `C58_power_false`). `add<base_unsigned, result_type>` with a result type wider than the engine's turns -1 into the largest value of the narrow type (`C57_wide`, `C57_wide_false`) and truncates a smallest value below `-2^w` (`C57_narrow`). With C++14 constexpr an engine number is thrown away when both ranges are equal (`C57_twice`).
* **C59 uniform_smallint**: the range of the engine is computed with `subtract<result_type>` and truncated: `uniform_smallint<short>(-32768, 32766)` with `minstd_rand0` can return 32767 (`C59_truncated`, `C59_truncated_false`); with C++14 constexpr `static_cast<base_result>(range) + 1` can overflow (`C59_overflow`).
* **C60 inversive_congruential_engine**: with a 64-bit type and a product that does not fit, `mult` reaches the assertion "not implemented" (`C60_general_false`); for `a = b = 0` all states are 0, below `min() = 1` (`C60_zero_false`).
* **C61 additive_combine_engine**: for `m2 > m1` the difference is not reduced into the range: with moduli 5 and 11 the numbers 1 and 10 give -5 (`C61_moduli_false`).
* **C62 shuffle_order_engine**: ranges that do not fit into 64 bits when multiplied by `k` hit the assertion "not implemented" (`C62_general_false`); for `k > 2^w` the index is truncated to the result type (`C62_narrow_false`).
* **C63 linear_feedback_shift_engine**: the result of `<< s` is not masked, so that an engine with `w = 32` on a 64-bit type (`std::uint_fast32_t`) returns numbers above `max()` (`C63_max_false`); `1 << (w - k)` is an `int` shift and undefined for `w - k >= 31` (`C63_seed_false`).
* **C64 xor_combine_engine**: `min()` and `max()` are the minimum and maximum of those of the engines, which is wrong for the exclusive or: `C64_max_false` (1 ^ 2 = 3 > 2), `C64_min_false` (1 ^ 1 = 0 < 1), `C64_shift_false`.
* **C67 one_of, one_of_equal** for random access iterators combine the counts of the halves as if there were at most one match in each: `[1, 1, 1, 0]` has "one" match (`C67_one_of_false`, `C67_one_of_equal_false`).
* **inner_product** cannot be instantiated: line 32 calls the undeclared `binary_op` and line 112 passes four of five arguments. Not modelled.
* **C69 scans**: `exclusive_scan` writes the initial value before it reads the element it replaces, so in place `[1, 2, 3]` from 10 becomes `[10, 20, 40]` (`C69_exclusive_scan_in_place_false`); on an empty range it writes one element (`C69_exclusive_scan_empty_false`); `inclusive_scan` with an initial value writes it as an element of its own, `n + 1` elements in all (`C69_inclusive_scan_init_false`).
* **C70 to_time_t**: divisions truncate, so January and February of year 0 and earlier years are wrong (`C70_year_zero_false`, `C70_negative_year_false`); `year * 365` is computed in `int` and overflows from year 5883517 on (`C70_overflow`). The overload for character iterators calls `char_to_int(c)` without its template argument (line 50) and cannot be instantiated.
* **C71 hton, ntoh** of a one-byte type on little endian or PDP machines: `n2` wraps around to 255 and a shift by 2040 bits follows (`C71_one_byte_false`). The PDP branch of `ntoh` (line 163) uses the undeclared name `host`; it is modelled with `net`.
* **C72, C73, C75 null characters**: `char_traits::compare` is `strncmp`, so strings with null characters compare equal up to the first one (`C73_compare_null_refuted`), `find` and `rfind` find `a 0 b` in `a 0 c` (`C72_find_null_refuted`, `C72_rfind_null_refuted`), `starts_with` likewise (`C75_starts_null_refuted`). `basic_string(s, n)` and `substr` cut the string at a null character (`C74_construct_n_refuted`, `C74_substr_refuted`), and `basic_string(s, n)` reads past `s + n` if there is none (`C75_to_string_refuted`).
* **C74 assign of an empty string**: `assign(str)` and `operator=(str)` call `assign(str, 0, npos)`, which tests `pos >= size()`: assigning an empty string throws `out_of_range` (`C74_assign_empty_refuted`). The same test makes `append(str, str.size())` and `copy(s, n, size())` throw (`C74_pos_at_end_refuted`).
* **C74 own substrings**: `assign(s, n)` uses `copy_backward` whatever the direction: `abc.assign(data() + 1, 2)` is `cc` (`C74_assign_self_refuted`); `operator>>=(T const&)` reads the character after moving the string (`C74_prepend_ref_refuted`).
* **C74 lengths**: `assign(n, c)` throws `out_of_range` instead of `length_error` (`C74_assign_fill_refuted`); `assign`, `append` of input iterators with one character too many overwrite the terminator and leave `size() = N + 1` (`C74_assign_input_refuted`); `append(npos, c)` wraps around the check (`C74_append_fill_refuted`); `basic_string(str, pos, n)` with `pos > size()` does not throw (`C74_construct_sub_refuted`).
* **C75 substr** does not limit `n` to the rest of the view (`C75_substr_refuted`).
* In the configuration with index iterators: `find_last_of(it, pos = 0)` (string.hpp 1019, string_view.hpp 508) has the wrong default, `find_first_not_of(it, pos)` and `find_last_not_of(it, pos)` (string_view.hpp 525, 541) call a function of five parameters with three arguments. Not modelled.
* **C76 length**: `fixed::dft` and `fixed::idft` of forward iterators take the number of *results* for the number of inputs (`C76_dft_forward_refuted`). `dft_iterator` and `idft_iterator` call a constructor with five parameters and a member `index()` that do not exist, so that the overloads for containers of variable size cannot be instantiated. Not modelled.
* **C77 length**: the length is not checked; length 6 accesses elements behind the end (`C77_length6_ub`), length 3 gives another result (`C77_length3_refuted`).
* **C78 sign**: `fft` in the constant-expression version uses `e^(+2 pi i k / n)`, so that it differs from `dft` and from the C++14 `fft` (`C78_fixed_fft_refuted`). `fixed::ifft` passes two iterators to `make_input`, which takes one range: ill-formed when instantiated; modelled with the evident meaning. `bitrev_table` of one element shifts by the whole width (`C78_bitrev_table_refuted`).
* **C79 offset**: the wave forms and spectra use `Indexes` instead of `Indexes - offset`: a `sub_array` gets the values of later elements (`C79_offset_refuted`), and spectra read behind their input (`C79_spectrum_refuted`).
* **C79 duty, frequency, phase**: `square` with `duty` other than 1/2 has levels `2 duty` and `2 duty - 2`, and is high in the part `1 - duty` (`C79_square_refuted`); `sawtooth`, `square` and `triangle` take periods per element for frequency whereas `sinusoid` takes periods per container, so that their defaults give constants (`C79_default_frequency`); `phase_spectrum_value` rounds to integers (`C79_phase_refuted`).
* **C80 distance** doubles its block size before testing whether the end is nearer, so that from 2^62 elements on it overflows (`C80_distance_refuted`). The C++14 `prev(it, n)` computes `-n`, undefined for the smallest `n` (`C80_prev_cxx14_refuted`).
* **C81 reverse_iterator** `<` compares the bases in the same direction, so that it is the opposite of the order of traversal (`C81_reverse_lt_refuted`).
* **C81 joint_iterator** `-` of an iterator in the left part and one in the right part has the wrong sign (`C81_joint_diff_refuted`).
* **C81 alternate_iterator**: `+` with a negative odd offset reaches the wrong element (`C81_alternate_add_refuted`), `-` has the wrong sign (`C81_alternate_diff_refuted`) or is undefined through `limited::multiplies` (`C81_alternate_diff_ub`).
* **C81 size_enum_iterator**: `it - n`, `it[n]` and `it1 - it2` disagree with positions when separators are enumerated (`C81_size_enum_sub_refuted`, `_index_refuted`, `_diff_refuted`).
* **C81 insert_range_iterator**: `<` is wrong (`C81_insert_range_lt_refuted`). `operator+`, `-`, `[]` call a constructor of six parameters that does not exist (lines 54 to 66); not modelled.
* **C81 step_iterator**: the end made from `last` is never reached unless the width divides the length (`C81_step_end_refuted`), `it + 0` becomes the end (`C81_step_add_zero_refuted`), `prev` and `--` from the last element and the end reach wrong elements (`C81_step_prev_refuted`, `C81_step_decr_refuted`), the begin of an empty range goes outside it (`C81_step_empty_refuted`).
* **C81 bytes_iterator**: `prev` leaves an index of at least the element size (`C81_bytes_prev_refuted`); negative offsets are undefined (`C81_bytes_sub_refuted`).
* **C82 adjacent_filter_iterator** starts at the first element of the first pair of neighbours satisfying the predicate, instead of the first element, and is empty without such a pair (`C82_adjacent_filter_refuted`), so that `unique` of a constant list is empty (`C82_unique_refuted`). `while_iterator::operator++` dereferences the end (`C82_while_incr_refuted`), `--` from the end stops behind the visited prefix (`C82_while_prev_refuted`).
* **C83 limited::multiplies** divides the smallest value by -1 in its test (`C83_multiplies_refuted`).
* **C84 endian traits**: `UCHAR_MAX << 8 * i` and `v << 8 * i` are computed in `int`: of a 64-bit type the upper four bytes are undefined (`C84_get_refuted`), and setting byte 3 overwrites the upper four (`C84_set_refuted`).
* **C85 complex**: `z *= z.real()` and `z /= z.real()` read the argument after the real part has been overwritten (`C85_mul_assign_refuted`, `C85_div_assign_refuted`); `cend()` returns `elems()` without the size (`C85_cend_refuted`).
* **C86 quaternion**: the specialisations initialise the second component with the first (`C86_make_refuted`, `C86_float_refuted`, `C86_norm_refuted`, `C86_pow_refuted`); `T - q` and `complex - q` add (`C86_sub_refuted`); `T / q` is component by component (`C86_div_refuted`); compound assignment reads an aliased part too late (`C86_mul_assign_refuted`). Ill-formed and not modelled: `complex * quaternion` (quaternion.hpp 157-172), the general `/` (227, a helper calling itself with one argument), `abs` (abs.hpp 40); `cend()` as in C85.
* **C87 rounding functions**: `floor`, `ceil`, `ifloor`, `iceil` compare with `math::equal_to`, which has a tolerance: the floor of a small negative number is -0 (`C87_floor_refuted`, `C87_ifloor_refuted`), the floor of the number before -3 is -3 (`C87_floor_next_refuted`). The test `x > uintmax_t max` is made after conversion of the maximum to the floating type, so 2^64 passes and the conversion is undefined (`C87_limit_refuted`, `C87_itrunc_refuted`). For formats of 66 bits or more large values with a fraction are returned unchanged (`C87_large_refuted`). Not modelled: `iround` of an integer ignores the result type; `lround.hpp` and `llround.hpp` have a `;` inside an expression and are ill-formed where no builtin is used.
* **C88 comparisons**: `equal_to` of integers is the built-in `==`, so -1 equals `UINT_MAX` while `less` says it is less, and `compare` returns 0 (`C88_int_equal_refuted`). The tolerance of `equal_to` is infinite for an infinite argument: an infinity equals every number (`C88_float_inf_refuted`). `equal_to` is not transitive (`C88_float_transitive_refuted`). `compare` with NaN returns 1 both ways (`C88_float_nan`).
* **C89 classification**: `issubnormal_or_zero` uses `numeric_limits<double>::min()` for every type (`C89_subnormal_refuted`); `islessequal` uses `<` (`C89_islessequal_refuted`); `copysign`, `signbit` do not see the sign of -0 (`C89_copysign_refuted`, documented in the source); `fdim(inf, inf)` is infinite (`C89_fdim_refuted`); `fma` is `x * y + z` with two roundings (`C89_fma_refuted`).
* **C90 scaling and exponents**: `scalbn` multiplies by `pow_n(2, exp)`, which overflows before the product does: `scalbn(1/2, emax)` is infinite, `scalbn(2, -emax)` is 0, `scalbn(x, INT_MIN)` negates `INT_MIN` (`C90_scalbn_refuted`). The correction loops of `logb` do not end if the logarithm is off by two, nor for the least subnormal and the greatest number even with a correctly rounded logarithm (`C90_logb_diverges`, `C90_logb_refuted`). `float_significand`, `float_sig_exp` give 0 in the topmost binade and infinity for small subnormals (`C90_float_sig_exp_refuted`). None of this affects `float`, which is computed in `double`.
* **C91 remainders**: `fmod` scales its arguments with `scalbn`, so `fmod(1, denorm_min)` is infinite (`C91_fmod_refuted`). `rem_quo` accumulates the whole quotient in the type of the result although it only returns three bits of it: the signed overflow makes `remainder(2^40, 1)`, which uses `rem_quo<int>`, undefined (`C91_rem_quo_refuted`). The overloads of `rem_quo` and `quotient` for arithmetic types do not pass on the type `R` (`rem_quo.hpp` 136-138, `quotient.hpp` 51-53).
* **C92 tables**: the entry for B_28 is wrong in all three tables: `-236364091.0/870` for -23749461029/870 (`bernoulli.hpp` 36, 72, 126; `C92_bernoulli_refuted`). The factorial limit of 4-byte integers is 11 though 12! = 479001600 fits (`C92_factorial_limit_refuted`).
* **C93 square roots**: `sqrt(1 - 2^-p)` is 1 in the type of computation, because the sum in the Newton step is a tie which is rounded to even; the correctly rounded root is the argument itself (`C93_sqrt_refuted`).
* **C94 exp**: there is no reduction of the argument and the series stops at degree 85 (`exp.hpp` 42-55), so that `exp(100)` is about 7% of e^100 (`C94_exp_refuted`); the values are good up to about |x| = 25.
* **C95 constants**: no disagreement; all literals are right to their last place but one, `two_thirds` ends with 6 instead of 7.
* **C96 log**: arguments below one are inverted first (`log.hpp` 62). Just below one the rounding of the inverse is as large as the logarithm, so that `log(1 - 2^-p)` is twice what it should be; the inverse of a subnormal number may be infinite, and then `log_impl_1(inf)` calls itself with `sqrt(inf)` for ever (`C96_log_refuted`).
* **C97 cos, sin, tan**: the argument is reduced modulo the floating value nearest to two pi (`cos.hpp` 52-54), which is wrong by up to half an ulp, so that the error is proportional to the argument: `cos(2^k * two_pi)` is 1 for the floating `two_pi`, though the cosine is negative for some k (`C97_cos_refuted`). `sin` is `-cos(x + pi/2)` (`sin.hpp` 38-41); tiny arguments vanish in the sum, and `sin x = sin(-x)` is some number of the size of epsilon (`C97_sin_refuted`).
* **C98 log1p** is `log(1 + x)` (`log1p.hpp` 40-42): it is 0 for |x| < 2^-p / 2, where it should be x (`C98_log1p_refuted`).
* **C99**: all these functions inherit the Taylor polynomial of degree 85 of `exp` (C94): `exp2(150)` is less than a tenth of 2^150 (`C99_exp2_refuted`). `expm1`, `sinh` and `tanh` subtract nearly equal numbers for small arguments and are 0 for tiny ones, where they should be x (`C99_tiny_refuted`). `tanh` of large arguments is inf / inf, that is NaN (`tanh.hpp` 40-42; `C99_tanh_refuted`).
* **C100**: `pow(-0, -1)` is +inf, should be -inf: `copysign` is asked for the sign of -0 (`pow.hpp` 74; a known issue by the comment in lines 57-60; `C100_pow_zero_refuted`; cf. C89). `pow` inherits the Taylor polynomial of `exp` (`C100_pow_large_refuted`, `C100_cbrt_refuted`: `cbrt(2^600)` is less than a tenth of 2^200) and the inaccurate logarithm just below one, amplified by large exponents (`C100_pow_near_one_refuted`).
* **C101**: `asinh(x)` is computed as `log(x + sqrt(x * x + 1))` for either sign (`asinh.hpp` 42). For negative x the sum cancels: `asinh(-2^30)` of type `double` is -inf, should be about -21.5 (`C101_asinh_refuted`). From 2^512 the square overflows and `asinh(-x)` is +inf (`C101_overflow_refuted`). Tiny arguments give 0 (`C101_tiny_refuted`).
* **C102**: `atan2(-0, x)` of negative x is +pi and `atan2(±0, -0)` is ±0 (`C102_atan2_refuted`); the comment of `atan2.hpp` 57-64 lists both as issues. Without builtin functions `signbit` does not see the sign of zero.
* **C103**: the exponent part of `str_to_float` is wrong: its sign is reversed (`cstdlib/str_to_float.hpp` 104), two characters are skipped even without a sign (131), so that `1e5` is 1, `1e-5` is 100000, `1e+5` is 0.00001 and `1e` reads past the end (`C103_exponent_refuted`); exponents out of range give `+HUGE_VAL` also for tiny and negative numbers (`C103_range_refuted`); `inf` and `nan` are read as 0 (`C103_inf_refuted`).
* **C104**: `to_string(41.0)` is `40.000000` and `to_string(1.4)` is `1.399999`, as digits are taken from rounded quotients (`float_digit_at`, `detail/math/float.hpp` 139-151; `string/float_to_string.hpp` 73-80) (`C104_41_refuted`, `C104_14_refuted`); there is no digit before the point below 1 (`C104_half_refuted`), nor for -9.5, since `float_digits_checked` (200-214) looks at the digit of the negative value (`C104_negative_refuted`); `float_exponent10` builds its pair as `(val, 0)` instead of `(0, val)` (69, 103), so that it returns the integral part of its argument or never ends (`C104_exponent_refuted`, `C104_exponent_endless_refuted`).
* **C105**: `fit::erase_n<N>` moves the end of the window by 1 instead of N (`operation/fit/erase_n.hpp` 45, 54; `C105_fit_erase_n_refuted`); `fit::realign_to` a smaller container makes a window longer than it (`operation/fit/realign_to.hpp` 44, 53; `C105_fit_realign_to_refuted`); `remake` of a window of a string cuts the string inside to the length of the window (`sub_array/container.hpp` 66-74; `C105_window_of_string_refuted`) and of a window of a window applies the offset twice (`C105_window_of_window_refuted`); realign and resize of strings lose what follows a zero (`C105_resize_string_refuted`).
* **C106**: `operator==` of `sub_array` compares only as many elements as the first window has (`sub_array/comparison.hpp` 26-30): a proper prefix is equal to the whole (`C106_equal_refuted`), and a shorter second window is read past its end (`C106_equal_undefined_refuted`); `window(to_first)` on a mutable object calls `size()` after changing `to_first_` (`sub_array.hpp` 418-422), so it shows fewer elements than the constant form (`C106_window_refuted`).
* **C107**: `fixed::copy_backward` of bidirectional iterators completes the result with elements counted from `internal_end`, which for a string is `end`, not the end of the storage (`detail/container_complate_backward.hpp` 20-80): for a string shorter than its capacity it reads before the beginning (`C107_copy_backward_refuted`); `fixed::unique_copy` writes the first element without asking whether the window has room (`unique_copy.hpp` 27-73), so into an empty window it changes an element outside (`C107_unique_copy_refuted`); `fixed::recurrence` with more first values than elements keeps the last of them, not the first (`recurrence.hpp` 48-85, `C107_recurrence_refuted`). `generate_n`, `fill_n`, `unfold_n` and `recurrence_n` with `n` greater than the size are outside of the claim (like in std, `n` has to fit).
* **C108**: `fixed::nth_element(cont, end)` makes a partial heap of `size + 1` elements (`nth_element.hpp` 20-50) and so reads past the end (`C108_nth_element_refuted`; std allows `nth == last`); `fixed::stable_sort` and `fixed::sort` look at the `static_size`, not the size, to decide that there is nothing to do (`stable_sort.hpp` 190-215), so an empty window or string with room for two elements is walked past its end (`C108_stable_sort_refuted`). `push_heap` and `pop_heap` of empty containers are outside of the claim, as in std.
* **C109**: no disagreement found. Of `next_permutation_impl_4` the branch for compilers from GCC 4.8.2 on is modelled.
* **C110**: `fixed::shuffle` exchanges every element with one drawn from the whole window, so that of the `n ^ n` sequences of draws the arrangements of three or more different elements cannot all get the same number (three elements: 4, 5, 5, 5, 4, 4 of 27); std demands equal probability. `shuffle` in place is fair (`C110_shuffle_in_place_fair`). `bozo_sort` in place uses the `random_swap` of C21, which may exchange an element of the range with the one behind it: `2, 1 | 0` becomes `0, 1 | 2`.
* **C111**: `fixed::inclusive_scan` with an initial value gives 10, 11, 13, 16 for 1, 2, 3 and 10 (std: 11, 13, 16); `fixed::exclusive_scan` of an empty range writes the initial value; all scans write one value to an empty window, i.e. into the array around it. `fixed::adjacent_difference` does not compile for containers that are not empty: the overload for them (adjacent_difference.hpp 72, 147) is named `adjacent_difference_impl_1`; under the right name it would be right (`C111_adjacent_difference_partial`). `transform_inclusive_scan` with an initial value has no overload for `static_size` 0 and 1 (the parameter `unary_op` is missing, transform_inclusive_scan.hpp 105-127), and `sprout::transform_inclusive_scan<Result>` passes `unary_op` twice (179).
* **C112**: `fit::partition` and `fit::stable_partition` return `size - count_if(pred)` elements (fit/partition.hpp 29-33, fit/stable_partition.hpp 29-33) although the elements with `pred` come first; for 1..6 and `< 3` they show 1, 2, 3, 4. `fit::partition_copy` and `fit::stable_partition_copy` are right; the test of the library has exactly one half of the elements with `pred` (libs/algorithm/test/stable_partition.cpp 35-42). `fit::unique` counts neighbours that are related while `fixed::unique` compares with the element kept last: with a relation that is not transitive (distance at most 1, on 1, 2, 3) the window misses the last element. `fit::pop_heap` of an empty container gives the window [0, -1). `count_n_if` for random access iterators is disabled by `::pred` instead of `::value` (count_n_if.hpp 22), which is harmless. `fit::partial_sum` with an operation calls `NS_SSCRISK_CEL_OR_SPROUT::min` with arguments of two types and does not compile.
* **C113**: `sum_basic<Bits>` (checksum/sum.hpp 36, 113-115) masks with the maximum of `uint_t<Bits>::least`, so the widths 24, 40, 48, 56 give 32 or 64 bit sums, and widths above 64 give seven bits because `uint_t` then names `signed char`. The overloads of `make_sum8` and the like for `wchar_t`, `char16_t` and `char32_t` strings pass the wide pointer to `char_traits<char>::length` (sum.hpp 147-160) and are not modelled.
* **C114**: `static_pow2` shifts the `int` 1 (integer/static_pow.hpp 20): `static_pow2<long long, 31>` is -2^31 and larger exponents do not compile. `static_pow2m1<T, 0>` is 1 (static_pow.hpp 27-29). `carry_to_exp2(x)` negates `MIN` for `MIN < x < MIN/2` (carry_to_exp2.hpp 59), undefined for `int` and wider types. `integer_digits` counts the digits of the maximum; the minimum of a signed type needs one more in base 2 for all, in bases 4, 8, 16 for some types. `uint_t<65>` and above name `signed char` (detail/integer.hpp 138-145: the base category is 5); `uint_value_t` compares with the maxima of the signed types (178-182), so 200 gives `unsigned short` and values above `LLONG_MAX` give `signed char`.
* **C115**: `container_construct_traits<div_t>::make` and `remake` call `div_impl` (cstdlib/div.hpp 505-514): the container of the elements 7 and 2 becomes 7 / 2, 7 % 2; a second element 0 is undefined. `abs` for types narrower than `int` returns the minimum for the minimum (cstdlib/abs.hpp 47-55).
* **C116**: in integer_range.hpp 63, 73 the argument `N / 2 * Step` mixes the unsigned count with the signed step, so for `int`, `long`, `ptrdiff_t` every descending range with at least two elements (`index_range<3, 0>`) is a narrowing error, and so is `First + (N - 1) * Step` when the value is negative (`integer_range<int, -5, -2>`). The difference is cast to the signed type (line 85): `make_integer_sequence<unsigned char, 200>` does not compile and `integer_range<unsigned, 0, 0x80000000, 0x7fffffff>` is empty.
* **C117**: `one_of_impl` (type/algorithm/one_of.hpp 70-85, tpp/algorithm/one_of.hpp 36-43) forgets that the first half had two or more matches: `one_of_c<true, true, false, true>` is true. `types::one_of` of the empty list is `true_type` (line 91-93) while `tpp::one_of` gives false. `index_iterator` names the type of its element in its definition, so an end iterator is never complete and `prev<end>` does not compile.
* **C118**: `operator=(slice_array<T, N2> const&)` is a template and so never the copy assignment operator: `v[slice(0,2,1)] = w[slice(0,2,1)]` with valarrays of the same type copies the proxy (slice_array.hpp 77-82) and changes no element; for gslice, mask and indirect arrays the implicit operator needs the ill-formed copy assignment of valarray. `slice_array::at` (210-213) checks the position in the valarray but not the index in the slice.
* **C119**: `empty()` returns `size() != 0` (valarray.hpp 527-530). `shift` copies without default values (422-428): `{1,2,3}.shift(1)` is `{2,3,3}`. `cshift` and `shift` by more than the size form iterators outside the block. `v *= x` passes `T const&` to the assigning functor through `binder2nd` and does not compile. `pow(x, y)`, `atan2`, `hypot`, `log_a` of two valarrays pass `y.end()` for `y.begin()`. The copy assignment names members `array_` and `size_` that valarray does not have (228-239), and trigonometric.hpp 207, 212 have unbalanced parentheses.
* **C120**: `moved_range` is constructed from `end(range)` and `begin(range)` in this order (moved.hpp 43-48): no loop over a nonempty range ends. `adapted_offset` (96-107) with overlapping distances yields elements twice, because `taken_end` is not limited by `from_begin`. `window(f, l)` with `l < f` is no empty but an invalid range. `piped` with three or more adaptors (piped.hpp 37-43) calls itself by a qualified name in its own trailing return type, where it is not yet declared. The difference of `alternate_iterator`s (see C81) makes the size of `alternated | dropped(1)` wrong.
* **C121**: `range | counting(first)` computes `max - first` (counting.hpp 67), which overflows for negative `first`. `counting_range(range)` starts at the largest value (45-50). `indexed` gives `end` the index of `begin` (indexed.hpp 50-55). `steps` (60) and `blanked` (63, 73) call `min` with `ptrdiff_t` and `size_t`; `removed` and `removed_if` (53-54) pass iterator and predicate in the wrong order: none of them compiles. The members `swap` of reverse, step, move, next, valued, remake and indexed iterators call the unqualified `swap` with two arguments, which finds the member itself; so `+=`, `-=`, `swap` and converting assignment do not compile.
* **C122**: `end()` is a default iterator with a null pointer (optional.hpp 373-378), so the element before it cannot be read: iterating from `rbegin()` over an engaged optional dereferences null. `value_holder<T&>(T&&)` (value_holder.hpp 231-233) passes an rvalue to `hold(T&)`: `optional<T&>` has no usable move constructor. `begin()` of `optional<T&>` and `optional<T const&>` selects a private constructor of `value_iterator`. The functions `get(x)`, `get(&x)`, `get_pointer(x)` ignore the flag. `operator>>` (io.hpp 27-29) assigns the variable even if extraction has failed; if the stream ends after the space it has never been given a value.
* **C123**: `template<T> variant(T&&)` (variant.hpp 234-240) is not constrained. For a variant argument that is an lvalue without const it is a better match than `variant(variant const&)`; it then fails the static assertion in line 64. So `variant<int> b(a);` and `b = a;` (257-261) do not compile for a variable `a`.
* **C124**: `hash_combine_impl(std::size_t seed)` (hash_combine.hpp 18-22) is a template whose parameter cannot be deduced: `hash_combine(seed)`, `hash_values()` and the hash value of `tuple<>` do not compile. `hash_value_signed_2` (hash_value.hpp 59) computes `val + (seed << 6) + (seed >> 2)` in the signed type, which overflows near the maximum: for `long long` where `size_t` has 32 bits, for 128 bit integers where it has 64. The hash value of floating numbers uses `float2_sig_exp`, whose significand is infinite for small subnormal numbers (converting it to `size_t` is undefined) and 0 in the topmost binade (C90).
* **C125**: `empty()` returns `!!fst.next` (forward_clist.hpp 378), which is true for lists with items. `cbefore_begin()` returns `const_iterator(fst.next)` (371), that is `cbegin()`. `before_begin() const` (353) constructs a holder of `item&` from a const item. The range operations write `p = sprout::addressof(*p)->next` (332, 402, 425), where `*p` is a holder and has no member `next`. `swap` (449) and move assignment (339) need assignments of `item`, which are deleted (232-233); `item::operator=` (281, 286) swaps with the value instead of `*this`. The move constructor (336) copies the link and leaves both lists with the same items.
* **C126**: with names of which one is the beginning of another (a locale may define such `falsename` and `truename`), the shorter one cannot be read at the end of a stream, and elsewhere one character after it is consumed (io.hpp 119-162).
* **C127**: `uniform_real_distribution(a, a)` is accepted (`SPROUT_ASSERT(min_arg <= max_arg)`, uniform_real_distribution.hpp 421, 482) but no value is `< a`, so that generation never ends; the same with `b - a` infinite. `geometric_distribution::p()` returns `result_type` (geometric_distribution.hpp 117) and so gives 0; with `p` below a quarter of epsilon `log(1 - p)` is 0 and the conversion of the quotient is undefined.
* **C128**: `generate_canonical_check` (generate_canonical.hpp 215) tests `res.first == 0` where the other version (78) tests `result == 1`: a quotient 0 becomes -epsilon/2, and a quotient 1 is returned. For ranges that are no powers of two the sum may round to more than the power of the range: with `ecuyer1988` (range 2147483562) and `double`, two greatest results in a row fail `SPROUT_ASSERT(result <= 1)` (77, 214).
* * **C129**: `range::equal`, `range::mismatch` and `range::is_permutation` call the algorithms with three iterators (range/algorithm/equal.hpp 24-31, mismatch.hpp 30-49, is_permutation.hpp 24-31): the end of the second range is ignored, so `1` is equal to and a permutation of `1, 2`, and `mismatch` of `1, 2` with `1` reads behind the end (undefined behaviour, `C129_short_undefined`), although `sprout::equal`, `mismatch` and `is_permutation` with four iterators exist. Noted, not modelled: `range::fit::transform_inclusive_scan<Result>(rng)` (range/numeric/fit/transform_inclusive_scan.hpp 34-48) calls overloads of `fit::transform_inclusive_scan` that do not exist and cannot be instantiated.
* * **C130**: `mean()` has the type `result_type` (poisson_distribution.hpp 347-349), so a mean of 2.5 is reported as 2. The last test `(k >= 10 && A) || (k >= 0 && B)` (219-220, 293-294) evaluates `B`, and with it `log_factorial(k)`, a table of ten elements, for every `k >= 10` for which `A` fails: undefined behaviour (`C130_table_overrun`; mean 16, draws 0.94 v_r and 0.015, k = 42). The version for constant engines (310-312) does not multiply the second draw by `v_r` as the other one does (211): with the draws 0.9 v_r, 0.08, 0.43 v_r one returns 4 and the other 16. Not modelled: rounding of the floating-point operations (numeric statements are about exact reals), the variant for the workaround macro (235-289).
* * **C131**: `p()` has the type `result_type` (binomial_distribution.hpp 730-732), so 0.3 is reported as 0. The table of `fc` (32-40) holds 1, 1, 2, 6, 24, 120, 0, 0, 0, 0, the first factorials, where corrections of Stirling's formula (0.081..., 0.041..., ...) are needed (`C131_fc_refuted`). In the version for constant engines `generate_7_2` (587-592) runs from `k + 1` until `i == k` instead of `i == m_`: for `k < m_` and `m_ - k <= 15` it overflows (`C131_const_undefined`, in every arithmetic). With the workaround macro the same loop (399-411) ends with an exception at the limit of the depth; this variant is not modelled.
* * **C132**: `operator==` (normal_distribution.hpp 271-277) compares `cached_rho_`, `r1_` and `r2_` also if `valid_` is false; `reset()` (203-205) only clears `valid_`, so a distribution that was used and reset is not equal to a new one although all their values agree (`C132_eq_refuted`, `C132_reset`).
* * **C133**: no disagreement. `seed_array_init` takes the remainder by 2³³ (`uint_least64_t(2) << 32`) instead of 2³²; the conversion to 32 bits repairs it.
* * **C134**: (1) `seed_one_int_impl` and `get_one_int_impl` have the template parameters `IntType, m, log, k, …` but are called with `<IntType, m, k>` (seed_impl.hpp 45, 62, 88, 106): `k` cannot be deduced, so seeding from a constant sequence or from iterators is ill-formed (`C134_const_undefined`). (2) Completed, the constant version would generate `log / 32 + 4` words instead of `k + 3` and get another seed for 2³² (`C134_meant_differs`). (3) `seed_log` names `static_log2<0>::value` for modulus 0, ill-formed, so `taus88` with its 32 bit words has no seed sequences (`C134_zero_undefined`). (4) A modulus above 2³² that is no power of two fails the assertion of `mult_general` in the second round, for every sequence (`C134_large_undefined`). (5) `E e(x)` with a non-const engine `x` chooses the constructor for seed sequences, since `is_seed_seq` only asks for `result_type` (linear_congruential.hpp 171-174): ill-formed (`C134_copy_undefined`).
* * **C135**: (1) the iterator draws the value it points to when it is made, so traversing n values draws n + 1, and even the empty range draws one (random/iterator.hpp 32-35; `C135_range`, `C135_range_refuted`). (2) `variate_generator::call(g, true_type)` (variate_generator.hpp 50) passes `(value, distribution, engine)` to a constructor that takes `(value, engine, distribution)` (random_result.hpp 86-92): ill-formed for every mutable reference (`C135_reference_undefined`). (3) `make_range(engine, count)` names `distribution` in its result type (random/range.hpp 45, 47), which is not declared (`C135_make_range_undefined`). (4) `generate_array<0>` of a constant generator has no overload, `make_seed_seq<0>` instantiates itself without end (`C135_array_const_undefined`, `C135_seed_seq_undefined`).
* * **C136**: `cross` computes its second component as `y*x' - x*y'` (coords/vector.hpp 166-167) instead of `z*x' - x*z'`: the product of the first two axes is (0, -1, 1), which is not even perpendicular to the second (`C136_cross_refuted`).
* * **C137**: (1) because of `cross` (C136) every triangle in a horizontal plane has a normal of 0/0 (polygon/triangle.hpp 145; `C137_triangle_horizontal`) and other triangles are met where the ray does not meet them (`C137_triangle_wrong`, `C137_triangle_refuted`). (2) a ray that starts on an `aa_plane` hits it at distance 0 if it goes in the positive direction, and not at all otherwise (aa_plane.hpp 156, 166; `C137_plane_on`, `C137_plane_refuted`). A ray tangent to a sphere misses it (sphere.hpp 174, `> 0`).
* * **C138**: (1) `plaid_element` exchanges its elements on the lines at negative multiples of the scale (plaid.hpp 46-55; `C138_plaid_refuted`). (2) `get_color` in tile mode takes pixel `width - 2` for x = -1 (texture_map.hpp, `C138_tile_refuted`), and since bilinear interpolation asks for integers only, everything left of or above the origin is mixed from wrong pixels (`C138_tile_bilinear_refuted`). (3) lights look at the nearest object only and ignore it when it is closer than epsilon, so it hides an object behind it that should cast a shadow (point_light.hpp 43-76, parallel_light.hpp 43-69; `C138_shadow_refuted`). (4) `make_plaid(e1, e2, scale)` returns `plaid_element<Element>` (plaid.hpp 72-76): ill-formed unless the scale is a `double`; the default argument `result_typ()` of `make_texture_map` is not declared (texture_map.hpp 165).
* * **C139**: (1) the vertical of the view plane is always (0, 1, 0) (simple_camera.hpp 43-47): not perpendicular to the view of a tilted camera, and 0/0 for one that looks straight up or down (`C139_camera_refuted`). (2) rays go through the upper left corners of the pixels (75-76), so that pictures are not centred (`C139_center_refuted`). (3) on entry the index of the material is stored (whitted_style.hpp 145), at the exit `refracs / refraction` is then 1 (185-186) and the ray is not bent (`C139_exit`, `C139_exit_refuted`). (4) in total reflection the transmitted part goes to the mirrored ray (222-226), which is not traced if the reflection of the material is at most epsilon (85-86): black (`C139_total_refuted`). (5) the lights are calculated before it is known whether anything is hit (278), at (0, 0, 0) then; with a point light there this is 0/0 (`C139_miss_refuted`).
* * **C140**: (1) the product of the edges of the band is multiplied by `four_pi` instead of 4π² (iir_filter.hpp 174, 230): the centre is not passed by `iir_bpf` (`C140_bpf_refuted`), not removed by `iir_bef` (`C140_bef_refuted`); with 4π² it would be (`C140_band_intended`). (2) the middle coefficient of `iir_notch` is (2x²+2)/y instead of (2x²-2)/y (319): for all parameters the filter is a low-pass filter with gain (1 + 1/tan²)q at the frequency to be removed (`C140_notch_partial`, `C140_notch_refuted`). (3) the last coefficients of the shelving filters have + instead of - (372, 428) (`C140_low_shelving_refuted`, `C140_high_shelving_refuted`). (4) `iir_peaking` adds the gain instead of multiplying x/q by it, with + also in the last coefficient (482, 484) (`C140_peaking_refuted`). For (3) and (4) even g = 0 does not leave constant signals unchanged. Not proved: the decay of the transient (only that all poles are inside the unit circle).
* * **C141**: (1) `operator|` of `left_channel` and `right_channel` has a template parameter `T` that occurs nowhere in the parameters (left_channel.hpp 33, right_channel.hpp 33): no call is possible, hence also not for `effected_each_cannel`, `effected_left_cannel`, `effected_right_cannel` and `vocal_cancelled` (`C141_channels_refuted`; with deducible parameters they would be right: `C141_channels_intended`). (2) `compressed` keeps full scale only for thresholds up to 1 (`C141_compress_refuted`), and divides by zero for threshold = ratio = 0 (`C141_compress_zero`). (3) `superposed` reads beyond the end of a shorter second range (`C141_superpose_short`). Observed: silence is 127 and not 128 in 8 bit waves, since the fraction is discarded.
* * **C142**: (1) `pseudo_stereo` gives 0 instead of the signal until the delayed signal begins (pseudo_stereo.hpp 41-43, 51-53) (`C142_pseudoStereo_refuted`); a negative delay reads beyond the end (`C142_pseudoStereo_negative`). (2) `reverbed` converts the time of the echo to an integer by `static_cast`, so that times between -1 and 0 become 0: for a delay that is no whole number of samples the first sample is echoed twice, the first time too early (`C142_reverb_refuted`). (3) `vibrato` and `chorus` extrapolate at times between -1 and 0, beyond the bounds of the signal (`C142_vibrato_refuted`), and lose the last sample even without any delay (`C142_vibrato_last`).
* * **C143**: (1) `next`, `prev`, `+`, `-`, `+=`, `-=` of `dft_iterator` and `idft_iterator` call a constructor with five arguments (dft_iterator.hpp 75, 78, 115, 118, 121, 126), but there is none (`C143_dft_undefined`); `==` and the difference use `index()`, which is not a member (138, 168); hence `range | dft` cannot be traversed (`C143_dft_refuted`), and `fixed::dft` does not work for results that are no fixed containers (fixed/dft.hpp 125). (2) `operator|` of `white_noise` takes the engine from the first iterator (white_noise.hpp 66-68, 105-107, 150), where it is already the engine after the first value: the first two values are lost (`C143_noise_refuted`, `C143_noise_pipe_partial`). Not modelled: conversions between iterators of different value types (which access private members), `operator->` (`&operator*()()`, ill-formed).
* * **C144**: with points whose coordinates are integers, `(…) / 2` in catmull_rom_spline.hpp 29-31 is the division of integers: through (0, 0, 1, 1) the spline ends at 0 instead of 1 (`C144_catmull_int_refuted`). `bezier` with two points, or more than six, is not defined.
* * **C145**: (1) in const calls `mu` is instantiated with const types (bind.hpp 432), for which the specializations for `reference_wrapper` (85-104) do not apply: a function object that accepts all types receives the wrapper (`C145_const_ref_refuted`). (2) `bound_size` of a tail that begins behind the arguments is negative as a `std::size_t` (238); the sum (253-254) wraps around, and bound arguments are dropped: `bind(f, x, _1tail)()` calls `f()` (`C145_tail_refuted`). (3) `res_binder_impl::call` uses `mu<BoundArgs>` instead of `bound_element` (640, 658): with tails the call is ill-formed, or the function receives a placeholder object (`C145_res_tail_refuted`); 685 has a second template argument `Indexes` in place of `IsBindExp`. (4) the literals `k_tail` are `placeholder<-k>` (literals.hpp 34), which is no placeholder (`C145_literal_tail_refuted`). Also: the constructor of `res_binder` is not constexpr (730), so `bind<R>` cannot be used in constant expressions.
* * **C146**: (1) `join_impl_1` with separator calls `join_impl` with separator, which is declared behind it (join.hpp); as the call is qualified there is no argument dependent lookup: for iterators that are not random access the call is ill-formed (`C146_join_seq_sep_refuted`). (2) the capacity of the result is (N + S) * M - S, negative for M = 0: ill-formed instead of empty (`C146_join_sep_empty_refuted`). (3) it is 0 for N = 0: the separators are lost (`C146_join_sep_zero_refuted`). Also: null characters end the contents of the result.
* * **C147**: no disagreement. `while_loop` evaluates the predicate more often than `flat_while_loop` does.
* * **C148**: `mask_index` is documented as O(log N) (detail/algorithm/mask_index.hpp 68-69), but calls itself once per element (50-51): the depth is N + 1 (`C148_mask_index_refuted`).
* * **C149**: `operator>>` of complex compares `ch` (complex/stream_operators.hpp 21-23), which is uninitialised if the stream is at its end (`C149_complex_refuted`); the same in a quaternion after `((a,b),` (`C149_quaternion_pair_refuted`) and with `x` in value_holder (value_holder/io.hpp 30-32, `C149_holder_refuted`). A number that is no number sets complex to 0 (39-40, `C149_complex_fail_refuted`). A quaternion given as a number at the end of the input is lost: `good()` is false after it (quaternion/stream_operators.hpp 188-191), the stream does not fail, the variable is not assigned (`C149_quaternion_refuted`). linear_feedback_shift_engine reads any number, also 0, from which it never departs (`C149_lfsr_refuted`); shuffle_order_engine reads any last value, also one that makes the next call leave the table (`C149_shuffle_refuted`).
* * **C150**: `operator>>` of a string stores the characters and then calls `resize` (string/io.hpp 49, 62), which overwrites everything beyond the old length with null characters: an empty string is never filled (`C150_string_read`, `C150_string_refuted`). `operator>>` of a bitset sets `failbit` in a local variable that reaches the stream in the other branch only (bitset/io.hpp 57-66): failure is not reported (`C150_bitset_refuted`). `operator<<` of a uuid leaves `left` and `showbase` set while it writes the bytes (uuid/io.hpp 99-104): `0x01` becomes `10` (`C150_uuid_left_refuted`) or `0x1` (`C150_uuid_showbase_refuted`); with no adjustment set, as in a new stream, the width is ignored (94, 109, `C150_uuid_width_refuted`).
* * **C151**: `==`, `<` and `-` compare indices and not pointers (ptr_index_iterator.hpp 137, 153, 188): `ptr_index(a, 1) != ptr_index(a + 1)` and `ptr_index(a) == ptr_index(a + 1)` (`C151_compare_refuted`), and a loop up to `ptr_index(a + n)` never runs (`C151_end_refuted`). The conversion to `ptr_index_iterator<const_pointer>` (60-62) should be to `ptr_index_iterator<T const>`; using it is ill-formed (`C151_convert_refuted`).
* * **C152**: arguments above the range are clamped to `n = lim` (tgamma.hpp 118-122), and the polynomial is then evaluated at `x - (lim + 2)`, where it is negative from 4 on: `tgamma(176.0)` is negative in exact arithmetic, hence `-inf` in `double` (and a finite negative number in `long double`) instead of `+inf` (`C152_large_refuted`). From `2^31 + 2` on, `iround` throws (`C152_huge_refuted`). At 3/2 the functional equation holds only approximately (`C152_half_refuted`).
* * **C153**: `itrunc(t) + 4` (lgamma.hpp 165) should be `itrunc(t + 4)`: `t` is negative for arguments below 1.886, and truncation rounds it up (`C153_piece_refuted`). The polynomial of the next interval is then used, with an error of up to 2.9e-9 for arguments just above 1 (`C153_accuracy_refuted`), where `lgamma` itself tends to zero; the polynomials as such fit each other to 1e-15 (`C153_pieces`).
* * **C154**: the ten polynomials of `erf` are right to 1e-18 everywhere. `erfc(x)` is computed as `1 - erf(x)` (erfc.hpp 40), and is zero from 6.9 on, where `std::erfc` is positive up to about 27 (`C154_erfc_refuted`); in floating point the digits are lost from about 1 on already.
* * **C155**: `string_to_int` of a `string_view` passes `str.begin()` to a parser of null-terminated strings (string_view/string_to_int.hpp 40, 50), the length is not used: `stoi(string_view("123456", 3))` is 123456 (`C155_view_refuted`), and a view at the end of an array is read past the end (`C155_view_end_refuted`). With `idx`, `stoi` is `static_cast<int>(strtol(...))` (cstdlib/str_to_int.hpp 122-123): `stoi("4294967296", &n)` is 0, and the largest `int` without `idx` (`C155_idx_refuted`).
* * **C156**: `pair::operator=(tuple<U, V> const&)` assigns `get<0>(rhs)` to both elements (pair.hpp 76-77): a pair assigned from the tuple (1, 2) is (1, 1) (`C156_assign_refuted`), and the program is ill-formed where a `U` cannot be assigned to the second element (`C156_assign_types_refuted`).
* * **C157**: `compressed_pair_impl<T1, T2, 2>` is derived from `T1` (compressed_pair.hpp 148) although it keeps the first in a member and the second in a base (160-168): `compressed_pair<int, Empty>` is ill-formed, since `int` is no base, and for classes the constructors are (`C157_empty_second_refuted`). `compressed_pair<int, long>(1)` does not initialise the second element (71-73, `C157_single_refuted`).
* * **C158**: the coefficients of `asin` are the same for all types (asin.hpp 46-83); for `long double`, where one unit in the last place at 0.52 is 5e-20, the result at 1/2 is off by more than 1e-17 even in exact arithmetic (`C158_long_double_refuted`).
* * **C159**: the literal `"\x81\5B"` (misa.hpp 41) has the characters 0x81, 5 and `B`; that of the comment beside it is 0x81 0x5B. The symbol is translated to a blank and `[`, the beginning of a loop (`C159_symbol_refuted`), and the three characters to `>` (`C159_octal_refuted`). The grammar reads bytes: the second byte of a character that is not in the language, e.g. of 0x835B, is read as an instruction (`C159_other_refuted`).
* * **C160**: `uniform_int_float::max()` is `min(numeric_limits<result_type>::digits, generator_bits<base_type>::value())` (uniform_int_float.hpp 59-62), an `int` and a `std::size_t`, for which no `T` can be deduced: `uniform_int_distribution` does not work with engines of floating point numbers (`C160_ill_formed_refuted`). If it did, `operator()` would compute `rng_() * max() + 1` (74) instead of `rng_() * (max() + 1)` (42), which is never 0 (`C160_zero_refuted`).
* * **C161**: `insert_iterator::operator=` drops the iterator returned by `insert` (insert_iterator.hpp 67, 71; in the standard it is stored and incremented), so the second value assigned to a vector is inserted at an invalid iterator (`C161_vector_refuted`). `fixed::copy` with `front_inserter` keeps the order of the values (front_insert_iterator.hpp 123-132), `copy` with `front_inserter` reverses it (`C161_front_refuted`).
* * **C162**: `recursive_flex_tuple` converts its elements by `flex` (tuple/flex.hpp 86), not by `recursive_flex`: tuples of three levels whose innermost numbers of elements differ are not converted (`C162_recursive_refuted`).
* * **C163**: the limits of `char32_t` are cast to `char16_t` (limits.hpp 210-214), so its greatest value is 65535 (`C163_char32_refuted`); only where `SPROUT_NO_CXX11_NUMERIC_LIMITS` is defined.
* * **C164**: `exempt_ptr::swap` calls `swap(p_, other.p_)` (exempt_ptr.hpp 123), where the name finds the member itself, which has one parameter: `swap` of two `exempt_ptr` is ill-formed (`C164_swap_refuted`). The comparisons use `sprout::less<T*>`, which is `<` (functional/less.hpp 29-31), unspecified for null and for different arrays (`C164_null_order_refuted`, `C164_arrays_refuted`).
* * **C165**: the derivatives are computed as `s * (1 - s)` from the rounded `s = sigmoid(x)` (sigmoid.hpp 77-81, 139-143). For `x >= 37`, `s` is 1 and both are 0, though the derivatives are not (`C165_large`, `C165_refuted`); `sigmoid(x) * sigmoid(-x)` would keep the digits.
* * **C166**: `shrink(T const(&)[N])` returns a `shrink_string<T, N>` (shrink.hpp 76), but its expression has the type `shrink_string<T, N - 1>` (78; string.hpp 1253), for which there is no conversion (`C166_holder_refuted`). With the right type the result would refer to a destroyed string.
* * **C167**: for an array on the left, `jointed_range_copied_type` inherits from `container_construct_traits` (jointed_range_default.hpp 150), which has no member `type`; the specialisation below inherits from `weak_rebind_size` (164). Copies of an array joined with anything are ill-formed (`C167_array_refuted`). Two adapted arrays are copied into an array of the size of the first (177, `C167_adapted_refuted`). If one of the ranges has no static size, the static size is that of the other (58, 89, `C167_static_refuted`, `C167_vector_refuted`).
* * **C168**: no disagreement. `arithmetic_promote<T>` of one type is `T`, though `arithmetic_promote<T, T>` may be `int` (`C168_single`).
* * **C169**: `generated_value`, `next_generator` and `next_value` are documented to accept input iterators, but the implementations ask `is_input_iterator<Gen>` with a reference `Gen`, and `sprout::iterator_traits` of a reference is empty: the branches are never chosen and the calls are ill-formed (`C169_iterators_refuted`; `C169_iterators_intended` shows what they do for the type itself). `generator_iterator::next_generator()` already makes the call that its user makes again, so that `generate` takes every second value only (`C169_generate_skips`, `C169_generate_refuted`). The comment in `generator/next_generator.hpp` 32 says `get<0>`; the code uses `get<1>`, which is right.
* * **C170**: the last case of `range_back_impl(Container&)` (`container/detail/range_back.hpp` 94) is `*sprout::begin(cont)`, which is the first element; the documentation says `*sprout::next(sprout::begin(cont), sprout::size(cont) - 1)` (`C170_back_first`, `C170_back_refuted`). The const overloads of `range_at_impl` ask for the subscript of the mutable container (`container/detail/range_at.hpp` 121, 131), so that `at` is ill-formed if only mutable containers have one (`C170_at_wf_refuted`).
* * **C171**: `sound_type` treats every number of bits but 8 as 16, so that samples of 24 bits leave the range (`C171_range_refuted`). Loading divides by 128 or 32768, writing multiplies by 255/2 or 32767 and discards the fraction: each sample but 0 moves by one each time it is loaded and written, and silence of 8 bits drifts (`C171_again_refuted`).
* * **C172**: `equiv_adaptor_impl<Compare, false>` forwards both arguments twice (`functional/equiv.hpp` 51); the second call may see objects that have been moved from (`C172_forward_refuted`). The overload of `count_n_if` for random access iterators is never chosen, because its condition names `::pred` instead of `::value` (`detail/algorithm/count_n_if.hpp` 24); it would call `count` with the predicate as the value.
* * **C173**: no disagreement.

import Verif.Proofs.TypeList

/-!
# C117: algorithms and operations on lists of types
-/

namespace Sprout
open TypeList

section
variable {α β : Type}

/-- C117: `types::all_of`, `any_of` (`contains`), `none_of`, for every list and predicate. -/
theorem C117_quantifiers (p : α → Bool) (l : List α) :
    allOf p l = some (decide (∀ x ∈ l, p x = true)) ∧ anyOf p l = some (decide (∃ x ∈ l, p x = true)) ∧
      noneOf p l = some (decide (∀ x ∈ l, p x = false)) := by
  by_cases h : l.length = 0
  · obtain rfl := List.length_eq_zero_iff.1 h
    simp [allOf, anyOf, noneOf]
  · rw [allOf, anyOf, noneOf, if_neg h, if_neg h, if_neg h]
    refine ⟨?_, ?_, ?_⟩
    · rw [pivotTree_all (h := fun l => l.all p) (by simp) (by simp) l h]
      congr 1
      rw [Bool.eq_iff_iff]
      simp
    · rw [pivotTree_all (h := fun l => l.any p) (by simp) (by simp) l h]
      congr 1
      rw [Bool.eq_iff_iff]
      simp
    · rw [pivotTree_all (h := fun l => l.all fun x => !p x) (by simp) (by simp) l h]
      congr 1
      rw [Bool.eq_iff_iff]
      simp

/-- C117: `types::one_of` is "exactly one" for nonempty lists with at most two matches. -/
theorem C117_one_of_partial (p : α → Bool) (l : List α) (h0 : l ≠ []) (h2 : l.countP p ≤ 2) :
    oneOf p l = some (decide (l.countP p = 1)) := by
  have hl := List.length_pos_iff.2 h0
  rw [oneOf, if_neg (by omega)]
  obtain ⟨r, e, h⟩ := oneOfImpl_eq p l l.length 0 l.length (by omega) hl le_rfl
  rw [seg_all] at h
  rw [Nat.sub_zero] at e
  rw [e, h h2]

/-- C117 refuted: `types::one_of` is true for the empty list and for three matches of which two are in the first half. -/
theorem C117_one_of_refuted : oneOf (fun x : Nat => x == 1) [] = some true ∧ oneOf (fun x => x == 1) [1, 1, 0, 1] = some true := by
  refine ⟨rfl, ?_⟩
  rw [oneOf]
  simp [oneOfImpl, pivotTree]

/-- C117: `tpp::one_of` with at most two `true`. -/
theorem C117_tpp_one_of_partial (l : List Bool) (h2 : l.countP id ≤ 2) : tppOneOf l = some (decide (l.countP id = 1)) := by
  by_cases h : l.length = 0
  · obtain rfl := List.length_eq_zero_iff.1 h
    simp [tppOneOf]
  · rw [tppOneOf, if_neg h]
    obtain ⟨r, e, h⟩ := tppOneOfImpl_eq l l.length 0 l.length (by omega) (by omega) le_rfl
    rw [seg_all] at h
    rw [e, h h2]

/-- C117 refuted: `tpp::one_of_c<true, true, false, true>` is true. -/
theorem C117_tpp_one_of_refuted : tppOneOf [true, true, false, true] = some true := by
  rw [tppOneOf]
  simp [tppOneOfImpl, midTree]

/-- C117: `tpp::all_of`, `any_of`, `none_of`. -/
theorem C117_tpp_quantifiers (l : List Bool) :
    tppAllOf l = some (decide (∀ x ∈ l, x = true)) ∧ tppAnyOf l = some (decide (∃ x ∈ l, x = true)) ∧
      tppNoneOf l = some (decide (∀ x ∈ l, x = false)) := by
  by_cases h : l.length = 0
  · obtain rfl := List.length_eq_zero_iff.1 h
    simp [tppAllOf, tppAnyOf, tppNoneOf]
  · rw [tppAllOf, tppAnyOf, tppNoneOf, if_neg h, if_neg h, if_neg h]
    refine ⟨?_, ?_, ?_⟩
    · rw [midTree_all (h := fun l => l.all id) (by simp) (by simp) l h]
      congr 1
      rw [Bool.eq_iff_iff]
      simp
    · rw [midTree_all (h := fun l => l.any id) (by simp) (by simp) l h]
      congr 1
      rw [Bool.eq_iff_iff]
      simp
    · rw [midTree_all (h := fun l => l.all fun x => !x) (by simp) (by simp) l h]
      congr 1
      rw [Bool.eq_iff_iff]
      simp

/-- C117: `tpp::max_element` and `tpp::min_element` of a nonempty pack are its first largest and first smallest element. -/
theorem C117_tpp_extrema (val : α → Int) (l : List α) (h0 : l ≠ []) :
    (∃ pre x post, l = pre ++ x :: post ∧ tppMax val l = some x ∧ (∀ y ∈ pre, val y < val x) ∧ ∀ y ∈ post, val y ≤ val x) ∧
    ∃ pre x post, l = pre ++ x :: post ∧ tppMin val l = some x ∧ (∀ y ∈ pre, val x < val y) ∧ ∀ y ∈ post, val x ≤ val y := by
  have hl := List.length_pos_iff.2 h0
  refine ⟨?_, ?_⟩
  · have key : ∀ (n a b : Nat), b - a = n → a < b → b ≤ l.length → ∃ pre x post, seg l a b = pre ++ x :: post ∧
        midTree id (fun t u => if val t < val u then u else t) l a b = some x ∧ (∀ y ∈ pre, val y < val x) ∧ ∀ y ∈ post, val y ≤ val x := by
      intro n
      induction n using Nat.strongRecOn with
      | ind n ih =>
        intro a b hn hab hb
        rw [midTree.eq_def]
        by_cases hp : b - a = 1
        · obtain rfl : b = a + 1 := by omega
          refine ⟨[], l[a], [], seg_single l (by omega), ?_, by simp, by simp⟩
          rw [if_pos hp, List.getElem?_eq_getElem (by omega)]
          rfl
        · rw [if_neg hp]
          obtain ⟨p1, x1, q1, s1, e1, f1, g1⟩ := ih ((a + b) / 2 - a) (by omega) a ((a + b) / 2) (by omega) (by omega) (by omega)
          obtain ⟨p2, x2, q2, s2, e2, f2, g2⟩ := ih (b - (a + b) / 2) (by omega) ((a + b) / 2) b rfl (by omega) hb
          simp only [e1, e2, Option.bind_eq_bind, Option.bind_some]
          rw [seg_append l (a := a) (m := (a + b) / 2) (b := b) (by omega) (by omega), s1, s2]
          by_cases hlt : val x1 < val x2
          · refine ⟨p1 ++ x1 :: q1 ++ p2, x2, q2, by simp, by rw [if_pos hlt], ?_, g2⟩
            intro y hy
            simp only [List.mem_append, List.mem_cons] at hy
            rcases hy with (hy | rfl | hy) | hy
            · exact lt_trans (f1 y hy) hlt
            · exact hlt
            · exact lt_of_le_of_lt (g1 y hy) hlt
            · exact f2 y hy
          · refine ⟨p1, x1, q1 ++ (p2 ++ x2 :: q2), by simp, by rw [if_neg hlt], f1, ?_⟩
            intro y hy
            simp only [List.mem_append, List.mem_cons] at hy
            rcases hy with hy | hy | rfl | hy
            · exact g1 y hy
            · exact ((f2 y hy).trans_le (not_lt.1 hlt)).le
            · exact not_lt.1 hlt
            · exact (g2 y hy).trans (not_lt.1 hlt)
    have := key l.length 0 l.length (by omega) hl le_rfl
    rwa [seg_all] at this
  · have key : ∀ (n a b : Nat), b - a = n → a < b → b ≤ l.length → ∃ pre x post, seg l a b = pre ++ x :: post ∧
        midTree id (fun t u => if val u < val t then u else t) l a b = some x ∧ (∀ y ∈ pre, val x < val y) ∧ ∀ y ∈ post, val x ≤ val y := by
      intro n
      induction n using Nat.strongRecOn with
      | ind n ih =>
        intro a b hn hab hb
        rw [midTree.eq_def]
        by_cases hp : b - a = 1
        · obtain rfl : b = a + 1 := by omega
          refine ⟨[], l[a], [], seg_single l (by omega), ?_, by simp, by simp⟩
          rw [if_pos hp, List.getElem?_eq_getElem (by omega)]
          rfl
        · rw [if_neg hp]
          obtain ⟨p1, x1, q1, s1, e1, f1, g1⟩ := ih ((a + b) / 2 - a) (by omega) a ((a + b) / 2) (by omega) (by omega) (by omega)
          obtain ⟨p2, x2, q2, s2, e2, f2, g2⟩ := ih (b - (a + b) / 2) (by omega) ((a + b) / 2) b rfl (by omega) hb
          simp only [e1, e2, Option.bind_eq_bind, Option.bind_some]
          rw [seg_append l (a := a) (m := (a + b) / 2) (b := b) (by omega) (by omega), s1, s2]
          by_cases hlt : val x2 < val x1
          · refine ⟨p1 ++ x1 :: q1 ++ p2, x2, q2, by simp, by rw [if_pos hlt], ?_, g2⟩
            intro y hy
            simp only [List.mem_append, List.mem_cons] at hy
            rcases hy with (hy | rfl | hy) | hy
            · exact lt_trans hlt (f1 y hy)
            · exact hlt
            · exact lt_of_lt_of_le hlt (g1 y hy)
            · exact f2 y hy
          · refine ⟨p1, x1, q1 ++ (p2 ++ x2 :: q2), by simp, by rw [if_neg hlt], f1, ?_⟩
            intro y hy
            simp only [List.mem_append, List.mem_cons] at hy
            rcases hy with hy | hy | rfl | hy
            · exact g1 y hy
            · exact ((not_lt.1 hlt).trans_lt (f2 y hy)).le
            · exact not_lt.1 hlt
            · exact (not_lt.1 hlt).trans (g2 y hy)
    have := key l.length 0 l.length (by omega) hl le_rfl
    rwa [seg_all] at this

/-- C117: `types::count_if`, `types::count`. -/
theorem C117_count (p : α → Bool) (l : List α) : countIf p l = some (l.filter p).length := by
  by_cases h : l.length = 0
  · obtain rfl := List.length_eq_zero_iff.1 h
    simp [countIf]
  · have := countImpl_eq p l l.length 0 (by omega) (by omega)
    rw [Nat.zero_add, seg_all] at this
    rw [countIf, if_neg h, this, List.countP_eq_length_filter]

/-- C117: `types::find_index_if`, `types::find_index`: the index of the first match, or the size; `is_found` tells which. -/
theorem C117_find_index (p : α → Bool) (l : List α) :
    ∃ i, findIndexIf p l = some i ∧ i ≤ l.length ∧ (∀ (j : Nat) (hj : j < l.length), j < i → p l[j] = false) ∧
      (∀ hi : i < l.length, p l[i] = true) ∧ isFound p l = some (decide (∃ x ∈ l, p x = true)) := by
  have e : findIndexIf p l = some (l.findIdx p) := by
    by_cases h : l.length = 0
    · obtain rfl := List.length_eq_zero_iff.1 h
      simp [findIndexIf]
    · have := findImpl_eq p l l.length 0 l.length (by omega) (by omega) le_rfl
      rw [seg_all, Nat.sub_zero, Nat.zero_add] at this
      rw [findIndexIf, if_neg h, this]
  refine ⟨_, e, List.findIdx_le_length, fun j hj hlt => ?_, fun hi => List.findIdx_getElem (w := hi), ?_⟩
  · simpa using List.not_of_lt_findIdx hlt
  · rw [isFound, e]
    simp only [Option.bind_eq_bind, Option.bind_some]
    congr 1
    rw [Bool.eq_iff_iff]
    have := List.findIdx_le_length (p := p) (xs := l)
    have h2 := List.findIdx_lt_length (p := p) (xs := l)
    simp only [bne_iff_ne, ne_eq, decide_eq_true_eq]
    rw [← h2]
    omega

/-- C117: `types::fold` and `types::accumulate` fold from the left. -/
theorem C117_fold (op : β → α → β) (l : List α) (t : β) : fold op l t = some (l.foldl op t) := by
  by_cases h : l.length = 0
  · obtain rfl := List.length_eq_zero_iff.1 h
    simp [fold]
  · have := foldImpl_eq op l l.length 0 l.length t (by omega) (by omega) le_rfl
    rw [seg_all, Nat.sub_zero] at this
    rw [fold, if_neg h, this]

/-- C117: `types::partial_sum`: element `i` of the result is the left fold of the first `i + 1` elements. -/
theorem C117_partial_sum (op : α → α → α) (x : α) (l : List α) :
    partialSum op [] = some [] ∧ ∃ r, partialSum op (x :: l) = some r ∧ r.length = l.length + 1 ∧
      ∀ (i : Nat), i ≤ l.length → r[i]? = some ((l.take i).foldl op x) := by
  refine ⟨rfl, List.scanl op x l, ?_, by simp, fun i hi => ?_⟩
  · rw [partialSum, if_neg (by simp)]
    simp only [List.getElem?_cons_zero, Option.bind_eq_bind, Option.bind_some, List.length_cons, Nat.add_sub_cancel]
    rw [partialSumImpl_eq op (x :: l) l.length 1 x [] (by simp; omega)]
    simp
  · rw [List.getElem?_scanl]
    simp [hi]

/-- C117: `types::transform` with two tuples, the second at least as long as the first; a shorter one does not compile. -/
theorem C117_transform {γ : Type} (f : α → β → γ) (l : List α) (r : List β) (h : l.length ≤ r.length) :
    transform2 f l r = some (l.zipWith f r) := by
  have hlen : (l.zipWith f r).length = l.length := by simp; omega
  rw [transform2, ← hlen]
  apply mapM_range
  intro i hi
  rw [hlen] at hi
  rw [List.getElem?_eq_getElem hi, List.getElem?_eq_getElem (by omega), List.getElem?_eq_getElem (by omega)]
  simp

/-- C117: `types::lower_bound_index` and `types::upper_bound_index` of a list partitioned with respect to the value. -/
theorem C117_bounds (lt : α → α → Bool) (l : List α) (t : α)
    (h1 : ∀ (i j : Nat) (hi : i < l.length) (hj : j < l.length), i ≤ j → lt l[j] t = true → lt l[i] t = true)
    (h2 : ∀ (i j : Nat) (hi : i < l.length) (hj : j < l.length), i ≤ j → lt t l[i] = true → lt t l[j] = true) :
    (∃ r, lowerBoundIndex lt l t = some r ∧ r ≤ l.length ∧ ∀ (i : Nat) (hi : i < l.length), i < r ↔ lt l[i] t = true) ∧
    ∃ r, upperBoundIndex lt l t = some r ∧ r ≤ l.length ∧ ∀ (i : Nat) (hi : i < l.length), r ≤ i ↔ lt t l[i] = true := by
  refine ⟨?_, ?_⟩
  · obtain ⟨r, e, -, g2, g3, g4⟩ := lowerImpl_eq (fun x => lt x t) l h1 l.length 0 l.length (by omega) (by omega) le_rfl
    refine ⟨r, e, g2, fun i hi => ⟨fun h => g3 i hi (by omega) h, fun h => ?_⟩⟩
    by_contra hc
    have := g4 i hi (by omega) hi
    simp [h] at this
  · obtain ⟨r, e, -, g2, g3, g4⟩ := lowerImpl_eq (fun x => !lt t x) l (by
      intro i j hi hj hij hh
      cases hc : lt t l[i]
      · rfl
      · rw [h2 i j hi hj hij hc] at hh
        simp at hh) l.length 0 l.length (by omega) (by omega) le_rfl
    refine ⟨r, e, g2, fun i hi => ⟨fun h => by simpa using g4 i hi h hi, fun h => ?_⟩⟩
    by_contra hc
    have := g3 i hi (by omega) (by omega)
    simp [h] at this

/-- C117: `types::tuple_cat` concatenates; the class is that of the first tuple. With it `append_back`, `append_front`, `push_back`,
`push_front` and `assign`. -/
theorem C117_tuple_cat {κ : Type} (e : κ) (t u : Tup κ α) (ts : List (Tup κ α)) (xs : List α) :
    tupleCat e (t :: ts) = ⟨t.cls, t.elems ++ (ts.map Tup.elems).flatten⟩ ∧
    appendBack e t ts = ⟨t.cls, t.elems ++ (ts.map Tup.elems).flatten⟩ ∧
    appendFront e t ts = ⟨t.cls, (ts.map Tup.elems).flatten ++ t.elems⟩ ∧
    pushBack e t xs = ⟨t.cls, t.elems ++ xs⟩ ∧ pushFront e t xs = ⟨t.cls, xs ++ t.elems⟩ ∧
    assign e t u = ⟨t.cls, u.elems⟩ := by
  refine ⟨?_, ?_, ?_, ?_, ?_, ?_⟩ <;>
    (try simp only [appendBack, appendFront, pushBack, pushFront, assign]) <;>
    rw [tupleCat_eq e _ _ rfl (by simp)] <;> simp [Tup.rebind]

/-- C117: `pop_back` and `pop_front` of a nonempty tuple (of types or values), and `tuples::copy`. -/
theorem C117_pop_copy (x : α) (l input : List α) (h1 : ((l.length + 1 : Nat) : Int) ≤ CInt.int64.max) (h2 : (input.length : Int) ≤ CInt.int64.max) :
    popBack (x :: l) = some ((x :: l).dropLast) ∧ popFront (x :: l) = some l ∧ tuplesPopFront (x :: l) = some l ∧
      tuplesCopy (x :: l) input = some ((input ++ (x :: l).drop input.length).take (l.length + 1)) := by
  have hm : CInt.int64.max = 2 ^ 63 - 1 := rfl
  refine ⟨?_, rfl, ?_, ?_⟩
  · have hc : CInt.uint64.conv (((x :: l).length : Int) - 1) = (l.length : Int) := by
      rw [CInt.conv_ok (by decide)]
      · simp
      · have : CInt.uint64.max = 2 ^ 64 - 1 := rfl
        have : CInt.uint64.min = 0 := rfl
        unfold CInt.Has
        simp
        omega
    rw [popBack, hc, StaticInt.icon_has]
    · simp only [Option.bind_eq_bind, Option.bind_some]
      rw [makeIndexTuple_nat _ (by omega)]
      simp only [Option.bind_some]
      rw [elements_map _ 0 _ (by simp), seg, List.drop_zero, List.dropLast_eq_take]
      simp
    · have : CInt.int64.min = -2 ^ 63 := rfl
      unfold CInt.Has
      omega
  · have e := indexRange_nat 1 l.length (by rw [Nat.add_comm]; exact h1)
    rw [tuplesPopFront, show ((x :: l).length : Int) = ((1 + l.length : Nat) : Int) by simp; omega]
    have e' : IndexSeq.indexRange 1 ((1 + l.length : Nat) : Int) = IndexSeq.indexRange ((1 : Nat) : Int) ((1 + l.length : Nat) : Int) := rfl
    rw [e', e]
    simp only [Option.bind_eq_bind, Option.bind_some]
    rw [elements_map _ 1 _ (by simp; omega), seg]
    simp
  · rw [tuplesCopy]
    by_cases hlt : (x :: l).length > input.length
    · rw [if_pos hlt]
      have hlen : (x :: l).length = input.length + (l.length + 1 - input.length) := by simp at hlt ⊢; omega
      have e := indexRange_nat input.length (l.length + 1 - input.length) (by
        rw [← hlen]; simpa using h1)
      rw [← hlen] at e
      rw [e, makeIndexTuple_nat _ h2]
      simp only [Option.bind_eq_bind, Option.bind_some]
      rw [elements_map _ 0 _ (by omega), elements_map _ _ _ (by omega)]
      simp only [Option.bind_some]
      congr 1
      rw [← hlen, Nat.zero_add, seg_all, seg, List.take_append]
      rw [List.take_of_length_le (l := input) (by simp at hlt; omega)]
      simp
    · rw [if_neg hlt, makeIndexTuple_nat _ (by simp at h1 ⊢; omega)]
      simp only [Option.bind_eq_bind, Option.bind_some]
      rw [elements_map _ 0 _ (by omega), seg, List.take_append_of_le_length (by simp at hlt; omega)]
      simp

/-- C117: popping an empty tuple does not compile, nor does its `back`. -/
theorem C117_pop_empty : popBack ([] : List α) = none ∧ popFront ([] : List α) = none ∧ tuplesPopFront ([] : List α) = none ∧
    TypeList.back ([] : List α) = none := by
  have h1 : IndexSeq.indexRange 1 0 = some [1] := by decide +kernel
  refine ⟨rfl, ?_, ?_, rfl⟩
  · rw [popFront, h1]
    simp [elements]
  · rw [tuplesPopFront]
    have : IndexSeq.indexRange 1 (([] : List α).length : Int) = some [1] := h1
    rw [this]
    simp [elements]

/-- C117: `types::back`. -/
theorem C117_back (l : List α) (x : α) (h : ((l.length + 1 : Nat) : Int) ≤ CInt.int64.max) : TypeList.back (l ++ [x]) = some x := by
  have hm : CInt.int64.max = 2 ^ 63 - 1 := rfl
  have hc : CInt.uint64.conv (((l ++ [x]).length : Int) - 1) = (l.length : Int) := by
    rw [CInt.conv_ok (by decide)]
    · simp
    · have : CInt.uint64.max = 2 ^ 64 - 1 := rfl
      have : CInt.uint64.min = 0 := rfl
      unfold CInt.Has
      simp
      omega
  rw [TypeList.back, hc]
  simp

/-- C117: the iterators of a type list: `deref`, `next`, and `distance` of a range. -/
theorem C117_iterators (l : List α) (i j : Nat) (hij : i ≤ j) (hj : j ≤ l.length) :
    (i < l.length → deref l i = l[i]? ∧ next l i = some ((i + 1 : Nat) : Int)) ∧ distance l i j = some ((j : Int) - i) := by
  refine ⟨fun hi => ?_, ?_⟩
  · have : complete l (i : Int) = true := by simp [complete, hi]
    simp [deref, next, this]
  · have key : ∀ (d i : Nat) (n : Int), i + d = j → distanceImpl l i j n = some (n + d) := by
      intro d
      induction d with
      | zero =>
        intro i n h
        rw [distanceImpl.eq_def, if_pos (by omega)]
        simp
      | succ d ih =>
        intro i n h
        rw [distanceImpl.eq_def, if_neg (by omega)]
        have : complete l (i : Int) = true := by simp [complete]; omega
        simp only [next, this, if_true, Option.bind_eq_bind, Option.bind_some]
        rw [show ((i : Int) + 1) = ((i + 1 : Nat) : Int) by simp, ih (i + 1) (n + 1) (by omega)]
        push_cast
        congr 1
        omega
    rw [distance, key (j - i) i 0 (by omega)]
    congr 1
    omega

/-- C117 refuted: the end iterator cannot be moved back: `types::prev<end>` and `types::advance<end, -1>` do not compile for any list. -/
theorem C117_prev_end_refuted (l : List α) : prev l l.length = none ∧ advance l l.length (-1) = none := by
  simp [prev, advance, complete]

end

/-- non-vacuity -/
example : findIndexIf (fun x : Nat => x == 3) [1, 2, 3, 3, 4] = some 2 := by
  obtain ⟨i, h1, h2, h3, h4, h5⟩ := C117_find_index (fun x : Nat => x == 3) [1, 2, 3, 3, 4]
  simp [findIndexIf, findImpl]
example : tupleCat "type_tuple" [⟨"tuple", [1, 2]⟩, ⟨"type_tuple", [3]⟩, ⟨"pair", [4, 5]⟩] = (⟨"tuple", [1, 2, 3, 4, 5]⟩ : Tup String Nat) := by
  rw [(C117_tuple_cat "type_tuple" ⟨"tuple", [1, 2]⟩ ⟨"tuple", []⟩ [⟨"type_tuple", [3]⟩, ⟨"pair", [4, 5]⟩] []).1]
  rfl
example : tuplesCopy [1, 2, 3] [7, 8] = some [7, 8, 3] := by decide +kernel
example : oneOf (fun x : Nat => x == 1) [0, 1, 2] = some true := by
  rw [C117_one_of_partial _ _ (by simp) (by decide)]; rfl

end Sprout

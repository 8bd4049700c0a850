import Verif.Proofs.Valarray

/-!
# C118: subsets of valarrays

`slice_array`, `gslice_array`, `mask_array` and `indirect_array` select the positions of the standard. An assignment from a subset of the
same type does not assign the elements (`C118_assign_same_slice_false`, `C118_assign_same_indexed_false`), and `slice_array::at` does not
check its index (`C118_slice_at_false`).
-/

namespace Sprout
open Valarray
variable {α : Type}

/-- a slice selects `start`, `start + stride`, … -/
theorem C118_slice (start size stride : Nat) : Selects (slice start size stride) (slicePositions start size stride) :=
  ⟨by simp [slice, slicePositions], fun i hi => by simp [slice, slicePositions, Nat.mul_comm]⟩

example : slicePositions 1 3 4 = [1, 5, 9] := by decide

/-- a generalised slice selects the positions of all index tuples, the last index fastest; an index beyond has the position `N`, which
is outside the valarray -/
theorem C118_gslice (N start : Nat) (sizes strides : VA Nat) (hs : sizes.Ok) (ht : strides.Ok) (h : sizes.len = strides.len) (h0 : sizes.len ≠ 0) :
    ∃ s, gslice N start sizes strides = some s ∧ Selects s (gPositions start (sizes.vis.zip strides.vis)) ∧
      ∀ i, s.size ≤ i → s.pos i = some N :=
  gslice_selects N start hs ht h h0

-- the example of the standard, [class.gslice.overview]
example : gPositions 3 [(2, 19), (4, 4), (3, 1)] =
    [3, 4, 5, 7, 8, 9, 11, 12, 13, 15, 16, 17, 22, 23, 24, 26, 27, 28, 30, 31, 32, 34, 35, 36] := by decide
example : ∃ s, gslice 40 3 ⟨[2, 4, 3, 7], 3⟩ ⟨[19, 4, 1], 3⟩ = some s ∧ s.size = 24 ∧ s.pos 12 = some 22 := by
  obtain ⟨s, h1, h2, -⟩ := C118_gslice 40 3 ⟨[2, 4, 3, 7], 3⟩ ⟨[19, 4, 1], 3⟩ ⟨by decide, by decide⟩ ⟨by decide, by decide⟩ rfl (by decide)
  exact ⟨s, h1, h2.1.trans (by decide), h2.2 12 (by decide)⟩

/-- a mask selects the positions at which it is true; if there are more than elements of the block, `length_error` -/
theorem C118_mask (N : Nat) (m : VA Bool) (hN : N < 2 ^ 64) (hm : m.Ok) :
    ((maskPositions m.vis).length ≤ N → ∃ s, mask N m = some (.ret s) ∧ Selects s (maskPositions m.vis)) ∧
    (N < (maskPositions m.vis).length → mask N m = some (.throw .lengthError)) :=
  ⟨mask_selects hN hm, mask_throws hm⟩

example : maskPositions [true, false, true, true] = [0, 2, 3] := by decide

/-- an indirect array selects the given positions -/
theorem C118_indirect (ix : VA Nat) (h : ix.Ok) : Selects (indirect ix) ix.vis :=
  ⟨(VA.vis_length h).symm, fun i hi => by
    rw [VA.vis_length h] at hi
    simp only [indirect, vis_getElem? hi, List.getElem?_eq_getElem (show i < ix.vis.length by rw [VA.vis_length h]; exact hi)]⟩

example : Selects (indirect ⟨[4, 0, 4, 9], 3⟩) [4, 0, 4] := C118_indirect _ ⟨by decide, by decide⟩

/-- the elements, the first and the last one of a subset -/
theorem C118_elements (s : Subset) (ps : List Nat) (m : List α) (hs : Selects s ps) (hp : ∀ p ∈ ps, p < m.length) (hl : ps.length < 2 ^ 64) :
    ∃ xs, s.range m = some xs ∧ xs.length = ps.length ∧ (∀ (i : Nat) (hi : i < ps.length), m[ps[i]]? = xs[i]?) ∧
      (ps ≠ [] → s.front m = xs.head? ∧ s.back m = xs.getLast?) ∧
      ∀ i, s.nth i = if i < xs.length then .ret i else .throw .outOfRange := by
  obtain ⟨xs, h1, h2⟩ := gather ps hp
  refine ⟨xs, subset_range hs h1 h2, h1, h2, fun h0 => ?_, fun i => by rw [Subset.nth, hs.1, h1]⟩
  have h3 := List.length_pos_iff.2 h0
  constructor
  · rw [Subset.front, read_of_selects hs 0 h3, h2, List.head?_eq_getElem?]
  · have e : toSize ((s.size : Int) - 1) = ps.length - 1 := by
      rw [hs.1, show (ps.length : Int) - 1 = ((ps.length - 1 : Nat) : Int) by omega, toSize_nat (by omega)]
    rw [Subset.back, e, read_of_selects hs _ (by omega), h2, List.getLast?_eq_getElem?, h1]

example : (slice 1 3 2).range [10, 11, 12, 13, 14, 15, 16] = some [11, 13, 15] ∧ (slice 1 3 2).back [10, 11, 12, 13, 14, 15, 16] = some 15 := by decide

/-- a valarray from a subset has its elements; if there are more than `N`, `length_error` -/
theorem C118_construct [Inhabited α] (N : Nat) (s : Subset) (ps : List Nat) (m : List α) (hN : N < 2 ^ 64) (hs : Selects s ps) (hp : ∀ p ∈ ps, p < m.length) :
    ∃ xs : List α, xs.length = ps.length ∧ (∀ (i : Nat) (hi : i < ps.length), m[ps[i]]? = xs[i]?) ∧
      (xs.length ≤ N → ∃ v, ofSubset N s m = some (.ret v) ∧ v.Ok ∧ v.elems.length = N ∧ v.vis = xs) ∧
      (N < xs.length → ofSubset N s m = some (.throw .lengthError)) := by
  obtain ⟨xs, h1, h2⟩ := gather ps hp
  refine ⟨xs, h1, h2, ?_, ?_⟩
  · intro h
    have e : pack N (fun i => if i < s.size then s.read m i else some default) = some (xs ++ List.replicate (N - xs.length) default) := by
      refine pack_list (by simp; omega) fun i hi => ?_
      by_cases h3 : i < s.size
      · have := hs.1
        rw [if_pos h3, read_of_selects hs i (by omega), h2, List.getElem?_append_left (by omega)]
      · have := hs.1
        rw [if_neg h3, List.getElem?_append_right (by omega), List.getElem?_replicate, if_pos (by omega)]
    refine ⟨⟨xs ++ List.replicate (N - xs.length) default, s.size⟩, ?_, ⟨?_, ?_⟩, ?_, ?_⟩
    · unfold ofSubset ofIter
      rw [e]
      simp only [Option.bind_eq_bind, Option.bind_some, checkedSize, if_pos (show N ≥ s.size by rw [hs.1, ← h1]; exact h), Valarray.Ret.then]
    · simp [hs.1, ← h1]
    · simp; omega
    · simp; omega
    · simp [VA.vis, hs.1, ← h1]
  · intro h
    have e : pack N (fun i => if i < s.size then s.read m i else some default) = some (xs.take N) := by
      refine pack_list (by simp; omega) fun i hi => ?_
      have := hs.1
      rw [if_pos (by omega), read_of_selects hs i (by omega), h2, List.getElem?_take_of_lt hi]
    unfold ofSubset ofIter
    rw [e]
    simp only [Option.bind_eq_bind, Option.bind_some, checkedSize, if_neg (show ¬ N ≥ s.size by rw [hs.1, ← h1]; omega), Valarray.Ret.then]

example : ofSubset 2 (slice 0 3 1) [1, 2, 3] = some (.throw .lengthError) := by decide

/-- the assignment of a valarray to a subset writes its elements to the selected positions and nothing else -/
theorem C118_assign (s : Subset) (ps : List Nat) (m : List α) (w : VA α) (hs : Selects s ps) (hp : ∀ p ∈ ps, p < m.length) (hw : w.Ok)
    (hl : w.len ≤ ps.length) : ∃ r, s.assign m w = some r ∧ Written m ps w.vis r := by
  unfold Subset.assign
  rw [range_eq hw]
  exact copyTo_written (by rw [VA.vis_length hw]; exact hl) (by simpa using hs.2) hp

/-- the assignment of a value -/
theorem C118_assign_value (s : Subset) (ps : List Nat) (m : List α) (x : α) (hs : Selects s ps) (hp : ∀ p ∈ ps, p < m.length) :
    ∃ r, s.assignValue m x = some r ∧ Written m ps (List.replicate ps.length x) r := by
  unfold Subset.assignValue
  rw [fillTo_eq, hs.1]
  exact copyTo_written (by simp) (by simpa using hs.2) hp

example : (slice 1 2 2).assignValue [10, 11, 12, 13, 14] 0 = some [10, 0, 12, 0, 14] := by decide

/-- the computed assignments, if no position is selected twice -/
theorem C118_compute (op : α → α → α) (s : Subset) (ps : List Nat) (m : List α) (w : VA α) (hs : Selects s ps) (hp : ∀ p ∈ ps, p < m.length)
    (hn : ps.Nodup) (hw : w.Ok) (hl : w.len ≤ ps.length) : ∃ r, s.compute op m w = some r ∧ Computed op m ps w.vis r := by
  unfold Subset.compute
  rw [range_eq hw]
  exact computeTo_computed (by rw [VA.vis_length hw]; exact hl) (by simpa using hs.2) hp hn

example : (slice 1 2 2).compute (· + ·) [10, 11, 12, 13, 14] ⟨[1, 2], 2⟩ = some [10, 12, 12, 15, 14] := by decide

/-- the assignment of a subset of another type: its elements are written to the selected positions -/
theorem C118_assign_other (N N2 : Nat) (s t : Subset) (ps qs : List Nat) (m m2 : List α) (hN : N2 ≠ N) (hs : Selects s ps) (ht : Selects t qs)
    (hp : ∀ p ∈ ps, p < m.length) (hq : ∀ q ∈ qs, q < m2.length) (hl : qs.length ≤ ps.length) :
    ∃ xs r : List α, (∀ (i : Nat) (hi : i < qs.length), m2[qs[i]]? = xs[i]?) ∧ xs.length = qs.length ∧
      sliceAssign N N2 s m t m2 = some r ∧ indexedAssign false s m t m2 = some r ∧ Written m ps xs r := by
  obtain ⟨xs, h1, h2⟩ := gather qs hq
  obtain ⟨r, e, w⟩ := copyTo_written (pos := s.pos) (k := 0) (xs := xs) (ps := ps) (m := m) (by omega) (by simpa using hs.2) hp
  refine ⟨xs, r, h2, h1, ?_, ?_, w⟩
  · rw [sliceAssign, if_neg hN, subset_range ht h1 h2]; exact e
  · simp only [indexedAssign, Bool.false_eq_true, if_false]
    rw [subset_range ht h1 h2]; exact e

/-- Not so for the same type: `v[slice(0, 2, 1)] = w[slice(0, 2, 1)]` for valarrays of the same capacity leaves `v` as it is -/
theorem C118_assign_same_slice_false (N : Nat) (s t : Subset) (m m2 : List α) : sliceAssign N N s m t m2 = some m ∧
    sliceAssign 3 3 (slice 0 2 1) [1, 2, 3] (slice 0 2 1) [7, 8, 9] = some [1, 2, 3] ∧
    ¬ Written [1, 2, 3] [0, 1] [7, 8] [1, 2, 3] := by
  refine ⟨by simp [sliceAssign], by decide, fun h => ?_⟩
  have := h.2.2 0 0 7 rfl rfl (by decide)
  simp at this

/-- and with the other subsets it does not compile -/
theorem C118_assign_same_indexed_false (s t : Subset) (m m2 : List α) : indexedAssign true s m t m2 = none := by simp [indexedAssign]

/-- the assignment of a subset to a valarray: the size becomes that of the subset, or `length_error` and no change -/
theorem C118_assign_to_valarray (v : VA α) (s : Subset) (ps : List Nat) (m : List α) (hv : v.Ok) (hs : Selects s ps) (hp : ∀ p ∈ ps, p < m.length) :
    ∃ xs : List α, xs.length = ps.length ∧ (∀ (i : Nat) (hi : i < ps.length), m[ps[i]]? = xs[i]?) ∧
      (xs.length ≤ v.elems.length → ∃ w, assignSubset v s m = some (.ret w) ∧ w.Ok ∧ w.elems.length = v.elems.length ∧ w.vis = xs) ∧
      (v.elems.length < xs.length → assignSubset v s m = some (.throw .lengthError)) := by
  obtain ⟨xs, h1, h2⟩ := gather ps hp
  refine ⟨xs, h1, h2, fun h => ?_, fun h => ?_⟩
  · obtain ⟨r, e, w1, w2, w3⟩ := copyTo_written (pos := some) (k := 0) (xs := xs) (ps := List.range xs.length) (m := v.elems) (by simp)
      (fun i hi => by simp) (fun p hp => by rw [List.mem_range] at hp; omega)
    refine ⟨⟨r, s.size⟩, ?_, ⟨?_, ?_⟩, w1, ?_⟩
    · unfold assignSubset
      rw [checkedSize, if_pos (by rw [hs.1, ← h1]; exact h)]
      simp only [subset_range hs h1 h2, Option.bind_eq_bind, Option.bind_some, e]
    · simp only; rw [w1, hs.1]; omega
    · simp only; rw [w1]; exact hv.2
    · simp only [VA.vis]
      apply List.ext_getElem?
      intro i
      by_cases hi : i < s.size
      · have := hs.1
        rw [List.getElem?_take_of_lt hi]
        obtain ⟨x, hx⟩ := get_some' (l := xs) (i := i) (by omega)
        rw [hx]
        refine w3 i i x (by rw [List.getElem?_range (by omega)]) hx ?_
        rw [List.take_of_length_le (by simp)]
        intro hm
        obtain ⟨k, hk⟩ := List.mem_iff_getElem?.1 hm
        rw [List.getElem?_drop] at hk
        rcases List.getElem?_eq_some_iff.1 hk with ⟨_, hk⟩
        simp at hk
        omega
      · have := hs.1
        rw [List.getElem?_eq_none (by simp; omega), List.getElem?_eq_none (by omega)]
  · unfold assignSubset
    rw [checkedSize, if_neg (by rw [hs.1, ← h1]; omega)]

example : assignSubset ⟨[1, 2, 3], 1⟩ (slice 1 2 2) [5, 6, 7, 8] = some (.ret ⟨[6, 8, 3], 2⟩) := by decide

/-- the assignment of a list -/
theorem C118_assign_list (v : VA α) (l : List α) (hv : v.Ok) :
    (l.length ≤ v.elems.length → ∃ w, assignList v l = some (.ret w) ∧ w.Ok ∧ w.elems.length = v.elems.length ∧ w.vis = l) ∧
    (v.elems.length < l.length → assignList v l = some (.throw .lengthError)) := by
  obtain ⟨xs, h1, h2, h3, h4⟩ := C118_assign_to_valarray v ⟨l.length, some⟩ (List.range l.length) l hv ⟨by simp, by simp⟩
    (fun p hp => by simpa using hp)
  have e : xs = l := by
    apply List.ext_getElem?
    intro i
    by_cases hi : i < l.length
    · have := h2 i (by simpa using hi)
      rw [← this]; simp
    · simp only [List.length_range] at h1
      rw [List.getElem?_eq_none (by omega), List.getElem?_eq_none (by omega)]
  subst e
  have hr : (⟨xs.length, some⟩ : Subset).range xs = some xs := pack_list rfl fun i hi => by simp [Subset.read]
  have e : assignList v xs = assignSubset v ⟨xs.length, some⟩ xs := by
    unfold assignList assignSubset
    simp only [hr, Option.bind_eq_bind, Option.bind_some]
  rw [e]
  exact ⟨h3, h4⟩

/-- `at` of a generalised slice, mask or indirect array: the element, or `out_of_range` beyond the subset or beyond the valarray's size -/
theorem C118_at (v : VA α) (hv : v.Ok) (s : Subset) (ps : List Nat) (hs : Selects s ps) (hb : ∀ i, s.size ≤ i → s.pos i = some v.elems.length)
    (ix : VA Nat) (hx : ix.Ok) (i : Nat) :
    gsliceAt s v i = (match ps[i]? with
      | some p => match v.vis[p]? with
        | some x => some (.ret x)
        | none => some (.throw .outOfRange)
      | none => some (.throw .outOfRange)) ∧
    indexesAt ix v i = (match ix.vis[i]? with
      | some p => match v.vis[p]? with
        | some x => some (.ret x)
        | none => some (.throw .outOfRange)
      | none => some (.throw .outOfRange)) := by
  have key : ∀ p, at' v p = match v.vis[p]? with
      | some x => some (.ret x)
      | none => some (.throw .outOfRange) := by
    intro p
    unfold at'
    have hl := VA.vis_length hv
    by_cases hp : p < v.len
    · rw [if_pos hp, Valarray.get, vis_getElem? hp, List.getElem?_eq_getElem (by omega)]; rfl
    · rw [if_neg hp, List.getElem?_eq_none (by omega)]
  constructor
  · unfold gsliceAt
    by_cases hi : i < ps.length
    · rw [hs.2 i hi, List.getElem?_eq_getElem hi]
      exact key _
    · rw [hb i (by rw [hs.1]; omega), List.getElem?_eq_none (by omega)]
      simp only [Option.bind_eq_bind, Option.bind_some, at']
      rw [if_neg (by have := hv.1; omega)]
  · unfold indexesAt
    have hl := VA.vis_length hx
    by_cases hi : i < ix.len
    · obtain ⟨p, hp⟩ := get_some' (l := ix.vis) (i := i) (by omega)
      rw [at', if_pos hi, Valarray.get, vis_getElem? hi, hp]
      exact key _
    · rw [at', if_neg hi, List.getElem?_eq_none (by omega)]
      rfl

example : indexesAt ⟨[2, 0], 2⟩ ⟨[5, 6, 7], 3⟩ 0 = some (.ret 7) ∧ indexesAt ⟨[2, 0], 2⟩ ⟨[5, 6, 7], 3⟩ 2 = some (.throw .outOfRange) := by decide

/-- `slice_array::at` does not check the index against the size of the slice: index 2 of a slice of two elements -/
theorem C118_slice_at_false : sliceAt 0 1 ⟨[5, 6, 7], 3⟩ 2 = some (.ret 7) ∧ (slice 0 2 1).size = 2 ∧ (slice 0 2 1).nth 2 = .throw .outOfRange := by decide

/-- what holds: within the slice it is the element, and beyond the size of the valarray `out_of_range`. Missing: the check of the index -/
theorem C118_slice_at_partial (start size stride : Nat) (v : VA α) (hv : v.Ok) (i : Nat) :
    sliceAt start stride v i = (match v.vis[start + stride * i]? with
      | some x => some (.ret x)
      | none => some (.throw .outOfRange)) ∧ (slice start size stride).pos i = some (start + stride * i) := by
  refine ⟨?_, rfl⟩
  have hl := VA.vis_length hv
  unfold sliceAt at'
  by_cases hp : start + stride * i < v.len
  · rw [if_pos hp, Valarray.get, vis_getElem? hp, List.getElem?_eq_getElem (by omega)]; rfl
  · rw [if_neg hp, List.getElem?_eq_none (by omega)]

end Sprout

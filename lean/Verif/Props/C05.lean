import Verif.Proofs.Heap

/-!
# C05: heap operations maintain the heap and sort

`push_heap`, `pop_heap` and `sort_heap` are correct. `make_heap` is not: its loop
(sprout/algorithm/cxx14/make_heap.hpp 27-29) passes the length `i` where `i + 1` elements are meant,
so each new element is compared with the wrong "parent" (and the second one with none).
All of them permute their range and stay inside it, without any hypothesis.
-/

namespace Sprout
variable {α : Type}

theorem C05_push_heap (comp : α → α → Bool) (hc : StrictWeak comp) (pre xs post : List α) (x : α)
    (hh : Spec.IsHeap comp xs) :
    ∃ ys, pushHeap comp (pre ++ (xs ++ [x]) ++ post) pre.length (pre.length + (xs ++ [x]).length)
      = some (pre ++ ys ++ post) ∧ ys.Perm (xs ++ [x]) ∧ Spec.IsHeap comp ys := by
  obtain ⟨r, h1, h2, h3⟩ := pushHeap_spec comp hc (pre ++ (xs ++ [x]) ++ post) pre.length (xs ++ [x]).length (by simp)
    (by simpa using (heapAt_prefix (pre := pre) (ys := [x]) (post := post)).mpr hh)
  obtain ⟨ys, rfl, h5⟩ := h2.segment
  refine ⟨ys, h1, h5, ?_⟩
  rw [← h5.length_eq] at h3
  exact heapAt_segment.mp h3

/-- The root, a maximum, goes to the end; a heap remains in front. -/
theorem C05_pop_heap (comp : α → α → Bool) (hc : StrictWeak comp) (pre post : List α) (x : α) (xs : List α)
    (hh : Spec.IsHeap comp (x :: xs)) :
    ∃ ys, popHeap comp (pre ++ (x :: xs) ++ post) pre.length (pre.length + (x :: xs).length)
      = some (pre ++ (ys ++ [x]) ++ post) ∧ ys.Perm xs ∧ Spec.IsHeap comp ys ∧ (∀ y ∈ x :: xs, comp x y = false) := by
  have hmaxR : ∀ z ∈ x :: xs, comp x z = false := by
    have hr := (heapAt_segment (pre := []) (post := []) |>.mpr hh).root_max hc (by simp)
    intro z hz
    obtain ⟨i, hi, rfl⟩ := List.getElem_of_mem hz
    exact hr i (by simpa using hi) x _ (by simp) (by simp)
  unfold popHeap
  rw [Nat.add_sub_cancel_left]
  by_cases hlen : 1 < (x :: xs).length
  · obtain ⟨r, h1, h2, h3, h4⟩ := popHeapLen_spec comp hc (pre ++ (x :: xs) ++ post) pre.length (x :: xs).length (by simp) hlen
      (heapAt_segment.mpr hh)
    obtain ⟨zs, rfl, h5⟩ := h2.segment
    have hzl : zs.length = (x :: xs).length := h5.length_eq
    have hne : zs ≠ [] := by rintro rfl; simp at hzl
    obtain ⟨ys, y, rfl⟩ : ∃ ys y, zs = ys ++ [y] := ⟨zs.dropLast, zs.getLast hne, (List.dropLast_append_getLast hne).symm⟩
    have hyl : ys.length = xs.length := by simpa using hzl
    have hyx : y = x := by
      rw [← hzl] at h4
      have e : pre.length + (ys ++ [y]).length - 1 = pre.length + ys.length := by simp
      rw [e, seg_get pre (ys ++ [y]) post ys.length (by simp)] at h4
      have e2 := seg_get pre (x :: xs) post 0 (by simp)
      rw [Nat.add_zero] at e2
      rw [e2] at h4
      simpa using h4
    subst hyx
    refine ⟨ys, h1, ?_, ?_, hmaxR⟩
    · have : (y :: ys).Perm (y :: xs) := (List.perm_append_singleton y ys).symm.trans h5
      exact (List.perm_cons y).mp this
    · have : (y :: xs).length - 1 = ys.length := by simp [hyl]
      rw [this] at h3
      exact heapAt_prefix.mp h3
  · unfold popHeapLen
    rw [if_neg hlen]
    have : xs = [] := by
      rcases xs with _ | ⟨a, b⟩
      · rfl
      · simp at hlen
    subst this
    exact ⟨[], by simp, .refl _, by intro i h0 hi; simp at hi, hmaxR⟩

theorem C05_sort_heap (comp : α → α → Bool) (hc : StrictWeak comp) (pre xs post : List α) (hh : Spec.IsHeap comp xs) :
    ∃ ys, sortHeap comp (pre ++ xs ++ post) pre.length (pre.length + xs.length) = some (pre ++ ys ++ post) ∧
      ys.Perm xs ∧ SortedBy comp ys := by
  obtain ⟨r, h1, h2, h3⟩ := sortHeap_spec comp hc (pre ++ xs ++ post) pre.length xs.length (by simp) (heapAt_segment.mpr hh)
  obtain ⟨ys, rfl, h5⟩ := h2.segment
  refine ⟨ys, h1, h5, ?_⟩
  rw [← h5.length_eq] at h3
  exact sortedAt_segment.mp h3

/-- No hypothesis at all: every heap routine terminates, permutes its range and touches nothing else. -/
theorem C05_permute (comp : α → α → Bool) (pre xs post : List α) :
    (∃ ys, pushHeap comp (pre ++ xs ++ post) pre.length (pre.length + xs.length) = some (pre ++ ys ++ post) ∧ ys.Perm xs) ∧
    (∃ ys, popHeap comp (pre ++ xs ++ post) pre.length (pre.length + xs.length) = some (pre ++ ys ++ post) ∧ ys.Perm xs) ∧
    (∃ ys, sortHeap comp (pre ++ xs ++ post) pre.length (pre.length + xs.length) = some (pre ++ ys ++ post) ∧ ys.Perm xs) ∧
    (∃ ys, makeHeap comp (pre ++ xs ++ post) pre.length (pre.length + xs.length) = some (pre ++ ys ++ post) ∧ ys.Perm xs) := by
  refine ⟨?_, ?_, ?_, ?_⟩
  · obtain ⟨r, h1, h2⟩ := pushHeapBack_rearr comp (pre ++ xs ++ post) pre.length (pre.length + xs.length) xs.length (by simp) (by omega)
    obtain ⟨ys, rfl, h5⟩ := h2.segment
    exact ⟨ys, by unfold pushHeap; rw [Nat.add_sub_cancel_left]; exact h1, h5⟩
  · obtain ⟨r, h1, h2⟩ := popHeapLen_rearr comp (pre ++ xs ++ post) pre.length xs.length (by simp)
    obtain ⟨ys, rfl, h5⟩ := h2.segment
    exact ⟨ys, by unfold popHeap; rw [Nat.add_sub_cancel_left]; exact h1, h5⟩
  · obtain ⟨r, h1, h2⟩ := sortHeap_rearr comp (pre ++ xs ++ post) pre.length xs.length (by simp)
    obtain ⟨ys, rfl, h5⟩ := h2.segment
    exact ⟨ys, h1, h5⟩
  · obtain ⟨r, h1, h2⟩ := makeHeap_rearr comp (pre ++ xs ++ post) pre.length (pre.length + xs.length) (by omega) (by simp)
    obtain ⟨ys, rfl, h5⟩ := h2.segment
    exact ⟨ys, h1, h5⟩

/-- The full statement for `make_heap`. -/
def MakeHeapFull (mk : (Nat → Nat → Bool) → List Nat → Nat → Nat → Option (List Nat)) : Prop :=
  ∀ (comp : Nat → Nat → Bool), StrictWeak comp → ∀ (pre xs post : List Nat),
    ∃ ys, mk comp (pre ++ xs ++ post) pre.length (pre.length + xs.length) = some (pre ++ ys ++ post) ∧
      ys.Perm xs ∧ Spec.IsHeap comp ys

theorem strictWeak_lt_nat : StrictWeak (fun a b : Nat => decide (a < b)) :=
  ⟨by simp, fun a b c h1 h2 => by simp at *; omega, fun a b c h => by simp at *; omega⟩

/-- `make_heap` leaves every two-element range alone. -/
theorem C05_make_heap_two (comp : α → α → Bool) (a b : α) : makeHeap comp [a, b] 0 2 = some [a, b] := by
  unfold makeHeap
  rw [if_pos (by omega), makeHeapLoop, if_pos (by omega)]
  unfold pushHeapBack
  rw [if_neg (by omega)]
  simp only [Option.bind_eq_bind, Option.bind_some]
  rw [makeHeapLoop, if_neg (by omega)]

/-- The full statement fails: `make_heap` leaves `[1,2]` as it is. -/
theorem C05_make_heap_false : ¬ MakeHeapFull makeHeap := by
  intro h
  obtain ⟨ys, h1, _, h3⟩ := h _ strictWeak_lt_nat [] [1, 2] []
  have : ys = [1, 2] := by
    have h2 := C05_make_heap_two (fun a b : Nat => decide (a < b)) 1 2
    simp only [List.length_nil, List.nil_append, List.append_nil, List.length_cons, Nat.zero_add] at h1
    rw [h2] at h1
    simpa using h1.symm
  subst this
  exact absurd h3 (by decide)

/-- Missing compared to `MakeHeapFull`: all ranges except the non-increasing ones (for those the result is
the unchanged range, a heap). -/
theorem C05_make_heap_partial (comp : α → α → Bool) (pre xs post : List α)
    (hd : xs.Pairwise (fun x y => comp x y = false)) :
    makeHeap comp (pre ++ xs ++ post) pre.length (pre.length + xs.length) = some (pre ++ xs ++ post) ∧
      Spec.IsHeap comp xs := by
  rw [List.pairwise_iff_getElem] at hd
  constructor
  · apply makeHeap_descending _ _ _ _ (by simp)
    intro i j hi hij hj x y hx hy
    obtain ⟨a, rfl⟩ := Nat.exists_eq_add_of_le hi
    obtain ⟨b, rfl⟩ := Nat.exists_eq_add_of_le (show pre.length ≤ j by omega)
    rw [seg_get pre xs post a (by omega)] at hx
    rw [seg_get pre xs post b (by omega)] at hy
    cases hx; cases hy
    exact hd a b (by omega) (by omega) (by omega)
  · intro i h0 hi
    exact hd _ _ _ hi (by omega)

/-! Non-trivial instances. -/

example : ∃ ys, pushHeap (fun a b => decide (a < b)) [9, 5, 3, 4, 7, 0] 1 5 = some ([9] ++ ys ++ [0]) ∧
    ys.Perm [5, 3, 4, 7] ∧ Spec.IsHeap (fun a b : Nat => decide (a < b)) ys :=
  C05_push_heap _ strictWeak_lt_nat [9] [5, 3, 4] [0] 7 (by decide)
example : ∃ ys, popHeap (fun a b => decide (a < b)) [9, 5, 3, 4, 0] 1 4 = some ([9] ++ (ys ++ [5]) ++ [0]) ∧
    ys.Perm [3, 4] ∧ Spec.IsHeap (fun a b : Nat => decide (a < b)) ys ∧ ∀ y ∈ [5, 3, 4], decide (5 < y) = false :=
  C05_pop_heap _ strictWeak_lt_nat [9] [0] 5 [3, 4] (by decide)
example : ∃ ys, sortHeap (fun a b => decide (a < b)) [9, 5, 3, 4, 0] 1 4 = some ([9] ++ ys ++ [0]) ∧
    ys.Perm [5, 3, 4] ∧ SortedBy (fun a b : Nat => decide (a < b)) ys :=
  C05_sort_heap _ strictWeak_lt_nat [9] [5, 3, 4] [0] (by decide)
example : makeHeap (fun a b : Nat => decide (a < b)) [0, 5, 4, 4, 9] 1 4 = some [0, 5, 4, 4, 9] ∧
    Spec.IsHeap (fun a b : Nat => decide (a < b)) [5, 4, 4] :=
  C05_make_heap_partial _ [0] [5, 4, 4] [9] (by decide)

end Sprout

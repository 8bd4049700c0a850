import Verif.Props.C05

/-!
# C04: partial_sort puts the smallest elements in order in front

`partial_sort` starts with the faulty `make_heap` (see C05), so the full statement is false
(`C04_partial_sort_false`: `[1,2]` is "sorted" to `[2,1]`). It always permutes the range, and it is right
whenever that `make_heap` call yields a heap. The same holds for the body of `partial_sort_copy`
(whose public wrapper cannot be instantiated at all, see `Verif/Model/Heap.lean`).
-/

namespace Sprout
variable {α : Type}

/-- The full statement for `partial_sort`: range `xs ++ ys`, `middle` after `xs`. -/
def PartialSortFull (ps : (Nat → Nat → Bool) → List Nat → Nat → Nat → Nat → Option (List Nat)) : Prop :=
  ∀ (comp : Nat → Nat → Bool), StrictWeak comp → ∀ (pre xs ys post : List Nat),
    ∃ us vs, ps comp (pre ++ (xs ++ ys) ++ post) pre.length (pre.length + xs.length) (pre.length + (xs ++ ys).length)
      = some (pre ++ (us ++ vs) ++ post) ∧ us.length = xs.length ∧
      (us ++ vs).Perm (xs ++ ys) ∧ SortedBy comp us ∧ (∀ u ∈ us, ∀ v ∈ vs, comp v u = false)

/-- Missing compared to `PartialSortFull`: the inputs for which `make_heap` fails to build a heap. -/
theorem C04_partial_sort_partial (comp : α → α → Bool) (hc : StrictWeak comp) (pre xs ys post : List α)
    (hmk : ∀ zs, makeHeap comp (pre ++ (xs ++ ys) ++ post) pre.length (pre.length + xs.length)
      = some (pre ++ (zs ++ ys) ++ post) → zs.length = xs.length → Spec.IsHeap comp zs) :
    ∃ us vs, partialSort comp (pre ++ (xs ++ ys) ++ post) pre.length (pre.length + xs.length) (pre.length + (xs ++ ys).length)
      = some (pre ++ (us ++ vs) ++ post) ∧ us.length = xs.length ∧
      (us ++ vs).Perm (xs ++ ys) ∧ SortedBy comp us ∧ (∀ u ∈ us, ∀ v ∈ vs, comp v u = false) := by
  obtain ⟨r, h1, h2, h3, h4⟩ := partialSort_spec comp hc (pre ++ (xs ++ ys) ++ post) pre.length (pre.length + xs.length)
    (pre.length + (xs ++ ys).length) (by omega) (by simp) (by simp) (by
      intro r hr
      obtain ⟨r', h5, h6⟩ := makeHeap_rearr comp (pre ++ (xs ++ ys) ++ post) pre.length (pre.length + xs.length) (by omega) (by simp)
      rw [hr] at h5
      cases h5
      have h7 : Rearr pre.length (pre.length + xs.length) (pre ++ xs ++ (ys ++ post)) r := by simpa using h6
      obtain ⟨zs, rfl, h8⟩ := h7.segment
      have := hmk zs (by rw [hr]; simp) h8.length_eq
      rw [Nat.add_sub_cancel_left, ← h8.length_eq]
      exact heapAt_segment.mpr this)
  obtain ⟨ws, rfl, h5⟩ := h2.segment
  have hwl : ws.length = xs.length + ys.length := by rw [h5.length_eq]; simp
  obtain ⟨us, vs, rfl, hul⟩ : ∃ us vs, ws = us ++ vs ∧ us.length = xs.length :=
    ⟨_, _, (List.take_append_drop xs.length ws).symm, by simp; omega⟩
  refine ⟨us, vs, h1, hul, h5, ?_, ?_⟩
  · rw [← hul, show pre ++ (us ++ vs) ++ post = pre ++ us ++ (vs ++ post) by simp] at h3
    exact sortedAt_segment.mp h3
  · intro u hu v hv
    obtain ⟨i, hi, rfl⟩ := List.getElem_of_mem hu
    obtain ⟨j, hj, rfl⟩ := List.getElem_of_mem hv
    refine h4 (pre.length + i) (pre.length + (us.length + j)) (by omega) (by omega) (by omega)
      (by rw [← h5.length_eq]; simp; omega) _ _ ?_ ?_
    · rw [seg_get pre (us ++ vs) post (us.length + j) (by simp; omega), List.getElem_append_right (by omega)]
      simp
    · rw [seg_get pre (us ++ vs) post i (by simp; omega), List.getElem_append_left hi]

/-- Always: a permutation of the range, nothing else touched. -/
theorem C04_partial_sort_permutes (comp : α → α → Bool) (pre xs ys post : List α) :
    ∃ zs, partialSort comp (pre ++ (xs ++ ys) ++ post) pre.length (pre.length + xs.length) (pre.length + (xs ++ ys).length)
      = some (pre ++ zs ++ post) ∧ zs.Perm (xs ++ ys) := by
  obtain ⟨r, h1, h2⟩ := partialSort_rearr comp (pre ++ (xs ++ ys) ++ post) pre.length (pre.length + xs.length)
    (pre.length + (xs ++ ys).length) (by omega) (by simp) (by simp)
  obtain ⟨ws, rfl, h5⟩ := h2.segment
  exact ⟨ws, h1, h5⟩

/-- Unconditional instance: at most one element in front (selecting a minimum). -/
theorem C04_partial_sort_one_partial (comp : α → α → Bool) (hc : StrictWeak comp) (pre ys post : List α) (x : α) :
    ∃ u vs, partialSort comp (pre ++ ([x] ++ ys) ++ post) pre.length (pre.length + 1) (pre.length + ([x] ++ ys).length)
      = some (pre ++ ([u] ++ vs) ++ post) ∧ ([u] ++ vs).Perm ([x] ++ ys) ∧ (∀ v ∈ vs, comp v u = false) := by
  obtain ⟨us, vs, h1, h2, h3, _, h5⟩ := C04_partial_sort_partial comp hc pre [x] ys post (by
    intro zs _ hz i h0 hi
    simp at hz; omega)
  obtain ⟨u, rfl⟩ := List.length_eq_one_iff.mp h2
  exact ⟨u, vs, h1, h3, h5 u (by simp)⟩

/-- Unconditional instance: the front part is non-increasing before the call. -/
theorem C04_partial_sort_descending_partial (comp : α → α → Bool) (hc : StrictWeak comp) (pre xs ys post : List α)
    (hd : xs.Pairwise (fun x y => comp x y = false)) :
    ∃ us vs, partialSort comp (pre ++ (xs ++ ys) ++ post) pre.length (pre.length + xs.length) (pre.length + (xs ++ ys).length)
      = some (pre ++ (us ++ vs) ++ post) ∧ us.length = xs.length ∧
      (us ++ vs).Perm (xs ++ ys) ∧ SortedBy comp us ∧ (∀ u ∈ us, ∀ v ∈ vs, comp v u = false) := by
  apply C04_partial_sort_partial comp hc
  intro zs hz hl
  obtain ⟨h1, h2⟩ := C05_make_heap_partial comp pre xs (ys ++ post) hd
  rw [show pre ++ (xs ++ ys) ++ post = pre ++ xs ++ (ys ++ post) by simp, h1] at hz
  have : xs = zs := by
    simp only [Option.some.injEq, List.append_assoc, List.append_cancel_left_eq, List.append_cancel_right_eq] at hz
    exact hz
  rw [← this]; exact h2

theorem C04_partial_sort_two (a b : α) (comp : α → α → Bool) : partialSort comp [a, b] 0 2 2 = some [b, a] := by
  unfold partialSort
  rw [C05_make_heap_two]
  simp only [Option.bind_eq_bind, Option.bind_some]
  rw [partialSortLoop, if_pos rfl]
  simp only [Option.bind_some]
  unfold sortHeap
  rw [sortHeapLoop, if_pos (by omega)]
  have : popHeapLen comp [a, b] 0 2 (2 - 0) = some [b, a] := by
    unfold popHeapLen
    rw [if_pos (by omega)]
    unfold pushHeapFront
    simp [swp, rd, wr]
  rw [this]
  simp only [Option.bind_eq_bind, Option.bind_some]
  rw [sortHeapLoop, if_neg (by omega)]

/-- The full statement fails: partially sorting all of `[1,2]` yields `[2,1]`. -/
theorem C04_partial_sort_false : ¬ PartialSortFull partialSort := by
  intro h
  obtain ⟨us, vs, h1, h2, _, h4, _⟩ := h _ strictWeak_lt_nat [] [1, 2] [] []
  have h5 := C04_partial_sort_two 1 2 (fun a b : Nat => decide (a < b))
  simp only [List.length_nil, List.nil_append, List.append_nil, List.length_cons, Nat.zero_add] at h1
  rw [h5] at h1
  simp only [Option.some.injEq] at h1
  have hv : vs = [] := by
    have := congrArg List.length h1
    simp at this h2
    exact List.length_eq_zero_iff.mp (by omega)
  subst hv
  simp only [List.append_nil] at h1
  subst h1
  revert h4
  simp [SortedBy]

/-- `partial_sort_copy`, source list `src`, destination `old` (overwritten from the left).
Missing compared to the full statement: destinations for which `make_heap` fails to build a heap. -/
theorem C04_partial_sort_copy_partial (comp : α → α → Bool) (hc : StrictWeak comp) (pre src old post : List α)
    (hmk : ∀ (zs rest : List α), zs.length = min src.length old.length →
      makeHeap comp (pre ++ src.take old.length ++ rest) pre.length (pre.length + (src.take old.length).length)
        = some (pre ++ zs ++ rest) → Spec.IsHeap comp zs) :
    ∃ us vs old', partialSortCopy comp (pre ++ old ++ post) src pre.length (pre.length + old.length)
      = some (pre ++ us ++ old' ++ post, pre.length + us.length) ∧ us.length = min src.length old.length ∧
      us.length + old'.length = old.length ∧
      (us ++ vs).Perm src ∧ SortedBy comp us ∧ (∀ u ∈ us, ∀ v ∈ vs, comp v u = false) := by
  unfold partialSortCopy
  by_cases ho : old = []
  · subst ho
    rw [if_pos (by simp)]
    exact ⟨[], src, [], by simp, by simp, by simp, by simp, by simp [SortedBy], by simp⟩
  · have : 0 < old.length := List.length_pos_iff.mpr ho
    rw [if_neg (by omega)]
    obtain ⟨done, rest, old', h1, h2, h3, h4⟩ := partialSortCopyFill_spec src pre [] old post
    simp only [List.length_nil, List.nil_append, Nat.add_zero] at h1
    rw [h1]
    simp only [Option.bind_eq_bind, Option.bind_some]
    have hdl : done.length = min src.length old.length := by
      rw [h2]; rcases h4 with rfl | rfl
      · simp; omega
      · simp at h3 ⊢; omega
    have hdone : src.take old.length = done := by
      rw [h2]
      rcases h4 with rfl | rfl
      · simp; omega
      · simp at h3; rw [← h3]; simp
    rw [hdone] at hmk
    rw [show pre ++ (done ++ old') ++ post = pre ++ done ++ (old' ++ post) by simp]
    obtain ⟨r, h5, h6⟩ := makeHeap_rearr comp (pre ++ done ++ (old' ++ post)) pre.length (pre.length + done.length) (by omega) (by simp)
    obtain ⟨zs, rfl, h7⟩ := h6.segment
    have hzs := hmk zs (old' ++ post) (by rw [h7.length_eq, hdl]) h5
    rw [h5]
    simp only [Option.bind_some, Nat.add_sub_cancel_left]
    by_cases hd0 : done = []
    · subst hd0
      have hzn : zs = [] := List.length_eq_zero_iff.mp (by rw [h7.length_eq]; rfl)
      subst hzn
      have hr0 : rest = [] := by
        rcases h4 with h | h
        · exact h
        · subst h; simp at h3; omega
      subst hr0
      simp only [partialSortCopyRest, Option.bind_some, List.length_nil, Nat.add_zero]
      unfold sortHeap
      rw [sortHeapLoop, if_neg (by omega)]
      exact ⟨[], [], old', by simp, by simpa using hdl, by simpa using h3, by simp [h2], by simp [SortedBy], by simp⟩
    · have hzne : zs ≠ [] := by
        rintro rfl
        exact hd0 (List.length_eq_zero_iff.mp (by rw [← h7.length_eq]; rfl))
      obtain ⟨R', D', h8, h9, h10, h11, h12⟩ := partialSortCopyRest_spec comp hc rest pre zs (old' ++ post) [] hzne hzs (by simp)
      rw [h7.length_eq] at h8
      rw [h8]
      simp only [Option.bind_some]
      have hR'l : R'.length = done.length := by rw [h9, h7.length_eq]
      obtain ⟨us, h13, h14, h15⟩ := C05_sort_heap comp hc pre R' (old' ++ post) h10
      rw [hR'l] at h13
      rw [h13]
      simp only [Option.bind_some]
      have hul : us.length = done.length := by rw [h14.length_eq, hR'l]
      refine ⟨us, D', old', by simp [hul], by omega, by omega, ?_, h15, ?_⟩
      · refine (h14.append_right D').trans (h11.trans ?_)
        rw [h2, List.append_nil]
        exact h7.append_right rest
      · intro u hu v hv
        exact h12 v hv u (h14.mem_iff.mp hu)

/-! Non-trivial instances. -/

example : ∃ us vs, partialSort (fun a b => decide (a < b)) [9, 5, 3, 1, 4, 0] 1 3 5 = some ([9] ++ (us ++ vs) ++ [0]) ∧
    us.length = 2 ∧ (us ++ vs).Perm [5, 3, 1, 4] ∧ SortedBy (fun a b : Nat => decide (a < b)) us ∧
    ∀ u ∈ us, ∀ v ∈ vs, decide (v < u) = false :=
  C04_partial_sort_descending_partial _ strictWeak_lt_nat [9] [5, 3] [1, 4] [0] (by decide)

end Sprout

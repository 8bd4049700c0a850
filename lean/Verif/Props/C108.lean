import Verif.Proofs.FixedSort3

/-!
# C108: heaps and sorting algorithms that return containers

`sprout::fixed`: `make_heap`, `push_heap`, `pop_heap`, `sort_heap`, `make_partial_heap`, `partial_sort`, `nth_element`,
`stable_sort`, `sort`, for every strict weak ordering.
-/

namespace Sprout

open ContOp FixedAlg

variable {α : Type} [Inhabited α] {comp : α → α → Bool}

theorem C108_make_heap (hc : StrictWeak comp) {c : Cont α} (h : c.Ok) :
    ∃ w, Rewrites (FixedAlg.makeHeap comp c) c w ∧ w.Perm c.vis ∧ Spec.IsHeap comp w := by
  obtain ⟨_, _, p⟩ := parts' h
  have := p.len
  obtain ⟨d, d1, d2, d3, d4⟩ := makeHeapImpl_spec hc c.vis.length 0 c h le_rfl
  refine ⟨d.vis, (rewrites_iff h).2 ⟨d, ?_, d2, rfl⟩, d3.perm, ?_⟩
  · rw [FixedAlg.makeHeap, show c.size.toNat = c.vis.length by omega]
    exact d1
  · have := (heapOn_iff (by rw [d2.len])).1 d4
    rwa [List.take_of_length_le (by rw [d2.len])] at this

/-- `push_heap`: when all elements but the last are a heap -/
theorem C108_push_heap (hc : StrictWeak comp) {c : Cont α} (h : c.Ok) {A : List α} {x : α} (hv : c.vis = A ++ [x]) (hA : Spec.IsHeap comp A) :
    ∃ w, Rewrites (FixedAlg.pushHeap comp c) c w ∧ w.Perm c.vis ∧ Spec.IsHeap comp w := by
  obtain ⟨_, _, p⟩ := parts' h
  have := p.len
  have hlen : c.vis.length = A.length + 1 := by rw [hv]; simp
  have hh : HeapOn comp c.vis A.length 0 := (heapOn_iff (by omega)).2 (by rw [hv, List.take_left]; exact hA)
  obtain ⟨d, d1, d2, d3, d4⟩ := pushHeapImpl_spec hc (A.length + 1) A.length c h (by omega) (by omega)
    ⟨fun i h0 hi hin => heapOn_zero.1 hh i h0 (by omega), fun i _ hi hiN => by omega⟩
  refine ⟨d.vis, (rewrites_iff h).2 ⟨d, ?_, d2, rfl⟩, d3, ?_⟩
  · rw [FixedAlg.pushHeap, if_neg (by omega), show c.size.toNat - 1 = A.length by omega]
    exact d1
  · have := (heapOn_iff (by rw [d2.len]; omega)).1 d4
    rwa [List.take_of_length_le (by rw [d2.len]; omega)] at this

/-- `pop_heap`: the first element goes to the end, the others are a heap -/
theorem C108_pop_heap (hc : StrictWeak comp) {c : Cont α} (h : c.Ok) {a : α} {l : List α} (hv : c.vis = a :: l) (hA : Spec.IsHeap comp c.vis) :
    ∃ A, Rewrites (FixedAlg.popHeap comp c) c (A ++ [a]) ∧ A.Perm l ∧ Spec.IsHeap comp A ∧ ∀ x ∈ A, comp a x = false := by
  obtain ⟨_, _, p⟩ := parts' h
  have := p.len
  have hlen : c.vis.length = l.length + 1 := by rw [hv]; simp
  obtain ⟨A0, z, hz⟩ : ∃ A0 z, c.vis = A0 ++ z :: [] := by
    rcases List.eq_nil_or_concat c.vis with e | ⟨A0, z, e⟩
    · rw [hv] at e; cases e
    · exact ⟨A0, z, by rw [e]; simp⟩
  have hl0 : A0.length = l.length := by
    have := congrArg List.length hz
    simp at this
    omega
  obtain ⟨d, b, A, d1, d2, d3, d4, d5, d6, d7, d8⟩ := pop_step hc l.length c h hz hl0
    ((heapOn_iff (by omega)).2 (by rwa [List.take_of_length_le (by omega)]))
  obtain rfl : a = b := by
    rw [hv] at d7
    exact Option.some.inj d7
  refine ⟨A, (rewrites_iff h).2 ⟨d, ?_, d2, d3⟩, ?_, ?_, d6⟩
  · rw [FixedAlg.popHeap, if_neg (by omega), show c.size.toNat - 1 = l.length by omega, show c.size - 1 = (l.length : ℤ) by omega]
    exact d1
  · have q : (A ++ [a]).Perm (a :: l) := by
      rw [← hv, hz]
      exact d5
    exact (List.perm_cons a).1 ((List.perm_append_singleton a A).symm.trans q)
  · have := (heapOn_iff (by rw [d2.len]; omega)).1 d8
    rwa [d3, ← d4, List.take_left] at this

theorem C108_sort_heap (hc : StrictWeak comp) {c : Cont α} (h : c.Ok) (hA : Spec.IsHeap comp c.vis) :
    ∃ w, Rewrites (FixedAlg.sortHeap comp c) c w ∧ w.Perm c.vis ∧ SortedBy comp w := by
  obtain ⟨_, _, p⟩ := parts' h
  have := p.len
  obtain ⟨d, A, d1, d2, d3, d4, d5⟩ := sortHeapImpl_spec hc c.vis.length c h c.vis [] (by simp) rfl
    ((heapOn_iff le_rfl).2 (by rwa [List.take_length]))
  rw [List.append_nil] at d3
  refine ⟨A, (rewrites_iff h).2 ⟨d, ?_, d2, d3⟩, d4, d5⟩
  rw [FixedAlg.sortHeap, show c.size.toNat = c.vis.length by omega]
  exact d1

/-- `make_partial_heap`: the smallest `m` elements come first and are a heap -/
theorem C108_make_partial_heap (hc : StrictWeak comp) {c : Cont α} (h : c.Ok) {m : ℕ} (hm : m ≤ c.vis.length) :
    ∃ A B, Rewrites (FixedAlg.makePartialHeap comp m c) c (A ++ B) ∧ A.length = m ∧ (A ++ B).Perm c.vis ∧ Spec.IsHeap comp A ∧
      ∀ a ∈ A, ∀ b ∈ B, comp b a = false := by
  obtain ⟨d, d1, d2, d3, d4⟩ := makePartialHeapImpl_spec hc m c h hm
  rw [← d2.len] at d4 hm
  obtain ⟨A, B, e, e1, e2, e3⟩ := d4.split hm
  exact ⟨A, B, (rewrites_iff h).2 ⟨d, d1, d2, e⟩, e1, e ▸ d3, e2, e3⟩

/-- `partial_sort`: the smallest `m` elements come first and are sorted -/
theorem C108_partial_sort (hc : StrictWeak comp) {c : Cont α} (h : c.Ok) {m : ℕ} (hm : m ≤ c.vis.length) :
    ∃ A B, Rewrites (FixedAlg.partialSort comp m c) c (A ++ B) ∧ A.length = m ∧ (A ++ B).Perm c.vis ∧ SortedBy comp A ∧
      ∀ a ∈ A, ∀ b ∈ B, comp b a = false := by
  obtain ⟨d, d1, d2, d3, d4⟩ := makePartialHeapImpl_spec hc m c h hm
  rw [← d2.len] at d4 hm
  obtain ⟨A, B, e, e1, e2, e3⟩ := d4.split hm
  obtain ⟨f, F, f1, f2, f3, f4, f5⟩ := sortHeapImpl_spec hc m d d2.ok A B e e1 d4.heap
  rw [d2.beginOff] at f1
  refine ⟨F, B, (rewrites_iff h).2 ⟨f, ?_, d2.trans f2, f3⟩, by rw [f4.length_eq, e1], ?_, f5, fun a ha => e3 a (f4.subset ha)⟩
  · rw [FixedAlg.partialSort, d1]
    exact f1
  · refine (f4.append_right B).trans ?_
    rw [← e]
    exact d3

/-- `nth_element`, of a position before the end: the element that belongs there is there, with no greater one before and no less
one behind. Missing: `nth == end`, where the code reads past the end. -/
theorem C108_nth_element_partial (hc : StrictWeak comp) {c : Cont α} (h : c.Ok) {m : ℕ} (hm : m < c.vis.length) :
    ∃ A x B, Rewrites (FixedAlg.nthElement comp m c) c (A ++ x :: B) ∧ A.length = m ∧ (A ++ x :: B).Perm c.vis ∧
      (∀ a ∈ A, comp x a = false) ∧ ∀ b ∈ B, comp b x = false := by
  obtain ⟨d, d1, d2, d3, d4⟩ := makePartialHeapImpl_spec hc (m + 1) c h hm
  have dl := d2.len
  obtain ⟨f, f1, f2, f3⟩ := swapInternal_swapped d2.ok (i := 0) (j := m) (by omega) (by omega)
  rw [d2.beginOff, show c.beginOff + ((0 : ℕ) : ℤ) = c.beginOff by omega] at f1
  have fl := f2.len
  have e : f.vis = f.vis.take m ++ f.vis[m] :: f.vis.drop (m + 1) := by
    rw [← List.drop_eq_getElem_cons, List.take_append_drop]
  obtain ⟨t, ht⟩ : ∃ t, d.vis[0]? = some t := ⟨_, List.getElem?_eq_getElem (by omega)⟩
  have hx : f.vis[m] = t := by
    have := f3.get m
    rw [List.getElem?_eq_getElem (by omega)] at this
    by_cases h0 : m = 0
    · rw [if_pos h0] at this
      subst h0
      rw [ht] at this
      exact Option.some.inj this
    · rw [if_neg h0, if_pos rfl, ht] at this
      exact Option.some.inj this
  refine ⟨_, _, _, (rewrites_iff h).2 ⟨f, ?_, d2.trans f2, e⟩, by simp; omega, ?_, ?_, ?_⟩
  · rw [FixedAlg.nthElement, d1]
    exact f1
  · rw [← e]
    exact f3.perm.trans d3
  · intro a ha
    obtain ⟨i, hi, rfl⟩ := List.getElem_of_mem ha
    simp only [List.length_take] at hi
    rw [hx, List.getElem_take]
    have g := f3.get i
    rw [List.getElem?_eq_getElem (by omega)] at g
    split_ifs at g with h0 h1
    · exact d4.heap.root hc (by omega) (desc_zero m) (by omega) ht g.symm
    · omega
    · exact d4.heap.root hc (by omega) (desc_zero i) (by omega) ht g.symm
  · intro b hb
    obtain ⟨j, hj, rfl⟩ := List.getElem_of_mem hb
    simp only [List.length_drop] at hj
    rw [hx, List.getElem_drop]
    have g := f3.get (m + 1 + j)
    rw [List.getElem?_eq_getElem (by omega), if_neg (by omega), if_neg (by omega)] at g
    exact d4.low 0 (m + 1 + j) (by omega) (by omega) (by omega) _ _ ht g.symm

/-- `nth_element` with `nth == end` reads past the end of the array -/
theorem C108_nth_element_refuted : FixedAlg.nthElement (fun x y : ℕ => x < y) 2 (.array [2, 1]) = none := by decide +kernel

/-- `stable_sort` and `sort`: the elements in order, equivalent ones as before. Missing: an empty window or string with capacity
for two or more elements. -/
theorem C108_stable_sort_partial (hc : StrictWeak comp) {c : Cont α} (h : c.Ok) (h0 : c.vis ≠ [] ∨ c.static ≤ 1) :
    ∃ w, Rewrites (FixedAlg.stableSort comp c) c w ∧ Spec.StableSorted comp c.vis w ∧ w.Perm c.vis := by
  obtain ⟨w, h1, h2⟩ := stableSort_spec hc h h0
  exact ⟨w, h1, h2, StableSorted.perm hc h2.2⟩

/-- `sort` of an empty container that could hold two elements reads what is not there -/
theorem C108_stable_sort_refuted (c : Cont α) (h : c.Ok) (h0 : c.vis = []) (h1 : 1 < c.static) : FixedAlg.stableSort comp c = none := by
  rw [FixedAlg.stableSort, if_neg (by omega), elems_eq h, h0]
  rfl

/-! ## examples -/

private def lt (x y : ℕ) : Bool := x < y
private def lt10 (x y : ℕ) : Bool := x / 10 < y / 10

private theorem lt10_weak : StrictWeak lt10 :=
  ⟨by simp [lt10], by simp only [lt10, decide_eq_true_eq]; omega, by simp only [lt10, decide_eq_true_eq]; omega⟩

example : FixedAlg.makeHeap lt (.sub (.array [9, 1, 2, 3, 4, 0]) 1 5) = some (.sub (.array [9, 4, 2, 3, 1, 0]) 1 5) := by decide +kernel
example : FixedAlg.pushHeap lt (.array [3, 2, 1, 5]) = some (.array [5, 3, 1, 2]) := by decide +kernel
example : FixedAlg.popHeap lt (.array [5, 3, 1, 2]) = some (.array [3, 2, 1, 5]) := by decide +kernel
example : FixedAlg.sortHeap lt (.array [5, 3, 1, 2]) = some (.array [1, 2, 3, 5]) := by decide +kernel
example : FixedAlg.partialSort lt 2 (.array [5, 3, 1, 2]) = some (.array [1, 2, 5, 3]) := by decide +kernel
example : FixedAlg.nthElement lt 1 (.array [5, 3, 1, 2]) = some (.array [1, 2, 5, 3]) := by decide +kernel
example : FixedAlg.stableSort lt10 (.sub (.array [9, 21, 12, 20, 11, 0]) 1 5) = some (.sub (.array [9, 12, 11, 21, 20, 0]) 1 5) := by decide +kernel
example : FixedAlg.stableSort lt (.string [3, 1, 2, 0, 0] 3) = some (.string [1, 2, 3, 0, 0] 3) := by decide +kernel
example : (Cont.sub (.array [1, 2, 3]) 1 1).Ok ∧ (Cont.sub (.array [1, 2, 3]) 1 1).vis = [] ∧
    FixedAlg.stableSort lt (.sub (.array [1, 2, 3]) 1 1) = none := by decide +kernel
/-- the theorem applies to an order with equivalent elements -/
example : ∃ w, Rewrites (FixedAlg.stableSort lt10 (.array [21, 12, 20, 11])) (.array [21, 12, 20, 11]) w ∧
    Spec.StableSorted lt10 [21, 12, 20, 11] w ∧ w.Perm [21, 12, 20, 11] :=
  C108_stable_sort_partial lt10_weak (c := .array [21, 12, 20, 11]) trivial (.inl (by decide))

end Sprout

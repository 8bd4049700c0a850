import Verif.Proofs.FixedAlg2

/-!
# C107: algorithms that return containers

`sprout::fixed`: copying, filling, transformation, removal and order. The result has the `static_size` and the window of the
argument; the window shows the values from its beginning as far as there is room, then the old elements; nothing else changes.
-/

namespace Sprout

open ContOp FixedAlg

variable {α β : Type} [Inhabited α]

/-- `copy` and `copy_n` -/
theorem C107_copy {c : Cont α} (h : c.Ok) (xs : List α) :
    Rewrites (FixedAlg.copyRa xs c) c (writeFront c.vis xs) ∧ Rewrites (FixedAlg.copyIn xs c) c (writeFront c.vis xs) ∧
    ∀ n ≤ xs.length, Rewrites (copyNRa xs n c) c (writeFront c.vis (xs.take n)) ∧ Rewrites (copyNIn xs n c) c (writeFront c.vis (xs.take n)) := by
  refine ⟨copyRa_rewrites h xs, copyIn_rewrites h xs, fun n hn => ⟨?_, ?_⟩⟩
  · refine packRa_rewrites h (by simp; omega) fun j hj _ => ?_
    rw [rdz_nat, List.getElem?_take_of_lt hj]
  · refine collect_read h (by simp; omega) fun k hk => ?_
    rw [List.getElem?_take_of_lt hk]

/-- `copy_if`, `copy_while` and `copy_until` -/
theorem C107_copy_if {c : Cont α} (h : c.Ok) (p : α → Bool) (xs : List α) :
    Rewrites (FixedAlg.copyIf p xs c) c (writeFront c.vis (xs.filter p)) ∧
    Rewrites (copyWhileRa p xs c) c (writeFront c.vis (xs.takeWhile p)) ∧
    Rewrites (copyWhileIn p xs c) c (writeFront c.vis (xs.takeWhile p)) ∧
    Rewrites (copyUntilRa p xs c) c (writeFront c.vis (xs.takeWhile fun x => !p x)) ∧
    Rewrites (copyUntilIn p xs c) c (writeFront c.vis (xs.takeWhile fun x => !p x)) := by
  have hw : ∀ q : α → Bool, Rewrites (collect c (fun args x => if q x then .go (args ++ [x]) else .stop) (complate c) xs []) c
      (writeFront c.vis (xs.takeWhile q)) := by
    intro q
    rw [collect_while h (f := fun x => [x]) (p := q) (fun a ha => complate_full ha) (by simp) xs [] ?_ (by simp),
      List.nil_append, ← writeFront_take c.vis (xs.takeWhile q)]
    · rw [flatMap_pure (fun x => x), List.map_id']
      exact complate_rewrites h (by simp)
    · intro x _ args
      rfl
  have hf : ∀ q : α → Bool, xs.take (xs.findIdx fun x => !q x) = xs.takeWhile q := by
    intro q
    rw [List.takeWhile_eq_take_findIdx_not]
  refine ⟨collect_rewrites h (f := fun x => if p x then [x] else []) ?_ ?_ (flatMap_filter p xs), ?_, hw p, ?_, hw _⟩
  · intro x _ args
    by_cases hp : p x = true <;> simp [hp]
  · intro x
    by_cases hp : p x = true <;> simp [hp]
  · have := findIfNotRa_eq [] xs [] p
    simp only [List.nil_append, List.append_nil, List.length_nil, Nat.zero_add] at this
    rw [copyWhileRa, this]
    simp only [bind, Option.bind]
    rw [hf]
    exact copyRa_rewrites h _
  · have := findIfRa_eq [] xs [] p
    simp only [List.nil_append, List.append_nil, List.length_nil, Nat.zero_add] at this
    rw [copyUntilRa, this]
    simp only [bind, Option.bind]
    have e := hf fun x => !p x
    simp only [Bool.not_not] at e
    rw [e]
    exact copyRa_rewrites h _

/-- `copy_backward`; the version for bidirectional iterators, unless the container is a string shorter than its capacity -/
theorem C107_copy_backward_partial {c : Cont α} (h : c.Ok) (xs : List α) :
    Rewrites (FixedAlg.copyBackwardRa xs c) c (writeBack c.vis xs) ∧
    (internalEnd c = c.static → Rewrites (FixedAlg.copyBackwardIn xs c) c (writeBack c.vis xs)) :=
  ⟨copyBackwardRa_rewrites h xs, fun hI => copyBackwardIn_rewrites h hI xs⟩

/-- `copy_backward` of a list into a string shorter than its capacity reads before the beginning -/
theorem C107_copy_backward_refuted :
    ∃ (c : Cont Nat) (xs : List Nat), c.Ok ∧ xs.length ≤ c.vis.length ∧ FixedAlg.copyBackwardIn xs c = none ∧
      Rewrites (FixedAlg.copyBackwardRa xs c) c (writeBack c.vis xs) :=
  ⟨.string [5, 6, 0, 0] 2, [7], by decide +kernel, by decide +kernel, by decide +kernel, copyBackwardRa_rewrites (by decide +kernel) _⟩

/-- `fill` and `fill_n` -/
theorem C107_fill {c : Cont α} (h : c.Ok) (v : α) :
    Rewrites (FixedAlg.fill c v) c (List.replicate c.vis.length v) ∧
    ∀ n ≤ c.vis.length, Rewrites (FixedAlg.fillN c n v) c (writeFront c.vis (List.replicate n v)) := by
  have hn : ∀ n ≤ c.vis.length, Rewrites (FixedAlg.fillN c n v) c (writeFront c.vis (List.replicate n v)) :=
    fun n hn => fillImpl_rewrites h v hn
  refine ⟨?_, hn⟩
  obtain ⟨X, Z, hp⟩ := parts' h
  have e := hn _ le_rfl
  rw [FixedAlg.fillN, hp.len] at e
  simpa [writeFront, FixedAlg.fill] using e

/-- `generate`, `generate_n`, `unfold` and `unfold_n` -/
theorem C107_generate {σ : Type} {c : Cont α} (h : c.Ok) (g : σ → α × σ) (s : σ) :
    Rewrites (FixedAlg.generate c g s) c (genTerms g c.vis.length s) ∧
    ∀ n ≤ c.vis.length, Rewrites (FixedAlg.generateN c n g s) c (writeFront c.vis (genTerms g n s)) := by
  have hn : ∀ n ≤ c.vis.length, Rewrites (FixedAlg.generateN c n g s) c (writeFront c.vis (genTerms g n s)) :=
    fun n hn => generateImpl_rewrites h g s hn
  refine ⟨?_, hn⟩
  obtain ⟨X, Z, hp⟩ := parts' h
  have e := hn _ le_rfl
  have e2 := hp.len
  rw [FixedAlg.generate, show c.size.toNat = c.vis.length by omega]
  simpa [FixedAlg.generateN, writeFront, length_genTerms, List.take_of_length_le] using e

/-- `recurrence` and `recurrence_n`, if there is room for the given first values -/
theorem C107_recurrence_partial {c : Cont α} (h : c.Ok) (gen : List α → α) (inits : List α) :
    (inits.length ≤ c.vis.length →
      Rewrites (FixedAlg.recurrence c gen inits) c (recTerms gen inits.length (c.vis.length - inits.length) inits)) ∧
    ∀ n ≤ c.vis.length, inits.length ≤ n →
      Rewrites (FixedAlg.recurrenceN c n gen inits) c (writeFront c.vis (recTerms gen inits.length (n - inits.length) inits)) := by
  have hn : ∀ n ≤ c.vis.length, inits.length ≤ n →
      Rewrites (FixedAlg.recurrenceN c n gen inits) c (writeFront c.vis (recTerms gen inits.length (n - inits.length) inits)) := by
    intro n hn hi
    have := recurrenceImpl_rewrites h gen inits hn
    rwa [Nat.sub_eq_zero_of_le hi, List.drop_zero] at this
  refine ⟨fun hi => ?_, hn⟩
  obtain ⟨X, Z, hp⟩ := parts' h
  have e := hn _ le_rfl hi
  have e2 := hp.len
  have hl : (recTerms gen inits.length (c.vis.length - inits.length) inits).length = c.vis.length := by rw [length_recTerms]; omega
  rw [FixedAlg.recurrence, show c.size.toNat = c.vis.length by omega]
  rwa [FixedAlg.recurrenceN, writeFront, hl, List.drop_length, List.append_nil, List.take_of_length_le (by omega)] at e

/-- if there is not, the last of the given values come first -/
theorem C107_recurrence_refuted :
    ∃ (c : Cont Nat) (gen : List Nat → Nat) (inits : List Nat), c.Ok ∧
      ∃ x, FixedAlg.recurrence c gen inits = some x ∧ x.vis = [2, 3] ∧ inits = [1, 2, 3] :=
  ⟨.array [0, 0], List.sum, [1, 2, 3], by decide +kernel, .array [2, 3], by decide +kernel, by decide +kernel, rfl⟩

/-- `transform` -/
theorem C107_transform {c : Cont α} (h : c.Ok) {γ : Type} (f : β → α) (f2 : β → γ → α) (xs : List β) (ys : List γ) :
    Rewrites (FixedAlg.transformRa f xs c) c (writeFront c.vis (xs.map f)) ∧ Rewrites (transformIn f xs c) c (writeFront c.vis (xs.map f)) ∧
    (xs.length ≤ ys.length → Rewrites (transform2Ra f2 xs ys c) c (writeFront c.vis (List.zipWith f2 xs ys)) ∧
      Rewrites (transform2In f2 xs ys c) c (writeFront c.vis (List.zipWith f2 xs ys))) := by
  refine ⟨packRa_rewrites h (by simp) fun j _ _ => ?_, collect_rewrites h (f := fun x => [f x]) (fun _ _ _ => rfl) (by simp) (flatMap_pure f xs),
    fun hl => ⟨packRa_rewrites h (by simp; omega) fun j hj _ => ?_, collect_read h (by simp; omega) fun k hk => ?_⟩⟩
  · rw [rdz_nat, List.getElem?_map]
  · rw [rdz_nat, rdz_nat, List.getElem?_zipWith, List.getElem?_eq_getElem hj, List.getElem?_eq_getElem (by omega)]
    rfl
  · rw [List.getElem?_zipWith, List.getElem?_eq_getElem hk, List.getElem?_eq_getElem (by omega)]
    rfl

/-- `replace_copy_if`, `replace_copy` -/
theorem C107_replace_copy {c : Cont α} (h : c.Ok) (p : α → Bool) (v : α) (xs : List α) :
    Rewrites (replaceCopyIfRa p v xs c) c (writeFront c.vis (xs.map fun x => if p x then v else x)) ∧
    Rewrites (replaceCopyIfIn p v xs c) c (writeFront c.vis (xs.map fun x => if p x then v else x)) := by
  refine ⟨packRa_rewrites h (by simp) fun j hj _ => ?_,
    collect_rewrites h (f := fun x => [if p x then v else x]) (fun _ _ _ => rfl) (by simp) (flatMap_pure (fun x => if p x then v else x) xs)⟩
  rw [rdz_nat, List.getElem?_map, List.getElem?_eq_getElem hj]
  simp only [bind, Option.bind, Option.map]
  split_ifs <;> rfl

/-- `clamp_range_copy` -/
theorem C107_clamp_range_copy {c : Cont α} (h : c.Ok) (comp : α → α → Bool) (low high : α) (xs : List α) :
    Rewrites (clampRangeCopyRa comp low high xs c) c
      (writeFront c.vis (xs.map fun x => if comp x low then low else if comp high x then high else x)) ∧
    Rewrites (clampRangeCopyIn comp low high xs c) c
      (writeFront c.vis (xs.map fun x => if comp x low then low else if comp high x then high else x)) := by
  refine ⟨packRa_rewrites h (by simp) fun j hj _ => ?_,
    collect_rewrites h (f := fun x => [if comp x low then low else if comp high x then high else x]) (fun _ _ _ => rfl) (by simp)
      (flatMap_pure (fun x => if comp x low then low else if comp high x then high else x) xs)⟩
  rw [rdz_nat, List.getElem?_map]
  rfl

/-- `remove_copy_if`, `remove_copy` -/
theorem C107_remove_copy {c : Cont α} (h : c.Ok) (p : α → Bool) (xs : List α) :
    Rewrites (FixedAlg.removeCopyIf p xs c) c (writeFront c.vis (xs.filter fun x => !p x)) := by
  refine collect_rewrites h (f := fun x => if !p x then [x] else []) ?_ ?_ (flatMap_filter (fun x => !p x) xs)
  · intro x _ args
    by_cases hp : p x = true <;> simp [hp]
  · intro x
    by_cases hp : p x = true <;> simp [hp]

/-- `unique_copy`, unless the window is empty -/
theorem C107_unique_copy_partial {c : Cont α} (h : c.Ok) (p : α → α → Bool) (xs : List α) (hs : 0 < c.size ∨ xs = []) :
    Rewrites (FixedAlg.uniqueCopy p xs c) c (writeFront c.vis (Spec.dedup p xs)) := by
  rcases hs with hs | rfl
  · exact uniqueCopy_rewrites h p xs hs
  · exact complate_rewrites h (by simp)

/-- into an empty window `unique_copy` writes an element that does not belong to it -/
theorem C107_unique_copy_refuted :
    ∃ (c : Cont Nat) (p : Nat → Nat → Bool) (xs : List Nat), c.Ok ∧ c.vis = [] ∧ c.block = [5, 6] ∧
      ∃ x, FixedAlg.uniqueCopy p xs c = some x ∧ x.block = [5, 7] :=
  ⟨.sub (.array [5, 6]) 1 1, (· == ·), [7, 7], by decide +kernel, by decide +kernel, by decide +kernel, .sub (.array [5, 7]) 1 1, by decide +kernel, by decide +kernel⟩

/-- `reverse_copy` and `rotate_copy` -/
theorem C107_reverse_rotate {c : Cont α} (h : c.Ok) (xs : List α) :
    Rewrites (FixedAlg.reverseCopyRa xs c) c (writeFront c.vis xs.reverse) ∧ Rewrites (reverseCopyIn xs c) c (writeFront c.vis xs.reverse) ∧
    ∀ m ≤ xs.length, Rewrites (rotateCopyRa xs m c) c (writeFront c.vis (xs.drop m ++ xs.take m)) ∧
      Rewrites (FixedAlg.rotateCopyIn xs m c) c (writeFront c.vis (xs.drop m ++ xs.take m)) := by
  refine ⟨packRa_rewrites h (by simp) fun j hj _ => ?_, copyIn_rewrites h xs.reverse, fun m hm =>
    ⟨packRa_rewrites h (by simp; omega) fun j hj _ => ?_, ?_⟩⟩
  · rw [show (xs.length : ℤ) + -(1 + (j : ℤ)) = ((xs.length - 1 - j : ℕ) : ℤ) by omega, rdz_nat, List.getElem?_reverse (by omega)]
  · split_ifs with h1
    · rw [show (m : ℤ) + (j : ℤ) = ((m + j : ℕ) : ℤ) by omega, rdz_nat, List.getElem?_append_left (by simp; omega), List.getElem?_drop]
    · rw [show (j : ℤ) - ((xs.length : ℤ) - m) = ((j - (xs.length - m) : ℕ) : ℤ) by omega, rdz_nat,
        List.getElem?_append_right (by simp; omega), List.length_drop, List.getElem?_take_of_lt (by omega)]
  · have := collect_two h (s1 := fun args x => .go (args ++ [x])) (s2 := fun args x => .go (args ++ [x])) (f1 := fun x => [x]) (f2 := fun x => [x])
      (fun _ _ => rfl) (fun _ _ => rfl) (by simp) (by simp) (xs.drop m) (xs.take m)
    simpa [FixedAlg.rotateCopyIn] using this

/-- `swap_element_copy` -/
theorem C107_swap_element_copy {c : Cont α} (h : c.Ok) (xs : List α) {p q : ℕ} (hp : p < xs.length) (hq : q < xs.length) :
    Rewrites (swapElementCopyRa xs p q c) c (writeFront c.vis ((xs.set p xs[q]).set q xs[p])) ∧
    Rewrites (swapElementCopyIn xs p q c) c (writeFront c.vis ((xs.set p xs[q]).set q xs[p])) := by
  refine ⟨packRa_rewrites h (by simp) fun j hj _ => ?_, collect_read h (by simp) fun j hj => ?_⟩
  · rw [swap_get hp hq, rdz_nat, rdz_nat, rdz_nat]
    simp only [Nat.cast_inj]
  · rw [swap_get hp hq, rdz_nat, rdz_nat]
    simp only [Nat.cast_inj]

/-- `partition_copy` (of the elements for which there is room; the matching ones in converse order) and
`stable_partition_copy` -/
theorem C107_partition_copy {c : Cont α} (h : c.Ok) (p : α → Bool) (xs : List α) :
    Rewrites (FixedAlg.partitionCopy p xs c) c (writeFront c.vis
      (((xs.take c.vis.length).filter p).reverse ++ (xs.take c.vis.length).filter fun x => !p x)) ∧
    Rewrites (FixedAlg.stablePartitionCopy p xs c) c (writeFront c.vis (xs.filter p ++ xs.filter fun x => !p x)) := by
  constructor
  · have := partition_eq h p xs [] [] (by simp)
    simp only [List.append_nil, List.nil_append, List.length_nil, Nat.add_zero, Nat.sub_zero] at this
    rw [FixedAlg.partitionCopy, this]
    refine complate_rewrites h ?_
    rw [List.length_append, List.length_reverse]
    have := List.length_eq_length_filter_add (l := xs.take c.vis.length) p
    rw [List.length_take] at this
    omega
  · have := collect_two h (s1 := fun args x => .go (if p x then args ++ [x] else args))
      (s2 := fun args x => .go (if !p x then args ++ [x] else args)) (f1 := fun x => if p x then [x] else [])
      (f2 := fun x => if !p x then [x] else []) ?_ ?_ ?_ ?_ xs xs
    · rwa [flatMap_filter, flatMap_filter] at this
    · intro args x
      by_cases hp : p x = true <;> simp [hp]
    · intro args x
      by_cases hp : p x = true <;> simp [hp]
    · intro x
      by_cases hp : p x = true <;> simp [hp]
    · intro x
      by_cases hp : p x = true <;> simp [hp]

/-- the algorithms on the elements of the container itself: `reverse`, `rotate`, `swap_element`, `replace_if`, `remove_if`,
`stable_partition` -/
theorem C107_self {c : Cont α} (h : c.Ok) (p : α → Bool) (v : α) :
    Rewrites (FixedAlg.reverseCopyRa c.vis c) c c.vis.reverse ∧
    (∀ m ≤ c.vis.length, Rewrites (rotateCopyRa c.vis m c) c (c.vis.drop m ++ c.vis.take m)) ∧
    (∀ i j, ∀ (hi : i < c.vis.length) (hj : j < c.vis.length),
      Rewrites (swapElementCopyRa c.vis i j c) c ((c.vis.set i c.vis[j]).set j c.vis[i])) ∧
    Rewrites (replaceCopyIfRa p v c.vis c) c (c.vis.map fun x => if p x then v else x) ∧
    Rewrites (FixedAlg.stablePartitionCopy p c.vis c) c (c.vis.filter p ++ c.vis.filter fun x => !p x) := by
  have key : ∀ w : List α, w.length = c.vis.length → writeFront c.vis w = w := by
    intro w hw
    rw [writeFront, ← hw, List.take_length, hw, List.drop_length, List.append_nil]
  refine ⟨?_, fun m hm => ?_, fun i j hi hj => ?_, ?_, ?_⟩
  · have := (C107_reverse_rotate h c.vis).1
    rwa [key _ (by simp)] at this
  · have := ((C107_reverse_rotate h c.vis).2.2 m hm).1
    rwa [key _ (by simp; omega)] at this
  · have := (C107_swap_element_copy h c.vis hi hj).1
    rwa [key _ (by simp)] at this
  · have := (C107_replace_copy h p v c.vis).1
    rwa [key _ (by simp)] at this
  · have := (C107_partition_copy h p c.vis).2
    rwa [key _ (by rw [List.length_append, ← List.length_eq_length_filter_add])] at this

/-! ## examples -/

/-- a window of three elements in an array of five -/
example : (Cont.sub (.array [1, 2, 3, 4, 5]) 1 4).Ok ∧ (Cont.sub (.array [1, 2, 3, 4, 5]) 1 4).vis = [2, 3, 4] := by decide +kernel
example : FixedAlg.copyRa [7, 8] (.sub (.array [1, 2, 3, 4, 5]) 1 4) = some (.sub (.array [1, 7, 8, 4, 5]) 1 4) := by decide +kernel
example : FixedAlg.copyIn [7, 8, 9, 10] (.sub (.array [1, 2, 3, 4, 5]) 1 4) = some (.sub (.array [1, 7, 8, 9, 5]) 1 4) := by decide +kernel
example : FixedAlg.copyBackwardIn [7, 8] (.sub (.array [1, 2, 3, 4, 5]) 1 4) = some (.sub (.array [1, 2, 7, 8, 5]) 1 4) := by decide +kernel
example : writeBack [2, 3, 4] [7, 8] = [2, 7, 8] ∧ writeFront [2, 3, 4] [7, 8] = [7, 8, 4] := by decide +kernel
example : internalEnd (.sub (.array [1, 2, 3, 4, 5]) 1 4 : Cont Nat) = 5 := by decide +kernel
example : FixedAlg.copyIf (· > 4) [3, 5, 6] (.array [1, 2, 3]) = some (.array [5, 6, 3]) := by decide +kernel
example : FixedAlg.fillN (.sub (.array [1, 2, 3, 4, 5]) 1 4) 2 9 = some (.sub (.array [1, 9, 9, 4, 5]) 1 4) := by decide +kernel
example : FixedAlg.generateN (.array [0, 0, 0, 0]) 3 (fun s => (s * s, s + 1)) 2 = some (.array [4, 9, 16, 0]) := by decide +kernel
example : FixedAlg.recurrence (.array [0, 0, 0, 0, 0]) List.sum [1, 1] = some (.array [1, 1, 2, 3, 5]) := by decide +kernel
example : recTerms List.sum 2 3 [1, 1] = [1, 1, 2, 3, 5] := by decide +kernel
example : FixedAlg.uniqueCopy (· == ·) [1, 1, 2, 2, 1] (.array [9, 9, 9, 9]) = some (.array [1, 2, 1, 9]) := by decide +kernel
example : FixedAlg.rotateCopyIn [1, 2, 3, 4] 1 (.array [0, 0, 0]) = some (.array [2, 3, 4]) := by decide +kernel
example : FixedAlg.partitionCopy (· > 4) [5, 3, 6, 1] (.array [0, 0, 0, 0]) = some (.array [6, 5, 3, 1]) := by decide +kernel
example : FixedAlg.stablePartitionCopy (· > 4) [5, 3, 6, 1] (.array [0, 0, 0, 0]) = some (.array [5, 6, 3, 1]) := by decide +kernel
example : (FixedAlg.reverseCopyRa [1, 2, 3] (.string [7, 8, 0, 0] 2)) = some (.string [3, 2, 0, 0] 2) := by decide +kernel

end Sprout

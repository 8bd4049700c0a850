import Verif.Proofs.FitAlg
import Verif.Props.C107
import Verif.Props.C108
import Verif.Props.C109
import Verif.Props.C110
import Verif.Props.C111

/-!
# C112: algorithms that return windows

`sprout::fit`: the window that an algorithm returns shows exactly the elements that the algorithm has written (`Fits`), as many of
them as the container has room for. `ra` says whether the iterators of the input range are random access ones.
-/

namespace Sprout

open ContOp FixedAlg FitAlg Spec
open SetIter (listOf iterate_eq of_setOp)

variable {α β γ : Type} [Inhabited α] {comp : α → α → Bool}

/-! ## copies of a range -/

theorem C112_copy {c : Cont α} (h : c.Ok) (ra : Bool) (xs : List α) :
    Fits (FitAlg.copy ra xs c) c (xs.take c.vis.length) ∧
    ∀ n ≤ xs.length, Fits (FitAlg.copyN ra xs n c) c ((xs.take n).take c.vis.length) := by
  refine ⟨copied_fits h ?_ rfl, fun n hn => copied_fits h ?_ (by simp; omega)⟩
  · cases ra
    · exact (C107_copy h xs).2.1
    · exact (C107_copy h xs).1
  · cases ra
    · exact ((C107_copy h xs).2.2 n hn).2
    · exact ((C107_copy h xs).2.2 n hn).1

theorem length_takeWhile (p : α → Bool) (xs : List α) : (xs.takeWhile p).length = xs.findIdx fun x => !p x := by
  induction xs with
  | nil => rfl
  | cons x xs ih => by_cases hp : p x = true <;> simp [hp, List.findIdx_cons, ih]

/-- `copy_if`, `copy_while`, `copy_until` -/
theorem C112_copy_if {c : Cont α} (h : c.Ok) (ra : Bool) (p : α → Bool) (xs : List α) :
    Fits (FitAlg.copyIf ra p xs c) c ((xs.filter p).take c.vis.length) ∧
    Fits (FitAlg.copyWhile ra p xs c) c ((xs.takeWhile p).take c.vis.length) ∧
    Fits (FitAlg.copyUntil ra p xs c) c ((xs.takeWhile fun x => !p x).take c.vis.length) := by
  obtain ⟨h1, h2, h3, h4, h5⟩ := C107_copy_if h p xs
  have f1 : ∀ q : α → Bool, findIfRa xs 0 xs.length q = some (xs.findIdx q) := fun q => by
    simpa using findIfRa_eq [] xs [] q
  have f2 : ∀ q : α → Bool, findIfIn xs 0 xs.length q = some (xs.findIdx q) := fun q => by
    simpa using findIfIn_eq [] xs [] q
  refine ⟨?_, ?_, ?_⟩
  · rw [FitAlg.copyIf, countOf_eq]
    exact copied_fits h h1 List.countP_eq_length_filter.symm
  · have e1 : findIfNotRa xs 0 xs.length p = some (xs.findIdx fun x => !p x) := f1 fun x => !p x
    have e2 : findIfNotIn xs 0 xs.length p = some (xs.findIdx fun x => !p x) := f2 fun x => !p x
    rw [FitAlg.copyWhile, e1, e2, ite_self]
    refine copied_fits h ?_ (length_takeWhile p xs)
    cases ra
    · exact h3
    · exact h2
  · rw [FitAlg.copyUntil, f1, f2, ite_self]
    refine copied_fits h ?_ (by simpa using length_takeWhile (fun x => !p x) xs)
    cases ra
    · exact h5
    · exact h4

/-- `copy_backward`: the window lies at the end. Missing, as in C107: a list into a string shorter than its capacity. -/
theorem C112_copy_backward_partial {c : Cont α} (h : c.Ok) (ra : Bool) (hI : ra = true ∨ internalEnd c = c.static) (xs : List α) :
    FitsEnd (FitAlg.copyBackward ra xs c) c (xs.drop (xs.length - c.vis.length)) := by
  have hr : Rewrites (if ra then copyBackwardRa xs c else copyBackwardIn xs c) c (writeBack c.vis xs) := by
    cases ra
    · exact (C107_copy_backward_partial h xs).2 (by simpa using hI)
    · exact (C107_copy_backward_partial h xs).1
  obtain ⟨x, e, h1, h2, h3, h4, h5, -⟩ := hr
  obtain ⟨_, _, hp⟩ := parts' h
  obtain ⟨_, _, hx⟩ := parts' h1
  have e1 := hp.len
  have e2 := hx.len
  have ee : c.endOff = c.beginOff + c.size := by
    cases c <;> simp [Cont.endOff, Cont.beginOff, Cont.size]
  have hl : (writeBack c.vis xs).length = c.vis.length := by simp [writeBack]; omega
  obtain ⟨a1, a2, a3, a4⟩ := subCopy_part h1 (a := c.vis.length - min xs.length c.vis.length) (b := c.vis.length) (by omega) (by omega)
  have hw : subCopy (getInternal x) (c.endOff - fitSize c xs.length) c.endOff =
      subCopy (getInternal x) (x.beginOff + ((c.vis.length - min xs.length c.vis.length : ℕ) : ℤ)) (x.beginOff + (c.vis.length : ℕ)) := by
    rw [fitSize_nat h]
    congr 1 <;> omega
  refine ⟨subCopy (getInternal x) (c.endOff - fitSize c xs.length) c.endOff, by rw [FitAlg.copyBackward, e]; rfl, ?_, ?_, ?_⟩
  · rw [hw]; exact a1
  · rw [hw, a3]; omega
  · rw [hw, a4, h5, writeBack, show c.vis.length - min xs.length c.vis.length = (c.vis.take (c.vis.length - xs.length)).length by simp; omega,
      List.drop_left]
    exact List.take_of_length_le (by simp; omega)

theorem C112_transform {c : Cont α} (h : c.Ok) (ra : Bool) (f : β → α) (f2 : β → γ → α) (xs : List β) (ys : List γ) :
    Fits (FitAlg.transform ra f xs c) c ((xs.map f).take c.vis.length) ∧
    (xs.length ≤ ys.length → Fits (FitAlg.transform2 ra f2 xs ys c) c ((List.zipWith f2 xs ys).take c.vis.length)) := by
  obtain ⟨h1, h2, h3⟩ := C107_transform h f f2 xs ys
  refine ⟨copied_fits h ?_ (by simp), fun hl => copied_fits h ?_ (by simp; omega)⟩
  · cases ra
    · exact h2
    · exact h1
  · cases ra
    · exact (h3 hl).2
    · exact (h3 hl).1

theorem C112_replace_copy {c : Cont α} (h : c.Ok) (ra : Bool) (p : α → Bool) (v : α) (xs : List α) :
    Fits (FitAlg.replaceCopyIf ra p v xs c) c ((xs.map fun x => if p x then v else x).take c.vis.length) := by
  refine copied_fits h ?_ (by simp)
  cases ra
  · exact (C107_replace_copy h p v xs).2
  · exact (C107_replace_copy h p v xs).1

theorem C112_clamp_range_copy {c : Cont α} (h : c.Ok) (ra : Bool) (comp : α → α → Bool) (low high : α) (xs : List α) :
    Fits (FitAlg.clampRangeCopy ra comp low high xs c) c
      ((xs.map fun x => if comp x low then low else if comp high x then high else x).take c.vis.length) := by
  refine copied_fits h ?_ (by simp)
  cases ra
  · exact (C107_clamp_range_copy h comp low high xs).2
  · exact (C107_clamp_range_copy h comp low high xs).1

theorem length_filter_not (p : α → Bool) (xs : List α) : (xs.filter fun x => !p x).length + xs.countP p = xs.length := by
  have := List.length_eq_countP_add_countP p (l := xs)
  rw [← List.countP_eq_length_filter]
  simp only [Bool.not_eq_true] at this
  have e : xs.countP (fun x => !p x) = xs.countP (fun x => decide (p x = false)) := by congr 1; funext x; cases p x <;> rfl
  omega

/-- `remove_copy`, `remove_copy_if`; `remove`, `remove_if` -/
theorem C112_remove {c : Cont α} (h : c.Ok) (ra : Bool) (p : α → Bool) (xs : List α) :
    Fits (FitAlg.removeCopyIf ra p xs c) c ((xs.filter fun x => !p x).take c.vis.length) ∧
    Fits (FitAlg.removeIf p c) c (c.vis.filter fun x => !p x) := by
  obtain ⟨_, _, hp⟩ := parts' h
  have hlen := hp.len
  constructor
  · rw [FitAlg.removeCopyIf, countOf_eq]
    have := length_filter_not p xs
    refine written_fits h (C107_remove_copy h p xs) ?_
    rw [show (xs.length : ℤ) - (xs.countP p : ℕ) = ((xs.filter fun x => !p x).length : ℕ) by omega, fitSize_nat h]
  · rw [FitAlg.removeIf, elems_eq h]
    simp only [Option.bind_eq_bind, Option.bind_some]
    rw [countOf_eq]
    have := length_filter_not p c.vis
    have hw := written_fits h (C107_remove_copy h p c.vis) (k := c.size - (c.vis.countP p : ℕ)) (by omega)
    rwa [List.take_of_length_le (by omega)] at hw

/-- `unique_copy`, `unique` with an equivalence relation. Missing: relations that are not equivalences, and windows without
elements as in C107. -/
theorem C112_unique_partial {c : Cont α} (h : c.Ok) (ra : Bool) {p : α → α → Bool} (hp : FitAlg.Equiv p) (xs : List α)
    (hs : 0 < c.size ∨ xs = []) :
    Fits (FitAlg.uniqueCopy ra p xs c) c ((dedup p xs).take c.vis.length) ∧
    (c.vis ≠ [] ∨ c.static = 0 → Fits (FitAlg.unique p c) c (dedup p c.vis)) := by
  obtain ⟨_, _, hq⟩ := parts' h
  have hlen := hq.len
  constructor
  · rw [FitAlg.uniqueCopy, overlapCount_eq hp.symm]
    have := FitAlg.dedup_length hp xs
    refine written_fits h (C107_unique_copy_partial h p xs hs) ?_
    rw [show (xs.length : ℤ) - (overlaps p xs : ℕ) = ((dedup p xs).length : ℕ) by omega, fitSize_nat h]
  · intro hv
    rw [FitAlg.unique, elems_eq h]
    simp only [Option.bind_eq_bind, Option.bind_some]
    rw [overlapCount_eq hp.symm]
    have := FitAlg.dedup_length hp c.vis
    have hs : 0 < c.size ∨ c.vis = [] := by
      by_cases e : c.vis = []
      · exact .inr e
      · have := List.length_pos_iff.2 e
        exact .inl (by omega)
    have hw := written_fits h (C107_unique_copy_partial h p c.vis hs) (k := c.size - (overlaps p c.vis : ℕ)) (by omega)
    rwa [List.take_of_length_le (by omega)] at hw

/-- `reverse_copy`, `rotate_copy`, `swap_element_copy` -/
theorem C112_reverse_rotate_swap {c : Cont α} (h : c.Ok) (ra : Bool) (xs : List α) :
    Fits (FitAlg.reverseCopy ra xs c) c (xs.reverse.take c.vis.length) ∧
    (∀ m ≤ xs.length, Fits (FitAlg.rotateCopy ra xs m c) c ((xs.drop m ++ xs.take m).take c.vis.length)) ∧
    ∀ p q : ℕ, ∀ (hp : p < xs.length) (hq : q < xs.length),
      Fits (FitAlg.swapElementCopy ra xs p q c) c (((xs.set p xs[q]).set q xs[p]).take c.vis.length) := by
  obtain ⟨h1, h2, h3⟩ := C107_reverse_rotate h xs
  refine ⟨copied_fits h ?_ (by simp), fun m hm => copied_fits h ?_ (by simp; omega), fun p q hp hq => copied_fits h ?_ (by simp)⟩
  · cases ra
    · exact h2
    · exact h1
  · cases ra
    · exact (h3 m hm).2
    · exact (h3 m hm).1
  · cases ra
    · exact (C107_swap_element_copy h xs hp hq).2
    · exact (C107_swap_element_copy h xs hp hq).1

theorem writeFront_prefix {v a b : List α} (h : (a ++ b).length ≤ v.length) : (writeFront v (a ++ b)).take a.length = a := by
  rw [writeFront, List.take_of_length_le h, List.append_assoc, List.take_left]

/-- `partition_copy`, `stable_partition_copy`: the elements with `p` -/
theorem C112_partition_copy {c : Cont α} (h : c.Ok) (ra : Bool) (p : α → Bool) (xs : List α) :
    Fits (FitAlg.partitionCopy p xs c) c ((xs.take c.vis.length).filter p).reverse ∧
    Fits (FitAlg.stablePartitionCopy ra p xs c) c ((xs.filter p).take c.vis.length) := by
  obtain ⟨_, _, hq⟩ := parts' h
  have hlen := hq.len
  obtain ⟨h1, h2⟩ := C107_partition_copy h p xs
  have hl := length_filter_not p (xs.take c.vis.length)
  have hl' := List.countP_eq_length_filter (p := p) (l := xs.take c.vis.length)
  have hl2 := List.countP_eq_length_filter (p := p) (l := xs)
  have hle : (xs.take c.vis.length).length ≤ c.vis.length := by simp
  constructor
  · rw [FitAlg.partitionCopy, countNIf_eq _ _ _ (by omega), show c.size.toNat = c.vis.length by omega,
      show xs.take (min xs.length c.vis.length) = xs.take c.vis.length by
        rw [Nat.min_comm, ← List.take_take, List.take_length]]
    have := window_fits h h1 (n := (xs.take c.vis.length).countP p) (k := fitSize c ((xs.take c.vis.length).countP p : ℕ))
      (by rw [fitSize_nat h]; omega) (by omega)
    have e : ∀ n, n = ((xs.take c.vis.length).filter p).reverse.length → (writeFront c.vis
        (((xs.take c.vis.length).filter p).reverse ++ (xs.take c.vis.length).filter fun x => !p x)).take n =
        ((xs.take c.vis.length).filter p).reverse := by
      rintro n rfl
      exact writeFront_prefix (by simp only [List.length_append, List.length_reverse]; omega)
    rwa [e _ (by simp only [List.length_reverse]; omega)] at this
  · rw [FitAlg.stablePartitionCopy, countOf_eq]
    have := window_fits h h2 (n := min (xs.countP p) c.vis.length) (fitSize_nat h _) (by omega)
    rw [writeFront, List.take_append_of_le_length (by simp; omega), List.take_take,
      show min (min (xs.countP p) c.vis.length) c.vis.length = min c.vis.length (xs.filter p).length by omega,
      ← List.take_take, List.take_left] at this
    exact this

theorem writeFront_all {v ws : List α} (h : ws.length = v.length) : writeFront v ws = ws := by
  rw [writeFront, List.take_of_length_le h.le, List.drop_of_length_le h.ge, List.append_nil]

theorem C112_merge (hc : StrictWeak comp) (xs ys : List α) (hx : SortedBy comp xs) (hy : SortedBy comp ys) :
    ∃ zs, StableSorted comp (xs ++ ys) zs ∧ zs.Perm (xs ++ ys) ∧
      ∀ c : Cont α, c.Ok → Fits (FitAlg.merge comp xs ys c) c (zs.take c.vis.length) := by
  obtain ⟨zs, h1, h2, h3⟩ := C109_merge hc xs ys hx hy
  refine ⟨zs, h1, h2, fun c h => ?_⟩
  have := copied_fits h (h3 c h) (n := xs.length + ys.length) (by simpa using h2.length_eq)
  rwa [Nat.cast_add] at this

/-- the operation shows, as far as there is room, a sorted list whose classes of equivalent elements are given by `F` -/
def FitSetOp (f : List α → List α → Cont α → Option (Cont α)) (comp : α → α → Bool) (F : List α → List α → List α) : Prop :=
  ∀ (xs ys : List α), SortedBy comp xs → SortedBy comp ys →
    ∃ zs, SortedBy comp zs ∧ (∀ v, cls comp v zs = F (cls comp v xs) (cls comp v ys)) ∧
      ∀ c : Cont α, c.Ok → Fits (f xs ys c) c (zs.take c.vis.length)

theorem C112_set_union (hc : StrictWeak comp) : FitSetOp (FitAlg.setUnion comp) comp (fun a b => a ++ b.drop a.length) := by
  intro xs ys hx hy
  obtain ⟨s, k⟩ := of_setOp (k := .union) (C13_set_union comp hc) xs ys hx hy
  refine ⟨_, s, k, fun c h => ?_⟩
  rw [FitAlg.setUnion, setOverlapCount_eq]
  have hl := zm_length comp true true true xs ys
  refine written_fits h (mergeImpl_rewrites h _ _ _ _ _) ?_
  rw [show (xs.length : ℤ) + ys.length - (common comp xs ys : ℕ) = ((listOf comp .union xs ys).length : ℕ) by
    simp only [Bool.toNat_true, Nat.cast_one, one_mul] at hl
    exact Eq.trans (by ring) hl.symm, fitSize_nat h]
  rfl

theorem C112_set_intersection (hc : StrictWeak comp) : FitSetOp (FitAlg.setIntersection comp) comp (fun a b => a.take b.length) := by
  intro xs ys hx hy
  obtain ⟨s, k⟩ := of_setOp (k := .inter) (C13_set_intersection comp hc) xs ys hx hy
  refine ⟨_, s, k, fun c h => ?_⟩
  rw [FitAlg.setIntersection, setOverlapCount_eq]
  have hl := zm_length comp false false true xs ys
  refine written_fits h (mergeImpl_rewrites h _ _ _ _ _) ?_
  rw [show ((common comp xs ys : ℕ) : ℤ) = ((listOf comp .inter xs ys).length : ℕ) by
    simp only [Bool.toNat_true, Bool.toNat_false, Nat.cast_one, Nat.cast_zero, one_mul, zero_mul, zero_add] at hl
    exact hl.symm, fitSize_nat h]
  rfl

theorem C112_set_difference (hc : StrictWeak comp) : FitSetOp (FitAlg.setDifference comp) comp (fun a b => a.drop b.length) := by
  intro xs ys hx hy
  obtain ⟨s, k⟩ := of_setOp (k := .diff) (C13_set_difference comp hc) xs ys hx hy
  refine ⟨_, s, k, fun c h => ?_⟩
  rw [FitAlg.setDifference, setOverlapCount_eq]
  have hl := zm_length comp true false false xs ys
  refine written_fits h (mergeImpl_rewrites h _ _ _ _ _) ?_
  rw [show (xs.length : ℤ) - (common comp xs ys : ℕ) = ((listOf comp .diff xs ys).length : ℕ) by
    simp only [Bool.toNat_true, Bool.toNat_false, Nat.cast_one, Nat.cast_zero, one_mul, zero_mul, add_zero] at hl
    exact hl.symm, fitSize_nat h]
  rfl

theorem C112_set_symmetric_difference (hc : StrictWeak comp) :
    FitSetOp (FitAlg.setSymmetricDifference comp) comp (fun a b => a.drop b.length ++ b.drop a.length) := by
  intro xs ys hx hy
  obtain ⟨s, k⟩ := of_setOp (k := .symm) (C13_set_symmetric_difference comp hc) xs ys hx hy
  refine ⟨_, s, k, fun c h => ?_⟩
  rw [FitAlg.setSymmetricDifference, setOverlapCount_eq]
  have hl := zm_length comp true true false xs ys
  refine written_fits h (mergeImpl_rewrites h _ _ _ _ _) ?_
  rw [show (xs.length : ℤ) + ys.length - 2 * (common comp xs ys : ℕ) = ((listOf comp .symm xs ys).length : ℕ) by
    simp only [Bool.toNat_true, Bool.toNat_false, Nat.cast_one, Nat.cast_zero, one_mul, zero_mul, add_zero] at hl
    exact Eq.trans (by ring) hl.symm, fitSize_nat h]
  rfl

/-! ## changes of a container -/

/-- algorithms that change the whole container return all of it: whatever C107–C111 say of `fixed::f` holds for what `fit::f` shows -/
theorem C112_whole {c : Cont α} (h : c.Ok) {r : Option (Cont α)} {w : List α} (hr : Rewrites r c w) : Fits (whole c r) c w :=
  whole_fits h hr

/-- the same for the algorithms that return something else as well -/
theorem C112_whole_pair {σ : Type} {c : Cont α} (h : c.Ok) {r : Option (Cont α × σ)} {w : List α} (hr : Rewrites (r.map (·.1)) c w) :
    Fits ((wholeFst c r).map (·.1)) c w ∧ (wholeFst c r).map (·.2) = r.map (·.2) ∧
    Fits ((wholeResult c r).map (·.1)) c w ∧ (wholeResult c r).map (·.2) = r.map (·.2) := by
  have h1 := whole_fits h hr
  have e : ∀ x : Cont α × σ, r = some x → x.1.size = c.size := by
    rintro x rfl
    obtain ⟨y, hy, -, -, -, h4, -⟩ := hr
    simp only [Option.map_some, Option.some.injEq] at hy
    rw [hy, h4]
  cases r with
  | none => obtain ⟨y, hy, -⟩ := hr; cases hy
  | some x => exact ⟨h1, rfl, by simpa [wholeResult, whole, e x rfl] using h1, rfl⟩

/-- `fill_n`, `generate_n`, `unfold_n`, `recurrence_n` -/
theorem C112_first_n {σ : Type} {c : Cont α} (h : c.Ok) {n : ℕ} (hn : n ≤ c.vis.length) (v : α) (g : σ → α × σ) (s : σ) (gen : List α → α)
    (inits : List α) :
    Fits (firstN c n (FixedAlg.fillN c n v)) c (List.replicate n v) ∧
    Fits (firstN c n (FixedAlg.generateN c n g s)) c (genTerms g n s) ∧
    (inits.length ≤ n → Fits (firstN c n (FixedAlg.recurrenceN c n gen inits)) c (recTerms gen inits.length (n - inits.length) inits)) := by
  obtain ⟨_, _, hq⟩ := parts' h
  have hlen := hq.len
  have key : ∀ {r : Option (Cont α)} {ws : List α}, ws.length = n → Rewrites r c (writeFront c.vis ws) → Fits (firstN c n r) c ws := by
    intro r ws hl hr
    have := written_fits h hr (k := min n c.size) (by omega)
    rwa [List.take_of_length_le (by omega)] at this
  have hg : ∀ n s, (genTerms g n s).length = n := by
    intro n; induction n with
    | zero => intro s; rfl
    | succ n ih => intro s; simp [genTerms, ih]
  have hrec : ∀ n (l : List α), (recTerms gen inits.length n l).length = l.length + n := by
    intro n; induction n with
    | zero => intro l; rfl
    | succ n ih => intro l; simp [recTerms, ih]; omega
  exact ⟨key (by simp) ((C107_fill h v).2 n hn), key (hg _ _) ((C107_generate h g s).2 n hn),
    fun hi => key (by rw [hrec]; omega) ((C107_recurrence_partial h gen inits).2 n hn hi)⟩

/-- `pop_heap`: the heap that remains -/
theorem C112_pop_heap (hc : StrictWeak comp) {c : Cont α} (h : c.Ok) {a : α} {l : List α} (hv : c.vis = a :: l) (hA : Spec.IsHeap comp c.vis) :
    ∃ A, Fits (FitAlg.popHeap comp c) c A ∧ A.Perm l ∧ Spec.IsHeap comp A := by
  obtain ⟨_, _, hq⟩ := parts' h
  have hlen := hq.len
  obtain ⟨A, h1, h2, h3, -⟩ := C108_pop_heap hc h hv hA
  have hl := h2.length_eq
  have := window_fits h h1 (n := A.length) (k := c.size - 1) (by simp [hv] at hlen; omega) (by simp [hv]; omega)
  rw [List.take_left] at this
  exact ⟨A, this, h2, h3⟩

/-- `make_partial_heap`, `partial_sort`: the elements before `middle` -/
theorem C112_partial_sort (hc : StrictWeak comp) {c : Cont α} (h : c.Ok) {m : ℕ} (hm : m ≤ c.vis.length) :
    (∃ A B, Fits (FitAlg.makePartialHeap comp m c) c A ∧ A.length = m ∧ (A ++ B).Perm c.vis ∧ Spec.IsHeap comp A ∧
      ∀ a ∈ A, ∀ b ∈ B, comp b a = false) ∧
    ∃ A B, Fits (FitAlg.partialSort comp m c) c A ∧ A.length = m ∧ (A ++ B).Perm c.vis ∧ SortedBy comp A ∧
      ∀ a ∈ A, ∀ b ∈ B, comp b a = false := by
  constructor
  · obtain ⟨A, B, h1, h2, h3⟩ := C108_make_partial_heap hc h hm
    have := window_fits h h1 (n := A.length) (k := m) (by omega) (by omega)
    rw [List.take_left] at this
    exact ⟨A, B, this, h2, h3⟩
  · obtain ⟨A, B, h1, h2, h3⟩ := C108_partial_sort hc h hm
    have := window_fits h h1 (n := A.length) (k := m) (by omega) (by omega)
    rw [List.take_left] at this
    exact ⟨A, B, this, h2, h3⟩

/-- `nth_element`: the elements up to the `m`-th. Missing, as in C108: `m` at the end. -/
theorem C112_nth_element_partial (hc : StrictWeak comp) {c : Cont α} (h : c.Ok) {m : ℕ} (hm : m < c.vis.length) :
    ∃ A x B, Fits (FitAlg.nthElement comp m c) c (A ++ [x]) ∧ A.length = m ∧ (A ++ x :: B).Perm c.vis ∧
      (∀ a ∈ A, comp x a = false) ∧ ∀ b ∈ B, comp b x = false := by
  obtain ⟨A, x, B, h1, h2, h3⟩ := C108_nth_element_partial hc h hm
  have := window_fits h h1 (n := (A ++ [x]).length) (k := m + 1) (by simp; omega) (by simp; omega)
  rw [show A ++ x :: B = (A ++ [x]) ++ B by simp, List.take_left] at this
  exact ⟨A, x, B, this, h2, h3⟩

/-- `partition`, `stable_partition`: the window shows as many elements of the partitioned container as do NOT have `p`; it shows the
elements with `p`, as it should, when these are one half. -/
theorem C112_partition_partial {c : Cont α} (h : c.Ok) (p : α → Bool) :
    Fits (FitAlg.partition p c) c (((c.vis.filter p).reverse ++ c.vis.filter fun x => !p x).take (c.vis.filter fun x => !p x).length) ∧
    Fits (FitAlg.stablePartition p c) c ((c.vis.filter p ++ c.vis.filter fun x => !p x).take (c.vis.filter fun x => !p x).length) ∧
    (c.vis.length = 2 * c.vis.countP p → Fits (FitAlg.partition p c) c (c.vis.filter p).reverse ∧
      Fits (FitAlg.stablePartition p c) c (c.vis.filter p)) := by
  obtain ⟨_, _, hq⟩ := parts' h
  have hlen := hq.len
  obtain ⟨h1, h2⟩ := C107_partition_copy h p c.vis
  have hl := length_filter_not p c.vis
  have hl' := List.countP_eq_length_filter (p := p) (l := c.vis)
  have k1 : Fits (FitAlg.partition p c) c (((c.vis.filter p).reverse ++ c.vis.filter fun x => !p x).take (c.vis.filter fun x => !p x).length) := by
    rw [FitAlg.partition, elems_eq h]
    simp only [Option.bind_eq_bind, Option.bind_some]
    rw [countOf_eq]
    have := window_fits h h1 (n := (c.vis.filter fun x => !p x).length) (k := c.size - (c.vis.countP p : ℕ)) (by omega) (by omega)
    rwa [List.take_length, writeFront_all (by simp only [List.length_append, List.length_reverse]; omega)] at this
  have k2 : Fits (FitAlg.stablePartition p c) c ((c.vis.filter p ++ c.vis.filter fun x => !p x).take (c.vis.filter fun x => !p x).length) := by
    rw [FitAlg.stablePartition, elems_eq h]
    simp only [Option.bind_eq_bind, Option.bind_some]
    rw [countOf_eq]
    have := window_fits h h2 (n := (c.vis.filter fun x => !p x).length) (k := c.size - (c.vis.countP p : ℕ)) (by omega) (by omega)
    rwa [writeFront_all (by simp only [List.length_append]; omega)] at this
  refine ⟨k1, k2, fun hh => ⟨?_, ?_⟩⟩
  · rwa [show (c.vis.filter fun x => !p x).length = (c.vis.filter p).reverse.length by simp only [List.length_reverse]; omega, List.take_left] at k1
  · rwa [show (c.vis.filter fun x => !p x).length = (c.vis.filter p).length by omega, List.take_left] at k2

/-! ## numeric -/

/-- scans. Missing, as in C111: windows without elements, the exclusive scan of an empty range, and the inclusive scan with an
initial value, which shows that value first. -/
theorem C112_scan_partial (op : α → α → α) (un : β → α) (x : β) (xs : List β) (ys : List α) (init : α) {c : Cont α} (h : c.Ok)
    (hc : c.vis ≠ [] ) :
    (∃ w, Fits (FitAlg.transformInclusiveScan op un (x :: xs) c) c (w.take c.vis.length) ∧ Inclusive op ((x :: xs).map un) w) ∧
    (∃ w, Fits (FitAlg.transformExclusiveScan op un (x :: xs) init c) c (w.take c.vis.length) ∧ Exclusive op init ((x :: xs).map un) w) ∧
    (∃ w, Fits (FitAlg.inclusiveScanInit op ys init c) c ((init :: w).take c.vis.length) ∧ InclusiveInit op init ys w) := by
  obtain ⟨_, _, hq⟩ := parts' h
  have hlen := hq.len
  obtain ⟨w1, a1, a2⟩ := (C111_inclusive_scan_partial op un (x :: xs) ys h (.inl hc)).1
  obtain ⟨w2, b1, b2⟩ := (C111_exclusive_scan_partial op un x xs default ys init h (.inl hc)).1
  obtain ⟨w3, d1, d2⟩ := (C111_inclusive_scan_init_partial op un xs ys init h hc).2
  refine ⟨⟨w1, written_fits h a1 ?_, a2⟩, ⟨w2, written_fits h b1 ?_, b2⟩, ⟨w3, written_fits h d1 ?_, d2⟩⟩
  · have := a2.1
    simp at this ⊢
    omega
  · have := b2.1
    simp at this ⊢
    omega
  · have := d2.1
    simp at this ⊢
    omega

/-! ## refutations -/

/-- of `1, 2, 3, 4, 5, 6` those below 3: `partition` and `stable_partition` show four elements, two of which are not below 3 -/
theorem C112_partition_refuted :
    (FitAlg.stablePartition (· < 3) (.array [1, 2, 3, 4, 5, (6 : ℕ)])).map Cont.vis = some [1, 2, 3, 4] ∧
    (FitAlg.partition (· < 3) (.array [1, 2, 3, 4, 5, (6 : ℕ)])).map Cont.vis = some [2, 1, 3, 4] ∧
    (FitAlg.stablePartitionCopy true (· < 3) [1, 2, 3, 4, 5, 6] (.array [0, 0, 0, 0, 0, (0 : ℕ)])).map Cont.vis = some [1, 2] := by
  have e : ∀ l : List ℕ, elems (.array l) = some l := fun l => by
    rw [elems_eq (c := .array l) trivial, vis_array]
  refine ⟨?_, ?_, ?_⟩
  · simp only [FitAlg.stablePartition, e, Option.bind_eq_bind, Option.bind_some, countOf_eq]
    decide +kernel
  · simp only [FitAlg.partition, e, Option.bind_eq_bind, Option.bind_some, countOf_eq]
    decide +kernel
  · simp only [FitAlg.stablePartitionCopy, Option.bind_eq_bind, Option.bind_some, countOf_eq]
    decide +kernel

/-- with a relation that is not transitive, `unique` shows an element too few: the pairs 1 2 and 2 3 are near each other, but 3 is kept
as it is not near 1 -/
theorem C112_unique_refuted :
    (FitAlg.unique (fun x y => decide (x ≤ y + 1 ∧ y ≤ x + 1)) (.array [1, 2, (3 : ℕ)])).map Cont.vis = some [1] ∧
    dedup (fun x y => decide (x ≤ y + 1 ∧ y ≤ x + 1)) [1, 2, 3] = [1, 3] := by
  refine ⟨?_, by decide +kernel⟩
  have e : ∀ l : List ℕ, elems (.array l) = some l := fun l => by
    rw [elems_eq (c := .array l) trivial, vis_array]
  simp only [FitAlg.unique, e, Option.bind_eq_bind, Option.bind_some, overlapCount, if_true, overlapRa_eq]
  decide +kernel

/-- `pop_heap` of a container without elements -/
theorem C112_pop_heap_empty_refuted : ¬ ∃ w, Fits (FitAlg.popHeap (fun x y => decide (x < y)) (.array ([] : List ℕ))) (.array []) w := by
  rintro ⟨w, x, e, h, -⟩
  have : FitAlg.popHeap (fun x y => decide (x < y)) (.array ([] : List ℕ)) = some (.sub (.array []) 0 (-1)) ∨
      FitAlg.popHeap (fun x y => decide (x < y)) (.array ([] : List ℕ)) = none := by decide +kernel
  rcases this with h1 | h1
  · rw [h1] at e
    cases e
    revert h
    simp [Cont.InBounds, Cont.beginOff, Cont.endOff, Cont.size]
  · rw [h1] at e; cases e

/-! ## examples -/

private def arr : Cont ℕ := .sub (.array [9, 9, 9, 9, 9]) 1 4

example : FitAlg.copyIf true (· < 3) [1, 5, 2, 7] arr = some (.sub (.array [9, 1, 2, 9, 9]) 1 3) := by
  rw [FitAlg.copyIf, countOf_eq]; decide +kernel
example : FitAlg.copy false [1, 5, 2, 7] arr = some (.sub (.array [9, 1, 5, 2, 9]) 1 4) := by decide +kernel
example : FitAlg.copyBackward true [1, 5] arr = some (.sub (.array [9, 9, 1, 5, 9]) 2 4) := by decide +kernel
example : FitAlg.setUnion (fun x y : ℕ => x < y) [1, 3] [1, 2] (.array [0, 0, 0, 0]) = some (.sub (.array [1, 2, 3, 0]) 0 3) := by
  rw [FitAlg.setUnion, setOverlapCount_eq]; decide +kernel
example : FitAlg.removeIf (· == 2) (.string [2, 1, 2, 3, 0, 0] 4 : Cont ℕ) = some (.sub (.string [1, 3, 2, 3, 0, 0] 4) 0 2) := by
  rw [FitAlg.removeIf, elems_eq (c := .string [2, 1, 2, 3, 0, 0] 4) (by decide +kernel)]
  simp only [Option.bind_eq_bind, Option.bind_some, countOf_eq]
  decide +kernel
example : FitAlg.unique (· == ·) (.array [1, 1, 2, 2, (2 : ℕ)]) = some (.sub (.array [1, 2, 2, 2, 2]) 0 2) := by
  rw [FitAlg.unique, elems_eq (c := .array [1, 1, 2, 2, 2]) trivial]
  simp only [Option.bind_eq_bind, Option.bind_some, overlapCount, if_true, overlapRa_eq]
  decide +kernel
example : FitAlg.Equiv (fun x y : ℕ => x % 3 == y % 3) := ⟨by simp, by simp; omega, by simp; omega⟩
example : FitAlg.partialSort (fun x y => decide (x < y)) 2 (.array [5, 1, 4, (2 : ℕ)]) = some (.sub (.array [1, 2, 5, 4]) 0 2) := by
  decide +kernel

end Sprout

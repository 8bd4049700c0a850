import Verif.Proofs.FilterIter

/-!
# C82: filter_iterator, adjacent_filter_iterator, while_iterator

`drain deref next atEnd it` is what a loop from `it` to the end sees. The iterators on `make_*_iterator` and on the range adaptors
`filtered`, `removed_if`, `removed`, `adjacent_filtered`, `uniqued` are the ones constructed here.
-/

namespace Sprout
open FilterIter Adaptor Spec
variable {α : Type}

/-- A loop over `filter_iterator` sees the elements that satisfy the predicate, in order. -/
theorem C82_filter (p : α → Bool) (xs : List α) :
    ((filterMake p xs 0).bind fun b => drain (rd xs) (filterNext p xs) (· == xs.length) b) = some (xs.filter p) := by
  rw [filterMake, show findIfRa xs 0 xs.length p = _ from find_at p (pre := []) (rest := xs) rfl, Option.bind_some]
  exact drain_eq (filter_yields p xs [] rfl)

example : ((filterMake (· > 2) [1, 5, 2, 7] 0).bind fun b => drain (rd [1, 5, 2, 7]) (filterNext (· > 2) [1, 5, 2, 7]) (· == 4) b) = some [5, 7] :=
  C82_filter (· > 2) [1, 5, 2, 7]

/-- The end iterator, constructed from `last`, stays there. -/
theorem C82_filter_end (p : α → Bool) (xs : List α) : filterMake p xs xs.length = some xs.length := by
  rw [filterMake, find_at p (pre := xs) (rest := []) (by simp)]
  simp

/-- `remove_if` and `remove` filter with the negated predicate -/
theorem C82_remove_if (p : α → Bool) (xs : List α) :
    ((filterMake (fun x => !p x) xs 0).bind fun b => drain (rd xs) (filterNext (fun x => !p x) xs) (· == xs.length) b) = some (xs.filter fun x => !p x) :=
  C82_filter _ xs

/-- `prev` and `--` go to the previous element that satisfies the predicate; if there is none, they leave the range. -/
theorem C82_filter_prev (p : α → Bool) (xs : List α) (c : Nat) (hc : c ≤ xs.length) :
    (∀ (j : Nat) (_ : j < c), p (xs[j]'(by omega)) = true → (∀ i (_ : j < i) (h : i < c), p (xs[i]'(by omega)) = false) → filterPrev p xs c = some j) ∧
    ((∀ i (h : i < c), p (xs[i]'(by omega)) = false) → filterPrev p xs c = none) := by
  constructor
  · intro j hj h1 h2
    rw [filterPrev, padd_of (q := c - 1) (by omega) (by omega), Option.bind_eq_bind, Option.bind_some]
    exact findPrev_eq p xs (c - 1) (by omega) j (by omega) h1 (fun i hi h => h2 i hi (by omega))
  · intro h2
    rw [filterPrev]
    by_cases h0 : c = 0
    · rw [padd_none (by omega)]; rfl
    · rw [padd_of (q := c - 1) (by omega) (by omega), Option.bind_eq_bind, Option.bind_some]
      exact findPrev_none p xs (c - 1) (by omega) (fun i h => h2 i (by omega))

example : filterPrev (· > 2) [1, 5, 2, 7] 3 = some 1 := (C82_filter_prev _ _ 3 (by simp)).1 1 (by omega) (by decide) (by
  intro i h1 h2
  obtain rfl : i = 2 := by omega
  rfl)
example : filterPrev (· > 2) [1, 5, 2, 7] 1 = none := (C82_filter_prev _ _ 1 (by simp)).2 (by
  intro i h
  obtain rfl : i = 0 := by omega
  rfl)

/-- A loop over `adjacent_filter_iterator` sees the element before the first related pair, then all elements to which the
predecessor is related; nothing at all if there is no related pair. -/
theorem C82_adjacent_filter (p : α → α → Bool) (xs : List α) :
    (∀ h : adjIdx p xs < xs.length, ((adjMake p xs 0).bind fun b => drain (rd xs) (adjNext p xs) (· == xs.length) b) = some (xs[adjIdx p xs] :: seconds p xs)) ∧
    (seconds p xs = [] → ((adjMake p xs 0).bind fun b => drain (rd xs) (adjNext p xs) (· == xs.length) b) = some []) := by
  rw [adjMake, show adjacentFindRa xs 0 xs.length p = _ from adj_at p (pre := []) (rest := xs) rfl, Option.bind_some]
  constructor
  · intro h
    obtain ⟨_, hy⟩ := adj_yields p xs [] rfl (by rw [Ne, seconds_nil]; omega)
    exact drain_eq hy
  · intro h
    rw [seconds_nil] at h
    exact drain_eq (.nil (by simp [h]))

/-- This is the first element with those to which the predecessor is related (as in Boost). *Partial*: the first two
elements are related, or there is no element. -/
theorem C82_adjacent_filter_partial (p : α → α → Bool) (x y : α) (r : List α) (h : p x y = true) :
    ((adjMake p (x :: y :: r) 0).bind fun b => drain (rd (x :: y :: r)) (adjNext p (x :: y :: r)) (· == (x :: y :: r).length) b) = some (adjFilter p (x :: y :: r)) := by
  have h0 : adjIdx p (x :: y :: r) = 0 := by rw [adjIdx, if_pos h]
  rw [(C82_adjacent_filter p (x :: y :: r)).1 (by rw [h0]; simp), adjFilter]
  simp only [h0]
  rfl

/-- else the first element is missing, or another stands for it -/
theorem C82_adjacent_filter_refuted :
    ((adjMake (· < ·) [3, 2, 1] 0).bind fun b => drain (rd [3, 2, 1]) (adjNext (· < ·) [3, 2, 1]) (· == 3) b) = some [] ∧
    ((adjMake (· < ·) [3, 2, 5] 0).bind fun b => drain (rd [3, 2, 5]) (adjNext (· < ·) [3, 2, 5]) (· == 3) b) = some [2, 5] ∧
    adjFilter (· < ·) [3, 2, 1] = [3] ∧ adjFilter (· < ·) [3, 2, 5] = [3, 5] :=
  ⟨(C82_adjacent_filter _ [3, 2, 1]).2 rfl, (C82_adjacent_filter _ [3, 2, 5]).1 (by decide), rfl, rfl⟩

/-- A loop over the iterator of `uniqued` sees the list without repetitions of neighbours. *Partial*: there are two neighbours
that differ. -/
theorem C82_unique_partial [DecidableEq α] (xs : List α) (h : seconds (fun a b => !(a == b)) xs ≠ []) :
    ((adjMake (fun a b => !(a == b)) xs 0).bind fun b => drain (rd xs) (adjNext (fun a b => !(a == b)) xs) (· == xs.length) b) =
    some (adjFilter (fun a b => !(a == b)) xs) := by
  have h1 : adjIdx (fun a b => !(a == b)) xs < xs.length := by
    have := adjIdx_le (fun a b => !(a == b)) xs
    rw [Ne, seconds_nil] at h
    omega
  rw [(C82_adjacent_filter _ xs).1 h1, adj_head xs h1 (by omega)]
  cases xs with
  | nil => simp at h1
  | cons x r => rfl

example : ((adjMake (fun a b => !(a == b)) [1, 1, 2, 2, 1] 0).bind fun b =>
    drain (rd [1, 1, 2, 2, 1]) (adjNext (fun a b => !(a == b)) [1, 1, 2, 2, 1]) (· == 5) b) = some [1, 2, 1] :=
  C82_unique_partial [1, 1, 2, 2, 1] (by decide)

/-- if all elements are equal, it sees nothing instead of one element -/
theorem C82_unique_refuted [DecidableEq α] (x : α) (n : Nat) :
    ((adjMake (fun a b => !(a == b)) (List.replicate (n + 1) x) 0).bind fun b =>
      drain (rd (List.replicate (n + 1) x)) (adjNext (fun a b => !(a == b)) (List.replicate (n + 1) x)) (· == (List.replicate (n + 1) x).length) b) = some [] ∧
    adjFilter (fun a b => !(a == b)) (List.replicate (n + 1) x) = [x] := by
  have h : ∀ n, seconds (fun a b => !(a == b)) (List.replicate (n + 1) x) = [] := by
    intro n
    induction n with
    | zero => rfl
    | succ n ih =>
      rw [List.replicate_succ, List.replicate_succ, seconds, if_neg (by simp), ← List.replicate_succ]
      exact ih
  refine ⟨(C82_adjacent_filter _ _).2 (h n), ?_⟩
  have := h n
  rw [List.replicate_succ] at this ⊢
  rw [adjFilter, this]

/-- A loop with `next()` over `while_iterator` sees the elements before the first one that does not satisfy the predicate. -/
theorem C82_while (p : α → Bool) (xs : List α) :
    ((whileMake p xs 0).bind fun b => drain (rd xs) (whileNext p xs) (· == xs.length) b) = some (xs.takeWhile p) := by
  obtain ⟨t, h1, h2⟩ := whileMake_yields (xs := xs) p xs [] rfl
  rw [List.length_nil] at h1
  rw [h1, Option.bind_some]
  exact drain_eq h2

/-- With `++`, likewise. *Partial*: there is an element that does not satisfy the predicate (or none at all). -/
theorem C82_while_incr_partial (p : α → Bool) (xs : List α) (h : xs = [] ∨ ∃ x ∈ xs, p x = false) :
    ((whileMake p xs 0).bind fun b => drain (rd xs) (whileIncr p xs) (· == xs.length) b) = some (xs.takeWhile p) := by
  rcases h with rfl | h
  · exact drain_eq (.nil rfl)
  · obtain ⟨t, h1, h2⟩ := whileIncr_yields (xs := xs) p xs [] rfl h
    rw [List.length_nil] at h1
    rw [h1, Option.bind_some]
    exact drain_eq h2

example : ((whileMake (· > 0) [1, 2, 0, 3] 0).bind fun b => drain (rd [1, 2, 0, 3]) (whileIncr (· > 0) [1, 2, 0, 3]) (· == 4) b) = some [1, 2] :=
  C82_while_incr_partial _ [1, 2, 0, 3] (.inr ⟨0, by simp, by decide⟩)

/-- Otherwise `++` applies the predicate to `*last`: undefined behaviour. -/
theorem C82_while_incr_refuted (p : α → Bool) (x : α) (xs : List α) (h : ∀ y ∈ x :: xs, p y = true) :
    ((whileMake p (x :: xs) 0).bind fun b => drain (rd (x :: xs)) (whileIncr p (x :: xs)) (· == (x :: xs).length) b) = none := by
  have h1 : whileMake p (x :: xs) 0 = some 0 := by
    rw [whileMake, if_neg (by simp), rd_eq (by simp), Option.bind_eq_bind, Option.bind_some]
    simp [h x (by simp)]
  rw [h1, Option.bind_some]
  exact whileIncr_none p xs [] x rfl (fun y hy => h y (by simp [hy]))

/-- `prev` and `--` within the sequence go to the previous element. *Partial*: not from the end. -/
theorem C82_while_prev_partial (p : α → Bool) (xs : List α) (c : Nat) (h0 : 0 < c) (hc : c < xs.length) (h : p (xs[c - 1]'(by omega)) = true) :
    filterPrev p xs c = some (c - 1) :=
  (C82_filter_prev p xs c (by omega)).1 (c - 1) (by omega) h (fun i h1 h2 => by omega)

/-- From the end they go to an element behind the sequence, if there is one that satisfies the predicate: -/
theorem C82_while_prev_refuted : filterPrev (· > 0) [1, 0, 3] 3 = some 2 ∧ [1, 0, 3].takeWhile (· > 0) = [1] :=
  ⟨(C82_filter_prev _ _ 3 (by simp)).1 2 (by omega) (by decide) (fun i h1 h2 => by omega), rfl⟩

end Sprout

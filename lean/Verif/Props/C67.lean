import Verif.Proofs.Quantifiers
import Verif.Props.C15
import Verif.Props.C18
import Mathlib.Order.Nat

/-!
# C67: one_of, is_partitioned, monotonicity, clamp, min and max

`one_of` for random access iterators is wrong as soon as there are three matches (`C67_one_of_false`).
-/

namespace Sprout
variable {α : Type}

/-- `one_of` for input iterators: exactly one element matches -/
theorem C67_one_of_input (p : α → Bool) (pre xs post : List α) :
    oneOfIn (pre ++ xs ++ post) pre.length (pre.length + xs.length) p = some (decide (xs.countP p = 1)) := by
  rw [oneOfIn, countTo2_eq]
  simp only [Option.bind_eq_bind, Option.bind_some, Option.some.injEq]
  rw [Bool.eq_iff_iff, beq_iff_eq, fsm_count, decide_eq_true_iff]

/-- What holds for random access iterators: defined, and right if at most two elements match. Missing: more matches -/
theorem C67_one_of_partial (p : α → Bool) (pre xs post : List α) : ∃ b,
    oneOfRa (pre ++ xs ++ post) pre.length (pre.length + xs.length) p = some b ∧
    (xs.countP p ≤ 2 → (b = true ↔ xs.countP p = 1)) := by
  unfold oneOfRa
  by_cases h : xs = []
  · subst h; exact ⟨false, by simp, by simp⟩
  · have hl := List.length_pos_iff.2 h
    rw [if_neg (by omega), Nat.add_sub_cancel_left]
    exact halveOne_spec p _ pre xs post rfl hl

/-- three matches at the front of four elements count as one -/
theorem C67_one_of_false : oneOfRa [1, 1, 1, 0] 0 4 (fun x : Nat => x == 1) = some true ∧ ([1, 1, 1, 0] : List Nat).countP (fun x => x == 1) = 3 := by
  constructor
  · simp [oneOfRa, halveOne, halveAll, testAt, rd]
  · decide

/-- so the two versions of `one_of_equal` contradict each other -/
theorem C67_one_of_equal_false : oneOfEqualRa [1, 1, 1, 0] 0 4 1 = some true ∧ oneOfEqualIn [1, 1, 1, 0] 0 4 1 = some false := by
  refine ⟨C67_one_of_false.1, ?_⟩
  have := C67_one_of_input (fun x : Nat => x == 1) [] [1, 1, 1, 0] []
  simpa [oneOfEqualIn] using this

/-- `is_partitioned`: some prefix matches, the rest does not -/
theorem C67_is_partitioned (p : α → Bool) (pre xs post : List α) : ∃ b,
    isPartitionedRa (pre ++ xs ++ post) pre.length (pre.length + xs.length) p = some b ∧
    isPartitionedIn (pre ++ xs ++ post) pre.length (pre.length + xs.length) p = some b ∧
    (b = true ↔ ∃ ys zs, xs = ys ++ zs ∧ (∀ y ∈ ys, p y = true) ∧ ∀ z ∈ zs, p z = false) := by
  refine ⟨decide (fsm p p 0 xs ≤ 1), ?_, ?_, by rw [decide_eq_true_iff, fsm_part]⟩
  · have key : ∀ xs pre : List α, (do
        let k ← some (pre.length + xs.findIdx (fun x => !p x))
        if k = pre.length + xs.length then some true else noneOfRa (pre ++ xs ++ post) (k + 1) (pre.length + xs.length) p) = some (decide (fsm p p 0 xs ≤ 1)) := by
      intro xs
      induction xs with
      | nil => intro pre; simp [fsm]
      | cons x xs ih =>
        intro pre
        cases h : p x
        · have := (C15_none_of p (pre ++ [x]) xs post).1
          simp only [List.length_append, List.length_cons, List.length_nil, List.append_assoc, List.cons_append, List.nil_append, Nat.zero_add] at this
          simp only [List.findIdx_cons, h, Bool.not_false, cond_true, Option.bind_eq_bind, Option.bind_some, Nat.add_zero, List.length_cons]
          rw [if_neg (by omega), List.append_assoc, List.cons_append, show pre.length + (xs.length + 1) = pre.length + 1 + xs.length by omega, this]
          simp only [fsm, h, Bool.false_eq_true, if_false, fsm_one]
          cases ha : xs.any p <;> simp
        · have := ih (pre ++ [x])
          simp only [List.length_append, List.length_cons, List.length_nil, List.append_assoc, List.cons_append, List.nil_append, Nat.zero_add] at this
          simp only [List.findIdx_cons, h, Bool.not_true, cond_false, List.length_cons, fsm, if_true, List.append_assoc, List.cons_append]
          rw [← this, show pre.length + 1 + xs.length = pre.length + (xs.length + 1) by omega, show pre.length + 1 + List.findIdx (fun x => !p x) xs = pre.length + (List.findIdx (fun x => !p x) xs + 1) by omega]
    rw [isPartitionedRa, (C15_find_if_not p pre xs post).1]
    exact key xs pre
  · rw [isPartitionedIn, countTo2_eq]; rfl

section monotone
variable [LinearOrder α]

/-- neighbours in a transitive relation -/
theorem pairwise_of_adj {R : α → α → Prop} (ht : ∀ a b c, R a b → R b c → R a c) {xs : List α} :
    (∀ i (h : i + 1 < xs.length), R xs[i] xs[i + 1]) ↔ xs.Pairwise R := by
  rw [List.pairwise_iff_getElem]
  constructor
  · intro h i j hi hj hij
    induction j with
    | zero => omega
    | succ j ih =>
      by_cases e : i = j
      · subst e; exact h i hj
      · exact ht _ _ _ (ih (by omega) (by omega)) (h j hj)
  · intro h i hi; exact h i (i + 1) (by omega) hi (by omega)

theorem mono_of {comp : α → α → Bool} {R : α → α → Prop} (ht : ∀ a b c, R a b → R b c → R a c) (hr : ∀ a b, comp b a = false ↔ R a b) (pre xs post : List α) :
    ∃ b, isSortedRa comp (pre ++ xs ++ post) pre.length (pre.length + xs.length) = some b ∧ isSortedFw comp (pre ++ xs ++ post) pre.length (pre.length + xs.length) = some b ∧
      (b = true ↔ xs.Pairwise R) := by
  obtain ⟨b, h1, h2⟩ := isSortedRa_adj comp pre xs post
  obtain ⟨c, h3, h4⟩ := isSortedFw_adj comp pre xs post
  have : c = b := by rw [Bool.eq_iff_iff, h2, h4]
  subst this
  refine ⟨c, h1, h3, ?_⟩
  rw [h2, ← pairwise_of_adj ht]
  simp only [hr]

theorem C67_is_increasing (pre xs post : List α) : ∃ b, isIncreasing (pre ++ xs ++ post) pre.length (pre.length + xs.length) = (some b, some b) ∧
    (b = true ↔ xs.Pairwise (· ≤ ·)) := by
  obtain ⟨b, h1, h2, h3⟩ := mono_of (comp := fun a b => decide (a < b)) (R := (· ≤ ·)) (fun _ _ _ => le_trans) (by simp) pre xs post
  exact ⟨b, by rw [isIncreasing, h1, h2], h3⟩

theorem C67_is_strictly_increasing (pre xs post : List α) : ∃ b, isStrictlyIncreasing (pre ++ xs ++ post) pre.length (pre.length + xs.length) = (some b, some b) ∧
    (b = true ↔ xs.Pairwise (· < ·)) := by
  obtain ⟨b, h1, h2, h3⟩ := mono_of (comp := fun a b => decide (a ≤ b)) (R := (· < ·)) (fun _ _ _ => lt_trans) (by simp) pre xs post
  exact ⟨b, by rw [isStrictlyIncreasing, h1, h2], h3⟩

theorem C67_is_decreasing (pre xs post : List α) : ∃ b, isDecreasing (pre ++ xs ++ post) pre.length (pre.length + xs.length) = (some b, some b) ∧
    (b = true ↔ xs.Pairwise (· ≥ ·)) := by
  obtain ⟨b, h1, h2, h3⟩ := mono_of (comp := fun a b => decide (b < a)) (R := (· ≥ ·)) (fun _ _ _ h1 h2 => le_trans h2 h1) (by simp) pre xs post
  exact ⟨b, by rw [isDecreasing, h1, h2], h3⟩

theorem C67_is_strictly_decreasing (pre xs post : List α) : ∃ b, isStrictlyDecreasing (pre ++ xs ++ post) pre.length (pre.length + xs.length) = (some b, some b) ∧
    (b = true ↔ xs.Pairwise (· > ·)) := by
  obtain ⟨b, h1, h2, h3⟩ := mono_of (comp := fun a b => decide (b ≤ a)) (R := (· > ·)) (fun _ _ _ h1 h2 => lt_trans h2 h1) (by simp) pre xs post
  exact ⟨b, by rw [isStrictlyDecreasing, h1, h2], h3⟩

end monotone

/-- `clamp` returns the value if it lies between the bounds and otherwise the bound it exceeds -/
theorem C67_clamp (comp : α → α → Bool) (hc : StrictWeak comp) (v lo hi : α) (h : comp hi lo = false) :
    comp (clamp comp v lo hi) lo = false ∧ comp hi (clamp comp v lo hi) = false ∧
    (comp v lo = false → comp hi v = false → clamp comp v lo hi = v) ∧ (comp v lo = true → clamp comp v lo hi = lo) ∧
    (comp hi v = true → clamp comp v lo hi = hi) := by
  have hs : comp v lo = true → comp hi v = false := by
    intro h1
    by_contra h2
    rw [hc.trans _ _ _ (by simpa using h2) h1] at h
    cases h
  unfold clamp
  refine ⟨?_, ?_, fun h1 h2 => by simp [h1, h2], fun h1 => by simp [h1], fun h1 => ?_⟩
  · split
    · exact hc.irrefl _
    · split
      · exact h
      · simpa using ‹¬comp v lo = true›
  · split
    · exact h
    · split
      · exact hc.irrefl _
      · simpa using ‹¬comp hi v = true›
  · by_cases h2 : comp v lo = true
    · rw [hs h2] at h1; cases h1
    · simp [h2, h1]

/-- `min` and `max` of a non-empty initializer list: the first smallest, the first largest element -/
theorem C67_min_max_list (comp : α → α → Bool) (hc : StrictWeak comp) (t : List α) (ht : t ≠ []) :
    (∃ k x, t[k]? = some x ∧ minIl comp t = some x ∧ Spec.FirstMin comp t k) ∧
    (∃ k x, t[k]? = some x ∧ maxIl comp t = some x ∧ Spec.FirstMax comp t k) := by
  obtain ⟨k, h1, h2⟩ := (C18_min_element comp hc [] t [] ht).1
  obtain ⟨k', h3, h4⟩ := (C18_max_element comp hc [] t [] ht).1
  simp only [List.nil_append, List.append_nil, List.length_nil, Nat.zero_add] at h1 h3
  obtain ⟨x, e, -⟩ := id h2
  obtain ⟨y, f, -⟩ := id h4
  exact ⟨⟨k, x, e, by simp [minIl, h1, rd, e], h2⟩, ⟨k', y, f, by simp [maxIl, h3, rd, f], h4⟩⟩

/-- of an empty list they are undefined: the end is dereferenced -/
theorem C67_min_max_empty (comp : α → α → Bool) : minIl comp [] = none ∧ maxIl comp [] = none := by
  simp [minIl, maxIl, minElementRa, maxElementRa, rd]

/-- `minmax(a, b)`: ordered, and `(a, b)` for equivalent arguments -/
theorem C67_minmax (comp : α → α → Bool) (hc : StrictWeak comp) (a b : α) :
    comp (minmax2 comp a b).2 (minmax2 comp a b).1 = false ∧ (minmax2 comp a b = (a, b) ∨ minmax2 comp a b = (b, a)) ∧
    (comp b a = false → minmax2 comp a b = (a, b)) := by
  unfold minmax2
  refine ⟨?_, ?_, fun h => by simp [h]⟩
  · split
    · exact hc.asymm ‹_›
    · simpa using ‹¬comp b a = true›
  · split <;> simp

example : oneOfIn [7, 3, 5, 3, 4] 1 4 (fun x => x == 5) = some true := C67_one_of_input (fun x => x == 5) [7] [3, 5, 3] [4]
example : ∃ b, isPartitionedRa [7, 2, 4, 3, 5, 2] 1 5 (fun x => x % 2 == 0) = some b ∧ b = true := by
  obtain ⟨b, h1, -, h2⟩ := C67_is_partitioned (fun x => x % 2 == 0) [7] [2, 4, 3, 5] [2]
  exact ⟨b, h1, h2.2 ⟨[2, 4], [3, 5], rfl, by simp, by simp⟩⟩
example : ∃ b, isStrictlyIncreasing [9, 2, 4, 4, 1] 1 4 = (some b, some b) ∧ b = false := by
  obtain ⟨b, h1, h2⟩ := C67_is_strictly_increasing [9] [2, 4, 4] [1]
  refine ⟨b, h1, ?_⟩
  cases b
  · rfl
  · exact absurd (h2.1 rfl) (by decide)
example : clamp (fun a b : Nat => decide (a < b)) 9 2 5 = 5 ∧ clamp (fun a b : Nat => decide (a < b)) 1 2 5 = 2 := by decide

end Sprout

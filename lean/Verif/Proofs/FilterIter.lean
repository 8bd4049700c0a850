import Verif.Model.FilterIter
import Verif.Proofs.Adaptor
import Verif.Proofs.SetIter
import Verif.Proofs.Find2
import Verif.Spec.Iter

/-! Lemmas on filter_iterator, adjacent_filter_iterator and while_iterator. -/

namespace Sprout.FilterIter
open Adaptor Spec
variable {α : Type} {xs : List α}

theorem find_at (p : α → Bool) {pre rest : List α} (e : xs = pre ++ rest) : findIfRa xs pre.length xs.length p = some (pre.length + rest.findIdx p) := by
  have := findIfRa_eq pre rest [] p
  rw [List.append_nil, ← List.length_append, ← e] at this
  exact this

theorem adj_at (p : α → α → Bool) {pre rest : List α} (e : xs = pre ++ rest) :
    adjacentFindRa xs pre.length xs.length p = some (pre.length + adjIdx p rest) := by
  have := adjacentFindRa_eq p pre rest []
  rw [List.append_nil, ← List.length_append, ← e] at this
  exact this

theorem rd_at {pre rest : List α} {x : α} (e : xs = pre ++ x :: rest) : rd xs pre.length = some x := by
  subst e
  simp [rd]

theorem len_at {pre rest : List α} {x : α} (e : xs = pre ++ x :: rest) : pre.length < xs.length := by
  subst e
  simp

theorem snoc {pre rest : List α} {x : α} (e : xs = pre ++ x :: rest) : xs = (pre ++ [x]) ++ rest := by rw [e, List.append_assoc]; rfl

theorem padd_snoc {pre rest : List α} {x : α} (e : xs = pre ++ x :: rest) : padd xs.length pre.length 1 = some (pre ++ [x]).length := by
  have := len_at e
  exact padd_of (by simp) (by simp; omega)

theorem filter_yields (p : α → Bool) : ∀ (rest pre : List α), xs = pre ++ rest →
    Yields (rd xs) (filterNext p xs) (· == xs.length) (pre.length + rest.findIdx p) (rest.filter p) := by
  intro rest
  induction rest with
  | nil => intro pre e; exact .nil (by rw [e]; simp)
  | cons x rest ih =>
    intro pre e
    have hl := len_at e
    have := ih (pre ++ [x]) (snoc e)
    cases hp : p x with
    | true =>
      rw [List.filter_cons_of_pos hp, List.findIdx_cons, hp, cond_true, Nat.add_zero]
      refine .cons (by simp; omega) (rd_at e) ?_ this
      rw [filterNext, padd_snoc e, Option.bind_eq_bind, Option.bind_some, find_at p (snoc e)]
    | false =>
      rw [List.filter_cons_of_neg (by simp [hp]), List.findIdx_cons, hp, cond_false]
      rw [List.length_append, List.length_singleton] at this
      rw [show pre.length + (rest.findIdx p + 1) = pre.length + 1 + rest.findIdx p by omega]
      exact this

/-- `find_prev` finds the last position up to `c` whose element satisfies the predicate -/
theorem findPrev_eq (p : α → Bool) (xs : List α) : ∀ (c : Nat) (hc : c < xs.length) (j : Nat) (_ : j ≤ c), p (xs[j]'(by omega)) = true →
    (∀ i (_ : j < i) (h : i ≤ c), p (xs[i]'(by omega)) = false) → findPrev p xs c = some j := by
  intro c
  induction c with
  | zero =>
    intro hc j hj h1 _
    obtain rfl : j = 0 := by omega
    rw [findPrev, rd_eq hc, Option.bind_eq_bind, Option.bind_some, if_pos h1]
  | succ c ih =>
    intro hc j hj h1 h2
    rw [findPrev, rd_eq hc, Option.bind_eq_bind, Option.bind_some]
    by_cases he : j = c + 1
    · subst he
      rw [if_pos h1]
    · rw [if_neg (by rw [h2 (c + 1) (by omega) (by omega)]; decide), padd_of (q := c) (by omega) (by omega), Option.bind_eq_bind, Option.bind_some]
      exact ih (by omega) j (by omega) h1 (fun i hi h => h2 i hi (by omega))

/-- if there is none, it leaves the range -/
theorem findPrev_none (p : α → Bool) (xs : List α) : ∀ (c : Nat) (hc : c < xs.length), (∀ i (h : i ≤ c), p (xs[i]'(by omega)) = false) →
    findPrev p xs c = none := by
  intro c
  induction c with
  | zero =>
    intro hc h2
    rw [findPrev, rd_eq hc, Option.bind_eq_bind, Option.bind_some, if_neg (by rw [h2 0 (by omega)]; decide), padd_none (by omega)]
    rfl
  | succ c ih =>
    intro hc h2
    rw [findPrev, rd_eq hc, Option.bind_eq_bind, Option.bind_some, if_neg (by rw [h2 (c + 1) (by omega)]; decide), padd_of (q := c) (by omega) (by omega),
      Option.bind_eq_bind, Option.bind_some]
    exact ih (by omega) (fun i h => h2 i (by omega))

theorem adjNext_yields (p : α → α → Bool) : ∀ (rest pre : List α) (x : α), xs = pre ++ x :: rest →
    ∃ t, adjNext p xs pre.length = some t ∧ Yields (rd xs) (adjNext p xs) (· == xs.length) t (seconds p (x :: rest)) := by
  intro rest
  induction rest with
  | nil =>
    intro pre x e
    refine ⟨xs.length, ?_, .nil (by simp)⟩
    rw [adjNext, adj_at p e, Option.bind_eq_bind, Option.bind_some, adjIdx, show pre.length + 1 = xs.length by rw [e]; simp, if_pos rfl]
  | cons y rest ih =>
    intro pre x e
    obtain ⟨t, h1, h2⟩ := ih (pre ++ [x]) y (snoc e)
    have hl := len_at (snoc e)
    rw [List.length_append, List.length_singleton] at hl
    cases hp : p x y with
    | true =>
      refine ⟨(pre ++ [x]).length, ?_, ?_⟩
      · rw [adjNext, adj_at p e, Option.bind_eq_bind, Option.bind_some, adjIdx, if_pos hp, Nat.add_zero, if_neg (by omega), padd_snoc e]
      · rw [seconds, if_pos hp]
        exact .cons (by simp; omega) (rd_at (snoc e)) h1 h2
    | false =>
      refine ⟨t, ?_, ?_⟩
      · rw [← h1, adjNext, adjNext, adj_at p e, adj_at p (snoc e), adjIdx, if_neg (by simp [hp]), List.length_append, List.length_singleton,
          show pre.length + (adjIdx p (y :: rest) + 1) = pre.length + 1 + adjIdx p (y :: rest) by omega]
      · rw [seconds, if_neg (by simp [hp])]
        exact h2

theorem seconds_nil (p : α → α → Bool) : ∀ xs : List α, seconds p xs = [] ↔ adjIdx p xs = xs.length
  | [] => by simp [seconds, adjIdx]
  | [x] => by simp [seconds, adjIdx]
  | x :: y :: r => by
    rw [seconds, adjIdx]
    by_cases h : p x y
    · simp [h]
    · rw [if_neg h, if_neg h, seconds_nil p (y :: r)]
      simp

theorem adj_yields (p : α → α → Bool) : ∀ (rest pre : List α), xs = pre ++ rest → seconds p rest ≠ [] →
    ∃ h : adjIdx p rest < rest.length, Yields (rd xs) (adjNext p xs) (· == xs.length) (pre.length + adjIdx p rest) (rest[adjIdx p rest] :: seconds p rest) := by
  intro rest
  induction rest with
  | nil => intro pre e h; exact absurd rfl h
  | cons x rest ih =>
    intro pre e h
    cases rest with
    | nil => exact absurd rfl h
    | cons y r =>
      cases hp : p x y with
      | true =>
        have h0 : adjIdx p (x :: y :: r) = 0 := by rw [adjIdx, if_pos hp]
        simp only [h0]
        refine ⟨by simp, ?_⟩
        obtain ⟨t, h1, h2⟩ := adjNext_yields p (y :: r) pre x e
        have := len_at e
        exact .cons (by simp; omega) (rd_at e) h1 h2
      | false =>
        have h0 : adjIdx p (x :: y :: r) = adjIdx p (y :: r) + 1 := by rw [adjIdx, if_neg (by simp [hp])]
        have hs : seconds p (x :: y :: r) = seconds p (y :: r) := by rw [seconds, if_neg (by simp [hp])]
        rw [hs] at h ⊢
        obtain ⟨h', hy⟩ := ih (pre ++ [x]) (snoc e) h
        simp only [h0]
        refine ⟨by simpa using h', ?_⟩
        rw [List.length_append, List.length_singleton] at hy
        rw [show pre.length + (adjIdx p (y :: r) + 1) = pre.length + 1 + adjIdx p (y :: r) by omega]
        exact hy

/-- before the first related pair, equal neighbours: the element there is the first one -/
theorem adj_head [DecidableEq α] : ∀ (xs : List α) (h : adjIdx (fun a b => !(a == b)) xs < xs.length) (h0 : 0 < xs.length), xs[adjIdx (fun a b => !(a == b)) xs] = xs[0]
  | [], h, _ => by simp at h
  | [x], h, _ => by simp [adjIdx] at h
  | x :: y :: r, h, _ => by
    by_cases hp : x = y
    · subst hp
      have e : adjIdx (fun a b => !(a == b)) (x :: x :: r) = adjIdx (fun a b => !(a == b)) (x :: r) + 1 := by rw [adjIdx, if_neg (by simp)]
      simp only [e] at h ⊢
      have := adj_head (x :: r) (by simpa using h) (by simp)
      simpa using this
    · have e : adjIdx (fun a b => !(a == b)) (x :: y :: r) = 0 := by rw [adjIdx, if_pos (by simpa using hp)]
      simp only [e]

theorem whileMake_yields (p : α → Bool) : ∀ (rest pre : List α), xs = pre ++ rest →
    ∃ t, whileMake p xs pre.length = some t ∧ Yields (rd xs) (whileNext p xs) (· == xs.length) t (rest.takeWhile p) := by
  intro rest
  induction rest with
  | nil =>
    intro pre e
    have : pre.length = xs.length := by rw [e]; simp
    exact ⟨pre.length, by rw [whileMake, if_pos this], .nil (by simp [this])⟩
  | cons x rest ih =>
    intro pre e
    have hl := len_at e
    rw [whileMake, if_neg (by omega), rd_at e, Option.bind_eq_bind, Option.bind_some]
    cases hp : p x with
    | true =>
      obtain ⟨t, h1, h2⟩ := ih (pre ++ [x]) (snoc e)
      refine ⟨pre.length, by simp, ?_⟩
      rw [List.takeWhile_cons_of_pos hp]
      refine .cons (by simp; omega) (rd_at e) ?_ h2
      rw [whileNext, padd_snoc e, Option.bind_eq_bind, Option.bind_some, h1]
    | false =>
      refine ⟨xs.length, by simp, ?_⟩
      rw [List.takeWhile_cons_of_neg (by simp [hp])]
      exact .nil (by simp)

theorem whileIncr_yields (p : α → Bool) : ∀ (rest pre : List α), xs = pre ++ rest → (∃ x ∈ rest, p x = false) →
    ∃ t, whileMake p xs pre.length = some t ∧ Yields (rd xs) (whileIncr p xs) (· == xs.length) t (rest.takeWhile p) := by
  intro rest
  induction rest with
  | nil => intro pre e ⟨x, hx, _⟩; simp at hx
  | cons x rest ih =>
    intro pre e hex
    have hl := len_at e
    rw [whileMake, if_neg (by omega), rd_at e, Option.bind_eq_bind, Option.bind_some]
    cases hp : p x with
    | true =>
      have hex' : ∃ y ∈ rest, p y = false := by
        obtain ⟨y, hy, h⟩ := hex
        rcases List.mem_cons.1 hy with rfl | hy
        · rw [hp] at h; exact absurd h (by decide)
        · exact ⟨y, hy, h⟩
      obtain ⟨t, h1, h2⟩ := ih (pre ++ [x]) (snoc e) hex'
      refine ⟨pre.length, by simp, ?_⟩
      rw [List.takeWhile_cons_of_pos hp]
      refine .cons (by simp; omega) (rd_at e) ?_ h2
      have hl2 : (pre ++ [x]).length < xs.length := by
        obtain ⟨y, hy, _⟩ := hex'
        have h3 := List.length_pos_of_mem hy
        have h4 := congrArg List.length (snoc e)
        rw [List.length_append] at h4
        omega
      rw [whileIncr, padd_snoc e, Option.bind_eq_bind, Option.bind_some, ← h1, whileMake, if_neg (by omega)]
    | false =>
      refine ⟨xs.length, by simp, ?_⟩
      rw [List.takeWhile_cons_of_neg (by simp [hp])]
      exact .nil (by simp)

theorem whileIncr_none (p : α → Bool) : ∀ (rest pre : List α) (x : α), xs = pre ++ x :: rest → (∀ y ∈ rest, p y = true) →
    drain (rd xs) (whileIncr p xs) (· == xs.length) pre.length = none := by
  intro rest
  induction rest with
  | nil =>
    intro pre x e _
    have hl : pre.length + 1 = xs.length := by rw [e]; simp
    have h1 : whileIncr p xs pre.length = none := by
      rw [whileIncr, padd_snoc e, Option.bind_eq_bind, Option.bind_some]
      have : rd xs (pre ++ [x]).length = none := by rw [rd, List.length_append, List.length_singleton, hl]; simp
      rw [this]; rfl
    rw [drain, if_neg (by simp; omega), rd_at e, h1]
    rfl
  | cons y rest ih =>
    intro pre x e hall
    have hl := len_at e
    have := ih (pre ++ [x]) y (snoc e) (fun z hz => hall z (List.mem_cons_of_mem _ hz))
    have h1 : whileIncr p xs pre.length = some (pre ++ [x]).length := by
      rw [whileIncr, padd_snoc e, Option.bind_eq_bind, Option.bind_some, rd_at (snoc e), Option.bind_eq_bind, Option.bind_some, hall y (by simp), if_pos rfl]
    rw [drain, if_neg (by simp; omega), rd_at e, h1]
    simp only [Option.bind_eq_bind, Option.bind_some]
    rw [this]
    rfl

end Sprout.FilterIter

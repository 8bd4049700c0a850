import Verif.Model.SetIter
import Verif.Proofs.Merge
import Verif.Proofs.Doubling

/-! # The set operation iterators yield the merged lists -/

namespace Sprout
variable {α σ : Type}

/-- what a loop from `it` to the end sees -/
inductive Yields (deref : σ → Option α) (next : σ → Option σ) (atEnd : σ → Bool) : σ → List α → Prop
  | nil {s} : atEnd s = true → Yields deref next atEnd s []
  | cons {s t x xs} : atEnd s = false → deref s = some x → next s = some t → Yields deref next atEnd t xs → Yields deref next atEnd s (x :: xs)

theorem drain_eq {deref : σ → Option α} {next : σ → Option σ} {atEnd : σ → Bool} {s : σ} {xs : List α} (h : Yields deref next atEnd s xs) :
    drain deref next atEnd s = some xs := by
  induction h with
  | nil h => rw [drain, if_pos h]
  | cons h1 h2 h3 _ ih => rw [drain, if_neg (by simp [h1]), h2]; simp [h3, ih]

end Sprout

namespace Sprout.SetIter
variable {α : Type} {comp : α → α → Bool} {m1 m2 : List α}

/-- the rest `xs` of a range that ends at `last` begins at `i` -/
structure At (m : List α) (last i : Nat) (xs : List α) : Prop where
  seg : Seg m i xs
  last : i + xs.length = last

theorem At.nil {m : List α} {last i : Nat} (h : At m last i []) : i = last := by have := h.last; simpa using this
theorem At.ne {m : List α} {last i : Nat} {x : α} {xs : List α} (h : At m last i (x :: xs)) : i ≠ last := by have := h.last; simp at this; omega
theorem At.rd {m : List α} {last i : Nat} {x : α} {xs : List α} (h : At m last i (x :: xs)) : rd m i = some x := (Seg.cons h.seg).1
theorem At.tail {m : List α} {last i : Nat} {x : α} {xs : List α} (h : At m last i (x :: xs)) : At m last (i + 1) xs :=
  ⟨(Seg.cons h.seg).2, by have := h.last; simp at this; omega⟩

/-- where `find_intersection` stops -/
theorem findIntersection_spec {last1 last2 : Nat} : ∀ (n : Nat) (xs ys : List α) (i j : Nat), xs.length + ys.length = n →
    At m1 last1 i xs → At m2 last2 j ys →
    (zm (intersectionDec comp) false false xs ys = [] ∧ findIntersection comp m1 m2 i last1 j last2 = some (last1, last2)) ∨
    ∃ x xs' y ys' i' j', At m1 last1 i' (x :: xs') ∧ At m2 last2 j' (y :: ys') ∧ xs'.length + ys'.length < n ∧
      zm (intersectionDec comp) false false xs ys = x :: zm (intersectionDec comp) false false xs' ys' ∧
      findIntersection comp m1 m2 i last1 j last2 = some (i', j') := by
  have run : ∀ (n : Nat) (xs ys : List α) (i j : Nat), xs.length + ys.length = n → At m1 last1 i xs → At m2 last2 j ys →
      (zm (intersectionDec comp) false false xs ys = [] ∧ ∃ k i' j', Run (finIf fun s : Cur => s.2.2 || s.1 == last1 || s.2.1 == last2) (interStep comp m1 m2) k (i, j, false) (i', j', false)) ∨
      ∃ x xs' y ys' i' j', At m1 last1 i' (x :: xs') ∧ At m2 last2 j' (y :: ys') ∧ xs'.length + ys'.length < n ∧
        zm (intersectionDec comp) false false xs ys = x :: zm (intersectionDec comp) false false xs' ys' ∧
        ∃ k, Run (finIf fun s : Cur => s.2.2 || s.1 == last1 || s.2.1 == last2) (interStep comp m1 m2) k (i, j, false) (i', j', true) := by
    intro n
    induction n using Nat.strongRecOn with
    | ind n ih =>
      intro xs ys i j hn h1 h2
      cases xs with
      | nil => exact .inl ⟨by simp [zm], 0, i, j, .stop (by simp [finIf, h1.nil])⟩
      | cons x xs =>
        cases ys with
        | nil => exact .inl ⟨by simp [zm], 0, i, j, .stop (by simp [finIf, h2.nil])⟩
        | cons y ys =>
          have hf : finIf (fun s : Cur => s.2.2 || s.1 == last1 || s.2.1 == last2) (i, j, false) = none := by simp [finIf, h1.ne, h2.ne]
          have hs : interStep comp m1 m2 (i, j, false) = some (if comp x y then (i + 1, j, false)
              else if comp y x then (i, j + 1, false) else (i, j, true)) := by simp [interStep, h1.rd, h2.rd]
          simp only [List.length_cons] at hn
          by_cases hxy : comp x y = true
          · have e : zm (intersectionDec comp) false false (x :: xs) (y :: ys) = zm (intersectionDec comp) false false xs (y :: ys) := by
              rw [zm]; simp [intersectionDec, hxy, em]
            rw [if_pos hxy] at hs
            rcases ih (xs.length + (y :: ys).length) (by simp; omega) xs (y :: ys) (i + 1) j rfl h1.tail h2 with ⟨z, k, i', j', r⟩ | ⟨x', xs', y', ys', i', j', a1, a2, a3, a4, k, r⟩
            · exact .inl ⟨by rw [e, z], k + 1, i', j', .step hf hs r⟩
            · exact .inr ⟨x', xs', y', ys', i', j', a1, a2, by simp at a3; omega, by rw [e, a4], k + 1, .step hf hs r⟩
          · by_cases hyx : comp y x = true
            · have e : zm (intersectionDec comp) false false (x :: xs) (y :: ys) = zm (intersectionDec comp) false false (x :: xs) ys := by
                rw [zm]; simp [intersectionDec, hxy, hyx, em]
              rw [if_neg hxy, if_pos hyx] at hs
              rcases ih ((x :: xs).length + ys.length) (by simp; omega) (x :: xs) ys i (j + 1) rfl h1 h2.tail with ⟨z, k, i', j', r⟩ | ⟨x', xs', y', ys', i', j', a1, a2, a3, a4, k, r⟩
              · exact .inl ⟨by rw [e, z], k + 1, i', j', .step hf hs r⟩
              · exact .inr ⟨x', xs', y', ys', i', j', a1, a2, by simp at a3; omega, by rw [e, a4], k + 1, .step hf hs r⟩
            · rw [if_neg hxy, if_neg hyx] at hs
              refine .inr ⟨x, xs, y, ys, i, j, h1, h2, by omega, ?_, 1, .step hf hs (.stop (by simp [finIf]))⟩
              rw [zm]; simp [intersectionDec, hxy, hyx, em]
  intro n xs ys i j hn h1 h2
  rcases run n xs ys i j hn h1 h2 with ⟨z, k, i', j', r⟩ | ⟨x', xs', y', ys', i', j', a1, a2, a3, a4, k, r⟩
  · exact .inl ⟨z, by rw [findIntersection, dbl_run (finIf_idem _) _ _ _ _ (Nat.le_refl 1) r]; rfl⟩
  · exact .inr ⟨x', xs', y', ys', i', j', a1, a2, a3, a4, by rw [findIntersection, dbl_run (finIf_idem _) _ _ _ _ (Nat.le_refl 1) r]; rfl⟩

/-- where `find_difference` stops -/
theorem findDifference_spec {last1 last2 : Nat} : ∀ (n : Nat) (xs ys : List α) (i j : Nat), xs.length + ys.length = n →
    At m1 last1 i xs → At m2 last2 j ys →
    (zm (differenceDec comp) true false xs ys = [] ∧ findDifference comp m1 m2 i last1 j last2 = some (last1, last2)) ∨
    ∃ x xs' ys' i' j', At m1 last1 i' (x :: xs') ∧ At m2 last2 j' ys' ∧ xs'.length + ys'.length < n ∧
      zm (differenceDec comp) true false xs ys = x :: zm (differenceDec comp) true false xs' ys' ∧
      findDifference comp m1 m2 i last1 j last2 = some (i', j') := by
  have run : ∀ (n : Nat) (xs ys : List α) (i j : Nat), xs.length + ys.length = n → At m1 last1 i xs → At m2 last2 j ys →
      (zm (differenceDec comp) true false xs ys = [] ∧ ∃ k i' j', Run (finIf fun s : Cur => s.2.2 || s.1 == last1) (diffStep comp m1 m2 last2) k (i, j, false) (i', j', false)) ∨
      ∃ x xs' ys' i' j', At m1 last1 i' (x :: xs') ∧ At m2 last2 j' ys' ∧ xs'.length + ys'.length < n ∧
        zm (differenceDec comp) true false xs ys = x :: zm (differenceDec comp) true false xs' ys' ∧
        ∃ k, Run (finIf fun s : Cur => s.2.2 || s.1 == last1) (diffStep comp m1 m2 last2) k (i, j, false) (i', j', true) := by
    intro n
    induction n using Nat.strongRecOn with
    | ind n ih =>
      intro xs ys i j hn h1 h2
      cases xs with
      | nil => exact .inl ⟨by simp [zm], 0, i, j, .stop (by simp [finIf, h1.nil])⟩
      | cons x xs =>
        have hf : finIf (fun s : Cur => s.2.2 || s.1 == last1) (i, j, false) = none := by simp [finIf, h1.ne]
        simp only [List.length_cons] at hn
        cases ys with
        | nil =>
          have hs : diffStep comp m1 m2 last2 (i, j, false) = some (i, j, true) := by simp [diffStep, h2.nil]
          refine .inr ⟨x, xs, [], i, j, h1, h2, by simp at hn ⊢; omega, ?_, 1, .step hf hs (.stop (by simp [finIf]))⟩
          cases xs <;> simp [zm]
        | cons y ys =>
          have hs : diffStep comp m1 m2 last2 (i, j, false) = some (if comp x y then (i, j, true)
              else if comp y x then (i, j + 1, false) else (i + 1, j + 1, false)) := by simp [diffStep, h1.rd, h2.rd, h2.ne]
          simp only [List.length_cons] at hn
          by_cases hxy : comp x y = true
          · rw [if_pos hxy] at hs
            refine .inr ⟨x, xs, y :: ys, i, j, h1, h2, by simp; omega, ?_, 1, .step hf hs (.stop (by simp [finIf]))⟩
            rw [zm]; simp [differenceDec, hxy, em]
          · by_cases hyx : comp y x = true
            · have e : zm (differenceDec comp) true false (x :: xs) (y :: ys) = zm (differenceDec comp) true false (x :: xs) ys := by
                rw [zm]; simp [differenceDec, hxy, hyx, em]
              rw [if_neg hxy, if_pos hyx] at hs
              rcases ih ((x :: xs).length + ys.length) (by simp; omega) (x :: xs) ys i (j + 1) rfl h1 h2.tail with ⟨z, k, i', j', r⟩ | ⟨x', xs', ys', i', j', a1, a2, a3, a4, k, r⟩
              · exact .inl ⟨by rw [e, z], k + 1, i', j', .step hf hs r⟩
              · exact .inr ⟨x', xs', ys', i', j', a1, a2, by simp at a3; omega, by rw [e, a4], k + 1, .step hf hs r⟩
            · have e : zm (differenceDec comp) true false (x :: xs) (y :: ys) = zm (differenceDec comp) true false xs ys := by
                rw [zm]; simp [differenceDec, hxy, hyx, em]
              rw [if_neg hxy, if_neg hyx] at hs
              rcases ih (xs.length + ys.length) (by omega) xs ys (i + 1) (j + 1) rfl h1.tail h2.tail with ⟨z, k, i', j', r⟩ | ⟨x', xs', ys', i', j', a1, a2, a3, a4, k, r⟩
              · exact .inl ⟨by rw [e, z], k + 1, i', j', .step hf hs r⟩
              · exact .inr ⟨x', xs', ys', i', j', a1, a2, by omega, by rw [e, a4], k + 1, .step hf hs r⟩
  intro n xs ys i j hn h1 h2
  rcases run n xs ys i j hn h1 h2 with ⟨z, k, i', j', r⟩ | ⟨x', xs', ys', i', j', a1, a2, a3, a4, k, r⟩
  · exact .inl ⟨z, by rw [findDifference, dbl_run (finIf_idem _) _ _ _ _ (Nat.le_refl 1) r]; rfl⟩
  · exact .inr ⟨x', xs', ys', i', j', a1, a2, a3, a4, by rw [findDifference, dbl_run (finIf_idem _) _ _ _ _ (Nat.le_refl 1) r]; rfl⟩

/-- where `find_symmetric_difference` stops: the rests are not longer, have the same difference, and do not begin with equivalent elements -/
theorem findSymm_spec {last1 last2 : Nat} : ∀ (n : Nat) (xs ys : List α) (i j : Nat), xs.length + ys.length = n →
    At m1 last1 i xs → At m2 last2 j ys →
    ∃ xs' ys' i' j', At m1 last1 i' xs' ∧ At m2 last2 j' ys' ∧ xs'.length + ys'.length ≤ n ∧
      zm (symmetricDifferenceDec comp) true true xs ys = zm (symmetricDifferenceDec comp) true true xs' ys' ∧
      (∀ x xs'' y ys'', xs' = x :: xs'' → ys' = y :: ys'' → comp x y = true ∨ comp y x = true) ∧
      findSymmetricDifference comp m1 m2 i last1 j last2 = some (i', j') := by
  have run : ∀ (n : Nat) (xs ys : List α) (i j : Nat), xs.length + ys.length = n → At m1 last1 i xs → At m2 last2 j ys →
      ∃ xs' ys' i' j' b, At m1 last1 i' xs' ∧ At m2 last2 j' ys' ∧ xs'.length + ys'.length ≤ n ∧
        zm (symmetricDifferenceDec comp) true true xs ys = zm (symmetricDifferenceDec comp) true true xs' ys' ∧
        (∀ x xs'' y ys'', xs' = x :: xs'' → ys' = y :: ys'' → comp x y = true ∨ comp y x = true) ∧
        ∃ k, Run (finIf fun s : Cur => s.2.2 || s.1 == last1 || s.2.1 == last2) (symmStep comp m1 m2) k (i, j, false) (i', j', b) := by
    intro n
    induction n using Nat.strongRecOn with
    | ind n ih =>
      intro xs ys i j hn h1 h2
      cases xs with
      | nil => exact ⟨[], ys, i, j, false, h1, h2, by omega, rfl, by simp, 0, .stop (by simp [finIf, h1.nil])⟩
      | cons x xs =>
        cases ys with
        | nil => exact ⟨x :: xs, [], i, j, false, h1, h2, by omega, rfl, by simp, 0, .stop (by simp [finIf, h2.nil])⟩
        | cons y ys =>
          have hf : finIf (fun s : Cur => s.2.2 || s.1 == last1 || s.2.1 == last2) (i, j, false) = none := by simp [finIf, h1.ne, h2.ne]
          have hs : symmStep comp m1 m2 (i, j, false) = some (if comp x y || comp y x then (i, j, true) else (i + 1, j + 1, false)) := by
            simp [symmStep, h1.rd, h2.rd]
          simp only [List.length_cons] at hn
          by_cases hc : (comp x y || comp y x) = true
          · rw [if_pos hc] at hs
            refine ⟨x :: xs, y :: ys, i, j, true, h1, h2, by simp; omega, rfl, ?_, 1, .step hf hs (.stop (by simp [finIf]))⟩
            intro a as b bs ea eb
            cases ea; cases eb
            simpa using hc
          · rw [if_neg hc] at hs
            obtain ⟨c1, c2⟩ : comp x y = false ∧ comp y x = false := by simpa using hc
            have e : zm (symmetricDifferenceDec comp) true true (x :: xs) (y :: ys) = zm (symmetricDifferenceDec comp) true true xs ys := by
              rw [zm]; simp [symmetricDifferenceDec, c1, c2, em]
            obtain ⟨xs', ys', i', j', b, a1, a2, a3, a4, a5, k, r⟩ := ih (xs.length + ys.length) (by omega) xs ys (i + 1) (j + 1) rfl h1.tail h2.tail
            exact ⟨xs', ys', i', j', b, a1, a2, by omega, by rw [e, a4], a5, k + 1, .step hf hs r⟩
  intro n xs ys i j hn h1 h2
  obtain ⟨xs', ys', i', j', b, a1, a2, a3, a4, a5, k, r⟩ := run n xs ys i j hn h1 h2
  exact ⟨xs', ys', i', j', a1, a2, a3, a4, a5, by rw [findSymmetricDifference, dbl_run (finIf_idem _) _ _ _ _ (Nat.le_refl 1) r]; rfl⟩

/-- the loop condition: comparison with the end iterator -/
def atEnd (last1 last2 : Nat) (it : It) : Bool := eqIt it (last1, last2, true)

abbrev Y (k : Kind) (comp : α → α → Bool) (m1 m2 : List α) (last1 last2 : Nat) : It → List α → Prop :=
  Yields (deref m1 m2) (incr k comp m1 m2 last1 last2) (atEnd last1 last2)

variable {last1 last2 : Nat}

theorem atEnd_nil {i j : Nat} {b : Bool} (h1 : At m1 last1 i []) (h2 : At m2 last2 j []) : atEnd last1 last2 (i, j, b) = true := by
  simp [atEnd, eqIt, h1.nil, h2.nil]
theorem atEnd_left {i j : Nat} {b : Bool} {x : α} {xs : List α} (h1 : At m1 last1 i (x :: xs)) : atEnd last1 last2 (i, j, b) = false := by
  simp [atEnd, eqIt, h1.ne]
theorem atEnd_right {i j : Nat} {b : Bool} {y : α} {ys : List α} (h2 : At m2 last2 j (y :: ys)) : atEnd last1 last2 (i, j, b) = false := by
  simp [atEnd, eqIt, h2.ne]

/-- `check_in_left` in terms of the rests -/
theorem checkInLeft_eq (test : α → α → Bool) {i j : Nat} {xs ys : List α} (h1 : At m1 last1 i xs) (h2 : At m2 last2 j ys) :
    checkInLeft test m1 m2 last1 last2 (i, j) = some (match xs, ys with
      | [], [] => true
      | [], _ :: _ => false
      | _ :: _, [] => true
      | x :: _, y :: _ => test x y) := by
  cases xs with
  | nil => cases ys with
    | nil => simp [checkInLeft, h1.nil, h2.nil]
    | cons y ys => simp [checkInLeft, h1.nil, h2.ne]
  | cons x xs => cases ys with
    | nil => simp [checkInLeft, h1.ne, h2.nil]
    | cons y ys => simp [checkInLeft, h1.ne, h2.ne, h1.rd, h2.rd]

theorem zm_nil_right (dec : α → α → Act) (xs : List α) (k2 : Bool) : zm dec true k2 xs [] = xs := by
  cases xs with
  | nil => cases k2 <;> simp [zm]
  | cons x xs => simp [zm]

theorem merge_yields : ∀ (n : Nat) (xs ys : List α) (i j : Nat), xs.length + ys.length = n → At m1 last1 i xs → At m2 last2 j ys →
    ∃ it, mk .merge comp m1 m2 last1 last2 (i, j) = some it ∧ Y .merge comp m1 m2 last1 last2 it (zm (mergeDec comp) true true xs ys) := by
  intro n
  induction n using Nat.strongRecOn with
  | ind n ih =>
    intro xs ys i j hn h1 h2
    have hm : ∃ b, mk .merge comp m1 m2 last1 last2 (i, j) = some (i, j, b) ∧ some b = checkInLeft (fun x y => !comp y x) m1 m2 last1 last2 (i, j) := by
      rw [checkInLeft_eq _ h1 h2]
      exact ⟨_, by simp [mk, leftTest, checkInLeft_eq _ h1 h2], rfl⟩
    obtain ⟨b, hmk, hb⟩ := hm
    rw [checkInLeft_eq _ h1 h2] at hb
    refine ⟨(i, j, b), hmk, ?_⟩
    cases xs with
    | nil => cases ys with
      | nil => simp only [zm, if_true]; exact .nil (atEnd_nil h1 h2)
      | cons y ys =>
        simp only [Option.some.injEq] at hb
        subst hb
        obtain ⟨it, e1, e2⟩ := ih ys.length (by simp at hn; omega) [] ys i (j + 1) (by simp) h1 h2.tail
        simp only [zm, if_true] at e2 ⊢
        refine .cons (atEnd_right h2) (by simp [deref, h2.rd]) ?_ e2
        simp [incr, nextMerge, h1.nil, h2.ne]
        have q := h1.nil; subst q; exact e1
    | cons x xs => cases ys with
      | nil =>
        simp only [Option.some.injEq] at hb
        subst hb
        obtain ⟨it, e1, e2⟩ := ih xs.length (by simp at hn; omega) xs [] (i + 1) j (by simp) h1.tail h2
        rw [zm_nil_right] at e2 ⊢
        refine .cons (atEnd_left h1) (by simp [deref, h1.rd]) ?_ e2
        simp [incr, nextMerge, h1.ne, h2.nil]
        have q := h2.nil; subst q; exact e1
      | cons y ys =>
        simp only [Option.some.injEq] at hb
        subst hb
        simp only [List.length_cons] at hn
        rw [zm]
        by_cases hyx : comp y x = true
        · obtain ⟨it, e1, e2⟩ := ih ((x :: xs).length + ys.length) (by simp; omega) (x :: xs) ys i (j + 1) rfl h1 h2.tail
          simp only [mergeDec, if_pos hyx, em, if_true, List.singleton_append]
          refine .cons (atEnd_left h1) (by simp [deref, h2.rd, hyx]) ?_ e2
          simpa [incr, nextMerge, h1.ne, h2.ne, h1.rd, h2.rd, hyx] using e1
        · obtain ⟨it, e1, e2⟩ := ih (xs.length + (y :: ys).length) (by simp; omega) xs (y :: ys) (i + 1) j rfl h1.tail h2
          simp only [mergeDec, if_neg hyx, em, if_true, List.singleton_append]
          refine .cons (atEnd_left h1) (by simp [deref, h1.rd, hyx]) ?_ e2
          simpa [incr, nextMerge, h1.ne, h2.ne, h1.rd, h2.rd, hyx] using e1

theorem union_yields : ∀ (n : Nat) (xs ys : List α) (i j : Nat), xs.length + ys.length = n → At m1 last1 i xs → At m2 last2 j ys →
    ∃ it, mk .union comp m1 m2 last1 last2 (i, j) = some it ∧ Y .union comp m1 m2 last1 last2 it (zm (unionDec comp) true true xs ys) := by
  intro n
  induction n using Nat.strongRecOn with
  | ind n ih =>
    intro xs ys i j hn h1 h2
    have hm : ∃ b, mk .union comp m1 m2 last1 last2 (i, j) = some (i, j, b) ∧ some b = checkInLeft (fun x y => comp x y || !comp y x) m1 m2 last1 last2 (i, j) := by
      rw [checkInLeft_eq _ h1 h2]
      exact ⟨_, by simp [mk, leftTest, checkInLeft_eq _ h1 h2], rfl⟩
    obtain ⟨b, hmk, hb⟩ := hm
    rw [checkInLeft_eq _ h1 h2] at hb
    refine ⟨(i, j, b), hmk, ?_⟩
    cases xs with
    | nil => cases ys with
      | nil => simp only [zm, if_true]; exact .nil (atEnd_nil h1 h2)
      | cons y ys =>
        simp only [Option.some.injEq] at hb
        subst hb
        obtain ⟨it, e1, e2⟩ := ih ys.length (by simp at hn; omega) [] ys i (j + 1) (by simp) h1 h2.tail
        simp only [zm, if_true] at e2 ⊢
        refine .cons (atEnd_right h2) (by simp [deref, h2.rd]) ?_ e2
        simp [incr, nextUnion, h1.nil, h2.ne]
        have q := h1.nil; subst q; exact e1
    | cons x xs => cases ys with
      | nil =>
        simp only [Option.some.injEq] at hb
        subst hb
        obtain ⟨it, e1, e2⟩ := ih xs.length (by simp at hn; omega) xs [] (i + 1) j (by simp) h1.tail h2
        rw [zm_nil_right] at e2 ⊢
        refine .cons (atEnd_left h1) (by simp [deref, h1.rd]) ?_ e2
        simp [incr, nextUnion, h1.ne, h2.nil]
        have q := h2.nil; subst q; exact e1
      | cons y ys =>
        simp only [Option.some.injEq] at hb
        subst hb
        simp only [List.length_cons] at hn
        rw [zm]
        by_cases hxy : comp x y = true
        · obtain ⟨it, e1, e2⟩ := ih (xs.length + (y :: ys).length) (by simp; omega) xs (y :: ys) (i + 1) j rfl h1.tail h2
          simp only [unionDec, if_pos hxy, em, if_true, List.singleton_append]
          refine .cons (atEnd_left h1) (by simp [deref, h1.rd, hxy]) ?_ e2
          simpa [incr, nextUnion, h1.ne, h2.ne, h1.rd, h2.rd, hxy] using e1
        · by_cases hyx : comp y x = true
          · obtain ⟨it, e1, e2⟩ := ih ((x :: xs).length + ys.length) (by simp; omega) (x :: xs) ys i (j + 1) rfl h1 h2.tail
            simp only [unionDec, if_neg hxy, if_pos hyx, em, if_true, List.singleton_append]
            refine .cons (atEnd_left h1) (by simp [deref, h2.rd, hyx, hxy]) ?_ e2
            simpa [incr, nextUnion, h1.ne, h2.ne, h1.rd, h2.rd, hyx, hxy] using e1
          · obtain ⟨it, e1, e2⟩ := ih (xs.length + ys.length) (by omega) xs ys (i + 1) (j + 1) rfl h1.tail h2.tail
            simp only [unionDec, if_neg hxy, if_neg hyx, em, if_true, List.singleton_append]
            refine .cons (atEnd_left h1) (by simp [deref, h1.rd, hyx, hxy]) ?_ e2
            simpa [incr, nextUnion, h1.ne, h2.ne, h1.rd, h2.rd, hyx, hxy] using e1

theorem inter_yields : ∀ (n : Nat) (xs ys : List α) (i j : Nat), xs.length + ys.length = n → At m1 last1 i xs → At m2 last2 j ys →
    ∃ it, construct .inter comp m1 m2 i last1 j last2 = some it ∧ Y .inter comp m1 m2 last1 last2 it (zm (intersectionDec comp) false false xs ys) := by
  intro n
  induction n using Nat.strongRecOn with
  | ind n ih =>
    intro xs ys i j hn h1 h2
    rcases findIntersection_spec (comp := comp) n xs ys i j hn h1 h2 with ⟨z, e⟩ | ⟨x, xs', y, ys', i', j', a1, a2, a3, a4, e⟩
    · rw [z]
      exact ⟨(last1, last2, true), by simp [construct, e, mk, leftTest], .nil (by simp [atEnd, eqIt])⟩
    · refine ⟨(i', j', true), by simp [construct, e, mk, leftTest], ?_⟩
      obtain ⟨it, e1, e2⟩ := ih (xs'.length + ys'.length) a3 xs' ys' (i' + 1) (j' + 1) rfl a1.tail a2.tail
      rw [a4]
      refine .cons (atEnd_left a1) (by simp [deref, a1.rd]) ?_ e2
      simpa [incr, nextIntersection, a1.ne, a2.ne, construct] using e1

theorem diff_yields : ∀ (n : Nat) (xs ys : List α) (i j : Nat), xs.length + ys.length = n → At m1 last1 i xs → At m2 last2 j ys →
    ∃ it, construct .diff comp m1 m2 i last1 j last2 = some it ∧ Y .diff comp m1 m2 last1 last2 it (zm (differenceDec comp) true false xs ys) := by
  intro n
  induction n using Nat.strongRecOn with
  | ind n ih =>
    intro xs ys i j hn h1 h2
    rcases findDifference_spec (comp := comp) n xs ys i j hn h1 h2 with ⟨z, e⟩ | ⟨x, xs', ys', i', j', a1, a2, a3, a4, e⟩
    · rw [z]
      exact ⟨(last1, last2, true), by simp [construct, e, mk, leftTest], .nil (by simp [atEnd, eqIt])⟩
    · refine ⟨(i', j', true), by simp [construct, e, mk, leftTest], ?_⟩
      obtain ⟨it, e1, e2⟩ := ih (xs'.length + ys'.length) a3 xs' ys' (i' + 1) j' rfl a1.tail a2
      rw [a4]
      refine .cons (atEnd_left a1) (by simp [deref, a1.rd]) ?_ e2
      simpa [incr, nextDifference, a1.ne, construct] using e1

theorem symm_mk {i j : Nat} {xs ys : List α} (h1 : At m1 last1 i xs) (h2 : At m2 last2 j ys) :
    mk .symm comp m1 m2 last1 last2 (i, j) = some (i, j, match xs, ys with
      | [], [] => true
      | [], _ :: _ => false
      | _ :: _, [] => true
      | x :: _, y :: _ => comp x y) := by
  simp only [mk, leftTest, checkInLeft_eq _ h1 h2]
  rfl

/-- from positions that are not at equivalent elements -/
theorem symm_yields : ∀ (n : Nat) (xs ys : List α) (i j : Nat), xs.length + ys.length = n → At m1 last1 i xs → At m2 last2 j ys →
    (∀ x xs'' y ys'', xs = x :: xs'' → ys = y :: ys'' → comp x y = true ∨ comp y x = true) →
    ∃ it, mk .symm comp m1 m2 last1 last2 (i, j) = some it ∧ Y .symm comp m1 m2 last1 last2 it (zm (symmetricDifferenceDec comp) true true xs ys) := by
  intro n
  induction n using Nat.strongRecOn with
  | ind n ih =>
    intro xs ys i j hn h1 h2 hne
    refine ⟨_, symm_mk h1 h2, ?_⟩
    cases xs with
    | nil => cases ys with
      | nil => simp only [zm, if_true]; exact .nil (atEnd_nil h1 h2)
      | cons y ys =>
        obtain ⟨it, e1, e2⟩ := ih ys.length (by simp at hn; omega) [] ys i (j + 1) (by simp) h1 h2.tail (by simp)
        simp only [zm, if_true] at e2 ⊢
        refine .cons (atEnd_right h2) (by simp [deref, h2.rd]) ?_ e2
        simp [incr, nextSymmetricDifference, h1.nil, h2.ne]
        have q := h1.nil; subst q; exact e1
    | cons x xs => cases ys with
      | nil =>
        obtain ⟨it, e1, e2⟩ := ih xs.length (by simp at hn; omega) xs [] (i + 1) j (by simp) h1.tail h2 (by simp)
        rw [zm_nil_right] at e2 ⊢
        refine .cons (atEnd_left h1) (by simp [deref, h1.rd]) ?_ e2
        simp [incr, nextSymmetricDifference, h1.ne, h2.nil]
        have q := h2.nil; subst q; exact e1
      | cons y ys =>
        simp only [List.length_cons] at hn
        rw [zm]
        have hne := hne x xs y ys rfl rfl
        by_cases hxy : comp x y = true
        · obtain ⟨xs', ys', i', j', a1, a2, a3, a4, a5, e⟩ := findSymm_spec (comp := comp) (xs.length + (y :: ys).length) xs (y :: ys) (i + 1) j rfl h1.tail h2
          obtain ⟨it, e1, e2⟩ := ih (xs'.length + ys'.length) (by simp at a3; omega) xs' ys' i' j' rfl a1 a2 a5
          simp only [symmetricDifferenceDec, if_pos hxy, em, if_true, List.singleton_append]
          rw [a4]
          refine .cons (atEnd_left h1) (by simp [deref, h1.rd, hxy]) ?_ e2
          simpa [incr, nextSymmetricDifference, h1.ne, h2.ne, h1.rd, h2.rd, hxy, e] using e1
        · have hyx : comp y x = true := by simpa [hxy] using hne
          obtain ⟨xs', ys', i', j', a1, a2, a3, a4, a5, e⟩ := findSymm_spec (comp := comp) ((x :: xs).length + ys.length) (x :: xs) ys i (j + 1) rfl h1 h2.tail
          obtain ⟨it, e1, e2⟩ := ih (xs'.length + ys'.length) (by simp at a3; omega) xs' ys' i' j' rfl a1 a2 a5
          simp only [symmetricDifferenceDec, if_neg hxy, if_pos hyx, em, if_true, List.singleton_append]
          rw [a4]
          refine .cons (atEnd_left h1) (by simp [deref, h2.rd, hxy]) ?_ e2
          simpa [incr, nextSymmetricDifference, h1.ne, h2.ne, h1.rd, h2.rd, hxy, e] using e1

end Sprout.SetIter

import Verif.Proofs.Find
import Verif.Spec.Find

namespace Sprout
variable {α β : Type}

theorem isFirst_findIdx' {γ : Type} {t : Nat → Bool} {a : Nat} (z : List γ) (q : γ → Bool)
    (h : ∀ k (hk : k < z.length), t (a + k) = q z[k]) : IsFirst t a (a + z.length) (a + z.findIdx q) := by
  refine ⟨by omega, by have := List.findIdx_le_length (p := q) (xs := z); omega, fun k h1 h2 => ?_, fun h' => ?_⟩
  · have hk : k - a < z.findIdx q := by omega
    have hl := List.findIdx_le_length (p := q) (xs := z)
    have := h (k - a) (by omega)
    rw [show a + (k - a) = k by omega] at this
    rw [this]
    simpa using List.not_of_lt_findIdx hk
  · have hk : z.findIdx q < z.length := by omega
    rw [h _ hk]
    exact List.findIdx_getElem (w := hk)

/-- reading two blocks in lockstep -/
theorem testAt2_zip (p : α → β → Bool) (pre1 xs post1 : List α) (pre2 ys post2 : List β) (k : Nat)
    (hk : k < (List.zipWith p xs ys).length) :
    testAt2 (pre1 ++ xs ++ post1) (pre2 ++ ys ++ post2) p (pre1.length + k) (pre2.length + k)
      = some (List.zipWith p xs ys)[k] := by
  simp only [List.length_zipWith] at hk
  have h1 : k < xs.length := by omega
  have h2 : k < ys.length := by omega
  simp [testAt2, rd, List.append_assoc, List.getElem?_append_right, List.getElem?_append_left, h1, h2]

theorem mismatchIdx_spec (p : α → β → Bool) (pre1 xs post1 : List α) (pre2 ys post2 : List β)
    (size : Nat) (hs : size = (List.zipWith p xs ys).length) (h0 : 0 < size) :
    halveFind (fun i _ => (testAt2 (pre1 ++ xs ++ post1) (pre2 ++ ys ++ post2) p i
        (pre2.length + (i - pre1.length))).map (!·))
      pre1.length (pre1.length + size) (size / 2) pre1.length
      = some (pre1.length + (List.zipWith p xs ys).findIdx (!·)) := by
  subst hs
  have := halveFind_spec (test := (fun i _ => (testAt2 (pre1 ++ xs ++ post1) (pre2 ++ ys ++ post2) p i
        (pre2.length + (i - pre1.length))).map (!·)))
    (t := fun i => !((List.zipWith p xs ys)[i - pre1.length]?.getD true)) _ pre1.length
    (pre1.length + (List.zipWith p xs ys).length) rfl (by omega)
    (fun k h1 h2 => by
      have := testAt2_zip p pre1 xs post1 pre2 ys post2 (k - pre1.length) (by omega)
      rw [show pre1.length + (k - pre1.length) = k by omega] at this
      rw [this, List.getElem?_eq_getElem (by omega)]
      simp)
  obtain ⟨r, hr, hf⟩ := this
  rw [Nat.add_sub_cancel_left] at hr
  rw [hr, hf.unique (isFirst_findIdx' (List.zipWith p xs ys) (!·) _)]
  intro k hk
  simp [Nat.add_sub_cancel_left, List.getElem?_eq_getElem hk]

theorem mismatchRa_eq (p : α → β → Bool) (pre1 xs post1 : List α) (pre2 ys post2 : List β)
    (hl : xs.length ≤ ys.length) :
    mismatchRa (pre1 ++ xs ++ post1) (pre2 ++ ys ++ post2) p pre1.length (pre1.length + xs.length) pre2.length
      = some (pre1.length + (List.zipWith p xs ys).findIdx (!·), pre2.length + (List.zipWith p xs ys).findIdx (!·)) := by
  unfold mismatchRa
  by_cases h0 : xs.length = 0
  · have : xs = [] := List.length_eq_zero_iff.mp h0
    subst this; simp
  · rw [if_neg (by omega), Nat.add_sub_cancel_left,
      mismatchIdx_spec p pre1 xs post1 pre2 ys post2 xs.length (by simp; omega) (by omega)]
    simp

theorem mismatch2Ra_eq (p : α → β → Bool) (pre1 xs post1 : List α) (pre2 ys post2 : List β) :
    mismatch2Ra (pre1 ++ xs ++ post1) (pre2 ++ ys ++ post2) p pre1.length (pre1.length + xs.length)
      pre2.length (pre2.length + ys.length)
      = some (pre1.length + (List.zipWith p xs ys).findIdx (!·), pre2.length + (List.zipWith p xs ys).findIdx (!·)) := by
  unfold mismatch2Ra
  rcases xs with _ | ⟨x, xs⟩
  · simp
  · rcases ys with _ | ⟨y, ys⟩
    · simp
    · rw [if_neg (by simp), Nat.add_sub_cancel_left, Nat.add_sub_cancel_left]
      simp only [mismatchIdx_spec p pre1 (x :: xs) post1 pre2 (y :: ys) post2 (min (x :: xs).length (y :: ys).length)
        (by simp) (by simp), Option.bind_eq_bind, Option.bind_some, Nat.add_sub_cancel_left]

theorem mismatchIn_run (p : α → β → Bool) (fin : Nat → Nat → Bool) : ∀ (xs : List α) (ys : List β) (pre1 post1 : List α) (pre2 post2 : List β),
    (∀ k, k < min xs.length ys.length → fin (pre1.length + k) (pre2.length + k) = false) →
    (fin (pre1.length + min xs.length ys.length) (pre2.length + min xs.length ys.length) = true) →
    ∃ k b, Run (finIf fun s : Nat × Nat × Bool => s.2.2 || fin s.1 s.2.1)
    (fun s => do
      let b ← testAt2 (pre1 ++ xs ++ post1) (pre2 ++ ys ++ post2) p s.1 s.2.1
      some (if !b then (s.1, s.2.1, true) else (s.1 + 1, s.2.1 + 1, false)))
      k (pre1.length, pre2.length, false)
        (pre1.length + (List.zipWith p xs ys).findIdx (!·), pre2.length + (List.zipWith p xs ys).findIdx (!·), b) := by
  intro xs
  induction xs with
  | nil => intro ys pre1 post1 pre2 post2 _ h; exact ⟨0, false, .stop (by simpa [finIf] using h)⟩
  | cons x xs ih =>
    intro ys pre1 post1 pre2 post2 h1 h2
    rcases ys with _ | ⟨y, ys⟩
    · exact ⟨0, false, .stop (by simpa [finIf] using h2)⟩
    · have hfin : (finIf fun s : Nat × Nat × Bool => s.2.2 || fin s.1 s.2.1) (pre1.length, pre2.length, false) = none := by
        have := h1 0 (by simp)
        simpa [finIf] using this
      cases hp : p x y with
      | false =>
        refine ⟨1, true, .step (t := (pre1.length, pre2.length, true)) hfin ?_ (.stop ?_)⟩
        · simp [testAt2, rd, hp]
        · simp [finIf, List.findIdx_cons, hp]
      | true =>
        obtain ⟨k, b, h⟩ := ih ys (pre1 ++ [x]) post1 (pre2 ++ [y]) post2
          (fun k hk => by
            have := h1 (k + 1) (by simp; omega)
            simp only [List.length_append, List.length_cons, List.length_nil]
            rw [show pre1.length + (0 + 1) + k = pre1.length + (k + 1) by omega,
              show pre2.length + (0 + 1) + k = pre2.length + (k + 1) by omega]
            exact this)
          (by
            have hm : min (x :: xs).length (y :: ys).length = min xs.length ys.length + 1 := by simp
            rw [hm] at h2
            simp only [List.length_append, List.length_cons, List.length_nil]
            rw [show pre1.length + (0 + 1) + min xs.length ys.length = pre1.length + (min xs.length ys.length + 1) by omega,
              show pre2.length + (0 + 1) + min xs.length ys.length = pre2.length + (min xs.length ys.length + 1) by omega]
            exact h2)
        refine ⟨k + 1, b, .step (t := (pre1.length + 1, pre2.length + 1, false)) hfin ?_ ?_⟩
        · simp [testAt2, rd, hp]
        · simp only [List.length_append, List.length_cons, List.length_nil, List.append_assoc, List.cons_append,
            List.nil_append, Nat.zero_add, List.zipWith_cons_cons, List.findIdx_cons, hp, Bool.not_true, cond_false] at h ⊢
          simp only [← Nat.add_assoc, Nat.add_right_comm _ _ 1]
          exact h

theorem mismatchIn_eq (p : α → β → Bool) (pre1 xs post1 : List α) (pre2 ys post2 : List β)
    (hl : xs.length ≤ ys.length) :
    mismatchIn (pre1 ++ xs ++ post1) (pre2 ++ ys ++ post2) p pre1.length (pre1.length + xs.length) pre2.length
      = some (pre1.length + (List.zipWith p xs ys).findIdx (!·), pre2.length + (List.zipWith p xs ys).findIdx (!·)) := by
  obtain ⟨k, b, h⟩ := mismatchIn_run p (fun i _ => i == pre1.length + xs.length) xs ys pre1 post1 pre2 post2
    (fun k hk => by simp; omega) (by simp; omega)
  unfold mismatchIn
  rw [dbl_run (finIf_idem _) _ _ _ 1 (Nat.le_refl _) h]
  simp

theorem mismatch2In_eq (p : α → β → Bool) (pre1 xs post1 : List α) (pre2 ys post2 : List β) :
    mismatch2In (pre1 ++ xs ++ post1) (pre2 ++ ys ++ post2) p pre1.length (pre1.length + xs.length)
      pre2.length (pre2.length + ys.length)
      = some (pre1.length + (List.zipWith p xs ys).findIdx (!·), pre2.length + (List.zipWith p xs ys).findIdx (!·)) := by
  obtain ⟨k, b, h⟩ := mismatchIn_run p (fun i j => i == pre1.length + xs.length || j == pre2.length + ys.length)
    xs ys pre1 post1 pre2 post2
    (fun k hk => by simp; omega) (by simp; omega)
  simp only [← Bool.or_assoc] at h
  unfold mismatch2In
  rw [dbl_run (finIf_idem _) _ _ _ 1 (Nat.le_refl _) h]
  simp

/-! ### equal -/

theorem equalHalve_spec (p : α → β → Bool) (pre1 xs post1 : List α) (pre2 ys post2 : List β)
    (hl : xs.length ≤ ys.length) (h0 : 0 < xs.length) :
    halveAll (fun i => testAt2 (pre1 ++ xs ++ post1) (pre2 ++ ys ++ post2) p i
        (pre2.length + (i - pre1.length)))
      pre1.length (pre1.length + xs.length) (xs.length / 2)
      = some ((List.zipWith p xs ys).all id) := by
  have hz : (List.zipWith p xs ys).length = xs.length := by simp; omega
  have := halveAll_spec (test := (fun i => testAt2 (pre1 ++ xs ++ post1) (pre2 ++ ys ++ post2) p i
        (pre2.length + (i - pre1.length))))
    (t := fun i => (List.zipWith p xs ys)[i - pre1.length]?.getD true) _ pre1.length
    (pre1.length + xs.length) rfl (by omega)
    (fun k h1 h2 => by
      have := testAt2_zip p pre1 xs post1 pre2 ys post2 (k - pre1.length) (by omega)
      rw [show pre1.length + (k - pre1.length) = k by omega] at this
      rw [this, List.getElem?_eq_getElem (by omega)]
      simp)
  obtain ⟨r, hr, hf⟩ := this
  rw [Nat.add_sub_cancel_left] at hr
  rw [hr]
  congr 1
  rw [Bool.eq_iff_iff, hf, List.all_eq_true]
  constructor
  · intro h b hb
    obtain ⟨i, hi, rfl⟩ := List.getElem_of_mem hb
    have := h (pre1.length + i) (by omega) (by omega)
    rwa [Nat.add_sub_cancel_left, List.getElem?_eq_getElem hi] at this
  · intro h k h1 h2
    rw [List.getElem?_eq_getElem (by omega)]
    exact h _ (List.getElem_mem _)

theorem equalRa_eq (p : α → β → Bool) (pre1 xs post1 : List α) (pre2 ys post2 : List β)
    (hl : xs.length ≤ ys.length) :
    equalRa (pre1 ++ xs ++ post1) (pre2 ++ ys ++ post2) p pre1.length (pre1.length + xs.length) pre2.length
      = some ((List.zipWith p xs ys).all id) := by
  unfold equalRa
  by_cases h0 : xs.length = 0
  · have : xs = [] := List.length_eq_zero_iff.mp h0
    subst this; simp
  · rw [if_neg (by omega), Nat.add_sub_cancel_left, equalHalve_spec p pre1 xs post1 pre2 ys post2 hl (by omega)]

theorem equal2Ra_eq (p : α → β → Bool) (pre1 xs post1 : List α) (pre2 ys post2 : List β) :
    equal2Ra (pre1 ++ xs ++ post1) (pre2 ++ ys ++ post2) p pre1.length (pre1.length + xs.length)
      pre2.length (pre2.length + ys.length)
      = some (decide (xs.length = ys.length) && (List.zipWith p xs ys).all id) := by
  unfold equal2Ra
  rw [Nat.add_sub_cancel_left, Nat.add_sub_cancel_left]
  by_cases hl : xs.length = ys.length
  · rw [if_pos hl]
    have := equalRa_eq p pre1 xs post1 pre2 ys post2 (by omega)
    unfold equalRa at this
    rw [Nat.add_sub_cancel_left] at this
    rw [this]; simp [hl]
  · rw [if_neg hl]; simp [hl]

theorem equalIn_run (p : α → β → Bool) (fin : Nat → Nat → Bool) : ∀ (xs : List α) (ys : List β) (pre1 post1 : List α) (pre2 post2 : List β),
    (∀ k, k < min xs.length ys.length → fin (pre1.length + k) (pre2.length + k) = false) →
    (fin (pre1.length + min xs.length ys.length) (pre2.length + min xs.length ys.length) = true) →
    ∃ k i, Run (finIf fun s : Nat × Nat × Bool => !s.2.2 || fin s.1 s.2.1)
    (fun s => do
      let b ← testAt2 (pre1 ++ xs ++ post1) (pre2 ++ ys ++ post2) p s.1 s.2.1
      some (if b then (s.1 + 1, s.2.1 + 1, true) else (s.1, s.2.1, false)))
      k (pre1.length, pre2.length, true) (pre1.length + i, pre2.length + i, (List.zipWith p xs ys).all id) ∧
      ((List.zipWith p xs ys).all id = true → i = min xs.length ys.length) := by
  intro xs
  induction xs with
  | nil => intro ys pre1 post1 pre2 post2 _ h; exact ⟨0, 0, .stop (by simpa [finIf] using h), by simp⟩
  | cons x xs ih =>
    intro ys pre1 post1 pre2 post2 h1 h2
    rcases ys with _ | ⟨y, ys⟩
    · exact ⟨0, 0, .stop (by simpa [finIf] using h2), by simp⟩
    · have hfin : (finIf fun s : Nat × Nat × Bool => !s.2.2 || fin s.1 s.2.1) (pre1.length, pre2.length, true) = none := by
        have := h1 0 (by simp)
        simpa [finIf] using this
      cases hp : p x y with
      | false =>
        refine ⟨1, 0, .step (t := (pre1.length, pre2.length, false)) hfin ?_ (.stop ?_), ?_⟩
        · simp [testAt2, rd, hp]
        · simp [finIf, hp]
        · simp [hp]
      | true =>
        obtain ⟨k, i, h, hi⟩ := ih ys (pre1 ++ [x]) post1 (pre2 ++ [y]) post2
          (fun k hk => by
            have := h1 (k + 1) (by simp; omega)
            simp only [List.length_append, List.length_cons, List.length_nil]
            rw [show pre1.length + (0 + 1) + k = pre1.length + (k + 1) by omega,
              show pre2.length + (0 + 1) + k = pre2.length + (k + 1) by omega]
            exact this)
          (by
            have hm : min (x :: xs).length (y :: ys).length = min xs.length ys.length + 1 := by simp
            rw [hm] at h2
            simp only [List.length_append, List.length_cons, List.length_nil]
            rw [show pre1.length + (0 + 1) + min xs.length ys.length = pre1.length + (min xs.length ys.length + 1) by omega,
              show pre2.length + (0 + 1) + min xs.length ys.length = pre2.length + (min xs.length ys.length + 1) by omega]
            exact h2)
        refine ⟨k + 1, i + 1, .step (t := (pre1.length + 1, pre2.length + 1, true)) hfin ?_ ?_, ?_⟩
        · simp [testAt2, rd, hp]
        · simp only [List.length_append, List.length_cons, List.length_nil, List.append_assoc, List.cons_append,
            List.nil_append, Nat.zero_add, List.zipWith_cons_cons, List.all_cons, hp, id, Bool.true_and] at h ⊢
          simp only [← Nat.add_assoc, Nat.add_right_comm _ _ 1] at h ⊢
          exact h
        · intro h'
          have := hi (by simpa [hp] using h')
          simp; omega

theorem equalIn_eq (p : α → β → Bool) (pre1 xs post1 : List α) (pre2 ys post2 : List β)
    (hl : xs.length ≤ ys.length) :
    equalIn (pre1 ++ xs ++ post1) (pre2 ++ ys ++ post2) p pre1.length (pre1.length + xs.length) pre2.length
      = some ((List.zipWith p xs ys).all id) := by
  obtain ⟨k, i, h, hi⟩ := equalIn_run p (fun i _ => i == pre1.length + xs.length) xs ys pre1 post1 pre2 post2
    (fun k hk => by simp; omega) (by simp; omega)
  unfold equalIn
  rw [dbl_run (finIf_idem _) _ _ _ 1 (Nat.le_refl _) h]
  simp

theorem equal2In_eq (p : α → β → Bool) (pre1 xs post1 : List α) (pre2 ys post2 : List β) :
    equal2In (pre1 ++ xs ++ post1) (pre2 ++ ys ++ post2) p pre1.length (pre1.length + xs.length)
      pre2.length (pre2.length + ys.length)
      = some (decide (xs.length = ys.length) && (List.zipWith p xs ys).all id) := by
  obtain ⟨k, i, h, hi⟩ := equalIn_run p (fun i j => i == pre1.length + xs.length || j == pre2.length + ys.length)
    xs ys pre1 post1 pre2 post2
    (fun k hk => by simp; omega) (by simp; omega)
  simp only [← Bool.or_assoc] at h
  unfold equal2In
  rw [dbl_run (finIf_idem _) _ _ _ 1 (Nat.le_refl _) h]
  simp only [Option.bind_eq_bind, Option.bind_some, Option.some.injEq]
  cases hb : (List.zipWith p xs ys).all id with
  | false => simp
  | true =>
    have := hi hb
    subst this
    rw [Bool.eq_iff_iff]
    simp
    omega

/-! ### adjacent_find -/

theorem adjIdx_eq (p : α → α → Bool) : ∀ xs : List α, xs ≠ [] →
    Spec.adjIdx p xs = if (List.zipWith p xs xs.tail).findIdx id = xs.length - 1 then xs.length
      else (List.zipWith p xs xs.tail).findIdx id := by
  intro xs
  induction xs with
  | nil => simp
  | cons x xs ih =>
    intro _
    rcases xs with _ | ⟨y, ys⟩
    · simp [Spec.adjIdx]
    · have := ih (by simp)
      simp only [Spec.adjIdx, List.tail_cons, List.zipWith_cons_cons, List.findIdx_cons, id] at this ⊢
      cases hp : p x y with
      | true => simp
      | false =>
        simp only [Bool.false_eq_true, if_false, this, cond_false, List.length_cons, Nat.add_sub_cancel]
        split <;> rename_i h
        · rw [if_pos (by omega)]
        · rw [if_neg (by omega)]

theorem adjIdx_le (p : α → α → Bool) : ∀ xs : List α, Spec.adjIdx p xs ≤ xs.length := by
  intro xs
  induction xs with
  | nil => simp [Spec.adjIdx]
  | cons x xs ih =>
    rcases xs with _ | ⟨y, ys⟩
    · simp [Spec.adjIdx]
    · simp only [Spec.adjIdx]; split
      · simp
      · simpa using ih

theorem adjacentFindRa_eq (p : α → α → Bool) (pre xs post : List α) :
    adjacentFindRa (pre ++ xs ++ post) pre.length (pre.length + xs.length) p
      = some (pre.length + Spec.adjIdx p xs) := by
  unfold adjacentFindRa
  rcases xs with _ | ⟨x, xs⟩
  · simp [Spec.adjIdx]
  · rcases xs with _ | ⟨y, ys⟩
    · simp [Spec.adjIdx]
    · rw [if_neg (by simp)]
      have hz : (List.zipWith p (x :: y :: ys) (x :: y :: ys).tail).length = ys.length + 1 := by simp
      obtain ⟨r, hr, hf⟩ := halveFind_spec (test := (fun i j => testAt2 (pre ++ (x :: y :: ys) ++ post) (pre ++ (x :: y :: ys) ++ post) p i j))
        (t := fun i => ((List.zipWith p (x :: y :: ys) (x :: y :: ys).tail)[i - pre.length]?.getD true)) _ pre.length
        (pre.length + (ys.length + 1)) rfl (by omega)
        (fun k h1 h2 => by
          have := testAt2_zip p pre (x :: y :: ys) post (pre ++ [x]) (y :: ys) post (k - pre.length) (by simp; omega)
          rw [show pre.length + (k - pre.length) = k by omega,
            show (pre ++ [x]).length + (k - pre.length) = k + 1 by simp; omega] at this
          rw [List.getElem?_eq_getElem (by omega)]
          simpa using this)
      rw [Nat.add_sub_cancel_left] at hr
      rw [show pre.length + (x :: y :: ys).length - pre.length - 1 = ys.length + 1 by simp, hr]
      have hr' := hf.unique (by
        rw [← hz]
        exact isFirst_findIdx' (List.zipWith p (x :: y :: ys) (x :: y :: ys).tail) id (fun k hk => by
          rw [Nat.add_sub_cancel_left, List.getElem?_eq_getElem hk]; rfl))
      rw [adjIdx_eq p _ (by simp)]
      have hle := List.findIdx_le_length (p := id) (xs := List.zipWith p (x :: y :: ys) (x :: y :: ys).tail)
      rw [hz] at hle
      simp only [Option.bind_eq_bind, Option.bind_some, Option.some.injEq]
      rw [hr']
      simp only [List.length_cons]
      split <;> rename_i h
      · rw [if_pos (by omega)]
      · rw [if_neg (by omega)]

theorem adjacentFindFwd_run (p : α → α → Bool) (last : Nat) : ∀ (ys : List α) (x : α) (pre post : List α),
    last = pre.length + (ys.length + 1) →
    ∃ k r, Run (finIf fun s : Nat × Nat => s.2 == last)
      (fun s => do
        let b ← testAt2 (pre ++ (x :: ys) ++ post) (pre ++ (x :: ys) ++ post) p s.1 s.2
        some (if b then (s.1, last) else (s.2, s.2 + 1)))
      k (pre.length, pre.length + 1) (r, last) ∧
      (if r + 1 = last then last else r) = pre.length + Spec.adjIdx p (x :: ys) := by
  intro ys
  induction ys with
  | nil => intro x pre post hl; exact ⟨0, pre.length, by subst hl; exact .stop (by simp [finIf]), by simp [hl, Spec.adjIdx]⟩
  | cons y ys ih =>
    intro x pre post hl
    cases hp : p x y with
    | true =>
      refine ⟨1, pre.length, .step (t := (pre.length, last)) (by simp [finIf]; simp at hl; omega) ?_ (.stop (by simp [finIf])), ?_⟩
      · simp [testAt2, rd, hp]
      · simp [Spec.adjIdx, hp]; simp at hl; omega
    | false =>
      obtain ⟨k, r, h, he⟩ := ih y (pre ++ [x]) post (by simp at hl ⊢; omega)
      refine ⟨k + 1, r, .step (t := (pre.length + 1, pre.length + 2)) (by simp [finIf]; simp at hl; omega) ?_ ?_, ?_⟩
      · simp [testAt2, rd, hp]
      · simpa [List.append_assoc] using h
      · simp only [Spec.adjIdx, hp, Bool.false_eq_true, if_false]
        rw [he]; simp; omega

theorem adjacentFindFwd_eq (p : α → α → Bool) (pre xs post : List α) :
    adjacentFindFwd (pre ++ xs ++ post) pre.length (pre.length + xs.length) p
      = some (pre.length + Spec.adjIdx p xs) := by
  unfold adjacentFindFwd
  rcases xs with _ | ⟨x, xs⟩
  · simp [Spec.adjIdx]
  · rw [if_neg (by simp)]
    obtain ⟨k, r, h, he⟩ := adjacentFindFwd_run p (pre.length + (x :: xs).length) xs x pre post (by simp)
    rw [dbl_run (finIf_idem _) _ _ _ 1 (Nat.le_refl _) h]
    simp only [Option.bind_eq_bind, Option.bind_some, he]

/-! ### find_first_of -/

theorem firstOfTest_eq (p : α → β → Bool) (pre1 xs post1 : List α) (pre2 ys post2 : List β) (k : Nat)
    (_ : pre1.length ≤ k) (h2 : k < pre1.length + xs.length) :
    firstOfTest (pre1 ++ xs ++ post1) (pre2 ++ ys ++ post2) p pre2.length (pre2.length + ys.length) k
      = some (atPos (pre1 ++ xs ++ post1) (fun x => ys.any (p x)) k) := by
  unfold firstOfTest atPos
  have hk : k < (pre1 ++ xs ++ post1).length := by simp; omega
  rw [rd_eq hk, List.getElem?_eq_getElem hk]
  simp only [Option.bind_eq_bind, Option.bind_some, findIfRa_eq, Option.any_some]
  congr 1
  rw [Bool.eq_iff_iff, List.any_eq_true]
  simp [List.findIdx_eq_length]

theorem findFirstOfRa_eq (p : α → β → Bool) (pre1 xs post1 : List α) (pre2 ys post2 : List β) :
    findFirstOfRa (pre1 ++ xs ++ post1) (pre2 ++ ys ++ post2) p pre1.length (pre1.length + xs.length)
      pre2.length (pre2.length + ys.length) = some (pre1.length + xs.findIdx (fun x => ys.any (p x))) := by
  unfold findFirstOfRa
  obtain ⟨r, hr, hf⟩ := findRa_spec (test := fun i _ => firstOfTest (pre1 ++ xs ++ post1) (pre2 ++ ys ++ post2) p pre2.length (pre2.length + ys.length) i)
    (a := pre1.length) (b := pre1.length + xs.length) (by omega)
    (fun k h1 h2 => firstOfTest_eq p pre1 xs post1 pre2 ys post2 k h1 h2)
  rw [hr, hf.unique (isFirst_findIdx pre1 xs post1 _)]

theorem findFirstOfIn_eq (p : α → β → Bool) (pre1 xs post1 : List α) (pre2 ys post2 : List β) :
    findFirstOfIn (pre1 ++ xs ++ post1) (pre2 ++ ys ++ post2) p pre1.length (pre1.length + xs.length)
      pre2.length (pre2.length + ys.length) = some (pre1.length + xs.findIdx (fun x => ys.any (p x))) := by
  unfold findFirstOfIn
  obtain ⟨r, hr, hf⟩ := findIn_spec (a := pre1.length) (b := pre1.length + xs.length) (by omega)
    (fun k h1 h2 => firstOfTest_eq p pre1 xs post1 pre2 ys post2 k h1 h2)
  rw [hr, hf.unique (isFirst_findIdx pre1 xs post1 _)]

end Sprout

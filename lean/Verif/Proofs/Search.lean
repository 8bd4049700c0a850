import Verif.Proofs.Find2
import Verif.Model.Search

namespace Sprout
variable {α β : Type}

/-- elementwise prefix test -/
def matchPre (p : α → β → Bool) : List α → List β → Bool
  | _, [] => true
  | [], _ :: _ => false
  | x :: xs, y :: ys => p x y && matchPre p xs ys

theorem matchPre_eq (p : α → β → Bool) : ∀ (xs : List α) (ys : List β),
    matchPre p xs ys = (decide (ys.length ≤ xs.length) && (List.zipWith p xs ys).all id)
  | _, [] => by simp [matchPre]
  | [], _ :: _ => by simp [matchPre]
  | x :: xs, y :: ys => by
    simp only [matchPre, matchPre_eq p xs ys, List.length_cons, Nat.add_le_add_iff_right, List.zipWith_cons_cons,
      List.all_cons, id]
    ac_rfl

theorem matchPre_length {p : α → β → Bool} {xs : List α} {ys : List β} (h : matchPre p xs ys = true) :
    ys.length ≤ xs.length := by
  rw [matchPre_eq] at h; simp at h; exact h.1

theorem matchPre_iff (p : α → β → Bool) (xs : List α) (ys : List β) (i : Nat) (hi : i ≤ xs.length) :
    matchPre p (xs.drop i) ys = true ↔ Spec.MatchAt p xs ys i := by
  rw [matchPre_eq, Bool.and_eq_true, decide_eq_true_iff, List.length_drop]
  unfold Spec.MatchAt
  constructor
  · rintro ⟨h1, h2⟩
    refine ⟨by omega, fun j x y hj hx hy => ?_⟩
    rw [List.all_eq_true] at h2
    apply h2 (p x y)
    apply List.mem_of_getElem? (i := j)
    simp [List.getElem?_zipWith, List.getElem?_drop, hx, hy]
  · rintro ⟨h1, h2⟩
    refine ⟨by omega, ?_⟩
    rw [List.all_eq_true]
    intro b hb
    obtain ⟨j, hj, rfl⟩ := List.getElem_of_mem hb
    simp only [List.length_zipWith, List.length_drop] at hj
    simp only [List.getElem_zipWith, List.getElem_drop, id]
    exact h2 j _ _ (by omega) (List.getElem?_eq_getElem (by omega)) (List.getElem?_eq_getElem (by omega))

/-- the outcome of `search_one` on a nonempty text -/
structure OneRes (t : Nat → Bool) (k L r : Nat) : Prop where
  hit : t k = true → r = k
  miss : t k = false → k < r ∧ r ≤ L ∧ (r = L → ∀ j, k ≤ j → j < L → t j = false)

/-- positions at which the pattern matches -/
def matchPos (p : α → β → Bool) (a : Nat) (xs : List α) (ys : List β) (k : Nat) : Bool :=
  matchPre p (xs.drop (k - a)) ys

theorem matchPos_false {p : α → β → Bool} {a : Nat} {xs : List α} {ys : List β} {k : Nat}
    (h : a + xs.length < k + ys.length) (hk : a ≤ k) (hk' : k < a + xs.length) : matchPos p a xs ys k = false := by
  unfold matchPos
  by_contra hc
  have := matchPre_length (by simpa using hc)
  simp at this; omega

theorem split_at (pre xs post : List α) (k : Nat) (h1 : pre.length ≤ k) (h2 : k ≤ pre.length + xs.length) :
    ∃ pre', pre ++ xs ++ post = pre' ++ xs.drop (k - pre.length) ++ post ∧ pre'.length = k ∧
      pre.length + xs.length = pre'.length + (xs.drop (k - pre.length)).length := by
  refine ⟨pre ++ xs.take (k - pre.length), ?_, by simp; omega, by simp; omega⟩
  rw [List.append_assoc pre (xs.take _), List.take_append_drop]

theorem findIdx_not_eq_length (z : List Bool) : (z.findIdx (!·) = z.length) ↔ z.all id = true := by
  rw [List.findIdx_eq_length]; simp [List.all_eq_true]

theorem searchOneRa_base (p : α → β → Bool) (pre1 xs post1 : List α) (pre2 ys post2 : List β) (hx : xs ≠ []) :
    ∃ r, searchOneRa (pre1 ++ xs ++ post1) (pre2 ++ ys ++ post2) p pre1.length (pre1.length + xs.length)
      pre2.length (pre2.length + ys.length) = some r ∧
      OneRes (matchPos p pre1.length xs ys) pre1.length (pre1.length + xs.length) r := by
  have hx' : 0 < xs.length := List.length_pos_iff.mpr hx
  unfold searchOneRa
  simp only [Nat.add_sub_cancel_left]
  by_cases h : xs.length < ys.length
  · rw [if_pos h]
    refine ⟨_, rfl, fun ht => ?_, fun _ => ⟨by omega, by omega, fun _ j h1 h2 => matchPos_false (by omega) h1 h2⟩⟩
    rw [matchPos_false (by omega) (by omega) (by omega)] at ht; cases ht
  · rw [if_neg h, if_neg (by omega)]
    have hm := mismatchRa_eq p pre1 (xs.take ys.length) (xs.drop ys.length ++ post1) pre2 ys post2 (by simp; omega)
    have e : pre1 ++ xs.take ys.length ++ (xs.drop ys.length ++ post1) = pre1 ++ xs ++ post1 := by
      rw [← List.append_assoc, List.append_assoc pre1 (xs.take _), List.take_append_drop]
    rw [e, List.length_take, Nat.min_eq_left (by omega)] at hm
    rw [hm]
    have hz : (List.zipWith p (xs.take ys.length) ys) = List.zipWith p xs ys := by
      rw [List.zipWith_eq_zipWith_take_min (l₁ := xs), Nat.min_eq_right (by omega), List.take_length]
    have hzl : (List.zipWith p xs ys).length = ys.length := by simp; omega
    rw [hz]
    have hmp : matchPos p pre1.length xs ys pre1.length = (List.zipWith p xs ys).all id := by
      unfold matchPos; rw [Nat.sub_self, List.drop_zero, matchPre_eq]; simp; intro _; omega
    simp only [Option.bind_eq_bind, Option.bind_some]
    refine ⟨_, rfl, fun ht => ?_, fun ht => ?_⟩
    · rw [if_pos]
      rw [hmp, ← findIdx_not_eq_length, hzl] at ht
      omega
    · have hy : 0 < ys.length := by
        rcases ys with _ | ⟨y, ys⟩
        · simp [matchPos, matchPre] at ht
        · simp
      rw [hmp] at ht
      rw [if_neg]
      · exact ⟨by omega, by omega, fun he j h1 h2 => by
          by_cases hj : j = pre1.length
          · rw [hj, hmp, ht]
          · exact matchPos_false (by omega) h1 h2⟩
      · intro hc
        have : (List.zipWith p xs ys).findIdx (!·) = (List.zipWith p xs ys).length := by omega
        rw [findIdx_not_eq_length, ht] at this; cases this

/-- fin of the forward search_one -/
theorem searchOneFwd_idem (first1 last1 last2 : Nat) : FinIdem (fun s : Nat × Nat × Bool =>
      if s.2.2 then some s
      else if s.2.1 = last2 then some (first1, last2, true)
      else if s.1 = last1 then some (last1, last2, true)
      else none) := by
  rintro ⟨i, j, b⟩ ⟨i', j', b'⟩ h
  cases b <;> simp at h ⊢
  · split at h
    · simp at h; simp [h]
    · split at h
      · simp at h; simp [h]
      · simp at h
  · simp [h]

theorem searchOneFwd_run (p : α → β → Bool) (first1 last1 last2 : Nat) :
    ∀ (xs : List α) (ys : List β) (pre1 post1 : List α) (pre2 post2 : List β),
    last1 = pre1.length + xs.length → last2 = pre2.length + ys.length →
    ∃ k r j, Run (fun s : Nat × Nat × Bool =>
      if s.2.2 then some s
      else if s.2.1 = last2 then some (first1, last2, true)
      else if s.1 = last1 then some (last1, last2, true)
      else none)
    (fun s => do
      let b ← testAt2 (pre1 ++ xs ++ post1) (pre2 ++ ys ++ post2) p s.1 s.2.1
      some (if !b then (s.1 + 1, last2, true) else (s.1 + 1, s.2.1 + 1, false)))
    k (pre1.length, pre2.length, false) (r, j, true) ∧
    (matchPre p xs ys = true → r = first1) ∧
    (matchPre p xs ys = false → r ≤ last1 ∧ r ≤ pre1.length + ys.length ∧ (xs ≠ [] → pre1.length < r) ∧ (xs = [] → r = last1)) := by
  intro xs
  induction xs with
  | nil =>
    intro ys pre1 post1 pre2 post2 h1 h2
    rcases ys with _ | ⟨y, ys⟩
    · exact ⟨0, first1, last2, .stop (by simp [h2]), fun _ => rfl, fun h => by simp [matchPre] at h⟩
    · refine ⟨0, last1, last2, .stop (by simp [h1, h2]), fun h => by simp [matchPre] at h, fun _ => ⟨Nat.le_refl _, ?_, fun h => absurd rfl h, fun _ => rfl⟩⟩
      simp at h1 ⊢; omega
  | cons x xs ih =>
    intro ys pre1 post1 pre2 post2 h1 h2
    rcases ys with _ | ⟨y, ys⟩
    · exact ⟨0, first1, last2, .stop (by simp [h2]), fun _ => rfl, fun h => by simp [matchPre] at h⟩
    · cases hp : p x y with
      | false =>
        refine ⟨1, pre1.length + 1, last2, .step (t := (pre1.length + 1, last2, true)) ?_ ?_ (.stop (by simp)),
          fun h => by simp [matchPre, hp] at h, fun _ => ⟨by simp at h1; omega, by simp, fun _ => by omega, fun h => by simp at h⟩⟩
        · simp [h1, h2]
        · simp [testAt2, rd, hp]
      | true =>
        obtain ⟨k, r, j, hr, hh, hm⟩ := ih ys (pre1 ++ [x]) post1 (pre2 ++ [y]) post2
          (by simp at h1 ⊢; omega) (by simp at h2 ⊢; omega)
        refine ⟨k + 1, r, j, .step (t := (pre1.length + 1, pre2.length + 1, false)) ?_ ?_ ?_, fun h => hh (by simpa [matchPre, hp] using h),
          fun h => ?_⟩
        · simp [h1, h2]
        · simp [testAt2, rd, hp]
        · simpa [List.append_assoc] using hr
        · obtain ⟨h3, h4, h5, h6⟩ := hm (by simpa [matchPre, hp] using h)
          refine ⟨h3, by simp at h4 ⊢; omega, fun _ => ?_, fun h => by simp at h⟩
          by_cases hx : xs = []
          · have := h6 hx
            simp at h1; omega
          · have := h5 hx; simp at this; omega

theorem searchOneFwd_base (p : α → β → Bool) (pre1 xs post1 : List α) (pre2 ys post2 : List β) (hx : xs ≠ []) :
    ∃ r, searchOneFwd (pre1 ++ xs ++ post1) (pre2 ++ ys ++ post2) p pre1.length (pre1.length + xs.length)
      pre2.length (pre2.length + ys.length) = some r ∧
      OneRes (matchPos p pre1.length xs ys) pre1.length (pre1.length + xs.length) r := by
  obtain ⟨k, r, j, hr, hh, hm⟩ := searchOneFwd_run p pre1.length (pre1.length + xs.length) (pre2.length + ys.length)
    xs ys pre1 post1 pre2 post2 rfl rfl
  have hmp : matchPos p pre1.length xs ys pre1.length = matchPre p xs ys := by simp [matchPos]
  refine ⟨r, ?_, fun h => hh (by rw [← hmp, h]), fun h => ?_⟩
  · unfold searchOneFwd
    rw [dbl_run (searchOneFwd_idem _ _ _) _ _ _ 1 (Nat.le_refl _) hr]
    simp
  · rw [hmp] at h
    obtain ⟨h3, h4, h5, h6⟩ := hm h
    refine ⟨h5 hx, h3, fun he j h1 h2 => ?_⟩
    by_cases hj : j = pre1.length
    · rw [hj, hmp, h]
    · exact matchPos_false (by omega) h1 h2

/-- moving the base of a `search_one` outcome -/
theorem OneRes.rebase {p : α → β → Bool} {a k L r : Nat} {xs : List α} {ys : List β} (ha : a ≤ k)
    (h : OneRes (matchPos p k (xs.drop (k - a)) ys) k L r) : OneRes (matchPos p a xs ys) k L r := by
  have e : ∀ j, k ≤ j → matchPos p k (xs.drop (k - a)) ys j = matchPos p a xs ys j := by
    intro j hj
    simp only [matchPos, List.drop_drop]
    rw [show k - a + (j - k) = j - a by omega]
  refine ⟨fun ht => h.hit (by rw [e k (Nat.le_refl _), ht]), fun ht => ?_⟩
  obtain ⟨h1, h2, h3⟩ := h.miss (by rw [e k (Nat.le_refl _), ht])
  exact ⟨h1, h2, fun he j hj hj' => by rw [← e j hj]; exact h3 he j hj hj'⟩

theorem searchOneRa_spec (p : α → β → Bool) (pre1 xs post1 : List α) (pre2 ys post2 : List β) :
    ∀ k, pre1.length ≤ k → k < pre1.length + xs.length →
    ∃ r, searchOneRa (pre1 ++ xs ++ post1) (pre2 ++ ys ++ post2) p k (pre1.length + xs.length)
      pre2.length (pre2.length + ys.length) = some r ∧
      OneRes (matchPos p pre1.length xs ys) k (pre1.length + xs.length) r := by
  intro k h1 h2
  obtain ⟨pre', e1, e2, e3⟩ := split_at pre1 xs post1 k h1 (by omega)
  obtain ⟨r, hr, hR⟩ := searchOneRa_base p pre' (xs.drop (k - pre1.length)) post1 pre2 ys post2 (by simp; omega)
  rw [← e1, ← e3, e2] at hr
  refine ⟨r, hr, OneRes.rebase h1 ?_⟩
  rw [← e3, e2] at hR; exact hR

theorem searchOneFwd_spec (p : α → β → Bool) (pre1 xs post1 : List α) (pre2 ys post2 : List β) :
    ∀ k, pre1.length ≤ k → k < pre1.length + xs.length →
    ∃ r, searchOneFwd (pre1 ++ xs ++ post1) (pre2 ++ ys ++ post2) p k (pre1.length + xs.length)
      pre2.length (pre2.length + ys.length) = some r ∧
      OneRes (matchPos p pre1.length xs ys) k (pre1.length + xs.length) r := by
  intro k h1 h2
  obtain ⟨pre', e1, e2, e3⟩ := split_at pre1 xs post1 k h1 (by omega)
  obtain ⟨r, hr, hR⟩ := searchOneFwd_base p pre' (xs.drop (k - pre1.length)) post1 pre2 ys post2 (by simp; omega)
  rw [← e1, ← e3, e2] at hr
  refine ⟨r, hr, OneRes.rebase h1 ?_⟩
  rw [← e3, e2] at hR; exact hR

/-! ### search -/

theorem searchHalve_spec {one : Nat → Option Nat} {t : Nat → Bool} {L : Nat} :
    ∀ n a b s, b - a = n → a < b → b ≤ L → a ≤ s → s ≠ L →
      (∀ k, a ≤ k → k < b → ∃ r, one k = some r ∧ OneRes t k L r) →
      ∃ r, searchHalve one L a b ((b - a) / 2) s = some r ∧
        ((r < b ∧ IsFirst t a b r) ∨
         (b ≤ r ∧ r ≤ L ∧ (∀ k, a ≤ k → k < b → t k = false) ∧ (r = L → ∀ j, b ≤ j → j < L → t j = false))) := by
  intro n
  induction n using Nat.strongRecOn with
  | ind n ih =>
    intro a b s hn hab hbL has hsL ht
    rw [searchHalve, if_neg (by omega)]
    by_cases hp : (b - a) / 2 = 0
    · have hb : b = a + 1 := by omega
      subst hb
      simp only [hp, if_true]
      obtain ⟨r, hr, hR⟩ := ht a (Nat.le_refl _) (by omega)
      refine ⟨r, hr, ?_⟩
      cases hta : t a with
      | true =>
        have := hR.hit hta
        subst this
        exact Or.inl ⟨by omega, Nat.le_refl _, by omega, fun k _ _ => by omega, fun _ => hta⟩
      | false =>
        obtain ⟨h1, h2, h3⟩ := hR.miss hta
        refine Or.inr ⟨by omega, h2, fun k h1 h2 => ?_, fun he j h1 h2 => h3 he j (by omega) h2⟩
        have : k = a := by omega
        rw [this, hta]
    · simp only [hp, if_false]
      obtain ⟨f, hf, hfi⟩ := ih ((b - a) / 2) (by omega) a (a + (b - a) / 2) a (by omega) (by omega) (by omega) (Nat.le_refl _)
        (by omega) (fun k h1 h2 => ht k h1 (by omega))
      rw [show a + (b - a) / 2 - a = (b - a) / 2 by omega] at hf
      simp only [hf, Option.bind_eq_bind, Option.bind_some]
      rcases hfi with ⟨h1, h2⟩ | ⟨h1, h2, h3, h4⟩
      · rw [searchHalve, if_pos (by omega)]
        exact ⟨f, rfl, Or.inl ⟨by omega, h2.ge, by omega, h2.before, fun _ => h2.at_ h1⟩⟩
      · by_cases hfL : f = L
        · rw [searchHalve, if_pos (by omega)]
          refine ⟨f, rfl, Or.inr ⟨by omega, h2, fun k h5 h6 => ?_, fun he j h5 h6 => h4 he j (by omega) h6⟩⟩
          rcases Nat.lt_or_ge k (a + (b - a) / 2) with h | h
          · exact h3 k h5 h
          · exact h4 hfL k h (by omega)
        · obtain ⟨r, hr, hri⟩ := ih (b - (a + (b - a) / 2)) (by omega) (a + (b - a) / 2) b f rfl (by omega) hbL h1 hfL
            (fun k h1 h2 => ht k (by omega) h2)
          refine ⟨r, by rw [← hr]; congr 1; rw [Nat.sub_sub], ?_⟩
          rcases hri with ⟨h5, h6⟩ | ⟨h5, h6, h7, h8⟩
          · refine Or.inl ⟨h5, by have := h6.ge; omega, h6.le, fun k h9 h10 => ?_, h6.at_⟩
            rcases Nat.lt_or_ge k (a + (b - a) / 2) with h | h
            · exact h3 k h9 h
            · exact h6.before k h h10
          · refine Or.inr ⟨h5, h6, fun k h9 h10 => ?_, h8⟩
            rcases Nat.lt_or_ge k (a + (b - a) / 2) with h | h
            · exact h3 k h9 h
            · exact h7 k h h10

theorem searchRaWith_spec {one : Nat → Option Nat} {t : Nat → Bool} {a L : Nat} (haL : a ≤ L)
    (ht : ∀ k, a ≤ k → k < L → ∃ r, one k = some r ∧ OneRes t k L r) :
    ∃ r, searchRaWith one a L = some r ∧ IsFirst t a L r := by
  unfold searchRaWith
  by_cases h : a = L
  · subst h; exact ⟨a, by simp, Nat.le_refl _, Nat.le_refl _, fun k _ _ => by omega, fun h => by omega⟩
  · rw [if_neg h]
    obtain ⟨r, hr, hR⟩ := searchHalve_spec (one := one) (t := t) (L := L) _ a L a rfl (by omega) (Nat.le_refl _) (Nat.le_refl _) h ht
    refine ⟨r, hr, ?_⟩
    rcases hR with ⟨_, h⟩ | ⟨h1, h2, h3, _⟩
    · exact h
    · have : r = L := by omega
      subst this
      exact ⟨by omega, h1, h3, fun h => by omega⟩

theorem searchFwd_run {one : Nat → Option Nat} {t : Nat → Bool} {L : Nat} :
    ∀ n a, L - a = n → a ≤ L → (∀ k, a ≤ k → k < L → ∃ r, one k = some r ∧ OneRes t k L r) →
    ∃ k r b, Run (finIf fun s : Nat × Bool => s.2 || s.1 == L)
      (fun s => do
        let f ← one s.1
        some (if f = s.1 ∨ f = L then (f, true) else (s.1 + 1, false))) k (a, false) (r, b) ∧ IsFirst t a L r := by
  intro n
  induction n with
  | zero =>
    intro a hn hab ht
    have : a = L := by omega
    subst this
    exact ⟨0, a, false, .stop (by simp [finIf]), Nat.le_refl _, Nat.le_refl _, fun k _ _ => by omega, fun h => by omega⟩
  | succ n ih =>
    intro a hn hab ht
    have hfin : (finIf fun s : Nat × Bool => s.2 || s.1 == L) (a, false) = none := by
      simp [finIf]; omega
    obtain ⟨f, hf, hR⟩ := ht a (Nat.le_refl _) (by omega)
    cases hta : t a with
    | true =>
      have := hR.hit hta
      subst this
      refine ⟨1, f, true, .step hfin (t := (f, true)) ?_ (.stop ?_), ⟨Nat.le_refl _, hab, fun k _ _ => by omega, fun _ => hta⟩⟩
      · simp [hf]
      · simp [finIf]
    | false =>
      obtain ⟨h1, h2, h3⟩ := hR.miss hta
      by_cases hfL : f = L
      · refine ⟨1, L, true, .step hfin (t := (L, true)) ?_ (.stop ?_), ⟨hab, Nat.le_refl _, h3 hfL, fun h => by omega⟩⟩
        · simp [hf, hfL]
        · simp [finIf]
      · obtain ⟨k, r, b, hr, hf'⟩ := ih (a + 1) (by omega) (by omega) (fun k h1 h2 => ht k (by omega) h2)
        refine ⟨k + 1, r, b, .step hfin (t := (a + 1, false)) ?_ hr, ?_⟩
        · simp only [hf, Option.bind_eq_bind, Option.bind_some]
          rw [if_neg (by omega)]
        · refine ⟨by have := hf'.ge; omega, hf'.le, fun k h1 h2 => ?_, hf'.at_⟩
          by_cases hk : k = a
          · subst hk; exact hta
          · exact hf'.before k (by omega) h2

/-- translate the positional result -/
theorem firstIdx_of_isFirst {p : α → β → Bool} {a r : Nat} {xs : List α} {ys : List β}
    (h : IsFirst (matchPos p a xs ys) a (a + xs.length) r) :
    ∃ i, r = a + i ∧ Spec.FirstIdx (Spec.MatchAt p xs ys) xs.length i := by
  refine ⟨r - a, by have := h.ge; omega, by have := h.le; omega, fun k hk hm => ?_, fun hl => ?_⟩
  · have h1 := h.before (a + k) (by omega) (by omega)
    rw [matchPos, Nat.add_sub_cancel_left] at h1
    rw [(matchPre_iff p xs ys k (by have := h.le; omega)).mpr hm] at h1; cases h1
  · have h1 := h.at_ (by have := h.ge; omega)
    exact (matchPre_iff p xs ys _ (by omega)).mp h1

theorem searchRa_spec (p : α → β → Bool) (pre1 xs post1 : List α) (pre2 ys post2 : List β) :
    ∃ i, searchRa (pre1 ++ xs ++ post1) (pre2 ++ ys ++ post2) p pre1.length (pre1.length + xs.length)
      pre2.length (pre2.length + ys.length) = some (pre1.length + i) ∧
      Spec.FirstIdx (Spec.MatchAt p xs ys) xs.length i := by
  obtain ⟨r, hr, hf⟩ := searchRaWith_spec (by omega) (searchOneRa_spec p pre1 xs post1 pre2 ys post2)
  obtain ⟨i, rfl, hi⟩ := firstIdx_of_isFirst hf
  exact ⟨i, hr, hi⟩

theorem searchRaFwd_spec (p : α → β → Bool) (pre1 xs post1 : List α) (pre2 ys post2 : List β) :
    ∃ i, searchRaFwd (pre1 ++ xs ++ post1) (pre2 ++ ys ++ post2) p pre1.length (pre1.length + xs.length)
      pre2.length (pre2.length + ys.length) = some (pre1.length + i) ∧
      Spec.FirstIdx (Spec.MatchAt p xs ys) xs.length i := by
  obtain ⟨r, hr, hf⟩ := searchRaWith_spec (by omega) (searchOneFwd_spec p pre1 xs post1 pre2 ys post2)
  obtain ⟨i, rfl, hi⟩ := firstIdx_of_isFirst hf
  exact ⟨i, hr, hi⟩

theorem searchFwd_spec (p : α → β → Bool) (pre1 xs post1 : List α) (pre2 ys post2 : List β) :
    ∃ i, searchFwd (pre1 ++ xs ++ post1) (pre2 ++ ys ++ post2) p pre1.length (pre1.length + xs.length)
      pre2.length (pre2.length + ys.length) = some (pre1.length + i) ∧
      Spec.FirstIdx (Spec.MatchAt p xs ys) xs.length i := by
  obtain ⟨k, r, b, hr, hf⟩ := searchFwd_run _ pre1.length rfl (by omega) (searchOneFwd_spec p pre1 xs post1 pre2 ys post2)
  obtain ⟨i, rfl, hi⟩ := firstIdx_of_isFirst hf
  refine ⟨i, ?_, hi⟩
  unfold searchFwd
  rw [dbl_run (finIf_idem _) _ _ _ 1 (Nat.le_refl _) hr]
  simp

/-! ### find_end -/

/-- greatest position in `[a, b)` satisfying `t`, or `L` -/
def IsLast (t : Nat → Bool) (a b L r : Nat) : Prop :=
  (r = L ∧ ∀ k, a ≤ k → k < b → t k = false) ∨
  (a ≤ r ∧ r < b ∧ t r = true ∧ ∀ k, r < k → k < b → t k = false)

theorem findEndHalve_spec {one : Nat → Option Nat} {t : Nat → Bool} {L : Nat} :
    ∀ n a b, b - a = n → a < b → b ≤ L →
      (∀ k, a ≤ k → k < b → ∃ r, one k = some r ∧ OneRes t k L r) →
      ∃ r, findEndHalve one L a b ((b - a) / 2) L = some r ∧ IsLast t a b L r := by
  intro n
  induction n using Nat.strongRecOn with
  | ind n ih =>
    intro a b hn hab hbL ht
    rw [findEndHalve, if_neg (by simp)]
    by_cases hp : (b - a) / 2 = 0
    · have hb : b = a + 1 := by omega
      subst hb
      simp only [hp, if_true]
      obtain ⟨r, hr, hR⟩ := ht a (Nat.le_refl _) (by omega)
      rw [hr]
      simp only [Option.bind_eq_bind, Option.bind_some]
      refine ⟨_, rfl, ?_⟩
      cases hta : t a with
      | true =>
        have := hR.hit hta
        subst this
        rw [if_pos rfl]
        exact Or.inr ⟨Nat.le_refl _, by omega, hta, fun k _ _ => by omega⟩
      | false =>
        obtain ⟨h1, h2, h3⟩ := hR.miss hta
        rw [if_neg (by omega)]
        refine Or.inl ⟨rfl, fun k h1 h2 => ?_⟩
        have : k = a := by omega
        rw [this, hta]
    · simp only [hp, if_false]
      obtain ⟨f, hf, hfi⟩ := ih (b - (a + (b - a) / 2)) (by omega) (a + (b - a) / 2) b rfl (by omega) hbL
            (fun k h1 h2 => ht k (by omega) h2)
      rw [show b - (a + (b - a) / 2) = b - a - (b - a) / 2 by omega] at hf
      simp only [hf, Option.bind_eq_bind, Option.bind_some]
      rcases hfi with ⟨h1, h2⟩ | ⟨h1, h2, h3, h4⟩
      · subst h1
        obtain ⟨r, hr, hri⟩ := ih ((b - a) / 2) (by omega) a (a + (b - a) / 2) (by omega) (by omega) (by omega)
          (fun k h1 h2 => ht k h1 (by omega))
        rw [show a + (b - a) / 2 - a = (b - a) / 2 by omega] at hr
        refine ⟨r, hr, ?_⟩
        rcases hri with ⟨h5, h6⟩ | ⟨h5, h6, h7, h8⟩
        · refine Or.inl ⟨h5, fun k h7 h8 => ?_⟩
          rcases Nat.lt_or_ge k (a + (b - a) / 2) with h | h
          · exact h6 k h7 h
          · exact h2 k h h8
        · refine Or.inr ⟨h5, by omega, h7, fun k h9 h10 => ?_⟩
          rcases Nat.lt_or_ge k (a + (b - a) / 2) with h | h
          · exact h8 k h9 h
          · exact h2 k h h10
      · rw [findEndHalve, if_pos (by omega)]
        exact ⟨f, rfl, Or.inr ⟨by omega, h2, h3, h4⟩⟩

theorem lastIdx_of_isLast {p : α → β → Bool} {a b r : Nat} {xs : List α} {ys : List β} (hb : b ≤ a + xs.length)
    (hbm : ∀ k, b ≤ k → k < a + xs.length → matchPos p a xs ys k = false)
    (h : IsLast (matchPos p a xs ys) a b (a + xs.length) r) :
    ∃ i, r = a + i ∧ Spec.LastIdx (Spec.MatchAt p xs ys) xs.length i := by
  have key : ∀ k, k < xs.length → matchPos p a xs ys (a + k) = false → ¬ Spec.MatchAt p xs ys k := by
    intro k hk h1 hm
    rw [matchPos, Nat.add_sub_cancel_left] at h1
    rw [(matchPre_iff p xs ys k (by omega)).mpr hm] at h1; cases h1
  rcases h with ⟨h1, h2⟩ | ⟨h1, h2, h3, h4⟩
  · refine ⟨xs.length, h1, Or.inr ⟨rfl, fun k hk => key k hk ?_⟩⟩
    rcases Nat.lt_or_ge (a + k) b with h | h
    · exact h2 _ (by omega) h
    · exact hbm _ h (by omega)
  · refine ⟨r - a, by omega, Or.inl ⟨by omega, (matchPre_iff p xs ys _ (by omega)).mp h3, fun k h5 h6 => key k h6 ?_⟩⟩
    rcases Nat.lt_or_ge (a + k) b with h | h
    · exact h4 _ (by omega) h
    · exact hbm _ h (by omega)

theorem findEndRa_spec (p : α → β → Bool) (pre1 xs post1 : List α) (pre2 ys post2 : List β) :
    ∃ i, findEndRa (pre1 ++ xs ++ post1) (pre2 ++ ys ++ post2) p pre1.length (pre1.length + xs.length)
      pre2.length (pre2.length + ys.length) = some (pre1.length + i) ∧
      Spec.FindEndIdx p xs ys i := by
  unfold findEndRa Spec.FindEndIdx
  by_cases hy : ys = []
  · subst hy; exact ⟨xs.length, by simp, by simp⟩
  · have hy' : 0 < ys.length := List.length_pos_iff.mpr hy
    simp only [hy, if_false]
    by_cases hx : xs.length = 0
    · refine ⟨0, by rw [if_pos (by omega)]; simp [hx], Or.inr ⟨by omega, fun k hk => by omega⟩⟩
    · rw [if_neg (by omega)]
      simp only [Nat.add_sub_cancel_left]
      by_cases hlen : xs.length < ys.length
      · rw [if_pos hlen]
        exact ⟨xs.length, rfl, Or.inr ⟨rfl, fun k hk hm => by have := hm.1; omega⟩⟩
      · rw [if_neg hlen]
        obtain ⟨r, hr, hR⟩ := findEndHalve_spec (t := matchPos p pre1.length xs ys) (L := pre1.length + xs.length) _ pre1.length
          (pre1.length + xs.length - ys.length + 1) rfl (by omega) (by omega)
          (fun k h1 h2 => searchOneRa_spec p pre1 xs post1 pre2 ys post2 k h1 (by omega))
        rw [show pre1.length + xs.length - ys.length + 1 - pre1.length = xs.length - ys.length + 1 by omega] at hr
        obtain ⟨i, rfl, hi⟩ := lastIdx_of_isLast (by omega)
          (fun k h1 h2 => matchPos_false (by omega) (by omega) h2) hR
        exact ⟨i, hr, hi⟩

theorem findEndFwd_run {one : Nat → Option Nat} {t : Nat → Bool} {L : Nat} :
    ∀ n a c, L - a = n → a ≤ L → (∀ k, a ≤ k → k < L → ∃ r, one k = some r ∧ OneRes t k L r) →
    ∃ k r, Run (finIf fun s : Nat × Nat => s.1 == L)
      (fun s => do
        let f ← one s.1
        some (if f = s.1 then (s.1 + 1, f) else if f = L then (L, s.2) else (s.1 + 1, s.2))) k (a, c) (L, r) ∧
      ((r = c ∧ ∀ k, a ≤ k → k < L → t k = false) ∨
        (a ≤ r ∧ r < L ∧ t r = true ∧ ∀ k, r < k → k < L → t k = false)) := by
  intro n
  induction n with
  | zero =>
    intro a c hn hab ht
    have : a = L := by omega
    subst this
    exact ⟨0, c, .stop (by simp [finIf]), Or.inl ⟨rfl, fun k _ _ => by omega⟩⟩
  | succ n ih =>
    intro a c hn hab ht
    have hfin : (finIf fun s : Nat × Nat => s.1 == L) (a, c) = none := by
      simp [finIf]; omega
    obtain ⟨f, hf, hR⟩ := ht a (Nat.le_refl _) (by omega)
    cases hta : t a with
    | true =>
      have := hR.hit hta
      subst this
      obtain ⟨k, r, hr, hf'⟩ := ih (f + 1) f (by omega) (by omega) (fun k h1 h2 => ht k (by omega) h2)
      refine ⟨k + 1, r, .step hfin (t := (f + 1, f)) ?_ hr, Or.inr ?_⟩
      · simp [hf]
      · rcases hf' with ⟨h1, h2⟩ | ⟨h1, h2, h3, h4⟩
        · subst h1
          exact ⟨Nat.le_refl _, by omega, hta, fun k h3 h4 => h2 k (by omega) h4⟩
        · exact ⟨by omega, h2, h3, h4⟩
    | false =>
      obtain ⟨h1, h2, h3⟩ := hR.miss hta
      by_cases hfL : f = L
      · refine ⟨1, c, .step hfin (t := (L, c)) ?_ (.stop ?_), Or.inl ⟨rfl, h3 hfL⟩⟩
        · simp only [hf, Option.bind_eq_bind, Option.bind_some]
          rw [if_neg (by omega), if_pos hfL]
        · simp [finIf]
      · obtain ⟨k, r, hr, hf'⟩ := ih (a + 1) c (by omega) (by omega) (fun k h1 h2 => ht k (by omega) h2)
        refine ⟨k + 1, r, .step hfin (t := (a + 1, c)) ?_ hr, ?_⟩
        · simp only [hf, Option.bind_eq_bind, Option.bind_some]
          rw [if_neg (by omega), if_neg hfL]
        · rcases hf' with ⟨h1, h2⟩ | ⟨h1, h2, h3, h4⟩
          · refine Or.inl ⟨h1, fun k h3 h4 => ?_⟩
            by_cases hk : k = a
            · subst hk; exact hta
            · exact h2 k (by omega) h4
          · exact Or.inr ⟨by omega, h2, h3, h4⟩

theorem findEndFwd_spec (p : α → β → Bool) (pre1 xs post1 : List α) (pre2 ys post2 : List β) :
    ∃ i, findEndFwd (pre1 ++ xs ++ post1) (pre2 ++ ys ++ post2) p pre1.length (pre1.length + xs.length)
      pre2.length (pre2.length + ys.length) = some (pre1.length + i) ∧
      Spec.FindEndIdx p xs ys i := by
  unfold findEndFwd Spec.FindEndIdx
  by_cases hy : ys = []
  · subst hy; exact ⟨xs.length, by simp, by simp⟩
  · have hy' : 0 < ys.length := List.length_pos_iff.mpr hy
    simp only [hy, if_false]
    by_cases hx : xs.length = 0
    · refine ⟨0, by rw [if_pos (by omega)]; simp [hx], Or.inr ⟨by omega, fun k hk => by omega⟩⟩
    · rw [if_neg (by omega)]
      obtain ⟨k, r, hr, hR⟩ := findEndFwd_run _ pre1.length (pre1.length + xs.length) rfl (by omega)
        (searchOneFwd_spec p pre1 xs post1 pre2 ys post2)
      rw [dbl_run (finIf_idem _) _ _ _ 1 (Nat.le_refl _) hr]
      simp only [Option.bind_eq_bind, Option.bind_some]
      obtain ⟨i, rfl, hi⟩ := lastIdx_of_isLast (Nat.le_refl _) (fun k h1 h2 => by omega) hR
      exact ⟨i, rfl, hi⟩

theorem searchOneRev_idem (first1 first2 : Nat) : FinIdem (fun s : Nat × Nat × Bool =>
      if s.2.2 then some s
      else if s.2.1 = first2 then some (s.1, first2, true)
      else if s.1 = first1 then some (first1, s.2.1, true)
      else none) := by
  rintro ⟨i, j, b⟩ ⟨i', j', b'⟩ h
  cases b <;> simp at h ⊢
  · split at h
    · simp at h; simp [h]
    · split at h
      · simp at h; simp [h]
      · simp at h
  · simp [h]

theorem searchOneRev_run {test : Nat → Nat → Option Bool} {T : Nat → Nat → Bool} (a f2 n1 n2 : Nat)
    (ht : ∀ i j, i < n1 → j < n2 → test (a + i) (f2 + j) = some (T i j)) :
    ∀ j i, j ≤ n2 → i ≤ n1 →
    ∃ k r1 r2, Run (fun s : Nat × Nat × Bool =>
      if s.2.2 then some s
      else if s.2.1 = f2 then some (s.1, f2, true)
      else if s.1 = a then some (a, s.2.1, true)
      else none)
    (fun s => do
      let i ← prv s.1
      let j ← prv s.2.1
      let b ← test i j
      some (if b then (i, j, false) else (s.1, s.2.1, true)))
    k (a + i, f2 + j, false) (r1, r2, true) ∧
    ((r2 = f2 ∧ j ≤ i ∧ r1 = a + i - j ∧ ∀ q, q < j → T (i - j + q) q = true) ∨
     (r2 ≠ f2 ∧ (r1 = a → i < j) ∧ ¬ (j ≤ i ∧ ∀ q, q < j → T (i - j + q) q = true))) := by
  intro j
  induction j with
  | zero =>
    intro i h1 h2
    exact ⟨0, a + i, f2, .stop (by simp), Or.inl ⟨rfl, by omega, by omega, fun q h => by omega⟩⟩
  | succ j ih =>
    intro i h1 h2
    by_cases hi : i = 0
    · subst hi
      exact ⟨0, a, f2 + (j + 1), .stop (by simp), Or.inr ⟨by omega, fun _ => by omega, fun h => by omega⟩⟩
    · have htest := ht (i - 1) j (by omega) (by omega)
      have hfin : (fun s : Nat × Nat × Bool =>
        if s.2.2 then some s
        else if s.2.1 = f2 then some (s.1, f2, true)
        else if s.1 = a then some (a, s.2.1, true)
        else none) (a + i, f2 + (j + 1), false) = none := by simp; omega
      cases hT : T (i - 1) j with
      | true =>
        obtain ⟨k, r1, r2, hr, hR⟩ := ih (i - 1) (by omega) (by omega)
        refine ⟨k + 1, r1, r2, .step hfin (t := (a + (i - 1), f2 + j, false)) ?_ hr, ?_⟩
        · have e1 : prv (a + i) = some (a + (i - 1)) := by simp [prv]; omega
          have e2 : prv (f2 + (j + 1)) = some (f2 + j) := by simp [prv]
          simp [e1, e2, htest, hT]
        · rcases hR with ⟨h3, h4, h5, h6⟩ | ⟨h3, h4, h5⟩
          · refine Or.inl ⟨h3, by omega, by omega, fun q hq => ?_⟩
            by_cases hqj : q = j
            · subst hqj; rw [show i - (q + 1) + q = i - 1 by omega]; exact hT
            · have := h6 q (by omega)
              rwa [show i - 1 - j + q = i - (j + 1) + q by omega] at this
          · refine Or.inr ⟨h3, fun h => by have := h4 h; omega, fun ⟨h6, h7⟩ => h5 ⟨by omega, fun q hq => ?_⟩⟩
            have := h7 q (by omega)
            rwa [show i - (j + 1) + q = i - 1 - j + q by omega] at this
      | false =>
        refine ⟨1, a + i, f2 + (j + 1), .step hfin (t := (a + i, f2 + (j + 1), true)) ?_ (.stop (by simp)), Or.inr ⟨by omega, fun h => by omega, fun ⟨h6, h7⟩ => ?_⟩⟩
        · have e1 : prv (a + i) = some (a + (i - 1)) := by simp [prv]; omega
          have e2 : prv (f2 + (j + 1)) = some (f2 + j) := by simp [prv]
          simp [e1, e2, htest, hT]
        · have := h7 j (by omega)
          rw [show i - (j + 1) + j = i - 1 by omega, hT] at this; cases this

theorem searchOneRev_spec (p : α → β → Bool) (pre1 xs post1 : List α) (pre2 ys post2 : List β) 
    (e : Nat) (he : pre1.length ≤ e) (he' : e ≤ pre1.length + xs.length) :
    ∃ f, searchOneRev (pre1 ++ xs ++ post1) (pre2 ++ ys ++ post2) p pre1.length e pre2.length (pre2.length + ys.length) = some f ∧
      ((pre1.length + ys.length ≤ e ∧ matchPos p pre1.length xs ys (e - ys.length) = true ∧ f = (e - ys.length, false)) ∨
       (¬ (pre1.length + ys.length ≤ e ∧ matchPos p pre1.length xs ys (e - ys.length) = true) ∧ f.1 = e ∧
         (f.2 = true → e < pre1.length + ys.length))) := by
  have hT : ∀ i j, i < xs.length → j < ys.length →
      testAt2 (pre1 ++ xs ++ post1) (pre2 ++ ys ++ post2) p (pre1.length + i) (pre2.length + j)
       = some (match xs[i]?, ys[j]? with | some x, some y => p x y | _, _ => false) := by
    intro i j hi hj
    simp [testAt2, rd, List.append_assoc, List.getElem?_append_right, List.getElem?_append_left, hi, hj]
  obtain ⟨k, r1, r2, hr, hR⟩ := searchOneRev_run pre1.length pre2.length xs.length ys.length hT ys.length (e - pre1.length)
    (Nat.le_refl _) (by omega)
  rw [show pre1.length + (e - pre1.length) = e by omega] at hr hR
  have hm : (ys.length ≤ e - pre1.length ∧ ∀ q, q < ys.length → (match xs[e - pre1.length - ys.length + q]?, ys[q]? with | some x, some y => p x y | _, _ => false) = true)
      ↔ (pre1.length + ys.length ≤ e ∧ matchPos p pre1.length xs ys (e - ys.length) = true) := by
    by_cases hle : pre1.length + ys.length ≤ e
    · unfold matchPos
      rw [show e - ys.length - pre1.length = e - pre1.length - ys.length by omega, matchPre_iff _ _ _ _ (by omega)]
      unfold Spec.MatchAt
      constructor
      · rintro ⟨_, h⟩
        refine ⟨hle, by omega, fun j x y hj hx hy => ?_⟩
        have := h j hj
        simpa [hx, hy] using this
      · rintro ⟨_, _, h⟩
        refine ⟨by omega, fun q hq => ?_⟩
        rw [List.getElem?_eq_getElem (show e - pre1.length - ys.length + q < xs.length by omega), List.getElem?_eq_getElem hq]
        exact h q _ _ hq (List.getElem?_eq_getElem (by omega)) (List.getElem?_eq_getElem hq)
    · constructor
      · rintro ⟨h, _⟩; omega
      · rintro ⟨h, _⟩; omega
  unfold searchOneRev
  rw [dbl_run (searchOneRev_idem _ _) _ _ _ 1 (Nat.le_refl _) hr]
  simp only [Option.bind_eq_bind, Option.bind_some]
  refine ⟨_, rfl, ?_⟩
  rcases hR with ⟨h1, h2, h3, h4⟩ | ⟨h1, h2, h3⟩
  · have := hm.mp ⟨h2, h4⟩
    refine Or.inl ⟨this.1, this.2, ?_⟩
    rw [if_pos h1, h3]
  · refine Or.inr ⟨fun h => h3 (hm.mpr h), ?_⟩
    rw [if_neg h1]
    refine ⟨rfl, fun h => ?_⟩
    have := h2 (by simpa using h)
    omega

theorem findEndBi_run {rev : Nat → Option (Nat × Bool)} {t : Nat → Bool} {a L n : Nat} (hn : 0 < n)
    (hrev : ∀ e, a ≤ e → e ≤ L → ∃ f, rev e = some f ∧
      ((a + n ≤ e ∧ t (e - n) = true ∧ f = (e - n, false)) ∨
       (¬ (a + n ≤ e ∧ t (e - n) = true) ∧ f.1 = e ∧ (f.2 = true → e < a + n)))) :
    ∀ d e, e - a = d → a ≤ e → e ≤ L →
    ∃ k w r, Run (finIf fun s : Nat × Nat => s.2 != L || s.1 == a)
      (fun s => do
        let f ← rev s.1
        if f.2 then some (a, s.2)
        else if f.1 = s.1 then do
          let q ← prv s.1
          some (q, s.2)
        else some (s.1, f.1)) k (e, L) (w, r) ∧
      ((r = L ∧ ∀ k, a ≤ k → k + n ≤ e → t k = false) ∨
        (a ≤ r ∧ r + n ≤ e ∧ t r = true ∧ ∀ k, r < k → k + n ≤ e → t k = false)) := by
  intro d
  induction d with
  | zero =>
    intro e hd h1 h2
    have : e = a := by omega
    subst this
    exact ⟨0, e, L, .stop (by simp [finIf]), Or.inl ⟨rfl, fun k _ _ => by omega⟩⟩
  | succ d ih =>
    intro e hd h1 h2
    have hfin : (finIf fun s : Nat × Nat => s.2 != L || s.1 == a) (e, L) = none := by
      simp [finIf]; omega
    obtain ⟨f, hf, hF⟩ := hrev e h1 h2
    rcases hF with ⟨h3, h4, h5⟩ | ⟨h3, h4, h5⟩
    · refine ⟨1, e, e - n, .step hfin (t := (e, e - n)) ?_ (.stop ?_), Or.inr ⟨by omega, by omega, h4, fun k _ _ => by omega⟩⟩
      · rw [hf, h5]
        simp only [Option.bind_eq_bind, Option.bind_some, Bool.false_eq_true, if_false]
        rw [if_neg (by omega)]
      · simp [finIf]; omega
    · by_cases hb : f.2 = true
      · have := h5 hb
        refine ⟨1, a, L, .step hfin (t := (a, L)) ?_ (.stop ?_), Or.inl ⟨rfl, fun k _ _ => by omega⟩⟩
        · rw [hf]; simp [hb]
        · simp [finIf]
      · obtain ⟨k, w, r, hr, hR⟩ := ih (e - 1) (by omega) (by omega) (by omega)
        have hte : a + n ≤ e → t (e - n) = false := by
          intro h; by_contra hc; exact h3 ⟨h, by simpa using hc⟩
        refine ⟨k + 1, w, r, .step hfin (t := (e - 1, L)) ?_ hr, ?_⟩
        · rw [hf]
          have : prv e = some (e - 1) := by simp [prv]; omega
          simp [hb, h4, this]
        · rcases hR with ⟨h6, h7⟩ | ⟨h6, h7, h8, h9⟩
          · refine Or.inl ⟨h6, fun k h8 h9 => ?_⟩
            by_cases hk : k + n = e
            · have := hte (by omega)
              rwa [show e - n = k by omega] at this
            · exact h7 k h8 (by omega)
          · refine Or.inr ⟨h6, by omega, h8, fun k h10 h11 => ?_⟩
            by_cases hk : k + n = e
            · have := hte (by omega)
              rwa [show e - n = k by omega] at this
            · exact h9 k h10 (by omega)

theorem findEndBi_spec (p : α → β → Bool) (pre1 xs post1 : List α) (pre2 ys post2 : List β) :
    ∃ i, findEndBi (pre1 ++ xs ++ post1) (pre2 ++ ys ++ post2) p pre1.length (pre1.length + xs.length)
      pre2.length (pre2.length + ys.length) = some (pre1.length + i) ∧
      Spec.FindEndIdx p xs ys i := by
  unfold findEndBi Spec.FindEndIdx
  by_cases hy : ys = []
  · subst hy; exact ⟨xs.length, by simp, by simp⟩
  · have hy' : 0 < ys.length := List.length_pos_iff.mpr hy
    simp only [hy, if_false]
    by_cases hx : xs.length = 0
    · refine ⟨0, by rw [if_pos (by omega)]; simp [hx], Or.inr ⟨by omega, fun k hk => by omega⟩⟩
    · rw [if_neg (by omega)]
      obtain ⟨k, w, r, hr, hR⟩ := findEndBi_run hy' (fun e h1 h2 => searchOneRev_spec p pre1 xs post1 pre2 ys post2 e h1 h2)
        _ (pre1.length + xs.length) rfl (by omega) (Nat.le_refl _)
      rw [dbl_run (finIf_idem _) _ _ _ 1 (Nat.le_refl _) hr]
      simp only [Option.bind_eq_bind, Option.bind_some]
      have hL : IsLast (matchPos p pre1.length xs ys) pre1.length (pre1.length + xs.length) (pre1.length + xs.length) r := by
        rcases hR with ⟨h1, h2⟩ | ⟨h1, h2, h3, h4⟩
        · refine Or.inl ⟨h1, fun k h3 h4 => ?_⟩
          by_cases h : k + ys.length ≤ pre1.length + xs.length
          · exact h2 k h3 h
          · exact matchPos_false (by omega) h3 h4
        · refine Or.inr ⟨h1, by omega, h3, fun k h5 h6 => ?_⟩
          by_cases h : k + ys.length ≤ pre1.length + xs.length
          · exact h4 k h5 h
          · exact matchPos_false (by omega) (by omega) h6
      obtain ⟨i, rfl, hi⟩ := lastIdx_of_isLast (Nat.le_refl _) (fun k h1 h2 => by omega) hL
      exact ⟨i, rfl, hi⟩

/-! ### search_n -/

/-- a run of `count` hits starts at `k` -/
def RunAt (t : Nat → Bool) (L count k : Nat) : Prop := k + count ≤ L ∧ ∀ j, k ≤ j → j < k + count → t j = true

structure SNInv (t : Nat → Bool) (a L count c s : Nat) : Prop where
  ge : a ≤ s
  le : s ≤ L
  none_before : ∀ k, a ≤ k → k < s → ¬ RunAt t L count k
  run : s = L ∨ (s ≤ c ∧ s + count ≤ L ∧ ∀ j, s ≤ j → j < c → j < s + count → t j = true)

theorem searchNHalve_spec {m : List α} {q : α → Bool} {a L count : Nat} (hcount : 2 ≤ count)
    (hL : L ≤ m.length) :
    ∀ len c s, 1 ≤ len → c + len ≤ L → SNInv (atPos m q) a L count c s →
      ∃ r, searchNHalve m q L count c len s = some r ∧ SNInv (atPos m q) a L count (c + len) r := by
  intro len
  induction len using Nat.strongRecOn with
  | ind len ih =>
    intro c s h1 h2 hI
    rw [searchNHalve]
    by_cases hfin : s + count ≤ c ∨ s = L
    · rw [if_pos hfin]
      refine ⟨s, rfl, hI.ge, hI.le, hI.none_before, ?_⟩
      rcases hfin with h | h
      · rcases hI.run with h3 | ⟨h3, h4, h5⟩
        · exact Or.inl h3
        · exact Or.inr ⟨by omega, h4, fun j h6 h7 h8 => h5 j h6 (by omega) h8⟩
      · exact Or.inl h
    · rw [if_neg hfin]
      push Not at hfin
      rcases hI.run with h3 | ⟨h3, h4, h5⟩
      · exact absurd h3 hfin.2
      by_cases hl : len = 1
      · subst hl
        have hc : c < m.length := by omega
        rw [if_pos rfl, rd_eq hc]
        simp only [Option.bind_eq_bind, Option.bind_some]
        have hat : atPos m q c = q m[c] := by simp [atPos, hc]
        refine ⟨_, rfl, ?_⟩
        cases hq : q m[c] with
        | true =>
          rw [if_pos rfl]
          refine ⟨hI.ge, hI.le, hI.none_before, Or.inr ⟨by omega, h4, fun j h6 h7 h8 => ?_⟩⟩
          by_cases hj : j = c
          · rw [hj, hat, hq]
          · exact h5 j h6 (by omega) h8
        | false =>
          rw [if_neg (by simp)]
          have hno : ∀ k, a ≤ k → k ≤ c → ¬ RunAt (atPos m q) L count k := by
            intro k hk hkc hr
            rcases Nat.lt_or_ge k s with h | h
            · exact hI.none_before k hk h hr
            · have := hr.2 c hkc (by omega)
              rw [hat, hq] at this; cases this
          have hg := hI.ge
          split
          · exact ⟨by omega, by omega, fun k h6 h7 => hno k h6 (by omega), Or.inr ⟨by omega, by omega, fun j _ _ _ => by omega⟩⟩
          · refine ⟨by omega, by omega, fun k h6 h7 hr => ?_, Or.inl rfl⟩
            rcases Nat.lt_or_ge c k with h | h
            · have := hr.1; omega
            · exact hno k h6 h hr
      · rw [if_neg hl]
        obtain ⟨r, hr, hR⟩ := ih (len / 2) (by omega) c s (by omega) (by omega) hI
        obtain ⟨r', hr', hR'⟩ := ih (len - len / 2) (by omega) (c + len / 2) r (by omega) (by omega) hR
        refine ⟨r', by simp [hr, hr'], ?_⟩
        rw [show c + len = c + len / 2 + (len - len / 2) by omega]; exact hR'

theorem runAt_iff {q : α → Bool} {pre xs post : List α} {count i : Nat} :
    RunAt (atPos (pre ++ xs ++ post) q) (pre.length + xs.length) count (pre.length + i) ↔ Spec.NRun q xs count i := by
  constructor
  · rintro ⟨h1, h2⟩
    refine ⟨by omega, fun j x h3 h4 hx => ?_⟩
    have := h2 (pre.length + j) (by omega) (by omega)
    simp only [atPos, List.append_assoc] at this
    rw [List.getElem?_append_right (by omega), Nat.add_sub_cancel_left, List.getElem?_append_left (by omega), hx] at this
    simpa using this
  · rintro ⟨h1, h2⟩
    refine ⟨by omega, fun j h3 h4 => ?_⟩
    simp only [atPos, List.append_assoc]
    rw [List.getElem?_append_right (by omega), List.getElem?_append_left (by omega), List.getElem?_eq_getElem (by omega)]
    simpa using h2 (j - pre.length) _ (by omega) (by omega) (List.getElem?_eq_getElem (by omega))

theorem firstIdx_nrun {q : α → Bool} {pre xs post : List α} {count r : Nat}
    (hge : pre.length ≤ r) (hle : r ≤ pre.length + xs.length)
    (h1 : ∀ k, pre.length ≤ k → k < r → ¬ RunAt (atPos (pre ++ xs ++ post) q) (pre.length + xs.length) count k)
    (h2 : r < pre.length + xs.length → RunAt (atPos (pre ++ xs ++ post) q) (pre.length + xs.length) count r) :
    ∃ i, r = pre.length + i ∧ Spec.FirstIdx (Spec.NRun q xs count) xs.length i := by
  refine ⟨r - pre.length, by omega, by omega, fun k hk hr => ?_, fun hl => ?_⟩
  · exact h1 (pre.length + k) (by omega) (by omega) (runAt_iff.mpr hr)
  · have := h2 (by omega)
    rw [show r = pre.length + (r - pre.length) by omega] at this
    exact runAt_iff.mp this

theorem nrun_one {q : α → Bool} {xs : List α} : Spec.FirstIdx (Spec.NRun q xs 1) xs.length (xs.findIdx q) := by
  refine ⟨List.findIdx_le_length, fun k hk hr => ?_, fun h => ⟨by omega, fun j x h1 h2 hx => ?_⟩⟩
  · have hl := List.findIdx_le_length (p := q) (xs := xs)
    have := List.not_of_lt_findIdx hk
    have h2 := hr.2 k xs[k] (Nat.le_refl _) (by omega) (List.getElem?_eq_getElem (by omega))
    rw [h2] at this; simp at this
  · have : j = xs.findIdx q := by omega
    subst this
    rw [List.getElem?_eq_getElem h] at hx
    cases hx
    exact List.findIdx_getElem (w := h)

theorem searchNRa_spec (q : α → Bool) (pre xs post : List α) (count : Nat) (hc : 1 ≤ count) :
    ∃ i, searchNRa (pre ++ xs ++ post) q pre.length (pre.length + xs.length) count = some (pre.length + i) ∧
      Spec.FirstIdx (Spec.NRun q xs count) xs.length i := by
  unfold searchNRa
  rw [if_neg (by omega)]
  by_cases h1 : count = 1
  · subst h1
    rw [if_pos rfl, findIfRa_eq]
    exact ⟨_, rfl, nrun_one⟩
  · rw [if_neg h1, Nat.add_sub_cancel_left]
    by_cases hlt : xs.length < count
    · rw [if_pos hlt]
      exact ⟨xs.length, rfl, Nat.le_refl _, fun k hk hr => by have := hr.1; omega, fun h => by omega⟩
    · rw [if_neg hlt]
      obtain ⟨r, hr, hR⟩ := searchNHalve_spec (m := pre ++ xs ++ post) (q := q) (a := pre.length) (L := pre.length + xs.length)
        (count := count) (by omega) (by simp) xs.length pre.length pre.length (by omega) (Nat.le_refl _)
        ⟨Nat.le_refl _, by omega, fun k _ _ => by omega, Or.inr ⟨Nat.le_refl _, by omega, fun j _ _ _ => by omega⟩⟩
      obtain ⟨i, rfl, hi⟩ := firstIdx_nrun hR.ge hR.le hR.none_before (fun hlt => by
        rcases hR.run with h | ⟨h3, h4, h5⟩
        · omega
        · exact ⟨h4, fun j h6 h7 => h5 j h6 (by omega) h7⟩)
      exact ⟨i, hr, hi⟩

theorem searchNFwd_run {m : List α} {q : α → Bool} {a L count : Nat} (hc : 1 ≤ count) (hL : L ≤ m.length) :
    ∀ d c s n, L - c = d → c ≤ L → s + n = c → n ≤ count → a ≤ s →
      (∀ j, s ≤ j → j < c → atPos m q j = true) → (∀ k, a ≤ k → k < s → ¬ RunAt (atPos m q) L count k) →
      ∃ k c' s' n', Run (finIf fun s : Nat × Nat × Nat => s.2.2 == count || s.1 == L)
      (fun s => do
        let x ← rd m s.1
        some (if q x then (s.1 + 1, s.2.1, s.2.2 + 1) else (s.1 + 1, s.1 + 1, 0))) k (c, s, n) (c', s', n') ∧
        a ≤ s' ∧ s' ≤ L ∧ (∀ k, a ≤ k → k < s' → ¬ RunAt (atPos m q) L count k) ∧
        (if n' = count then RunAt (atPos m q) L count s' else ∀ k, s' ≤ k → ¬ RunAt (atPos m q) L count k) := by
  intro d
  induction d with
  | zero =>
    intro c s n hd h1 h2 h3 h4 h5 h6
    have : c = L := by omega
    subst this
    refine ⟨0, c, s, n, .stop (by simp [finIf]), h4, by omega, h6, ?_⟩
    split
    · exact ⟨by omega, fun j h7 h8 => h5 j h7 (by omega)⟩
    · intro k h7 hr; have := hr.1; omega
  | succ d ih =>
    intro c s n hd h1 h2 h3 h4 h5 h6
    by_cases hn : n = count
    · refine ⟨0, c, s, n, .stop (by simp [finIf, hn]), h4, by omega, h6, ?_⟩
      rw [if_pos hn]
      exact ⟨by omega, fun j h7 h8 => h5 j h7 (by omega)⟩
    · have hcm : c < m.length := by omega
      have hfin : (finIf fun s : Nat × Nat × Nat => s.2.2 == count || s.1 == L) (c, s, n) = none := by
        simp [finIf, hn]; omega
      have hat : atPos m q c = q m[c] := by simp [atPos, hcm]
      cases hq : q m[c] with
      | true =>
        obtain ⟨k, c', s', n', hr, hR⟩ := ih (c + 1) s (n + 1) (by omega) (by omega) (by omega) (by omega) h4
          (fun j h7 h8 => by
            by_cases hj : j = c
            · rw [hj, hat, hq]
            · exact h5 j h7 (by omega)) h6
        exact ⟨k + 1, c', s', n', .step hfin (t := (c + 1, s, n + 1)) (by simp [rd_eq hcm, hq]) hr, hR⟩
      | false =>
        obtain ⟨k, c', s', n', hr, hR⟩ := ih (c + 1) (c + 1) 0 (by omega) (by omega) (by omega) (by omega) (by omega)
          (fun j h7 h8 => by omega)
          (fun k h7 h8 hr => by
            rcases Nat.lt_or_ge k s with h | h
            · exact h6 k h7 h hr
            · have := hr.2 c (by omega) (by omega)
              rw [hat, hq] at this; cases this)
        exact ⟨k + 1, c', s', n', .step hfin (t := (c + 1, c + 1, 0)) (by simp [rd_eq hcm, hq]) hr, hR⟩

theorem searchNFwd_spec (q : α → Bool) (pre xs post : List α) (count : Nat) (hc : 1 ≤ count) :
    ∃ i, searchNFwd (pre ++ xs ++ post) q pre.length (pre.length + xs.length) count = some (pre.length + i) ∧
      Spec.FirstIdx (Spec.NRun q xs count) xs.length i := by
  unfold searchNFwd
  rw [if_neg (by omega)]
  by_cases h1 : count = 1
  · subst h1
    rw [if_pos rfl, findIfIn_eq]
    exact ⟨_, rfl, nrun_one⟩
  · rw [if_neg h1]
    obtain ⟨k, c', s', n', hr, h2, h3, h4, h5⟩ := searchNFwd_run (m := pre ++ xs ++ post) (q := q) (a := pre.length)
      (L := pre.length + xs.length) hc (by simp) _ pre.length pre.length 0 rfl (by omega) rfl (by omega) (Nat.le_refl _)
      (fun j _ _ => by omega) (fun k _ _ => by omega)
    rw [dbl_run (finIf_idem _) _ _ _ 1 (Nat.le_refl _) hr]
    simp only [Option.bind_eq_bind, Option.bind_some]
    by_cases hn : n' = count
    · rw [if_pos hn] at h5 ⊢
      obtain ⟨i, rfl, hi⟩ := firstIdx_nrun h2 h3 h4 (fun _ => h5)
      exact ⟨i, rfl, hi⟩
    · rw [if_neg hn] at h5 ⊢
      refine ⟨xs.length, rfl, Nat.le_refl _, fun k hk hr => ?_, fun h => by omega⟩
      have := (runAt_iff (pre := pre) (post := post)).mpr hr
      rcases Nat.lt_or_ge (pre.length + k) s' with h | h
      · exact h4 _ (by omega) h this
      · exact h5 _ h this

end Sprout

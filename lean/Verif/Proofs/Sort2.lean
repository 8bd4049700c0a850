import Verif.Proofs.Sort

namespace Sprout
variable {α : Type}

/-! ## insertion sorts -/

theorem insertionSort3Loop_spec {comp : α → α → Bool} (hc : StrictWeak comp) (first last : Nat) : ∀ n (m : List α) (i : Nat),
    last - i = n → first < i → i ≤ last → last ≤ m.length → SortedAt comp m first i →
    ∃ r, insertionSort3Loop comp m first last i (i - 1) = some r ∧ Rearr first last m r ∧ SortedAt comp r first last := by
  intro n
  induction n with
  | zero =>
    intro m i hn hi hil hl hs
    have : i = last := by omega
    subst this
    rw [insertionSort3Loop, if_pos rfl]
    exact ⟨m, rfl, Rearr.refl .., hs⟩
  | succ n ih =>
    intro m i hn hi hil hl hs
    rw [insertionSort3Loop, if_neg (by omega)]
    obtain ⟨t, ht⟩ := get_some (m := m) (i := i) (by omega)
    obtain ⟨y, hy⟩ := get_some (m := m) (i := i - 1) (by omega)
    rw [cmpAt_some ht hy]
    simp only [Option.bind_eq_bind, Option.bind_some]
    by_cases hlt : comp t y = true
    · obtain ⟨r, h1, h2, h3⟩ := insertDo_at hc hi ht hy hlt hs
      obtain ⟨r', h4, h5, h6⟩ := ih r (i + 1) (by omega) (by omega) (by omega) (by rw [h2.len]; omega) h3
      rw [if_pos hlt]
      simp only [rd, ht, Option.bind_some, h1]
      exact ⟨r', h4, (h2.mono (Nat.le_refl _) (by omega)).trans h5, h6⟩
    · rw [if_neg hlt]
      rw [Bool.not_eq_true] at hlt
      refine ih m (i + 1) (by omega) (by omega) (by omega) hl (hs.extend hc hi ?_ (by omega))
      intro a b ha hb
      rw [ht] at ha; rw [hy] at hb
      cases ha; cases hb; exact hlt

theorem sort3_sorted {comp : α → α → Bool} (hc : StrictWeak comp) {m : List α} {first b : Nat} (hl : first + 3 ≤ m.length) (hb : first + 3 ≤ b) :
    ∃ r n, sort3 comp m first (first + 1) (first + 2) = some (r, n) ∧ Rearr first b m r ∧ SortedAt comp r first (first + 3) := by
  obtain ⟨u, hu⟩ := get_some (m := m) (i := first) (by omega)
  obtain ⟨v, hv⟩ := get_some (m := m) (i := first + 1) (by omega)
  obtain ⟨w, hw⟩ := get_some (m := m) (i := first + 2) (by omega)
  obtain ⟨r, n, u', v', w', e, g1, g2, g3, c1, c2, rr, _⟩ := sort3_spec (a := first) (b := b) hc hu hv hw (by omega) (by omega) (by omega)
    ⟨by omega, by omega, by omega⟩ ⟨by omega, by omega, by omega⟩
  refine ⟨r, n, e, rr, sortedAt_of_adj hc (by rw [rr.len]; omega) ?_⟩
  intro i h1 h2 x y hx hy
  have : i = first ∨ i = first + 1 := by omega
  rcases this with rfl | rfl
  · rw [g2] at hx; rw [g1] at hy; cases hx; cases hy; exact c1
  · rw [g3] at hx; rw [g2] at hy; cases hx; cases hy; exact c2

theorem sort4_sorted {comp : α → α → Bool} (hc : StrictWeak comp) {m : List α} {first : Nat} (hl : first + 4 ≤ m.length) :
    ∃ r n, sort4 comp m first (first + 1) (first + 2) (first + 3) = some (r, n) ∧ Rearr first (first + 4) m r ∧ SortedAt comp r first (first + 4) := by
  obtain ⟨u, hu⟩ := get_some (m := m) (i := first) (by omega)
  obtain ⟨v, hv⟩ := get_some (m := m) (i := first + 1) (by omega)
  obtain ⟨w, hw⟩ := get_some (m := m) (i := first + 2) (by omega)
  obtain ⟨t, ht⟩ := get_some (m := m) (i := first + 3) (by omega)
  obtain ⟨r, n, u', v', w', t', e, g1, g2, g3, g4, c1, c2, c3, rr, _⟩ := sort4_spec (a := first) (b := first + 4) hc hu hv hw ht
    (by omega) (by omega) (by omega) (by omega) (by omega)
  refine ⟨r, n, e, rr, sortedAt_of_adj hc (by rw [rr.len]; omega) ?_⟩
  intro i h1 h2 x y hx hy
  have : i = first ∨ i = first + 1 ∨ i = first + 2 := by omega
  rcases this with rfl | rfl | rfl
  · rw [g2] at hx; rw [g1] at hy; cases hx; cases hy; exact c1
  · rw [g3] at hx; rw [g2] at hy; cases hx; cases hy; exact c2
  · rw [g4] at hx; rw [g3] at hy; cases hx; cases hy; exact c3

theorem sort5_sorted {comp : α → α → Bool} (hc : StrictWeak comp) {m : List α} {first : Nat} (hl : first + 5 ≤ m.length) :
    ∃ r n, sort5 comp m first (first + 1) (first + 2) (first + 3) (first + 4) = some (r, n) ∧ Rearr first (first + 5) m r ∧
      SortedAt comp r first (first + 5) := by
  obtain ⟨u, hu⟩ := get_some (m := m) (i := first) (by omega)
  obtain ⟨v, hv⟩ := get_some (m := m) (i := first + 1) (by omega)
  obtain ⟨w, hw⟩ := get_some (m := m) (i := first + 2) (by omega)
  obtain ⟨t, ht⟩ := get_some (m := m) (i := first + 3) (by omega)
  obtain ⟨q, hq⟩ := get_some (m := m) (i := first + 4) (by omega)
  obtain ⟨r, n, u', v', w', t', q', e, g1, g2, g3, g4, g5, c1, c2, c3, c4, rr⟩ := sort5_spec (a := first) (b := first + 5) hc hu hv hw ht hq
    (by omega) (by omega) (by omega) (by omega) (by omega) (by omega)
  refine ⟨r, n, e, rr, sortedAt_of_adj hc (by rw [rr.len]; omega) ?_⟩
  intro i h1 h2 x y hx hy
  have : i = first ∨ i = first + 1 ∨ i = first + 2 ∨ i = first + 3 := by omega
  rcases this with rfl | rfl | rfl | rfl
  · rw [g2] at hx; rw [g1] at hy; cases hx; cases hy; exact c1
  · rw [g3] at hx; rw [g2] at hy; cases hx; cases hy; exact c2
  · rw [g4] at hx; rw [g3] at hy; cases hx; cases hy; exact c3
  · rw [g5] at hx; rw [g4] at hy; cases hx; cases hy; exact c4

theorem sort2_sorted {comp : α → α → Bool} (hc : StrictWeak comp) {m : List α} {first : Nat} (hl : first + 2 ≤ m.length) :
    ∃ r, sort2Case comp m first (first + 2) = some r ∧
      Rearr first (first + 2) m r ∧ SortedAt comp r first (first + 2) := by
  obtain ⟨u, hu⟩ := get_some (m := m) (i := first) (by omega)
  obtain ⟨v, hv⟩ := get_some (m := m) (i := first + 1) (by omega)
  unfold sort2Case
  rw [show first + 2 - 1 = first + 1 by omega, cmpAt_some hv hu]
  simp only [Option.bind_eq_bind, Option.bind_some]
  by_cases h : comp v u = true
  · rw [if_pos h, swp_some hu hv]
    refine ⟨_, rfl, set_swap_rearr hu hv (by omega) (by omega) (by omega) (by omega), ?_⟩
    have g := getElem?_swap hu hv
    intro i j hi hij hj x y hx hy
    have hi : i = first := by omega
    have hj : j = first + 1 := by omega
    subst hi hj
    rw [g, if_pos rfl] at hx
    rw [g, if_neg (by omega), if_pos rfl] at hy
    cases hx; cases hy; exact hc.asymm h
  · rw [if_neg h]
    refine ⟨_, rfl, Rearr.refl .., ?_⟩
    intro i j hi hij hj x y hx hy
    have hi : i = first := by omega
    have hj : j = first + 1 := by omega
    subst hi hj
    rw [hv] at hx; rw [hu] at hy
    cases hx; cases hy; simpa using h

theorem insertionSort3_spec {comp : α → α → Bool} (hc : StrictWeak comp) {m : List α} {first last : Nat} (h3 : first + 3 ≤ last) (hl : last ≤ m.length) :
    ∃ r, insertionSort3 comp m first last = some r ∧ Rearr first last m r ∧ SortedAt comp r first last := by
  obtain ⟨r, n, e, rr, hs⟩ := sort3_sorted (b := last) hc (m := m) (first := first) (by omega) (by omega)
  obtain ⟨r', h4, h5, h6⟩ := insertionSort3Loop_spec hc first last _ r (first + 3) rfl (by omega) (by omega) (by rw [rr.len]; omega) hs
  unfold insertionSort3
  rw [e]
  exact ⟨r', h4, rr.trans h5, h6⟩

theorem insertionIncLoop_spec {comp : α → α → Bool} (hc : StrictWeak comp) (first last : Nat) : ∀ n (m : List α) (i count : Nat),
    last - i = n → first < i → i ≤ last → last ≤ m.length → SortedAt comp m first i →
    ∃ r b, insertionIncLoop comp m first last i (i - 1) count = some (r, b) ∧ Rearr first last m r ∧
      (b = true → SortedAt comp r first last) := by
  intro n
  induction n with
  | zero =>
    intro m i count hn hi hil hl hs
    have : i = last := by omega
    subst this
    rw [insertionIncLoop, if_pos rfl]
    exact ⟨m, true, rfl, Rearr.refl .., fun _ => hs⟩
  | succ n ih =>
    intro m i count hn hi hil hl hs
    rw [insertionIncLoop, if_neg (by omega)]
    obtain ⟨t, ht⟩ := get_some (m := m) (i := i) (by omega)
    obtain ⟨y, hy⟩ := get_some (m := m) (i := i - 1) (by omega)
    rw [cmpAt_some ht hy]
    simp only [Option.bind_eq_bind, Option.bind_some]
    by_cases hlt : comp t y = true
    · obtain ⟨r, h1, h2, h3⟩ := insertDo_at hc hi ht hy hlt hs
      rw [if_pos hlt]
      simp only [rd, ht, Option.bind_some, h1]
      by_cases hcnt : count + 1 = 8
      · rw [if_pos hcnt]
        refine ⟨r, _, rfl, h2.mono (Nat.le_refl _) (by omega), fun hb => ?_⟩
        have : i + 1 = last := by simpa using hb
        rw [← this]; exact h3
      · rw [if_neg hcnt]
        obtain ⟨r', b, h4, h5, h6⟩ := ih r (i + 1) (count + 1) (by omega) (by omega) (by omega) (by rw [h2.len]; omega) h3
        exact ⟨r', b, h4, (h2.mono (Nat.le_refl _) (by omega)).trans h5, h6⟩
    · rw [if_neg hlt]
      rw [Bool.not_eq_true] at hlt
      refine ih m (i + 1) count (by omega) (by omega) (by omega) hl (hs.extend hc hi ?_ (by omega))
      intro a b ha hb
      rw [ht] at ha; rw [hy] at hb
      cases ha; cases hb; exact hlt

theorem insertionSortIncomplete_spec {comp : α → α → Bool} (hc : StrictWeak comp) {m : List α} {first last : Nat} (hfl : first ≤ last) (hl : last ≤ m.length) :
    ∃ r b, insertionSortIncomplete comp m first last = some (r, b) ∧ Rearr first last m r ∧ (b = true → SortedAt comp r first last) := by
  unfold insertionSortIncomplete
  obtain ⟨len, rfl⟩ := Nat.exists_eq_add_of_le hfl
  simp only [Nat.add_sub_cancel_left]
  by_cases h1 : len = 0 ∨ len = 1
  · rw [if_pos h1]; exact ⟨m, true, rfl, Rearr.refl .., fun _ => .trivial (by omega)⟩
  rw [if_neg h1]
  by_cases h2 : len = 2
  · subst h2
    rw [if_pos rfl]
    obtain ⟨r, e, h3, h4⟩ := sort2_sorted hc hl
    rw [e]
    exact ⟨r, true, rfl, h3, fun _ => h4⟩
  rw [if_neg h2]
  by_cases h3 : len = 3
  · subst h3
    rw [if_pos rfl]
    obtain ⟨r, n, e, h3, h4⟩ := sort3_sorted (b := first + 3) hc hl (by omega)
    rw [show first + 3 - 1 = first + 2 by omega, e]
    exact ⟨r, true, rfl, h3, fun _ => h4⟩
  rw [if_neg h3]
  by_cases h4 : len = 4
  · subst h4
    rw [if_pos rfl]
    obtain ⟨r, n, e, h3, h4⟩ := sort4_sorted hc hl
    rw [show first + 4 - 1 = first + 3 by omega, e]
    exact ⟨r, true, rfl, h3, fun _ => h4⟩
  rw [if_neg h4]
  by_cases h5 : len = 5
  · subst h5
    rw [if_pos rfl]
    obtain ⟨r, n, e, h3, h4⟩ := sort5_sorted hc hl
    rw [show first + 5 - 1 = first + 4 by omega, e]
    exact ⟨r, true, rfl, h3, fun _ => h4⟩
  rw [if_neg h5]
  obtain ⟨r, n, e, rr, hs⟩ := sort3_sorted (b := first + len) hc (m := m) (first := first) (by omega) (by omega)
  obtain ⟨r', b, h4, h5, h6⟩ := insertionIncLoop_spec hc first (first + len) _ r (first + 3) 0 rfl (by omega) (by omega) (by rw [rr.len]; omega) hs
  rw [e]
  exact ⟨r', b, h4, rr.trans h5, h6⟩

/-! ## scans -/

theorem scanUp_spec {test : Nat → Option Bool} {t : Nat → Bool} : ∀ n i e, e - i = n → i ≤ e → t e = false →
    (∀ k, i ≤ k → k ≤ e → test k = some (t k)) →
    ∃ r, scanUp test i = some r ∧ i ≤ r ∧ r ≤ e ∧ t r = false ∧ ∀ k, i ≤ k → k < r → t k = true := by
  intro n
  induction n with
  | zero =>
    intro i e hn hie he ht
    have : i = e := by omega
    subst this
    rw [scanUp, ht i (Nat.le_refl _) (Nat.le_refl _), he]
    exact ⟨i, rfl, Nat.le_refl _, Nat.le_refl _, he, by intros; omega⟩
  | succ n ih =>
    intro i e hn hie he ht
    rw [scanUp, ht i (Nat.le_refl _) hie]
    cases hti : t i with
    | false => exact ⟨i, rfl, Nat.le_refl _, hie, hti, by intros; omega⟩
    | true =>
      obtain ⟨r, h1, h2, h3, h4, h5⟩ := ih (i + 1) e (by omega) (by omega) he (fun k h1 h2 => ht k (by omega) h2)
      refine ⟨r, by simpa using h1, by omega, h3, h4, fun k hk hk' => ?_⟩
      by_cases hki : k = i
      · subst hki; exact hti
      · exact h5 k (by omega) hk'

theorem scanDown_spec {test : Nat → Option Bool} {t : Nat → Bool} : ∀ n j e, j - e = n → e < j → t e = false →
    (∀ k, e ≤ k → k < j → test k = some (t k)) →
    ∃ r, scanDown test j = some r ∧ e ≤ r ∧ r < j ∧ t r = false ∧ ∀ k, r < k → k < j → t k = true := by
  intro n
  induction n with
  | zero => intro j e hn hej; omega
  | succ n ih =>
    intro j e hn hej he ht
    rw [scanDown, if_neg (by omega), ht (j - 1) (by omega) (by omega)]
    cases htj : t (j - 1) with
    | false => exact ⟨j - 1, rfl, by omega, by omega, htj, by intros; omega⟩
    | true =>
      have hne : e ≠ j - 1 := by rintro rfl; rw [he] at htj; cases htj
      obtain ⟨r, h1, h2, h3, h4, h5⟩ := ih (j - 1) e (by omega) (by omega) he (fun k h1 h2 => ht k h1 (by omega))
      refine ⟨r, by simpa using h1, by omega, by omega, h4, fun k hk hk' => ?_⟩
      by_cases hki : k = j - 1
      · subst hki; exact htj
      · exact h5 k hk (by omega)

theorem findGuard_spec {test : Nat → Option Bool} {t : Nat → Bool} : ∀ n i j, j - i = n → i < j →
    (∀ k, i < k → k < j → test k = some (t k)) →
    (findGuard test i j = some none ∧ ∀ k, i < k → k < j → t k = false) ∨
    (∃ r, findGuard test i j = some (some r) ∧ i < r ∧ r < j ∧ t r = true ∧ ∀ k, r < k → k < j → t k = false) := by
  intro n
  induction n with
  | zero => intro i j hn hij; omega
  | succ n ih =>
    intro i j hn hij ht
    rw [findGuard, if_neg (by omega)]
    by_cases h : i = j - 1
    · rw [if_pos h]; exact .inl ⟨rfl, by intros; omega⟩
    · rw [if_neg h, ht (j - 1) (by omega) (by omega)]
      cases htj : t (j - 1) with
      | true => exact .inr ⟨j - 1, rfl, by omega, by omega, htj, by intros; omega⟩
      | false =>
        rcases ih i (j - 1) (by omega) (by omega) (fun k h1 h2 => ht k h1 (by omega)) with ⟨h1, h2⟩ | ⟨r, h1, h2, h3, h4, h5⟩
        · refine .inl ⟨by simpa using h1, fun k hk hk' => ?_⟩
          by_cases hkj : k = j - 1
          · subst hkj; exact htj
          · exact h2 k hk (by omega)
        · refine .inr ⟨r, by simpa using h1, h2, by omega, h4, fun k hk hk' => ?_⟩
          by_cases hkj : k = j - 1
          · subst hkj; exact htj
          · exact h5 k hk (by omega)

end Sprout

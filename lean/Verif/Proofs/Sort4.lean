import Verif.Proofs.Sort3

namespace Sprout
variable {α : Type}

/-- what one round of `sort_impl` guarantees -/
def StepOk (comp : α → α → Bool) (m : List α) (first last : Nat) : SortRes α → Prop
  | .done r => Rearr first last m r ∧ SortedAt comp r first last
  | .again r f l => Rearr first last m r ∧ first ≤ f ∧ f ≤ l ∧ l ≤ last ∧ l - f < last - first ∧
      ∀ r', Rearr f l r r' → SortedAt comp r' f l → SortedAt comp r' first last
  | .both r i => Rearr first last m r ∧ first ≤ i ∧ i < last ∧ ∃ p, r[i]? = some p ∧
      AllP (fun x => comp p x = false) r first i ∧ AllP (fun x => comp x p = false) r i last

/-- sorted sides of a partition point make a sorted whole -/
theorem sortedAt_join {comp : α → α → Bool} (hc : StrictWeak comp) {r : List α} {first i last : Nat} {p : α} (hp : r[i]? = some p)
    (hL : AllP (fun x => comp p x = false) r first i) (hR : AllP (fun x => comp x p = false) r i last)
    (h1 : SortedAt comp r first i) (h2 : SortedAt comp r (i + 1) last) : SortedAt comp r first last := by
  apply h1.glue (c := i)
  · apply SortedAt.glue (c := i + 1) (.trivial (by omega)) h2
    intro a b h3 h4 h5 h6 x y hx hy
    rw [show a = i by omega, hp] at hy
    cases hy
    exact hR b x (by omega) h6 hx
  · intro a b h3 h4 h5 h6 x y hx hy
    exact hc.le_trans (hL a y h3 h4 hy) (hR b x h5 h6 hx)

/-- the choice of the pivot, lines 64-78 -/
theorem pivot_spec {comp : α → α → Bool} (hc : StrictWeak comp) (m : List α) (first last : Nat) (hl : last ≤ m.length) (h6 : first + 6 ≤ last) :
    ∃ r n u p w, (if 1000 ≤ last - first then sort5 comp m first (first + (last - first) / 2 / 2) (first + (last - first) / 2)
        (first + (last - first) / 2 + (last - first) / 2 / 2) (last - 1)
      else sort3 comp m first (first + (last - first) / 2) (last - 1)) = some (r, n) ∧ Rearr first last m r ∧
      r[first]? = some u ∧ r[first + (last - first) / 2]? = some p ∧ r[last - 1]? = some w ∧ comp p u = false ∧ comp w p = false := by
  obtain ⟨u, hu⟩ := get_some (m := m) (i := first) (by omega)
  obtain ⟨p, hp⟩ := get_some (m := m) (i := first + (last - first) / 2) (by omega)
  obtain ⟨w, hw⟩ := get_some (m := m) (i := last - 1) (by omega)
  split
  · obtain ⟨x, hx⟩ := get_some (m := m) (i := first + (last - first) / 2 / 2) (by omega)
    obtain ⟨y, hy⟩ := get_some (m := m) (i := first + (last - first) / 2 + (last - first) / 2 / 2) (by omega)
    obtain ⟨r, n, u', x', p', y', w', e, g1, g2, g3, g4, g5, c1, c2, c3, c4, rr⟩ := sort5_spec (a := first) (b := last) hc hu hx hp hy hw
      (by omega) (by omega) (by omega) (by omega) (by omega) (by omega)
    exact ⟨r, n, u', p', w', e, rr, g1, g3, g5, hc.le_trans c1 c2, hc.le_trans c3 c4⟩
  · obtain ⟨r, n, u', p', w', e, g1, g2, g3, c1, c2, rr, -⟩ := sort3_spec (a := first) (b := last) hc hu hp hw
      (by omega) (by omega) (by omega) (by omega) (by omega)
    exact ⟨r, n, u', p', w', e, rr, g1, g2, g3, c1, c2⟩

theorem sortStep_spec {comp : α → α → Bool} (hc : StrictWeak comp) (limit : Nat) (m : List α) (first last : Nat) (hfl : first ≤ last) (hl : last ≤ m.length) :
    ∃ s, sortStep limit comp m first last = some s ∧ StepOk comp m first last s := by
  unfold sortStep
  by_cases h1 : last - first = 0 ∨ last - first = 1
  · simp only [if_pos h1]
    exact ⟨_, rfl, Rearr.refl .., .trivial (by omega)⟩
  simp only [if_neg h1]
  by_cases h2 : last - first = 2
  · have : last = first + 2 := by omega
    subst this
    obtain ⟨r, e, rr, hs⟩ := sort2_sorted hc hl
    simp only [if_pos h2, e]
    exact ⟨_, rfl, rr, hs⟩
  simp only [if_neg h2]
  by_cases h3 : last - first = 3
  · have : last = first + 3 := by omega
    subst this
    obtain ⟨r, n, e, rr, hs⟩ := sort3_sorted hc hl (Nat.le_refl _)
    simp only [if_pos h3, show first + 3 - 1 = first + 2 by omega, e]
    exact ⟨_, rfl, rr, hs⟩
  simp only [if_neg h3]
  by_cases h4 : last - first = 4
  · have : last = first + 4 := by omega
    subst this
    obtain ⟨r, n, e, rr, hs⟩ := sort4_sorted hc hl
    simp only [if_pos h4, show first + 4 - 1 = first + 3 by omega, e]
    exact ⟨_, rfl, rr, hs⟩
  simp only [if_neg h4]
  by_cases h5 : last - first = 5
  · have : last = first + 5 := by omega
    subst this
    obtain ⟨r, n, e, rr, hs⟩ := sort5_sorted hc hl
    simp only [if_pos h5, show first + 5 - 1 = first + 4 by omega, e]
    exact ⟨_, rfl, rr, hs⟩
  simp only [if_neg h5]
  by_cases h6 : last - first ≤ limit
  · obtain ⟨r, e, rr, hs⟩ := insertionSort3_spec (first := first) (last := last) hc (by omega) hl
    simp only [if_pos h6, e]
    exact ⟨_, rfl, rr, hs⟩
  simp only [if_neg h6]
  obtain ⟨m1, n, u, p, w, e, rr, g1, g2, g3, c1, c2⟩ := pivot_spec hc m first last hl (by omega)
  have hl1 : last ≤ m1.length := by rw [rr.len]; exact hl
  simp only [Option.bind_eq_bind]
  have hob : ∀ k : List α × Nat → Option (SortRes α), (if 1000 ≤ last - first then
      (sort5 comp m first (first + (last - first) / 2 / 2) (first + (last - first) / 2)
        (first + (last - first) / 2 + (last - first) / 2 / 2) (last - 1)).bind k
      else (sort3 comp m first (first + (last - first) / 2) (last - 1)).bind k) = k (m1, n) := by
    intro k
    split at e <;> rename_i hh
    · rw [if_pos hh, e]; rfl
    · rw [if_neg hh, e]; rfl
  rw [hob]
  obtain ⟨s, e2, hs⟩ := partitionPhase_spec hc (fun i j => decide (j < i)) (fun _ _ _ => rfl) first last (first + (last - first) / 2) n m1 u p w hl1
    (by omega) (by omega) g1 g2 g3 c1 c2
  rw [e2]
  simp only [Option.bind_some]
  cases s with
  | sorted r => exact ⟨_, rfl, rr.trans hs.1, hs.2⟩
  | restart r i =>
    obtain ⟨s1, s2, s3, q, s4, s5, s6⟩ := hs
    refine ⟨_, rfl, rr.trans s1, by omega, by omega, Nat.le_refl _, by omega, ?_⟩
    intro r' hr' hs'
    have hlr : last ≤ r.length := by rw [s1.len]; exact hl1
    have t4 := s4.rearr hr' hlr (by omega) (.inl ⟨by omega, Nat.le_refl _⟩)
    have t5 := s5.rearr hr' hlr (by omega) (.inr (.inl (Nat.le_refl _)))
    apply SortedAt.glue (c := i) (sortedAt_of_equiv hc t5 (fun k x hk hk' hx => t4 k x hk (by omega) hx)) hs'
    intro a b h3 h4 h5 h6 x y hx hy
    exact hc.le_trans (t5 a y h3 h4 hy) (t4 b x (by omega) h6 hx)
  | split r i n =>
    obtain ⟨s1, s2, s3, q, s4, s5, s6⟩ := hs
    have s5' : AllP (fun x => comp q x = false) r first i := fun k x hk hk' hx => hc.asymm (s5 k x hk hk' hx)
    have hlr : last ≤ r.length := by rw [s1.len]; exact hl1
    simp only []
    by_cases hn : n = 0
    · simp only [if_pos hn]
      obtain ⟨m2, fs, e3, r3, q3⟩ := insertionSortIncomplete_spec hc (m := r) (first := first) (last := i) (by omega) (by omega)
      have hl2 : last ≤ m2.length := by rw [r3.len]; exact hlr
      obtain ⟨m3, ls, e4, r4, q4⟩ := insertionSortIncomplete_spec hc (m := m2) (first := i + 1) (last := last) (by omega) hl2
      rw [e3]
      simp only [Option.bind_some]
      rw [e4]
      simp only [Option.bind_some]
      have R : Rearr first last m m3 := (rr.trans s1).trans ((r3.mono (by omega) (by omega)).trans (r4.mono (by omega) (by omega)))
      have hq : m3[i]? = some q := by rw [r4.out i (by omega), r3.out i (by omega), s4]
      have hL : AllP (fun x => comp q x = false) m3 first i :=
        (s5'.rearr r3 (by omega) (by omega) (.inl ⟨Nat.le_refl _, Nat.le_refl _⟩)).rearr r4 hl2 (by omega) (.inr (.inl (by omega)))
      have hR : AllP (fun x => comp x q = false) m3 i last :=
        (s6.rearr r3 (by omega) (by omega) (.inr (.inr (by omega)))).rearr r4 hl2 (by omega) (.inl ⟨by omega, by omega⟩)
      have hl3 : last ≤ m3.length := by rw [r4.len]; exact hl2
      cases ls with
      | true =>
        cases fs with
        | true =>
          exact ⟨_, rfl, R, sortedAt_join hc hq hL hR ((q3 rfl).rearr_out r4 (.inl (by omega))) (q4 rfl)⟩
        | false =>
          refine ⟨_, rfl, R, Nat.le_refl _, by omega, by omega, by omega, ?_⟩
          intro r' hr' hs'
          refine sortedAt_join hc (i := i) (p := q) (by rw [hr'.out i (by omega), hq]) ?_ ?_ hs' ((q4 rfl).rearr_out hr' (.inr (by omega)))
          · exact hL.rearr hr' (by omega) (by omega) (.inl ⟨Nat.le_refl _, Nat.le_refl _⟩)
          · exact hR.rearr hr' (by omega) (by omega) (.inr (.inr (by omega)))
      | false =>
        cases fs with
        | true =>
          refine ⟨_, rfl, R, by omega, by omega, Nat.le_refl _, by omega, ?_⟩
          intro r' hr' hs'
          refine sortedAt_join hc (i := i) (p := q) (by rw [hr'.out i (by omega), hq]) ?_ ?_
            (((q3 rfl).rearr_out r4 (.inl (by omega))).rearr_out hr' (.inl (by omega))) hs'
          · exact hL.rearr hr' (by omega) (by omega) (.inr (.inl (by omega)))
          · exact hR.rearr hr' (by omega) (by omega) (.inl ⟨by omega, by omega⟩)
        | false => exact ⟨_, rfl, R, by omega, s3, q, hq, hL, hR⟩
    · simp only [if_neg hn]
      exact ⟨_, rfl, rr.trans s1, by omega, s3, q, s4, s5', s6⟩

theorem sort_spec {comp : α → α → Bool} (hc : StrictWeak comp) (limit : Nat) : ∀ n (m : List α) (first last : Nat),
    last - first = n → first ≤ last → last ≤ m.length →
    ∃ r, sort limit comp m first last = some r ∧ Rearr first last m r ∧ SortedAt comp r first last := by
  intro n
  induction n using Nat.strongRecOn with
  | ind n ih =>
    intro m first last hn hfl hl
    rw [sort]
    obtain ⟨s, e, hs⟩ := sortStep_spec hc limit m first last hfl hl
    simp only [Option.bind_eq_bind]
    rw [e]
    simp only [Option.bind_some]
    cases s with
    | done r => exact ⟨r, rfl, hs.1, hs.2⟩
    | again r f l =>
      obtain ⟨s1, s2, s3, s4, s5, s6⟩ := hs
      obtain ⟨r', e', h1, h2⟩ := ih (l - f) (by omega) r f l rfl s3 (by rw [s1.len]; omega)
      exact ⟨r', e', s1.trans (h1.mono s2 s4), s6 r' h1 h2⟩
    | both r i =>
      obtain ⟨s1, s2, s3, p, s4, s5, s6⟩ := hs
      have hlr : last ≤ r.length := by rw [s1.len]; exact hl
      simp only []
      split
      · obtain ⟨r1, e1, h1, h2⟩ := ih (i - first) (by omega) r first i rfl s2 (by omega)
        have hl1 : last ≤ r1.length := by rw [h1.len]; exact hlr
        obtain ⟨r2, e2, h3, h4⟩ := ih (last - (i + 1)) (by omega) r1 (i + 1) last rfl (by omega) hl1
        rw [e1]
        refine ⟨r2, e2, s1.trans ((h1.mono (by omega) (by omega)).trans (h3.mono (by omega) (by omega))), ?_⟩
        apply sortedAt_join hc (i := i) (p := p) (by rw [h3.out i (by omega), h1.out i (by omega), s4]) _ _ (h2.rearr_out h3 (.inl (by omega))) h4
        · exact (s5.rearr h1 (by omega) (by omega) (.inl ⟨Nat.le_refl _, Nat.le_refl _⟩)).rearr h3 hl1 (by omega) (.inr (.inl (by omega)))
        · exact (s6.rearr h1 (by omega) (by omega) (.inr (.inr (by omega)))).rearr h3 hl1 (by omega) (.inl ⟨by omega, by omega⟩)
      · obtain ⟨r1, e1, h1, h2⟩ := ih (last - (i + 1)) (by omega) r (i + 1) last rfl (by omega) hlr
        have hl1 : last ≤ r1.length := by rw [h1.len]; exact hlr
        obtain ⟨r2, e2, h3, h4⟩ := ih (i - first) (by omega) r1 first i rfl s2 (by omega)
        rw [e1]
        refine ⟨r2, e2, s1.trans ((h1.mono (by omega) (by omega)).trans (h3.mono (by omega) (by omega))), ?_⟩
        apply sortedAt_join hc (i := i) (p := p) (by rw [h3.out i (by omega), h1.out i (by omega), s4]) _ _ h4 (h2.rearr_out h3 (.inr (by omega)))
        · exact (s5.rearr h1 hlr (by omega) (.inr (.inl (by omega)))).rearr h3 (by omega) (by omega) (.inl ⟨Nat.le_refl _, Nat.le_refl _⟩)
        · exact (s6.rearr h1 hlr (by omega) (.inl ⟨by omega, by omega⟩)).rearr h3 (by omega) (by omega) (.inr (.inr (by omega)))

end Sprout

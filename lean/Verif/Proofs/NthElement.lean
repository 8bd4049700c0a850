import Verif.Proofs.Sort4

namespace Sprout
variable {α : Type}

theorem minElementRa_pos {comp : α → α → Bool} (hc : StrictWeak comp) {m : List α} {first last : Nat} (hfl : first < last) (hl : last ≤ m.length) :
    ∃ i x, minElementRa comp m first last = some i ∧ first ≤ i ∧ i < last ∧ m[i]? = some x ∧ AllP (fun y => comp y x = false) m first last := by
  obtain ⟨d, hd⟩ := get_some (m := m) (i := first) (by omega)
  obtain ⟨r, h1, h2, h3, h4, -⟩ := minElementImplRa_spec (cmp := fun i j => cmpAt comp m i j) (posLt_sw hc m d) _ first last rfl hfl
    (fun i j _ _ _ _ => cmpAt_eq (by omega) (by omega))
  obtain ⟨x, hx⟩ := get_some (m := m) (i := r) (by omega)
  refine ⟨r, x, by unfold minElementRa; rw [if_neg (by omega), h1], h2, h3, hx, ?_⟩
  intro k y hk hk' hy
  have := h4 k hk hk'
  rwa [posLt_some hy hx] at this

theorem selectionSort_spec {comp : α → α → Bool} (hc : StrictWeak comp) (last : Nat) : ∀ n (m : List α) (first : Nat),
    last - first = n → first < last → last ≤ m.length →
    ∃ r, selectionSort comp m first last = some r ∧ Rearr first last m r ∧ SortedAt comp r first last := by
  intro n
  induction n with
  | zero => intro m first hn hfl; omega
  | succ n ih =>
    intro m first hn hfl hl
    rw [selectionSort, if_neg (by omega)]
    by_cases h1 : first = last - 1
    · rw [if_pos h1]; exact ⟨m, rfl, Rearr.refl .., .trivial (by omega)⟩
    rw [if_neg h1]
    obtain ⟨i, x, e, g1, g2, g3, g4⟩ := minElementRa_pos hc hfl hl
    simp only [Option.bind_eq_bind]
    rw [e]
    simp only [Option.bind_some]
    have key : ∀ m1, Rearr first last m m1 → m1[first]? = some x → ∃ r, selectionSort comp m1 (first + 1) last = some r ∧
        Rearr first last m r ∧ SortedAt comp r first last := by
      intro m1 rr hx
      have hl1 : last ≤ m1.length := by rw [rr.len]; exact hl
      obtain ⟨r, e, h2, h3⟩ := ih m1 (first + 1) (by omega) (by omega) hl1
      have g5 := (g4.rearr rr hl (by omega) (.inl ⟨Nat.le_refl _, Nat.le_refl _⟩)).rearr h2 hl1 (by omega) (.inl ⟨by omega, by omega⟩)
      refine ⟨r, e, rr.trans (h2.mono (by omega) (by omega)), ?_⟩
      apply SortedAt.glue (c := first + 1) (.trivial (by omega)) h3
      intro a b h4 h5 h6 h7 y z hy hz
      rw [show a = first by omega, h2.out first (by omega), hx] at hz
      cases hz
      exact g5 b y (by omega) h7 hy
    by_cases hi : i = first
    · subst hi
      simp only [ne_eq, not_true, if_false, Option.bind_some]
      exact key m (Rearr.refl ..) g3
    · obtain ⟨y, hy⟩ := get_some (m := m) (i := first) (by omega)
      simp only [ne_eq, hi, not_false_eq_true, if_true, swp_some hy g3, Option.bind_some]
      refine key _ (set_swap_rearr hy g3 (by omega) (by omega) (by omega) (by omega)) ?_
      rw [getElem?_swap hy g3, if_neg (by omega), if_pos rfl]

/-- the scan `[j, b)`, whose answer `true` says that the range is sorted -/
theorem sortedCheck_spec {comp : α → α → Bool} (hc : StrictWeak comp) (m : List α) (a b : Nat) (hl : b ≤ m.length) : ∀ n j,
    b - j = n → a ≤ j → j < b → SortedAt comp m a (j + 1) →
    ∃ c, sortedCheck comp m j b j = some c ∧ (c = true → SortedAt comp m a b) := by
  intro n
  induction n with
  | zero => intro j; omega
  | succ n ih =>
    intro j hn ha hj hs
    rw [sortedCheck]
    by_cases h : j + 1 = b
    · rw [if_pos h]; subst h; exact ⟨true, rfl, fun _ => hs⟩
    · rw [if_neg h]
      obtain ⟨x, hx⟩ := get_some (m := m) (i := j) (by omega)
      obtain ⟨y, hy⟩ := get_some (m := m) (i := j + 1) (by omega)
      rw [cmpAt_some hy hx]
      simp only [Option.bind_eq_bind, Option.bind_some]
      cases hyx : comp y x with
      | true => exact ⟨false, rfl, by simp⟩
      | false =>
        simp only [Bool.false_eq_true, if_false]
        apply ih (j + 1) (by omega) (by omega) (by omega)
        apply sortedAt_of_adj hc (by omega)
        intro k h1 h2 u v hu hv
        by_cases hk : k = j
        · subst hk; rw [hx] at hv; rw [hy] at hu; cases hu; cases hv; exact hyx
        · exact hs k (k + 1) (by omega) (by omega) (by omega) u v hu hv

/-- position `nth` holds its order statistic -/
def NthAt (comp : α → α → Bool) (r : List α) (first nth last : Nat) : Prop :=
  ∃ v, r[nth]? = some v ∧ AllP (fun x => comp v x = false) r first nth ∧ AllP (fun x => comp x v = false) r nth last

theorem SortedAt.nthAt {comp : α → α → Bool} (hc : StrictWeak comp) {r : List α} {first nth last : Nat} (h : SortedAt comp r first last)
    (h1 : first ≤ nth) (h2 : nth < last) (h3 : last ≤ r.length) : NthAt comp r first nth last := by
  obtain ⟨v, hv⟩ := get_some (m := r) (i := nth) (by omega)
  refine ⟨v, hv, ?_, ?_⟩
  · intro k x hk hk' hx
    exact h k nth hk hk' h2 v x hv hx
  · intro k x hk hk' hx
    by_cases hkn : k = nth
    · subst hkn; rw [hv] at hx; cases hx; exact hc.irrefl _
    · exact h nth k h1 (by omega) hk' x v hx hv

theorem NthAt.extend {comp : α → α → Bool} {r : List α} {f nth l first last : Nat} (h : NthAt comp r f nth l)
    (h1 : f ≤ nth) (h2 : nth < l) (h3 : first ≤ f) (h4 : l ≤ last)
    (hL : ∀ i j x y, first ≤ i → i < f → f ≤ j → j < l → r[i]? = some x → r[j]? = some y → comp y x = false)
    (hR : ∀ i j x y, f ≤ i → i < l → l ≤ j → j < last → r[i]? = some x → r[j]? = some y → comp y x = false) :
    NthAt comp r first nth last := by
  obtain ⟨v, hv, a1, a2⟩ := h
  refine ⟨v, hv, ?_, ?_⟩
  · intro k x hk hk' hx
    by_cases hkf : k < f
    · exact hL k nth x v hk hkf h1 h2 hx hv
    · exact a1 k x (by omega) hk' hx
  · intro k x hk hk' hx
    by_cases hkl : k < l
    · exact a2 k x hk hkl hx
    · exact hR nth k v x h1 h2 (by omega) hk' hv hx

theorem nthElement_spec {comp : α → α → Bool} (hc : StrictWeak comp) (nth : Nat) : ∀ n (m : List α) (first last : Nat),
    last - first = n → first ≤ nth → nth < last → last ≤ m.length →
    ∃ r, nthElement comp m first nth last = some r ∧ Rearr first last m r ∧ NthAt comp r first nth last := by
  intro n
  induction n using Nat.strongRecOn with
  | ind n ih =>
    intro m first last hn h1 h2 hl
    rw [nthElement, if_neg (by omega)]
    by_cases h0 : last - first = 0 ∨ last - first = 1
    · simp only [if_pos h0]
      exact ⟨m, rfl, Rearr.refl .., SortedAt.nthAt hc (.trivial (by omega)) h1 h2 hl⟩
    simp only [if_neg h0]
    by_cases h2' : last - first = 2
    · have : last = first + 2 := by omega
      subst this
      obtain ⟨r, e, rr, hs⟩ := sort2_sorted hc hl
      simp only [if_pos h2', e]
      exact ⟨_, rfl, rr, hs.nthAt hc h1 h2 (by rw [rr.len]; exact hl)⟩
    simp only [if_neg h2']
    by_cases h3 : last - first = 3
    · have : last = first + 3 := by omega
      subst this
      obtain ⟨r, n, e, rr, hs⟩ := sort3_sorted hc hl (Nat.le_refl _)
      simp only [if_pos h3, show first + 3 - 1 = first + 2 by omega, e]
      exact ⟨_, rfl, rr, hs.nthAt hc h1 h2 (by rw [rr.len]; exact hl)⟩
    simp only [if_neg h3]
    by_cases h7 : last - first ≤ 7
    · obtain ⟨r, e, rr, hs⟩ := selectionSort_spec hc last _ m first rfl (by omega) hl
      simp only [if_pos h7, e]
      exact ⟨_, rfl, rr, hs.nthAt hc h1 h2 (by rw [rr.len]; exact hl)⟩
    simp only [if_neg h7]
    obtain ⟨u, hu⟩ := get_some (m := m) (i := first) (by omega)
    obtain ⟨p, hp⟩ := get_some (m := m) (i := first + (last - first) / 2) (by omega)
    obtain ⟨w, hw⟩ := get_some (m := m) (i := last - 1) (by omega)
    obtain ⟨m1, n1, u', p', w', e, g1, g2, g3, c1, c2, rr, -⟩ := sort3_spec (a := first) (b := last) hc hu hp hw
      (by omega) (by omega) (by omega) (by omega) (by omega)
    have hl1 : last ≤ m1.length := by rw [rr.len]; exact hl
    simp only [Option.bind_eq_bind]
    rw [e]
    simp only [Option.bind_some]
    obtain ⟨s, e2, hs⟩ := partitionPhase_spec hc (fun i j => decide (j ≤ i)) (fun i j h => by simp; omega) first last (first + (last - first) / 2) n1 m1 _ _ _ hl1
      (by omega) (by omega) g1 g2 g3 c1 c2
    rw [e2]
    simp only [Option.bind_some]
    cases s with
    | sorted r => exact ⟨r, rfl, rr.trans hs.1, hs.2.nthAt hc h1 h2 (by rw [hs.1.len]; exact hl1)⟩
    | restart r i =>
      obtain ⟨s1, s2, s3, q, s4, s5, s6⟩ := hs
      have hlr : last ≤ r.length := by rw [s1.len]; exact hl1
      simp only []
      by_cases hni : nth < i
      · rw [if_pos hni]
        obtain ⟨v, hv⟩ := get_some (m := r) (i := nth) (by omega)
        refine ⟨r, rfl, rr.trans s1, v, hv, ?_, ?_⟩
        · exact fun k x hk hk' hx => hc.le_trans (s5 k x hk (by omega) hx) (s4 nth v h1 (by omega) hv)
        · exact fun k x hk hk' hx => hc.le_trans (s5 nth v h1 hni hv) (s4 k x (by omega) hk' hx)
      · rw [if_neg hni]
        obtain ⟨r', e3, hr', h8⟩ := ih (last - i) (by omega) r i last rfl (by omega) h2 hlr
        have t4 := s4.rearr hr' hlr (by omega) (.inl ⟨by omega, Nat.le_refl _⟩)
        have t5 := s5.rearr hr' hlr (by omega) (.inr (.inl (Nat.le_refl _)))
        refine ⟨r', e3, rr.trans (s1.trans (hr'.mono (by omega) (by omega))), ?_⟩
        apply h8.extend (by omega) h2 (by omega) (Nat.le_refl _)
        · intro a b x y h3 h4 h5 h6 hx hy
          exact hc.le_trans (t5 a x h3 h4 hx) (t4 b y (by omega) h6 hy)
        · intro a b x y h3 h4 h5 h6; omega
    | split r i n2 =>
      obtain ⟨s1, s2, s3, q, s4, s5, s6⟩ := hs
      have hlr : last ≤ r.length := by rw [s1.len]; exact hl1
      have s5' : AllP (fun x => comp q x = false) r first i := fun k x hk hk' hx => hc.asymm (s5 k x hk hk' hx)
      simp only []
      by_cases hni : nth = i
      · rw [if_pos hni]
        subst hni
        exact ⟨r, rfl, rr.trans s1, q, s4, s5', s6⟩
      rw [if_neg hni]
      have hcross : ∀ r', Rearr first i r r' ∨ Rearr i last r r' ∨ Rearr (i + 1) last r r' → ∀ a b x y, first ≤ a → a < i → i ≤ b → b < last →
          r'[a]? = some x → r'[b]? = some y → comp y x = false := by
        intro r' hr' a b x y a1 a2 a3 a4 hx hy
        rcases hr' with hr' | hr' | hr'
        · exact hc.le_trans (s5'.rearr hr' (by omega) (by omega) (.inl ⟨Nat.le_refl _, Nat.le_refl _⟩) a x a1 a2 hx)
            (s6.rearr hr' (by omega) (by omega) (.inr (.inr (Nat.le_refl _))) b y a3 a4 hy)
        · exact hc.le_trans (s5'.rearr hr' (by omega) (by omega) (.inr (.inl (Nat.le_refl _))) a x a1 a2 hx)
            (s6.rearr hr' (by omega) (by omega) (.inl ⟨Nat.le_refl _, Nat.le_refl _⟩) b y a3 a4 hy)
        · exact hc.le_trans (s5'.rearr hr' (by omega) (by omega) (.inr (.inl (by omega))) a x a1 a2 hx)
            (s6.rearr hr' (by omega) (by omega) (.inl ⟨by omega, Nat.le_refl _⟩) b y a3 a4 hy)
      -- the continuation
      have cont : ∃ r', (if nth < i then nthElement comp r first nth i else nthElement comp r (i + 1) nth last) = some r' ∧
          Rearr first last m r' ∧ NthAt comp r' first nth last := by
        by_cases hlt : nth < i
        · rw [if_pos hlt]
          obtain ⟨r', e3, hr', h8⟩ := ih (i - first) (by omega) r first i rfl h1 hlt (by omega)
          refine ⟨r', e3, rr.trans (s1.trans (hr'.mono (by omega) (by omega))), ?_⟩
          apply h8.extend h1 hlt (Nat.le_refl _) (by omega)
          · intro a b x y h3 h4 h5 h6; omega
          · intro a b x y h3 h4 h5 h6 hx hy
            exact hcross r' (.inl hr') a b x y h3 h4 h5 h6 hx hy
        · rw [if_neg hlt]
          obtain ⟨r', e3, hr', h8⟩ := ih (last - (i + 1)) (by omega) r (i + 1) last rfl (by omega) h2 hlr
          refine ⟨r', e3, rr.trans (s1.trans (hr'.mono (by omega) (by omega))), ?_⟩
          apply h8.extend (by omega) h2 (by omega) (Nat.le_refl _)
          · intro a b x y h3 h4 h5 h6 hx hy
            by_cases ha : a = i
            · subst ha
              rw [hr'.out a (by omega), s4] at hx
              cases hx
              exact s6.rearr hr' (by omega) (by omega) (.inl ⟨by omega, Nat.le_refl _⟩) b y (by omega) h6 hy
            · exact hcross r' (.inr (.inr hr')) a b x y h3 (by omega) (by omega) h6 hx hy
          · intro a b x y h3 h4 h5 h6; omega
      by_cases hn2 : n2 = 0
      · simp only [if_pos hn2]
        by_cases hlt : nth < i
        · simp only [if_pos hlt] at cont ⊢
          obtain ⟨c, e3, h8⟩ := sortedCheck_spec hc r first i (by omega) _ first rfl (Nat.le_refl _) (by omega) (.trivial (by omega))
          rw [e3]
          simp only [Option.bind_some]
          cases c with
          | false => exact cont
          | true =>
            refine ⟨r, rfl, rr.trans s1, NthAt.extend ((h8 rfl).nthAt hc h1 hlt (by omega)) h1 hlt (Nat.le_refl _) (by omega) ?_ ?_⟩
            · intro a b x y h3 h4 h5 h6; omega
            · exact hcross r (.inl (Rearr.refl ..))
        · simp only [if_neg hlt] at cont ⊢
          obtain ⟨c, e3, h8⟩ := sortedCheck_spec hc r i last (by omega) _ i rfl (Nat.le_refl _) (by omega) (.trivial (by omega))
          rw [e3]
          simp only [Option.bind_some]
          cases c with
          | false => exact cont
          | true =>
            refine ⟨r, rfl, rr.trans s1, NthAt.extend ((h8 rfl).nthAt hc (by omega) h2 (by omega)) (by omega) h2 (by omega) (Nat.le_refl _) ?_ ?_⟩
            · exact hcross r (.inl (Rearr.refl ..))
            · intro a b x y h3 h4 h5 h6; omega
      · simp only [if_neg hn2]
        exact cont

end Sprout

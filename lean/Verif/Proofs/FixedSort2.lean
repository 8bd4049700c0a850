import Verif.Proofs.FixedSort

/-! # Sorting algorithms that return containers: pushing, popping, sorting a heap, partial sorting -/

namespace Sprout.FixedAlg

open ContOp

variable {α : Type} [Inhabited α]

/-- `pop_heap_impl`: when both subtrees are heaps, the tree becomes one -/
theorem popHeapImpl_spec {comp : α → α → Bool} (hc : StrictWeak comp) (size n : ℕ) (c : Cont α) (h : c.Ok) (hs : size ≤ c.vis.length)
    (hl : HeapOn comp c.vis size (n * 2 + 1)) (hr : HeapOn comp c.vis size (n * 2 + 2)) :
    ∃ d, popHeapImpl comp c.beginOff size n c = some d ∧ Frame c d ∧ Move size n c.vis d.vis ∧ HeapOn comp d.vis size n := by
  induction hk : size - n using Nat.strongRecOn generalizing n c with
  | _ k ih =>
    have down : ∀ m o, ∀ (_ : (m = n * 2 + 1 ∧ o = n * 2 + 2) ∨ (m = n * 2 + 2 ∧ o = n * 2 + 1)) (hm : m < size), (o < size → ∀ x y, c.vis[m]? = some x → c.vis[o]? = some y → comp x y = false) →
          (comp (c.vis[n]'(by omega)) (c.vis[m]'(by omega)) = true) →
        ∃ d, ((swapInternal c (c.beginOff + n) (c.beginOff + m)).bind fun c' => popHeapImpl comp c.beginOff size m c') = some d ∧
          Frame c d ∧ Move size n c.vis d.vis ∧ HeapOn comp d.vis size n := by
      intro m o hmo hm h5 h6
      have hml : m < c.vis.length := by omega
      have hn : n < c.vis.length := by omega
      obtain ⟨d, d1, d2, d3⟩ := swapInternal_swapped h hn hml
      have hmh : HeapOn comp c.vis size m := by rcases hmo with ⟨rfl, rfl⟩ | ⟨rfl, rfl⟩ <;> assumption
      have sub : ∀ m', (m' = m * 2 + 1 ∨ m' = m * 2 + 2) → HeapOn comp d.vis size m' := by
        intro m' hm' j hj i hi hiN x y hx hy
        have := hj.le
        rw [d3.get, if_neg (by omega), if_neg (by omega)] at hx hy
        exact hmh j (Desc.trans (by rcases hm' with rfl | rfl <;> [exact .left .self; exact .right .self]) hj) i hi hiN x y hx hy
      obtain ⟨e, e1, e2, e3, e4⟩ := ih (size - m) (by omega) m d d2.ok (by rw [d2.len]; exact hs) (sub _ (.inl rfl)) (sub _ (.inr rfl)) rfl
      rw [d2.beginOff] at e1
      have := sift_step hc hmo hs hm hmh (by rcases hmo with ⟨rfl, rfl⟩ | ⟨rfl, rfl⟩ <;> assumption)
        (fun x y hx hy => by rwa [at_of hn hx, at_of hml hy]) h5 d3 e3 e4
      rw [d1]
      exact ⟨e, e1, d2.trans e2, this.1, this.2⟩
    have done : (∀ i, ∀ (_ : i = n * 2 + 1 ∨ i = n * 2 + 2) (hi : i < size), comp (c.vis[n]'(by omega)) (c.vis[i]'(by omega)) = false) →
        ∃ d, some c = some d ∧ Frame c d ∧ Move size n c.vis d.vis ∧ HeapOn comp d.vis size n := by
      intro hd
      refine ⟨c, rfl, .refl h, .refl _ _ _, sift_done hl hr ?_⟩
      intro i hi hiN x y hx hy
      rw [at_of (by omega) hx, at_of (by omega) hy]
      exact hd i hi hiN
    rw [popHeapImpl]
    by_cases h1 : n * 2 + 2 < size
    · rw [if_pos h1, if_pos h1, compAt_eq comp h (by omega) (by omega)]
      simp only [Option.bind_eq_bind, Option.bind_some]
      rw [if_pos (show n * 2 + 1 < size by omega), compAt_eq comp h (by omega) (by omega), compAt_eq comp h (by omega) (by omega)]
      simp only [Option.bind_some]
      split_ifs with h3 h4 h4
      · exact down _ _ (.inr ⟨rfl, rfl⟩) (by omega) (fun ho x y hx hy => by rw [at_of (by omega) hx, at_of (by omega) hy]; exact hc.asymm h3) h4
      · refine done fun i hi hiN => ?_
        rcases hi with rfl | rfl
        · by_contra h5
          exact h4 (hc.trans _ _ _ (by simpa using h5) h3)
        · simpa using h4
      · exact down _ _ (.inl ⟨rfl, rfl⟩) (by omega) (fun ho x y hx hy => by rw [at_of (by omega) hx, at_of (by omega) hy]; simpa using h3) h4
      · refine done fun i hi hiN => ?_
        rcases hi with rfl | rfl
        · simpa using h4
        · exact hc.le_trans (by simpa using h3) (by simpa using h4)
    · rw [if_neg h1]
      simp only [Option.bind_eq_bind, Option.bind_some, Bool.false_eq_true, if_false]
      split_ifs with h2
      · rw [compAt_eq comp h (by omega) (by omega)]
        simp only [Option.bind_some]
        split_ifs with h4
        · exact down _ _ (.inl ⟨rfl, rfl⟩) (by omega) (fun ho => by omega) h4
        · refine done fun i hi hiN => ?_
          obtain rfl : i = n * 2 + 1 := by omega
          simpa using h4
      · exact done fun i hi hiN => by omega

omit [Inhabited α] in
theorem heapOn_zero {comp : α → α → Bool} {l : List α} {N : ℕ} : HeapOn comp l N 0 ↔
    ∀ i, 0 < i → i < N → ∀ x y, l[(i - 1) / 2]? = some x → l[i]? = some y → comp x y = false := by
  constructor
  · intro h i h0 hi
    exact h _ (desc_zero _) i (by omega) hi
  · intro h j _ i hi hiN
    have := h i (by omega) hiN
    rwa [show (i - 1) / 2 = j by omega] at this

/-- the heap condition but for the edge above `n` -/
structure HeapUp (comp : α → α → Bool) (l : List α) (N n : ℕ) : Prop where
  edge : ∀ i, 0 < i → i < N → i ≠ n → ∀ x y, l[(i - 1) / 2]? = some x → l[i]? = some y → comp x y = false
  skip : ∀ i, 0 < n → (i = n * 2 + 1 ∨ i = n * 2 + 2) → i < N → ∀ x y, l[(n - 1) / 2]? = some x → l[i]? = some y → comp x y = false

omit [Inhabited α] in
theorem HeapUp.step {comp : α → α → Bool} (hc : StrictWeak comp) {l l' : List α} {N n : ℕ} (h : HeapUp comp l N n) (hn : 0 < n) (hnN : n < N)
    (hl : n < l.length) (hlt : ∀ x y, l[(n - 1) / 2]? = some x → l[n]? = some y → comp x y = true) (h1 : Swapped ((n - 1) / 2) n l l') :
    HeapUp comp l' N ((n - 1) / 2) := by
  obtain ⟨p, hp⟩ : ∃ p, p = (n - 1) / 2 := ⟨_, rfl⟩
  obtain ⟨px, hpx⟩ : ∃ x, l[p]? = some x := ⟨_, List.getElem?_eq_getElem (show p < l.length by omega)⟩
  obtain ⟨nx, hnx⟩ : ∃ x, l[n]? = some x := ⟨_, List.getElem?_eq_getElem hl⟩
  rw [← hp] at h1 hlt ⊢
  have lt := hlt _ _ hpx hnx
  constructor
  · intro i h0 hi hip x y hx hy
    rw [h1.get] at hx hy
    by_cases hin : i = n
    · subst hin
      rw [if_pos hp.symm, hnx] at hx
      rw [if_neg (by omega), if_pos rfl, hpx] at hy
      cases hx
      cases hy
      exact hc.asymm lt
    · rw [if_neg hip, if_neg hin] at hy
      have e := h.edge i h0 hi hin
      by_cases hpi : (i - 1) / 2 = p
      · rw [if_pos hpi, hnx] at hx
        cases hx
        rw [hpi] at e
        by_contra h5
        have := e _ _ hpx hy
        rw [hc.trans _ _ _ lt (by simpa using h5)] at this
        cases this
      · rw [if_neg hpi] at hx
        by_cases hni : (i - 1) / 2 = n
        · rw [if_pos hni, hpx] at hx
          cases hx
          exact h.skip i hn (by omega) hi _ _ (hp ▸ hpx) hy
        · rw [if_neg hni] at hx
          exact e _ _ hx hy
  · intro i h0 hi hiN x y hx hy
    rw [h1.get, if_neg (by omega), if_neg (by omega)] at hx
    rw [h1.get, if_neg (by omega)] at hy
    have e1 := h.edge p h0 (by omega) (by omega) _ _ hx hpx
    split_ifs at hy with hin
    · rw [hpx] at hy
      cases hy
      exact e1
    · have e2 := h.edge i (by omega) hiN hin px y (by rw [show (i - 1) / 2 = p by omega]; exact hpx) hy
      exact hc.le_trans e2 e1

theorem pushHeapImpl_spec {comp : α → α → Bool} (hc : StrictWeak comp) (N n : ℕ) (c : Cont α) (h : c.Ok) (hn : n < N) (hN : N ≤ c.vis.length)
    (hh : HeapUp comp c.vis N n) :
    ∃ d, pushHeapImpl comp c.beginOff n c = some d ∧ Frame c d ∧ d.vis.Perm c.vis ∧ HeapOn comp d.vis N 0 := by
  induction n using Nat.strongRecOn generalizing c with
  | _ n ih =>
    rw [pushHeapImpl]
    split_ifs with h0
    · subst h0
      exact ⟨c, rfl, .refl h, .refl _, heapOn_zero.2 fun i h0 hi => hh.edge i h0 hi (by omega)⟩
    · rw [compAt_eq comp h (by omega) (by omega)]
      simp only [Option.bind_eq_bind, Option.bind_some]
      split_ifs with h3
      · obtain ⟨d, d1, d2, d3⟩ := swapInternal_swapped h (i := (n - 1) / 2) (j := n) (by omega) (by omega)
        have := hh.step hc (by omega) hn (by omega) (fun x y hx hy => by rwa [at_of (by omega) hx, at_of (by omega) hy]) d3
        obtain ⟨e, e1, e2, e3, e4⟩ := ih _ (by omega) d d2.ok (by omega) (by rw [d2.len]; exact hN) this
        rw [d2.beginOff] at e1
        rw [d1]
        exact ⟨e, e1, d2.trans e2, e3.trans d3.perm, e4⟩
      · refine ⟨c, rfl, .refl h, .refl _, heapOn_zero.2 fun i h0 hi x y hx hy => ?_⟩
        by_cases hin : i = n
        · subst hin
          rw [at_of (by omega) hx, at_of (by omega) hy]
          simpa using h3
        · exact hh.edge i h0 hi hin x y hx hy

omit [Inhabited α] in
/-- after the exchange of the first and the last element the subtrees of the others are heaps -/
theorem heap_swapped {comp : α → α → Bool} {l l' : List α} {N : ℕ} (h : HeapOn comp l (N + 1) 0) (h' : Swapped 0 N l l') (m : ℕ) (hm : 0 < m) :
    HeapOn comp l' N m := by
  intro j hj i hi hiN x y hx hy
  have := hj.le
  rw [h'.get, if_neg (by omega), if_neg (by omega)] at hx hy
  exact h j (desc_zero _) i hi (by omega) x y hx hy

theorem pop_step {comp : α → α → Bool} (hc : StrictWeak comp) (N : ℕ) (c : Cont α) (h : c.Ok) {A : List α} {z : α} {B : List α}
    (e : c.vis = A ++ z :: B) (hA : A.length = N) (hh : HeapOn comp c.vis (N + 1) 0) :
    ∃ d a A', ((swapElement c 0 N).bind fun c' => popHeapImpl comp c.beginOff N 0 c') = some d ∧ Frame c d ∧ d.vis = A' ++ a :: B ∧
      A'.length = N ∧ (A' ++ [a]).Perm (A ++ [z]) ∧ (∀ x ∈ A', comp a x = false) ∧ c.vis[0]? = some a ∧ HeapOn comp d.vis N 0 := by
  have hlen := congrArg List.length e
  simp only [List.length_append, List.length_cons] at hlen
  obtain ⟨d, d1, d2, d3⟩ := swapElement_eq h (i := 0) (j := N) (by omega) (by omega)
  have sw : Swapped 0 N c.vis d.vis := d3 ▸ swapped_set (by omega) (by omega)
  obtain ⟨f, f1, f2, f3, f4⟩ := popHeapImpl_spec hc N 0 d d2.ok (by rw [d2.len]; omega) (heap_swapped hh sw _ (by omega)) (heap_swapped hh sw _ (by omega))
  rw [d2.beginOff] at f1
  have hp : d.vis = d.vis.take N ++ (d.vis.drop N) := (List.take_append_drop _ _).symm
  obtain ⟨a, ha⟩ : ∃ a, c.vis[0]? = some a := ⟨_, List.getElem?_eq_getElem (by omega)⟩
  have hd : d.vis.drop N = a :: B := by
    have dl := d2.len
    rw [List.drop_eq_getElem_cons (by omega)]
    congr 1
    · have := sw.get N
      rw [List.getElem?_eq_getElem (by omega)] at this
      by_cases h0 : N = 0
      · rw [if_pos h0] at this
        subst h0
        rw [ha] at this
        exact Option.some.inj this
      · rw [if_neg h0, if_pos rfl, ha] at this
        exact Option.some.inj this
    · apply List.ext_getElem?
      intro i
      rw [List.getElem?_drop, sw.get, if_neg (by omega), if_neg (by omega), e, List.getElem?_append_right (by omega), hA,
        show N + 1 + i - N = i + 1 by omega, List.getElem?_cons_succ]
  rw [hd] at hp
  rw [hp] at f3
  have tl : (d.vis.take N).length = N := by
    have := d2.len
    simp
    omega
  obtain ⟨A', a1, a2⟩ := f3.split tl
  have q : (A' ++ a :: B).Perm (A ++ z :: B) := by
    rw [← a1, ← e]
    refine f3.perm.trans ?_
    rw [← hp]
    exact sw.perm
  have q2 : (A' ++ [a]).Perm (A ++ [z]) := by
    rw [show A' ++ a :: B = (A' ++ [a]) ++ B by simp, show A ++ z :: B = (A ++ [z]) ++ B by simp] at q
    exact (List.perm_append_right_iff _).1 q
  refine ⟨f, a, A', ?_, d2.trans f2, a1, by rw [a2.length_eq, tl], q2, ?_, ha, f4⟩
  · rw [show ((0 : ℕ) : ℤ) = 0 from rfl] at d1
    rw [d1]
    exact f1
  · intro x hx
    have : x ∈ A ++ [z] := q2.subset (by simp [hx])
    obtain ⟨i, hi, rfl⟩ := List.getElem_of_mem this
    simp only [List.length_append, List.length_singleton] at hi
    refine hh.root hc (by omega) (desc_zero i) (show i < N + 1 by omega) ha ?_
    rw [e, show A ++ z :: B = (A ++ [z]) ++ B by simp, List.getElem?_append_left (by simp; omega)]
    exact List.getElem?_eq_getElem _

theorem sortHeapImpl_spec {comp : α → α → Bool} (hc : StrictWeak comp) (N : ℕ) (c : Cont α) (h : c.Ok) (A B : List α) (e : c.vis = A ++ B)
    (hA : A.length = N) (hh : HeapOn comp c.vis N 0) :
    ∃ d A', sortHeapImpl comp c.beginOff N c = some d ∧ Frame c d ∧ d.vis = A' ++ B ∧ A'.Perm A ∧ SortedBy comp A' := by
  induction N generalizing c A B with
  | zero =>
    obtain rfl := List.eq_nil_of_length_eq_zero hA
    exact ⟨c, [], by rw [sortHeapImpl], .refl h, e, .refl _, List.Pairwise.nil⟩
  | succ N ih =>
    cases N with
    | zero =>
      obtain ⟨x, rfl⟩ := List.length_eq_one_iff.1 hA
      exact ⟨c, [x], by rw [sortHeapImpl], .refl h, e, .refl _, List.pairwise_singleton _ _⟩
    | succ N =>
      obtain ⟨A0, z, rfl⟩ : ∃ A0 z, A = A0 ++ [z] := by
        rcases List.eq_nil_or_concat A with rfl | ⟨A0, z, rfl⟩
        · simp at hA
        · exact ⟨A0, z, by simp⟩
      rw [List.append_assoc, List.singleton_append] at e
      obtain ⟨d, a, A', d1, d2, d3, d4, d5, d6, -, d7⟩ := pop_step hc (N + 1) c h e (by simpa using hA) hh
      obtain ⟨f, F, f1, f2, f3, f4, f5⟩ := ih d d2.ok A' (a :: B) d3 d4 d7
      rw [d2.beginOff] at f1
      refine ⟨f, F ++ [a], ?_, d2.trans f2, by rw [f3]; simp, (f4.append_right _).trans d5, ?_⟩
      · rw [sortHeapImpl]
        simp only [Option.bind_eq_bind]
        rw [← Option.bind_assoc, d1, Option.bind_some]
        exact f1
      · refine List.pairwise_append.2 ⟨f5, List.pairwise_singleton _ _, ?_⟩
        intro x hx y hy
        rw [List.mem_singleton.1 hy]
        exact d6 x (f4.subset hx)

/-- what `make_partial_heap` establishes up to position `n` -/
structure Partial (comp : α → α → Bool) (l : List α) (m n : ℕ) : Prop where
  heap : HeapOn comp l m 0
  low : ∀ i j, i < m → m ≤ j → j < n → ∀ x y, l[i]? = some x → l[j]? = some y → comp y x = false

theorem makePartialHeapImpl1_spec {comp : α → α → Bool} (hc : StrictWeak comp) (m n : ℕ) (c : Cont α) (h : c.Ok) (hm : m ≤ n) (hn : n ≤ c.vis.length)
    (hp : Partial comp c.vis m n) :
    ∃ d, makePartialHeapImpl1 comp c.beginOff c.vis.length m n c = some d ∧ Frame c d ∧ d.vis.Perm c.vis ∧ Partial comp d.vis m c.vis.length := by
  induction hk : c.vis.length - n generalizing n c with
  | zero =>
    obtain rfl : n = c.vis.length := by omega
    rw [makePartialHeapImpl1, if_neg (by omega)]
    exact ⟨c, rfl, .refl h, .refl _, hp⟩
  | succ k ih =>
    have h0 := compAt_eq comp h (i := n) (j := 0) (by omega) (by omega)
    rw [show c.beginOff + ((0 : ℕ) : ℤ) = c.beginOff by omega] at h0
    rw [makePartialHeapImpl1, if_pos (by omega), h0]
    simp only [Option.bind_eq_bind, Option.bind_some]
    obtain ⟨t, ht⟩ : ∃ t, t = c.vis[0]'(by omega) := ⟨_, rfl⟩
    obtain ⟨x, hx⟩ : ∃ x, x = c.vis[n]'(by omega) := ⟨_, rfl⟩
    have ht' : c.vis[0]? = some t := by rw [ht]; exact List.getElem?_eq_getElem _
    have hx' : c.vis[n]? = some x := by rw [hx]; exact List.getElem?_eq_getElem _
    have root : ∀ i, i < m → ∀ y, c.vis[i]? = some y → comp t y = false :=
      fun i hi y hy => hp.heap.root hc (by omega) (desc_zero i) hi ht' hy
    rw [← ht, ← hx]
    split_ifs with h3
    · obtain ⟨d, d1, d2, d3⟩ := swapInternal_swapped h (i := n) (j := 0) (by omega) (by omega)
      rw [show c.beginOff + ((0 : ℕ) : ℤ) = c.beginOff by omega] at d1
      have sub : ∀ q, 0 < q → HeapOn comp d.vis m q := by
        intro q hq j hj i hi hiN x y hx hy
        have := hj.le
        rw [d3.get, if_neg (by omega), if_neg (by omega)] at hx hy
        exact hp.heap j (desc_zero _) i hi hiN x y hx hy
      obtain ⟨f, f1, f2, f3, f4⟩ := popHeapImpl_spec hc m 0 d d2.ok (by rw [d2.len]; omega) (sub _ (by omega)) (sub _ (by omega))
      rw [d2.beginOff] at f1
      have fl := (d2.trans f2).len
      have inv : ∀ i j, i < m → m ≤ j → j < n + 1 → ∀ x y, f.vis[i]? = some x → f.vis[j]? = some y → comp y x = false := by
        intro i j hi hj hjn u w hu hw
        rw [f3.frame j (by omega)] at hw
        obtain ⟨k', -, k2, k3⟩ := f3.vals i (desc_zero i) hi
        rw [k3] at hu
        rw [d3.get] at hu hw
        rw [if_neg (show k' ≠ n by omega)] at hu
        by_cases hk0 : k' = 0
        · rw [if_pos hk0, hx'] at hu
          cases hu
          by_cases hjn' : j = n
          · rw [if_pos hjn', ht'] at hw
            cases hw
            exact hc.asymm h3
          · rw [if_neg hjn', if_neg (by omega)] at hw
            have := hp.low 0 j (by omega) hj (by omega) _ _ ht' hw
            by_contra h5
            rw [hc.trans _ _ _ (by simpa using h5) h3] at this
            cases this
        · rw [if_neg hk0] at hu
          by_cases hjn' : j = n
          · rw [if_pos hjn', ht'] at hw
            cases hw
            exact root k' k2 _ hu
          · rw [if_neg hjn', if_neg (by omega)] at hw
            exact hp.low k' j k2 hj (by omega) _ _ hu hw
      obtain ⟨g, g1, g2, g3, g4⟩ := ih (n + 1) f f2.ok (by omega) (by omega) ⟨f4, inv⟩ (by omega)
      rw [(d2.trans f2).beginOff, fl] at g1
      rw [fl] at g4
      rw [d1]
      simp only [Option.bind_some]
      rw [f1]
      exact ⟨g, g1, (d2.trans f2).trans g2, g3.trans (f3.perm.trans d3.perm), g4⟩
    · refine ih (n + 1) c h (by omega) (by omega) ⟨hp.heap, ?_⟩ (by omega)
      intro i j hi hj hjn u w hu hw
      by_cases hjn' : j = n
      · rw [hjn', hx'] at hw
        cases hw
        exact hc.le_trans (root i hi _ hu) (by simpa using h3)
      · exact hp.low i j hi hj (by omega) _ _ hu hw

theorem makePartialHeapImpl_spec {comp : α → α → Bool} (hc : StrictWeak comp) (m : ℕ) (c : Cont α) (h : c.Ok) (hm : m ≤ c.vis.length) :
    ∃ d, makePartialHeapImpl comp c.beginOff c.size.toNat m c = some d ∧ Frame c d ∧ d.vis.Perm c.vis ∧ Partial comp d.vis m c.vis.length := by
  obtain ⟨_, _, p⟩ := parts' h
  have := p.len
  rw [show c.size.toNat = c.vis.length by omega]
  obtain ⟨d, d1, d2, d3, d4⟩ := makeHeapImpl_spec hc m 0 c h hm
  obtain ⟨f, f1, f2, f3, f4⟩ := makePartialHeapImpl1_spec hc m m d d2.ok le_rfl (by rw [d2.len]; exact hm) ⟨d4, fun i j _ _ _ => by omega⟩
  rw [d2.beginOff, d2.len] at f1
  rw [d2.len] at f4
  rw [makePartialHeapImpl, d1]
  exact ⟨f, f1, d2.trans f2, f3.trans d3.perm, f4⟩

omit [Inhabited α] in
theorem Partial.split {comp : α → α → Bool} {l : List α} {m : ℕ} (h : Partial comp l m l.length) (hm : m ≤ l.length) :
    ∃ A B, l = A ++ B ∧ A.length = m ∧ Spec.IsHeap comp A ∧ ∀ a ∈ A, ∀ b ∈ B, comp b a = false := by
  refine ⟨l.take m, l.drop m, (List.take_append_drop _ _).symm, by simp; omega, (heapOn_iff hm).1 h.heap, ?_⟩
  intro a ha b hb
  obtain ⟨i, hi, rfl⟩ := List.getElem_of_mem ha
  obtain ⟨j, hj, rfl⟩ := List.getElem_of_mem hb
  simp only [List.length_take, List.length_drop] at hi hj
  refine h.low i (m + j) (by omega) (by omega) (by omega) _ _ ?_ ?_
  · rw [List.getElem_take]
    exact List.getElem?_eq_getElem _
  · rw [List.getElem_drop]
    exact List.getElem?_eq_getElem _

end Sprout.FixedAlg

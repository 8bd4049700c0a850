import Verif.Model.FixedSort
import Verif.Proofs.FixedAlg2
import Verif.Proofs.FixedHeap

/-! # Sorting algorithms that return containers: heaps -/

namespace Sprout.FixedAlg

open ContOp

variable {α : Type} [Inhabited α]

/-- the same container but for the elements of the window -/
structure Frame (c d : Cont α) : Prop where
  okl : c.Ok
  ok : d.Ok
  static : d.static = c.static
  beginOff : d.beginOff = c.beginOff
  size : d.size = c.size
  outside : (∀ e n, c ≠ .string e n) → (∀ e n, d ≠ .string e n) ∧ d.block.take c.beginOff.toNat = c.block.take c.beginOff.toNat ∧
      d.block.drop c.endOff.toNat = c.block.drop c.endOff.toNat

omit [Inhabited α] in
theorem Frame.refl {c : Cont α} (h : c.Ok) : Frame c c := ⟨h, h, rfl, rfl, rfl, fun h => ⟨h, rfl, rfl⟩⟩

omit [Inhabited α] in
theorem Frame.trans {a b c : Cont α} (h : Frame a b) (h' : Frame b c) : Frame a c := by
  have e : b.endOff = a.endOff := by
    obtain ⟨_, _, p⟩ := parts' h.okl
    obtain ⟨_, _, q⟩ := parts' h.ok
    rw [p.fin, q.fin, h.beginOff, h.size]
  refine ⟨h.okl, h'.ok, h'.static.trans h.static, h'.beginOff.trans h.beginOff, h'.size.trans h.size, fun hn => ?_⟩
  obtain ⟨h1, h2, h3⟩ := h.outside hn
  obtain ⟨g1, g2, g3⟩ := h'.outside h1
  rw [h.beginOff] at g2
  rw [e] at g3
  exact ⟨g1, g2.trans h2, g3.trans h3⟩

omit [Inhabited α] in
theorem Frame.len {c d : Cont α} (h : Frame c d) : d.vis.length = c.vis.length := by
  obtain ⟨_, _, p⟩ := parts' h.okl
  obtain ⟨_, _, q⟩ := parts' h.ok
  have := p.len
  have := q.len
  have := h.size
  omega

omit [Inhabited α] in
theorem rewrites_iff {c : Cont α} (h : c.Ok) {r : Option (Cont α)} {w : List α} : Rewrites r c w ↔ ∃ d, r = some d ∧ Frame c d ∧ d.vis = w := by
  constructor
  · rintro ⟨x, h1, h2, h3, h4, h5, h6, h7⟩
    exact ⟨x, h1, ⟨h, h2, h3, h4, h5, h7⟩, h6⟩
  · rintro ⟨x, h1, ⟨-, h2, h3, h4, h5, h7⟩, h6⟩
    exact ⟨x, h1, h2, h3, h4, h5, h6, h7⟩

omit [Inhabited α] in
theorem elems_eq {c : Cont α} (h : c.Ok) : elems c = some c.vis := by
  obtain ⟨_, _, p⟩ := parts' h
  have := p.len
  rw [elems, show c.size.toNat = c.vis.length by omega]
  exact pack_eq _ rfl fun j hj => begin_eq h (by omega)

omit [Inhabited α] in
theorem compAt_eq (comp : α → α → Bool) {c : Cont α} (h : c.Ok) {i j : ℕ} (hi : i < c.vis.length) (hj : j < c.vis.length) :
    compAt comp c (c.beginOff + i) (c.beginOff + j) = some (comp c.vis[i] c.vis[j]) := by
  obtain ⟨_, _, p⟩ := parts' h
  have := p.len
  have e1 := begin_eq h (i := i) (by omega)
  have e2 := begin_eq h (i := j) (by omega)
  rw [beginAt] at e1 e2
  rw [compAt, internalAt, internalAt, e1, e2, List.getElem?_eq_getElem hi, List.getElem?_eq_getElem hj]
  rfl

omit [Inhabited α] in
theorem swapped_set {l : List α} {i j : ℕ} (hi : i < l.length) (hj : j < l.length) : Swapped i j l ((l.set i l[j]).set j l[i]) :=
  ⟨List.set_set_perm hi hj, fun k => swap_get hi hj k⟩

theorem swapElement_eq {c : Cont α} (h : c.Ok) {i j : ℕ} (hi : i < c.vis.length) (hj : j < c.vis.length) :
    ∃ d, swapElement c i j = some d ∧ Frame c d ∧ d.vis = (c.vis.set i c.vis[j]).set j c.vis[i] := by
  have key : Rewrites (swapElementCopyRa c.vis i j c) c (writeFront c.vis ((c.vis.set i c.vis[j]).set j c.vis[i])) := by
    refine packRa_rewrites h (by simp) fun k hk _ => ?_
    rw [swap_get hi hj, rdz_nat, rdz_nat, rdz_nat]
    simp only [Nat.cast_inj]
  have e : writeFront c.vis ((c.vis.set i c.vis[j]).set j c.vis[i]) = (c.vis.set i c.vis[j]).set j c.vis[i] := by
    rw [writeFront, List.take_of_length_le (by simp), List.drop_of_length_le (by simp), List.append_nil]
  rw [e, rewrites_iff h] at key
  rw [swapElement, elems_eq h]
  exact key

theorem swapInternal_eq {c : Cont α} (h : c.Ok) {i j : ℕ} (hi : i < c.vis.length) (hj : j < c.vis.length) :
    ∃ d, swapInternal c (c.beginOff + i) (c.beginOff + j) = some d ∧ Frame c d ∧ d.vis = (c.vis.set i c.vis[j]).set j c.vis[i] := by
  rw [swapInternal, show c.beginOff + i - c.beginOff = (i : ℤ) by omega, show c.beginOff + j - c.beginOff = (j : ℤ) by omega]
  exact swapElement_eq h hi hj

theorem swapInternal_swapped {c : Cont α} (h : c.Ok) {i j : ℕ} (hi : i < c.vis.length) (hj : j < c.vis.length) :
    ∃ d, swapInternal c (c.beginOff + i) (c.beginOff + j) = some d ∧ Frame c d ∧ Swapped i j c.vis d.vis := by
  obtain ⟨d, h1, h2, h3⟩ := swapInternal_eq h hi hj
  exact ⟨d, h1, h2, h3 ▸ swapped_set hi hj⟩

omit [Inhabited α] in
theorem at_of {l : List α} {i : ℕ} (hi : i < l.length) {x : α} (h : l[i]? = some x) : x = l[i] := by
  rw [List.getElem?_eq_getElem hi] at h
  cases h
  rfl

/-- `make_heap_impl`: the subtree becomes a heap -/
theorem makeHeapImpl_spec {comp : α → α → Bool} (hc : StrictWeak comp) (size n : ℕ) (c : Cont α) (h : c.Ok) (hs : size ≤ c.vis.length) :
    ∃ d, makeHeapImpl comp c.beginOff size n c = some d ∧ Frame c d ∧ Move size n c.vis d.vis ∧ HeapOn comp d.vis size n := by
  induction hk : size - n using Nat.strongRecOn generalizing n c with
  | _ k ih =>
    rw [makeHeapImpl]
    split_ifs with h1 h2
    · exact ⟨c, rfl, .refl h, .refl _ _ _, heapOn_leaf _ (by omega)⟩
    · rw [compAt_eq comp h (by omega) (by omega)]
      simp only [Option.bind_eq_bind, Option.bind_some]
      have hl : ∀ l : List α, HeapOn comp l size (n * 2 + 1) := fun l => heapOn_leaf _ (by omega)
      have hr : ∀ l : List α, HeapOn comp l size (n * 2 + 2) := fun l => heapOn_leaf _ (by omega)
      split_ifs with h3
      · obtain ⟨d, d1, d2, d3⟩ := swapInternal_swapped h (i := n) (j := n * 2 + 1) (by omega) (by omega)
        refine ⟨d, d1, d2, sift_step hc (.inl ⟨rfl, rfl⟩) hs (by omega) (hl _) (hr _) ?_ (by omega) d3 (.refl _ _ _) (hl _)⟩
        intro x y hx hy
        rwa [at_of (by omega) hx, at_of (by omega) hy]
      · refine ⟨c, rfl, .refl h, .refl _ _ _, sift_done (hl _) (hr _) ?_⟩
        intro i hi hiN x y hx hy
        obtain rfl : i = n * 2 + 1 := by omega
        rw [at_of (by omega) hx, at_of (by omega) hy]
        simpa using h3
    · obtain ⟨a, a1, a2, a3, a4⟩ := ih (size - (n * 2 + 1)) (by omega) (n * 2 + 1) c h hs rfl
      obtain ⟨b, b1, b2, b3, b4⟩ := ih (size - (n * 2 + 2)) (by omega) (n * 2 + 2) a a2.ok (by rw [a2.len]; exact hs) rfl
      have bl := (a2.trans b2).len
      have bo := (a2.trans b2).beginOff
      have b5 : HeapOn comp b.vis size (n * 2 + 1) := a4.of_move b3 fun j h h' => h.disjoint h'
      have mv : Move size n c.vis b.vis := (a3.up (.left .self)).trans (b3.up (.right .self))
      rw [a2.beginOff] at b1
      have cmp : ∀ i j : ℕ, ∀ (hi : i < b.vis.length) (hj : j < b.vis.length),
          compAt comp b (c.beginOff + i) (c.beginOff + j) = some (comp b.vis[i] b.vis[j]) := by
        intro i j hi hj
        rw [← bo]
        exact compAt_eq comp b2.ok hi hj
      rw [a1]
      simp only [Option.bind_eq_bind, Option.bind_some]
      rw [b1]
      simp only [Option.bind_some]
      rw [cmp _ _ (by omega) (by omega)]
      simp only [Option.bind_some]
      have down : ∀ m o, ((m = n * 2 + 1 ∧ o = n * 2 + 2) ∨ (m = n * 2 + 2 ∧ o = n * 2 + 1)) →
          ∀ (hm : m < b.vis.length) (ho : o < b.vis.length) (hn : n < b.vis.length), comp b.vis[m] b.vis[o] = false → comp b.vis[n] b.vis[m] = true →
          ∃ d, ((swapInternal b (c.beginOff + n) (c.beginOff + m)).bind fun c' => makeHeapImpl comp c.beginOff size m c') = some d ∧
            Frame c d ∧ Move size n c.vis d.vis ∧ HeapOn comp d.vis size n := by
        intro m o hmo hm ho hn h5 h6
        obtain ⟨d, d1, d2, d3⟩ := swapInternal_swapped b2.ok hn hm
        rw [bo] at d1
        obtain ⟨e, e1, e2, e3, e4⟩ := ih (size - m) (by omega) m d d2.ok (by rw [d2.len, bl]; exact hs) rfl
        rw [d2.beginOff, bo] at e1
        have := sift_step hc hmo (by omega) (by omega) (by rcases hmo with ⟨rfl, rfl⟩ | ⟨rfl, rfl⟩ <;> assumption)
          (by rcases hmo with ⟨rfl, rfl⟩ | ⟨rfl, rfl⟩ <;> assumption)
          (fun x y hx hy => by rwa [at_of hn hx, at_of hm hy]) (fun _ x y hx hy => by rwa [at_of hm hx, at_of ho hy]) d3 e3 e4
        rw [d1]
        exact ⟨e, e1, ((a2.trans b2).trans d2).trans e2, mv.trans this.1, this.2⟩
      have done : (∀ i, (i = n * 2 + 1 ∨ i = n * 2 + 2) → ∀ (hi : i < b.vis.length) (hn : n < b.vis.length), comp b.vis[n] b.vis[i] = false) →
          ∃ d, some b = some d ∧ Frame c d ∧ Move size n c.vis d.vis ∧ HeapOn comp d.vis size n := by
        intro hd
        refine ⟨b, rfl, a2.trans b2, mv, sift_done b5 b4 ?_⟩
        intro i hi hiN x y hx hy
        rw [at_of (by omega) hx, at_of (by omega) hy]
        exact hd i hi (by omega) (by omega)
      split_ifs with h3
      · rw [cmp _ _ (by omega) (by omega)]
        simp only [Option.bind_some]
        split_ifs with h4
        · exact down _ _ (.inr ⟨rfl, rfl⟩) (by omega) (by omega) (by omega) (hc.asymm h3) h4
        · refine done fun i hi hiN hn => ?_
          rcases hi with rfl | rfl
          · by_contra h5
            exact h4 (hc.trans _ _ _ (by simpa using h5) h3)
          · simpa using h4
      · rw [cmp _ _ (by omega) (by omega)]
        simp only [Option.bind_some]
        split_ifs with h4
        · exact down _ _ (.inl ⟨rfl, rfl⟩) (by omega) (by omega) (by omega) (by simpa using h3) h4
        · refine done fun i hi hiN hn => ?_
          rcases hi with rfl | rfl
          · simpa using h4
          · exact hc.le_trans (by simpa using h3) (by simpa using h4)

end Sprout.FixedAlg

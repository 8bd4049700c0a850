import Verif.Model.FixedShuffle
import Verif.Spec.FixedShuffle
import Verif.Proofs.FixedSort
import Verif.Proofs.Shuffle

/-! # Shuffling that returns containers -/

namespace Sprout.FixedAlg

open ContOp

variable {α β σ : Type}

theorem swapAt_eq {l : List α} {i j : ℕ} (hi : i < l.length) (hj : j < l.length) : swapAt l i j = (l.set i l[j]).set j l[i] := by
  rw [swapAt, List.getElem?_eq_getElem hi, List.getElem?_eq_getElem hj]

theorem swapAt_map (f : α → β) (l : List α) (i j : ℕ) : swapAt (l.map f) i j = (swapAt l i j).map f := by
  rw [swapAt, swapAt, List.getElem?_map, List.getElem?_map]
  cases l[i]? <;> cases l[j]? <;> simp

theorem swapAt_append {A B : List α} {i j : ℕ} (hi : i < A.length) (hj : j < A.length) : swapAt (A ++ B) i j = swapAt A i j ++ B := by
  rw [swapAt_eq hi hj, swapAt_eq (by simp; omega) (by simp; omega), List.getElem_append_left hi, List.getElem_append_left hj,
    List.set_append_left _ _ hi, List.set_append_left _ _ (by simpa using hj)]

theorem swapAt_perm (l : List α) (i j : ℕ) : (swapAt l i j).Perm l := by
  by_cases hi : i < l.length
  · by_cases hj : j < l.length
    · rw [swapAt_eq hi hj]
      exact List.set_set_perm hi hj
    · rw [swapAt, List.getElem?_eq_none (i := j) (by omega)]
      cases l[i]? <;> exact .refl _
  · rw [swapAt, List.getElem?_eq_none (i := i) (by omega)]

theorem swapsFrom_map (f : α → β) : ∀ (ds : List ℕ) (l : List α) (i : ℕ), swapsFrom (l.map f) i ds = (swapsFrom l i ds).map f
  | [], _, _ => rfl
  | d :: ds, l, i => by rw [swapsFrom, swapsFrom, swapAt_map, swapsFrom_map f ds]

theorem swapsFrom_perm : ∀ (ds : List ℕ) (l : List α) (i : ℕ), (swapsFrom l i ds).Perm l
  | [], _, _ => .refl _
  | d :: ds, l, i => (swapsFrom_perm ds _ _).trans (swapAt_perm l i d)

theorem swapsFrom_append {B : List α} : ∀ (ds : List ℕ) (A : List α) (i : ℕ), i + ds.length ≤ A.length → (∀ d ∈ ds, d < A.length) →
    swapsFrom (A ++ B) i ds = swapsFrom A i ds ++ B
  | [], _, _, _, _ => rfl
  | d :: ds, A, i, h, hd => by
    simp only [List.length_cons] at h
    have e := (swapAt_perm A i d).length_eq
    rw [swapsFrom, swapsFrom, swapAt_append (by omega) (hd d (by simp)), swapsFrom_append ds _ _ (by omega) fun x hx => by
      rw [e]; exact hd x (by simp [hx])]

theorem drawn_length (gen : Gen σ) (d : ℕ) : ∀ (k : ℕ) (s : σ), (drawn gen d k s).length = k
  | 0, _ => rfl
  | k + 1, s => by rw [drawn, List.length_cons, drawn_length gen d k]

theorem drawn_le {gen : Gen σ} (hg : gen.InRange) (d : ℕ) : ∀ (k : ℕ) (s : σ), ∀ x ∈ drawn gen d k s, x ≤ d
  | 0, _, x, h => by simp [drawn] at h
  | k + 1, s, x, h => by
    rw [drawn, List.mem_cons] at h
    rcases h with rfl | h
    · exact hg s d
    · exact drawn_le hg d k _ x h

theorem shuffleIndexes1_eq {gen : Gen σ} (hg : gen.InRange) (n : ℕ) : ∀ (k i : ℕ) (s : σ) (arr : Cont ℕ), arr.Ok → i + (k + 1) = n →
    n ≤ arr.vis.length → ∃ d, shuffleIndexes1 gen n (gen s (n - 1)) arr i = some (d, stateAfter gen (n - 1) (k + 1) s) ∧ Frame arr d ∧
      d.vis = swapsFrom arr.vis i (drawn gen (n - 1) (k + 1) s) := by
  intro k
  induction k with
  | zero =>
    intro i s arr h hk hn
    have := hg s (n - 1)
    obtain ⟨d, h1, h2, h3⟩ := swapElement_eq h (i := i) (j := (gen s (n - 1)).1) (by omega) (by omega)
    rw [shuffleIndexes1, if_neg (by omega), h1]
    refine ⟨d, rfl, h2, ?_⟩
    rw [h3, drawn, drawn, swapsFrom, swapsFrom, swapAt_eq]
  | succ k ih =>
    intro i s arr h hk hn
    have := hg s (n - 1)
    obtain ⟨d, h1, h2, h3⟩ := swapElement_eq h (i := i) (j := (gen s (n - 1)).1) (by omega) (by omega)
    obtain ⟨e, g1, g2, g3⟩ := ih (i + 1) (gen s (n - 1)).2 d h2.ok (by omega) (by rw [h2.len]; exact hn)
    rw [shuffleIndexes1, if_pos (by omega), h1]
    refine ⟨e, g1, h2.trans g2, ?_⟩
    rw [← swapAt_eq] at h3
    rw [g3, h3]
    rfl

variable [Inhabited α]

/-- the pack expansion -/
theorem indexed_rewrites {c : Cont α} (h : c.Ok) {arr : Cont ℕ} (ha : arr.Ok) {ws : List α} (hw : ws.length = c.vis.length)
    (hv : ∀ j : ℕ, j < c.vis.length → ∃ k, arr.vis[j]? = some k ∧ c.vis[k]? = ws[j]?) (hb : arr.beginOff = 0) :
    Rewrites (do
      let args ← pack c.static fun i =>
        if (i : Int) ≥ c.beginOff ∧ (i : Int) < c.beginOff + c.size then do
          let k ← internalAt arr (i - c.beginOff)
          beginAt c k
        else internalAt c i
      some (remake c c c.size args)) c ws := by
  obtain ⟨X, Z, hp⟩ := parts' h
  have e1 := hp.pre
  have e2 := hp.len
  refine pack_rewrites hp hw ?_ ?_ ?_
  · intro i hi
    rw [if_neg (by omega)]
  · intro j hj
    rw [hw] at hj
    rw [if_pos (by push_cast; omega), show ((X.length + j : ℕ) : ℤ) - c.beginOff = j by push_cast; omega]
    obtain ⟨k, k1, k2⟩ := hv j hj
    have hj' : j < arr.vis.length := by
      by_contra hc
      rw [List.getElem?_eq_none (by omega)] at k1
      cases k1
    obtain ⟨_, _, q⟩ := parts' ha
    have e3 := q.len
    have b1 := begin_eq ha (i := j) (by omega)
    rw [beginAt, hb, Int.zero_add] at b1
    rw [internalAt, b1, k1]
    have hk : k < c.vis.length := by
      by_contra hc
      rw [List.getElem?_eq_none (by omega), List.getElem?_eq_getElem (by omega)] at k2
      cases k2
    have b2 := begin_eq h (i := k) (by omega)
    simp only [Option.bind_eq_bind, Option.bind_some]
    rw [b2, k2]
  · intro i hi _
    rw [if_neg (by omega)]

omit [Inhabited α] in
theorem vis_array (l : List α) : (Cont.array l).vis = l := by simp [Cont.vis, Cont.block, Cont.beginOff, Cont.endOff, Cont.size]

omit [Inhabited α] in
theorem size_toNat {c : Cont α} (h : c.Ok) : c.size.toNat = c.vis.length := by
  obtain ⟨_, _, p⟩ := parts' h
  have := p.len
  omega

theorem map_vis_range {v : List α} : (List.range v.length).map (fun i => v[i]?.getD default) = v := by
  refine List.ext_getElem (by simp) fun i h1 h2 => ?_
  simp [List.getElem?_eq_getElem h2]

/-- the array of positions -/
theorem shuffleIndexes_eq {gen : Gen σ} (hg : gen.InRange) {c : Cont α} (h : c.Ok) (s : σ) (hn : 2 ≤ c.vis.length) :
    ∃ arr : Cont ℕ, shuffleIndexes gen c.static c.size.toNat s = some (arr, stateAfter gen (c.vis.length - 1) c.vis.length s) ∧ arr.Ok ∧
      arr.beginOff = 0 ∧ ∀ j : ℕ, j < c.vis.length → ∃ k, arr.vis[j]? = some k ∧
        c.vis[k]? = (swapsFrom c.vis 0 (drawn gen (c.vis.length - 1) c.vis.length s))[j]? := by
  have hs := vis_le_static h
  rw [size_toNat h]
  generalize hN : c.vis.length = n at *
  obtain ⟨arr, h1, h2, h3⟩ := shuffleIndexes1_eq hg n (n - 1) 0 s (.array (List.range c.static)) trivial (by omega) (by
    rw [vis_array]
    simpa using hs)
  rw [show n - 1 + 1 = n by omega] at h1 h3
  refine ⟨arr, ?_, h2.ok, h2.beginOff, ?_⟩
  · rw [shuffleIndexes, if_pos (by omega), h1]
  · intro j hj
    have e : (Cont.array (List.range c.static)).vis = List.range n ++ (List.range c.static).drop n := by
      rw [vis_array, show List.range n = (List.range c.static).take n by rw [List.take_range, Nat.min_eq_left hs], List.take_append_drop]
    have hl := drawn_length gen (n - 1) n s
    have hd := drawn_le hg (n - 1) n s
    generalize drawn gen (n - 1) n s = ds at *
    rw [e, swapsFrom_append ds _ _ (by simp; omega) (fun d m => by have := hd d m; simp; omega)] at h3
    have hp := swapsFrom_perm ds (List.range n) 0
    have hpl := hp.length_eq
    rw [List.length_range] at hpl
    refine ⟨(swapsFrom (List.range n) 0 ds)[j], ?_, ?_⟩
    · rw [h3, List.getElem?_append_left (by omega), List.getElem?_eq_getElem]
    · have hk : (swapsFrom (List.range n) 0 ds)[j] < n := by
        have := hp.mem_iff.1 (List.getElem_mem (l := swapsFrom (List.range n) 0 ds) (n := j) (by omega))
        simpa using this
      have m := swapsFrom_map (fun i => c.vis[i]?.getD default) ds (List.range n) 0
      rw [← hN, map_vis_range, hN] at m
      rw [m, List.getElem?_map, List.getElem?_eq_getElem (by omega), List.getElem?_eq_getElem (by omega)]
      simp only [Option.map_some]
      rw [List.getElem?_eq_getElem (by omega)]
      rfl

theorem shuffleResult_eq {gen : Gen σ} (hg : gen.InRange) {c : Cont α} (h : c.Ok) (s : σ) (hn : 2 ≤ c.vis.length) :
    ∃ d, shuffleResult gen c s = some (d, stateAfter gen (c.vis.length - 1) c.vis.length s) ∧ shuffleTo gen c s = some d ∧ Frame c d ∧
      d.vis = swapsFrom c.vis 0 (drawn gen (c.vis.length - 1) c.vis.length s) := by
  obtain ⟨arr, h1, h2, h3, h4⟩ := shuffleIndexes_eq hg h s hn
  obtain ⟨d, g1, g2, g3⟩ := (rewrites_iff h).1 (indexed_rewrites h h2 (swapsFrom_perm _ _ _).length_eq h4 h3)
  simp only [Option.bind_eq_bind, Option.bind_eq_some_iff, Option.some.injEq] at g1
  obtain ⟨args, g1, rfl⟩ := g1
  refine ⟨_, ?_, ?_, g2, g3⟩
  · rw [shuffleResult, h1]
    simp only [Option.bind_eq_bind, Option.bind_some]
    rw [g1]
    rfl
  · rw [shuffleTo, h1]
    simp only [Option.bind_eq_bind, Option.bind_some]
    rw [g1]
    rfl

theorem shuffleResult_one {gen : Gen σ} {c : Cont α} (h : c.Ok) (s : σ) (hn : c.vis.length ≤ 1) :
    ∃ d, shuffleResult gen c s = some (d, s) ∧ shuffleTo gen c s = some d ∧ Frame c d ∧ d.vis = c.vis := by
  have hs := vis_le_static h
  have h1 : shuffleIndexes gen c.static c.size.toNat s = some (.array (List.replicate c.static 0), s) := by
    rw [shuffleIndexes, size_toNat h, if_neg (by omega)]
  obtain ⟨d, g1, g2, g3⟩ := (rewrites_iff h).1 (indexed_rewrites h (arr := .array (List.replicate c.static 0)) trivial rfl (fun j hj => ⟨0, by
    rw [vis_array, List.getElem?_replicate, if_pos (by omega)], by rw [show j = 0 by omega]⟩) rfl)
  simp only [Option.bind_eq_bind, Option.bind_eq_some_iff, Option.some.injEq] at g1
  obtain ⟨args, g1, rfl⟩ := g1
  refine ⟨_, ?_, ?_, g2, g3⟩
  · rw [shuffleResult, h1]
    simp only [Option.bind_eq_bind, Option.bind_some]
    rw [g1]
    rfl
  · rw [shuffleTo, h1]
    simp only [Option.bind_eq_bind, Option.bind_some]
    rw [g1]
    rfl

theorem shuffleResult_perm {gen : Gen σ} (hg : gen.InRange) {c : Cont α} (h : c.Ok) (s : σ) :
    ∃ d s', shuffleResult gen c s = some (d, s') ∧ Frame c d ∧ d.vis.Perm c.vis := by
  by_cases hn : 2 ≤ c.vis.length
  · obtain ⟨d, h1, -, h2, h3⟩ := shuffleResult_eq hg h s hn
    exact ⟨d, _, h1, h2, h3 ▸ swapsFrom_perm _ _ _⟩
  · obtain ⟨d, h1, -, h2, h3⟩ := shuffleResult_one (gen := gen) h s (by omega)
    exact ⟨d, _, h1, h2, .of_eq h3⟩

theorem randomSwapResult_eq {gen : Gen σ} (hg : gen.InRange) {c : Cont α} (h : c.Ok) (s : σ) (hn : 2 ≤ c.vis.length) :
    ∃ d, randomSwapResult gen c s = some (d, stateAfter gen (c.vis.length - 1) 2 s) ∧ randomSwapTo gen c s = some d ∧ Frame c d ∧
      d.vis = swapAt c.vis (gen s (c.vis.length - 1)).1 (gen (gen s (c.vis.length - 1)).2 (c.vis.length - 1)).1 := by
  have hx := hg s (c.vis.length - 1)
  have hy := hg (gen s (c.vis.length - 1)).2 (c.vis.length - 1)
  have hi : randomSwapIndexes gen c.size.toNat s =
      ((gen s (c.vis.length - 1)).1, gen (gen s (c.vis.length - 1)).2 (c.vis.length - 1)) := by
    rw [randomSwapIndexes, size_toNat h, if_pos (by omega)]
  rw [randomSwapResult, randomSwapTo, hi]
  simp only [stateAfter]
  generalize gen (gen s (c.vis.length - 1)).2 (c.vis.length - 1) = q at *
  generalize (gen s (c.vis.length - 1)).1 = p at *
  by_cases e : p = q.1
  · rw [if_pos e, if_pos e]
    refine ⟨c, rfl, rfl, .refl h, ?_⟩
    subst e
    rw [swapAt_eq (by omega) (by omega)]
    simp
  · rw [if_neg e, if_neg e]
    obtain ⟨d, d1, d2, d3⟩ := swapElement_eq h (i := p) (j := q.1) (by omega) (by omega)
    rw [d1]
    exact ⟨d, rfl, rfl, d2, by rw [d3, swapAt_eq]⟩

theorem randomSwapResult_one {gen : Gen σ} {c : Cont α} (h : c.Ok) (s : σ) (hn : c.vis.length ≤ 1) :
    randomSwapResult gen c s = some (c, s) ∧ randomSwapTo gen c s = some c := by
  have hi : randomSwapIndexes gen c.size.toNat s = (0, 0, s) := by
    rw [randomSwapIndexes, size_toNat h, if_neg (by omega)]
  rw [randomSwapResult, randomSwapTo, hi]
  exact ⟨rfl, rfl⟩

theorem randomSwapResult_perm {gen : Gen σ} (hg : gen.InRange) {c : Cont α} (h : c.Ok) (s : σ) :
    ∃ d s', randomSwapResult gen c s = some (d, s') ∧ Frame c d ∧ d.vis.Perm c.vis := by
  by_cases hn : 2 ≤ c.vis.length
  · obtain ⟨d, h1, -, h2, h3⟩ := randomSwapResult_eq hg h s hn
    exact ⟨d, _, h1, h2, h3 ▸ swapAt_perm _ _ _⟩
  · exact ⟨c, s, (randomSwapResult_one h s (by omega)).1, .refl h, .refl _⟩

end Sprout.FixedAlg

import Verif.Proofs.FixedShuffle2
import Verif.Props.C20
import Verif.Proofs.FixedShuffle3

/-!
# C110: shuffling and sorting by chance that return containers

`swapsFrom`, `drawn`, `stateAfter`, `FirstWith` (Spec/FixedShuffle) say what a sequence of draws does to a sequence and how often a
step is repeated; `Rewrites` (Spec/FixedAlg) that nothing but the window changes.
-/

namespace Sprout

open ContOp FixedAlg

variable {α σ : Type} [Inhabited α]

/-- `shuffle` and `shuffle_result`: one after another every element is exchanged with the one drawn from the whole window; as many
draws as elements, and the engine returned is that after the draws. One element takes no draw. -/
theorem C110_shuffle (gen : Gen σ) (hg : gen.InRange) (c : Cont α) (h : c.Ok) (s : σ) :
    (2 ≤ c.vis.length → Rewrites (shuffleTo gen c s) c (swapsFrom c.vis 0 (drawn gen (c.vis.length - 1) c.vis.length s)) ∧
      shuffleResult gen c s = (shuffleTo gen c s).map fun d => (d, stateAfter gen (c.vis.length - 1) c.vis.length s)) ∧
    (c.vis.length ≤ 1 → Rewrites (shuffleTo gen c s) c c.vis ∧ shuffleResult gen c s = (shuffleTo gen c s).map fun d => (d, s)) := by
  constructor
  · intro hn
    obtain ⟨d, h1, h2, h3, h4⟩ := shuffleResult_eq hg h s hn
    exact ⟨(rewrites_iff h).2 ⟨d, h2, h3, h4⟩, by rw [h1, h2]; rfl⟩
  · intro hn
    obtain ⟨d, h1, h2, h3, h4⟩ := shuffleResult_one (gen := gen) h s hn
    exact ⟨(rewrites_iff h).2 ⟨d, h2, h3, h4⟩, by rw [h1, h2]; rfl⟩

/-- a rearrangement, whatever is drawn -/
theorem C110_shuffle_permutes (gen : Gen σ) (hg : gen.InRange) (c : Cont α) (h : c.Ok) (s : σ) :
    ∃ w, Rewrites (shuffleTo gen c s) c w ∧ w.Perm c.vis := by
  by_cases hn : 2 ≤ c.vis.length
  · exact ⟨_, ((C110_shuffle gen hg c h s).1 hn).1, swapsFrom_perm _ _ _⟩
  · exact ⟨_, ((C110_shuffle gen hg c h s).2 (by omega)).1, .refl _⟩

/-- every rearrangement is the outcome for some draws -/
theorem C110_shuffle_reaches_all (c : Cont α) (h : c.Ok) (w : List α) (hw : w.Perm c.vis) :
    ∃ ds : List Nat, Rewrites (shuffleTo replay c ds) c w := by
  by_cases hn : 2 ≤ c.vis.length
  · obtain ⟨ds, d1, d2, d3⟩ := swapsFrom_reach w c.vis [] hw
    simp only [List.length_nil, List.nil_append, Nat.zero_add] at d2 d3
    have := ((C110_shuffle replay replay_inRange c h ds).1 hn).1
    rw [← d1, drawn_replay ds (fun x hx => by have := d2 x hx; omega), d3] at this
    exact ⟨ds, this⟩
  · have e : w = c.vis := by
      match hv : c.vis with
      | [] => exact (hv ▸ hw).eq_nil
      | [x] => exact List.perm_singleton.1 (hv ▸ hw)
      | _ :: _ :: _ => rw [hv] at hn; simp at hn
    exact ⟨[], e ▸ ((C110_shuffle replay replay_inRange c h []).2 (by omega)).1⟩

/-- The rearrangements are not equally probable: of the `n ^ n` sequences of draws, which are, not all rearrangements of `n ≥ 3` different
elements get the same number. -/
theorem C110_shuffle_biased (c : Cont α) (h : c.Ok) (n : Nat) (hn : 3 ≤ n) (hl : c.vis.length = n) (hd : c.vis.Nodup) :
    ∃ w w', w.Perm c.vis ∧ w'.Perm c.vis ∧
      Nat.card {ds : Fin n → Fin n // Rewrites (shuffleTo replay c (List.ofFn fun i => (ds i).val)) c w} ≠
      Nat.card {ds : Fin n → Fin n // Rewrites (shuffleTo replay c (List.ofFn fun i => (ds i).val)) c w'} := by
  obtain ⟨w, w', h1, h2, h3⟩ := swapsFrom_biased hn hl hd
  have key : ∀ (w : List α) (ds : Fin n → Fin n), Rewrites (shuffleTo replay c (List.ofFn fun i => (ds i).val)) c w ↔
      swapsFrom c.vis 0 (List.ofFn fun i => (ds i).val) = w := by
    intro w ds
    obtain ⟨d, -, g2, g3, g4⟩ := shuffleResult_eq replay_inRange h (List.ofFn fun i => (ds i).val) (by omega)
    have e := drawn_replay (d := c.vis.length - 1) (List.ofFn fun i => (ds i).val) (by
      intro x hx
      obtain ⟨i, rfl⟩ := (List.mem_ofFn' _ _).1 hx
      exact Nat.le_sub_one_of_lt (hl ▸ (ds i).isLt))
    rw [List.length_ofFn] at e
    rw [hl] at g4 e
    rw [e] at g4
    rw [rewrites_iff h, g2, ← g4]
    constructor
    · rintro ⟨_, q1, -, q⟩
      cases q1
      exact q
    · intro q
      exact ⟨d, rfl, g3, q⟩
  refine ⟨w, w', h1, h2, ?_⟩
  simp only [key]
  exact h3

omit [Inhabited α] in
/-- `shuffle` in place does not have the flaw: every rearrangement of different elements belongs to exactly one sequence of draws, the
draw with number `i` from `[0, n - 1 - i]`. -/
theorem C110_shuffle_in_place_fair (pre xs ys post : List α) (hd : xs.Nodup) (hp : ys.Perm xs) :
    ∃! ds : List Nat, ds.length = xs.length - 1 ∧ (∀ (i : Nat) (h : i < ds.length), ds[i] + i ≤ xs.length - 1) ∧
      ∃ s', Sprout.shuffle replay (pre ++ xs ++ post) pre.length (pre.length + xs.length) ds = some (pre ++ ys ++ post, s') := by
  by_cases hn : 1 < xs.length
  · have e : ∀ ds, Sprout.shuffle replay (pre ++ xs ++ post) pre.length (pre.length + xs.length) ds =
        shuffleLoop replay (pre ++ xs ++ post) pre.length (pre.length + (xs.length - 1)) (xs.length - 1) ds := by
      intro ds
      rw [Sprout.shuffle, Nat.add_sub_cancel_left, if_pos hn, show pre.length + xs.length - 1 = pre.length + (xs.length - 1) by omega]
    simp only [e]
    obtain ⟨ds, h1, h2, s', h3⟩ := shuffleLoop_reach' post (xs.length - 1) pre xs ys (by omega) hp
    refine ⟨ds, ⟨h1, h2, s', h3⟩, ?_⟩
    rintro ds' ⟨g1, g2, s'', g3⟩
    exact shuffleLoop_unique post _ pre xs _ ds' ds s'' s' (by omega) hd g1 g2 h1 h2 g3 h3
  · have e : ∀ ds, Sprout.shuffle replay (pre ++ xs ++ post) pre.length (pre.length + xs.length) ds = some (pre ++ xs ++ post, ds) := by
      intro ds
      rw [Sprout.shuffle, Nat.add_sub_cancel_left, if_neg hn]
    have ey : ys = xs := by
      match xs, hp with
      | [], hp => exact hp.eq_nil
      | [x], hp => exact List.perm_singleton.1 hp
      | _ :: _ :: _, _ => simp at hn
    refine ⟨[], ⟨by simp; omega, by simp, [], by rw [e, ey]⟩, ?_⟩
    rintro ds' ⟨g1, -⟩
    exact List.length_eq_zero_iff.1 (by omega)

/-- `random_swap` and `random_swap_result`: two draws from the window, whose elements are exchanged -/
theorem C110_random_swap (gen : Gen σ) (hg : gen.InRange) (c : Cont α) (h : c.Ok) (s : σ) :
    (2 ≤ c.vis.length → ∃ i j, drawn gen (c.vis.length - 1) 2 s = [i, j] ∧ Rewrites (randomSwapTo gen c s) c (swapAt c.vis i j) ∧
      randomSwapResult gen c s = (randomSwapTo gen c s).map fun d => (d, stateAfter gen (c.vis.length - 1) 2 s)) ∧
    (c.vis.length ≤ 1 → randomSwapTo gen c s = some c ∧ randomSwapResult gen c s = some (c, s)) := by
  constructor
  · intro hn
    obtain ⟨d, h1, h2, h3, h4⟩ := randomSwapResult_eq hg h s hn
    exact ⟨_, _, rfl, (rewrites_iff h).2 ⟨d, h2, h3, h4⟩, by rw [h1, h2]; rfl⟩
  · intro hn
    exact (randomSwapResult_one h s hn).symm

theorem C110_random_swap_permutes (gen : Gen σ) (hg : gen.InRange) (c : Cont α) (h : c.Ok) (s : σ) :
    ∃ w, Rewrites (randomSwapTo gen c s) c w ∧ w.Perm c.vis := by
  by_cases hn : 2 ≤ c.vis.length
  · obtain ⟨i, j, -, h1, -⟩ := (C110_random_swap gen hg c h s).1 hn
    exact ⟨_, h1, swapAt_perm _ _ _⟩
  · exact ⟨c.vis, by rw [((C110_random_swap gen hg c h s).2 (by omega)).1]; exact (rewrites_iff h).2 ⟨c, rfl, .refl h, rfl⟩, .refl _⟩

/-- `bogo_sort`, `bogo_sort_result`: the container and the engine after the first shuffle, if any is needed, that gives a sorted window.
If there is none the evaluation does not end. -/
theorem C110_bogo_sort (comp : α → α → Bool) (hc : StrictWeak comp) (gen : Gen σ) (hg : gen.InRange) (c : Cont α) (h : c.Ok) (s : σ) :
    (∀ r, bogoSortResult comp gen c s = some r ↔
      FirstWith (fun x : Cont α × σ => SortedBy comp x.1.vis) (fun x => shuffleResult gen x.1 x.2) (c, s) r) ∧
    (∀ d, bogoSortTo comp gen c s = some d → ∃ w, Rewrites (bogoSortTo comp gen c s) c w ∧ SortedBy comp w ∧ w.Perm c.vis) := by
  have hs : Rearranges (shuffleResult (α := α) gen) := fun c s h => shuffleResult_perm hg h s
  refine ⟨fun r => trySort_iff hc hs h s r, ?_⟩
  intro d hd
  rw [bogoSortTo] at hd ⊢
  cases hr : bogoSortResult comp gen c s with
  | none => rw [hr] at hd; cases hd
  | some r =>
    obtain ⟨f1, f2, f3⟩ := trySort_sorts hc hs h hr
    exact ⟨r.1.vis, (rewrites_iff h).2 ⟨r.1, rfl, f1, rfl⟩, f2, f3⟩

/-- `bozo_sort`, `bozo_sort_result`: the container and the engine after the first exchange, if any is needed, that gives a sorted window -/
theorem C110_bozo_sort (comp : α → α → Bool) (hc : StrictWeak comp) (gen : Gen σ) (hg : gen.InRange) (c : Cont α) (h : c.Ok) (s : σ) :
    (∀ r, bozoSortResult comp gen c s = some r ↔
      FirstWith (fun x : Cont α × σ => SortedBy comp x.1.vis) (fun x => randomSwapResult gen x.1 x.2) (c, s) r) ∧
    (∀ d, bozoSortTo comp gen c s = some d → ∃ w, Rewrites (bozoSortTo comp gen c s) c w ∧ SortedBy comp w ∧ w.Perm c.vis) := by
  have hs : Rearranges (randomSwapResult (α := α) gen) := fun c s h => randomSwapResult_perm hg h s
  refine ⟨fun r => trySort_iff hc hs h s r, ?_⟩
  intro d hd
  rw [bozoSortTo] at hd ⊢
  cases hr : bozoSortResult comp gen c s with
  | none => rw [hr] at hd; cases hd
  | some r =>
    obtain ⟨f1, f2, f3⟩ := trySort_sorts hc hs h hr
    exact ⟨r.1.vis, (rewrites_iff h).2 ⟨r.1, rfl, f1, rfl⟩, f2, f3⟩

omit [Inhabited α] in
/-- `bogo_sort` in place -/
theorem C110_bogo_sort_in_place (comp : α → α → Bool) (hc : StrictWeak comp) (gen : Gen σ) (hg : gen.InRange) (pre xs post : List α) (s s' : σ)
    (m : List α) (h : tryInPlace comp (Sprout.shuffle gen) (pre ++ xs ++ post) pre.length (pre.length + xs.length) s = some (m, s')) :
    ∃ zs, m = pre ++ zs ++ post ∧ zs.Perm xs ∧ SortedBy comp zs :=
  tryInPlace_sorts hc pre post xs.length (fun ys t hy => hy ▸ C20_shuffle_permutation gen hg pre ys post t) _ s _ h xs rfl rfl

/-- `bozo_sort` in place does not keep to its range, as `random_swap` draws one position too many (C21): of `2, 1 | 0` it makes
`0, 1 | 2`. -/
theorem C110_bozo_sort_in_place_escapes :
    tryInPlace (fun a b : Nat => decide (a < b)) (Sprout.randomSwap replay) [2, 1, 0] 0 2 [0, 2] = some ([0, 1, 2], []) := by
  rw [tryInPlace, show isSortedRa (fun a b : Nat => decide (a < b)) [2, 1, 0] 0 2 = some false by
    simp [isSortedRa, isSortedImplRa, cmpAt, rd]]
  simp only [Option.bind_eq_bind, Option.bind_some]
  rw [if_neg (by simp), show Sprout.randomSwap replay [2, 1, 0] 0 2 [0, 2] = some ([0, 1, 2], []) by simp [randomSwap, replay, swp, rd, wr]]
  simp only [Option.bind_some]
  rw [tryInPlace, show isSortedRa (fun a b : Nat => decide (a < b)) [0, 1, 2] 0 2 = some true by
    simp [isSortedRa, isSortedImplRa, cmpAt, rd]]
  rfl

omit [Inhabited α] in
/-- Missing compared to the full property: the draws are assumed to be below `last - first`. -/
theorem C110_bozo_sort_in_place_partial (comp : α → α → Bool) (hc : StrictWeak comp) (gen : Gen σ) (hg : ∀ s d, 0 < d → (gen s d).1 < d)
    (pre xs post : List α) (s s' : σ) (m : List α)
    (h : tryInPlace comp (Sprout.randomSwap gen) (pre ++ xs ++ post) pre.length (pre.length + xs.length) s = some (m, s')) :
    ∃ zs, m = pre ++ zs ++ post ∧ zs.Perm xs ∧ SortedBy comp zs :=
  tryInPlace_sorts hc pre post xs.length (fun ys t hy => hy ▸ C21_random_swap_partial gen hg pre ys post t) _ s _ h xs rfl rfl

/-! ## examples -/

private def exLt : Nat → Nat → Bool := fun a b => decide (a < b)

private theorem exStrict : StrictWeak exLt := by
  constructor <;> simp [exLt] <;> omega

/-- a window of three elements: draws 2, 2, 0 -/
example : shuffleResult replay (.sub (.array [9, 1, 2, 3, 8]) 1 4) [2, 2, 0, 7] = some (.sub (.array [9, 2, 1, 3, 8]) 1 4, [7]) := by decide +kernel

/-- three elements: of 27 sequences of draws the arrangements get 4, 5, 5, 5, 4 and 4 -/
example : ([[0, 1, 2], [0, 2, 1], [1, 0, 2], [1, 2, 0], [2, 0, 1], [2, 1, 0]].map fun w =>
    ((List.range 27).filter fun k => (shuffleTo replay (.array [0, 1, 2]) [k % 3, k / 3 % 3, k / 9]).map Cont.vis = some w).length) =
    [4, 5, 5, 5, 4, 4] := by decide +kernel

example : ∃ w w', w.Perm [1, 2, 3] ∧ w'.Perm [1, 2, 3] ∧
    Nat.card {ds : Fin 3 → Fin 3 // Rewrites (shuffleTo replay (.array [1, 2, 3]) (List.ofFn fun i => (ds i).val)) (.array [1, 2, 3]) w} ≠
    Nat.card {ds : Fin 3 → Fin 3 // Rewrites (shuffleTo replay (.array [1, 2, 3]) (List.ofFn fun i => (ds i).val)) (.array [1, 2, 3]) w'} :=
  C110_shuffle_biased (.array [1, 2, 3]) trivial 3 (by omega) (by decide) (by decide)

example : randomSwapResult replay (.array [1, 2, 3]) [0, 2, 7] = some (.array [3, 2, 1], [7]) := by decide +kernel

/-- two rounds: the first changes nothing -/
example : bogoSortResult exLt replay (.array [2, 3, 1]) [0, 1, 2, 2, 2, 2, 7] = some (.array [1, 2, 3], [7]) := by
  refine ((C110_bogo_sort exLt exStrict replay replay_inRange (.array [2, 3, 1]) trivial _).1 _).2 ⟨2, by decide +kernel, ?_, ?_⟩
  · show List.Pairwise _ _
    decide
  · intro j hj z hz
    have e : z.1 = .array [2, 3, 1] := by
      obtain rfl | rfl : j = 0 ∨ j = 1 := by omega
      · cases hz
        rfl
      · rw [show steps (fun x : Cont Nat × List Nat => shuffleResult replay x.1 x.2) 1 (.array [2, 3, 1], [0, 1, 2, 2, 2, 2, 7]) =
          some (.array [2, 3, 1], [2, 2, 2, 7]) by decide +kernel] at hz
        cases hz
        rfl
    show ¬SortedBy exLt z.1.vis
    rw [e]
    show ¬List.Pairwise _ _
    decide

/-- one exchange suffices -/
example : bozoSortResult exLt replay (.array [3, 2, 1]) [0, 2, 7] = some (.array [1, 2, 3], [7]) := by
  refine ((C110_bozo_sort exLt exStrict replay replay_inRange (.array [3, 2, 1]) trivial _).1 _).2 ⟨1, by decide +kernel, ?_, ?_⟩
  · show List.Pairwise _ _
    decide
  · intro j hj z hz
    obtain rfl : j = 0 := by omega
    cases hz
    show ¬List.Pairwise _ _
    decide

example : ∃! ds : List Nat, ds.length = 2 ∧ (∀ (i : Nat) (h : i < ds.length), ds[i] + i ≤ 2) ∧
    ∃ s', Sprout.shuffle replay [1, 2, 3] 0 3 ds = some ([3, 1, 2], s') :=
  C110_shuffle_in_place_fair [] [1, 2, 3] [3, 1, 2] [] (by decide) (by decide)

end Sprout

import Verif.Proofs.RangeAdaptor

/-!
# C120: range adaptors

`Ra r l` (Spec/RangeAdaptor): the range `r` has the elements `l`, and its iterators move like positions in `l`. The theorems hold
for ranges over any iterators, also for the results of other adaptors.
-/

namespace Sprout
open RangeAdaptor Spec
variable {σ τ α β γ : Type}

/-- A loop over the range meets the elements in order. -/
theorem C120_values (r : Rng σ α) (l : List α) (h : Fwd r l) : values r = some l := values_of_fwd h

/-- `size`, `empty`, `operator[]`, `back` of a range. -/
theorem C120_access (r : Rng σ α) (l : List α) (h : Ra r l) (hl : l.length < 2 ^ 63) :
    size r = some (l.length : Int) ∧ empty r = l.isEmpty ∧ (∀ i x, l[i]? = some x → index r i = some x)
      ∧ (∀ x, l.getLast? = some x → RangeAdaptor.back r = some x) := by
  obtain ⟨pos, h⟩ := h
  have hix : ∀ (i : Nat) x, l[i]? = some x → index r i = some x := by
    intro i x hx
    obtain ⟨hi, rfl⟩ := List.getElem?_eq_some_iff.1 hx
    simp only [index, h.first, Option.bind_eq_bind]
    rw [h.add 0 i i (by omega) (by omega) (by omega), Option.bind_some, h.deref i hi]
  refine ⟨size_at h, ?_, hix, ?_⟩
  · rw [empty, h.first, h.eqLast 0 (by omega)]
    cases l <;> simp
  · intro x hx
    have hne : l ≠ [] := by rintro rfl; simp at hx
    have hpos := List.length_pos_of_ne_nil hne
    rw [List.getLast?_eq_getElem?] at hx
    have := hix _ _ hx
    rw [RangeAdaptor.back, size_at h]
    rw [index] at this
    simp only [Option.bind_eq_bind, Option.bind_some] at this ⊢
    rw [toS_toU _ (by omega) (by omega), show (l.length : Int) - 1 = ((l.length - 1 : Nat) : Int) by omega]
    exact this

/-- The elements `f … l` of an array are a range. -/
theorem C120_block (xs : List α) (f l : Nat) (hfl : f ≤ l) (hl : l ≤ xs.length) : Ra (block xs f l) ((xs.take l).drop f) :=
  ⟨_, block_at xs f l hfl hl⟩

example : values (block [3, 1, 4, 1, 5] 1 4) = some [1, 4, 1] := C120_values _ _ (Ra.fwd (C120_block [3, 1, 4, 1, 5] 1 4 (by decide) (by decide)))

/-! ### parts -/

/-- `range | dropped(d)`, `range | offset(d)`, `range | window(d)`: all but the first `d` elements. -/
theorem C120_dropped (r : Rng σ α) (l : List α) (h : Ra r l) (d : Nat) :
    OutRa (dropped d r) (l.drop d) ∧ OutRa (offset1 d r) (l.drop d) ∧ OutRa (window1 d r) (l.drop d) :=
  ⟨dropped_out h d, offset1_out h d, window1_out h d⟩

/-- `range | taken(d)`, `range | sized<d>()`: the first `d` elements. -/
theorem C120_taken (r : Rng σ α) (l : List α) (h : Ra r l) (d : Nat) : OutRa (taken d r) (l.take d) ∧ OutRa (sized d r) (l.take d) :=
  ⟨taken_out h d, sized_out h d⟩

/-- `range | dropped_end(-d)`: all but the last `d` elements; the distance is given as a negative number. -/
theorem C120_dropped_end (r : Rng σ α) (l : List α) (h : Ra r l) (hl : l.length < 2 ^ 63) (d : Nat) :
    OutRa (droppedEnd (-(d : Int)) r) (l.take (l.length - d)) := droppedEnd_out h hl d

/-- `range | taken_end(-d)`: the last `d` elements. -/
theorem C120_taken_end (r : Rng σ α) (l : List α) (h : Ra r l) (hl : l.length < 2 ^ 63) (d : Nat) :
    OutRa (takenEnd (-(d : Int)) r) (l.drop (l.length - d)) := takenEnd_out h hl d

/-- `range | offset(b, -e)`: without the first `b` and the last `e` elements; nothing is left if these overlap. -/
theorem C120_offset (r : Rng σ α) (l : List α) (h : Ra r l) (hl : l.length < 2 ^ 63) (b e : Nat) (hb : b < 2 ^ 63) :
    OutRa (offset b (-(e : Int)) r) ((l.take (l.length - e)).drop b) := offset_out h hl b e hb

/-- `range | window(f, m)`: the elements from `f` to before `m`. Missing: `f > m`, see `C120_window_refuted`. -/
theorem C120_window_partial (r : Rng σ α) (l : List α) (h : Ra r l) (f m : Nat) (hfm : f ≤ m) : OutRa (window f m r) ((l.take m).drop f) :=
  window_out h f m hfm

/-- `window(f, m)` with `m < f` is not empty as `offset` with overlapping ends: the loop runs past the end of the array. -/
theorem C120_window_refuted (xs : List α) (f m : Nat) (hmf : m < f) (hm : m < xs.length) :
    (window f m (block xs 0 xs.length)).bind values = none ∧ (xs.take m).drop f = [] := by
  constructor
  · have h := block_at xs 0 xs.length (by omega) (le_refl _)
    have hlen : ((xs.take xs.length).drop 0).length = xs.length := by simp
    have e : window f m (block xs 0 xs.length) = some (block xs (min f xs.length) (min m xs.length)) := by
      simp only [window, size_at h, Option.bind_eq_bind, Option.bind_some, h.first]
      rw [h.add 0 _ (min f xs.length) (by omega) (by omega) (by rw [hlen]; push_cast; omega),
        h.add 0 _ (min m xs.length) (by omega) (by omega) (by rw [hlen]; push_cast; omega)]
      simp [block]
    rw [e, Option.bind_some, values]
    exact walk_past xs _ _ (xs.length - min f xs.length) (min f xs.length) (by omega) (by omega)
  · exact List.drop_eq_nil_of_le (by simp; omega)

/-- Distances with the other sign are not cut: they leave the array. -/
theorem C120_sign (xs : List α) (d : Nat) (hd : 0 < d) :
    dropped (-(d : Int)) (block xs 0 xs.length) = none ∧ taken (-(d : Int)) (block xs 0 xs.length) = none
      ∧ droppedEnd d (block xs 0 xs.length) = none ∧ takenEnd d (block xs 0 xs.length) = none := by
  refine ⟨?_, ?_, ?_, ?_⟩
  · simp only [dropped, size, block, Option.bind_eq_bind, Option.bind_some, Adaptor.padd]
    rw [if_neg (by omega)]
    rfl
  · simp only [taken, size, block, Option.bind_eq_bind, Option.bind_some, Adaptor.padd]
    rw [if_neg (by omega)]
    rfl
  · simp only [droppedEnd, size, block, Option.bind_eq_bind, Option.bind_some, Adaptor.padd]
    rw [if_neg (by omega)]
    rfl
  · simp only [takenEnd, size, block, Option.bind_eq_bind, Option.bind_some, Adaptor.padd]
    rw [if_neg (by omega)]
    rfl

/-! ### other iterators -/

/-- `range | reversed`. -/
theorem C120_reversed (r : Rng σ α) (l : List α) (h : Ra r l) : Ra (reversed r) l.reverse := by
  obtain ⟨pos, h⟩ := h
  exact ⟨_, reversed_at h⟩

/-- `range | transformed(f)`. -/
theorem C120_transformed (f : α → β) (r : Rng σ α) (l : List α) (h : Ra r l) : Ra (transformed f r) (l.map f) := by
  obtain ⟨pos, h⟩ := h
  exact ⟨_, transformed_at f h⟩

/-- `range | clamped(low, up)`: an element in order with `low` and `up` stays, others become the bound they violate. -/
theorem C120_clamped (comp : α → α → Bool) (low up x : α) :
    (comp x low = true → clampFn comp low up x = low) ∧ (comp x low = false → comp up x = true → clampFn comp low up x = up)
      ∧ (comp x low = false → comp up x = false → clampFn comp low up x = x) := by
  refine ⟨?_, ?_, ?_⟩
  · intro h; simp [clampFn, h]
  · intro h h'; simp [clampFn, h, h']
  · intro h h'; simp [clampFn, h, h']

/-- `range1 | transformed(range2, f)` for a second range that is not shorter. -/
theorem C120_transformed2_partial (f : α → β → γ) (r : Rng σ α) (s : Rng τ β) (l : List α) (m : List β) (h : Fwd r l) (h' : Fwd s m)
    (hlm : l.length ≤ m.length) : Fwd (transformed2 f r s) (List.zipWith f l m) := by
  obtain ⟨pos, h⟩ := h
  obtain ⟨pos', h'⟩ := h'
  exact ⟨_, transformed2_at f h h' hlm⟩

/-- With a shorter second range the loop leaves the second array. -/
theorem C120_transformed2_refuted : values (transformed2 (fun a b : Nat => a + b) (block [1, 2] 0 2) (block [10] 0 1)) = none
    ∧ List.zipWith (fun a b : Nat => a + b) [1, 2] [10] = [11] := by
  refine ⟨?_, rfl⟩
  rw [values, walk_step (x := 11) (b := (1, 1)) rfl rfl rfl, walk_stuck rfl rfl]
  rfl

/-- `range1 | jointed(range2)`. -/
theorem C120_jointed (r : Rng σ α) (s : Rng τ α) (l m : List α) (h : Ra r l) (h' : Ra s m) (hlm : l.length + m.length < 2 ^ 63) :
    Ra (jointed r s) (l ++ m) := jointed_ra h h' hlm

/-- `range1 | alternated(range2)`: as many pairs as both have, and their number. -/
theorem C120_alternated (r : Rng σ α) (s : Rng τ α) (l m : List α) (h : Ra r l) (h' : Ra s m) (hlm : 2 * min l.length m.length < 2 ^ 63) :
    ∃ a, alternated r s = some a ∧ Fwd a (alternate l m) ∧ size a = some (((alternate l m).length : Nat) : Int) := alternated_out h h' hlm

/-- … but not a range with random access: `dropped(1)` after `alternated` has a wrong size, so that `taken(4)` takes the wrong
number of elements and leaves the range. -/
theorem C120_alternated_refuted :
    (((alternated (block [1, 2] 0 2) (block [11, 12] 0 2)).bind (dropped 1)).bind size) = some 5
      ∧ ((alternate [1, 2] [11, 12]).drop 1).length = 3
      ∧ ((((alternated (block [1, 2] 0 2) (block [11, 12] 0 2)).bind (dropped 1)).bind (taken 4)).bind values) = none := by
  refine ⟨by decide +kernel, rfl, ?_⟩
  have e : ((alternated (block [1, 2] 0 2) (block [11, 12] 0 2)).bind (dropped 1)).bind (taken 4)
      = some { altRng (block [1, 2] 0 2) (block [11, 12] 0 2) 2 2 with first := (0, 0, false), last := (2, 2, false) } := rfl
  rw [e, Option.bind_some, values, walk_step (x := 11) (b := (1, 1, true)) rfl rfl rfl, walk_step (x := 2) (b := (1, 1, false)) rfl rfl rfl,
    walk_step (x := 12) (b := (2, 2, true)) rfl rfl rfl, walk_stuck rfl rfl]
  rfl

/-- `range | moved` swaps begin and end: no loop over a nonempty array ends. -/
theorem C120_moved_refuted (xs : List α) (h : xs ≠ []) : values (moved (block xs 0 xs.length)) = none := by
  have : moved (block xs 0 xs.length) = block xs xs.length 0 := rfl
  rw [this, values]
  exact walk_past xs _ _ 0 _ (by simp [block]) (by simpa [block] using List.length_pos_of_ne_nil h)

/-- The empty range stays empty. -/
theorem C120_moved_partial (r : Rng σ α) (h : Ra r []) : values (moved r) = some [] := by
  obtain ⟨pos, h⟩ := h
  rw [values, walk.eq_def]
  have : r.eq r.last r.first = true := by
    rw [h.first, h.last, h.eq _ _ (by simp) (by simp)]
    rfl
  simp [moved, this]

/-! ### adaptors for a part -/

/-- `range | adapted_dropped(ad, d)`: the first `d` elements stay. -/
theorem C120_adapted_dropped (ad : Rng σ α → Option (Rng τ α)) (f : List α → List α) (r : Rng σ α) (l : List α) (h : Ra r l) (d : Nat)
    (had : ∀ x, Ra x (l.drop d) → OutRa (ad x) (f (l.drop d))) (hl : (l.take d).length + (f (l.drop d)).length < 2 ^ 63) :
    OutRa (adaptedDropped ad d r) (l.take d ++ f (l.drop d)) := by
  obtain ⟨t, ht, ht'⟩ := taken_out h d
  obtain ⟨x, hx, hx'⟩ := dropped_out h d
  obtain ⟨y, hy, hy'⟩ := had x hx'
  exact ⟨_, by simp only [adaptedDropped, ht, hx, hy, Option.bind_eq_bind, Option.bind_some], jointed_ra ht' hy' hl⟩

/-- `range | adapted_taken(ad, d)`: the elements from `d` stay. -/
theorem C120_adapted_taken (ad : Rng σ α → Option (Rng τ α)) (f : List α → List α) (r : Rng σ α) (l : List α) (h : Ra r l) (d : Nat)
    (had : ∀ x, Ra x (l.take d) → OutRa (ad x) (f (l.take d))) (hl : (f (l.take d)).length + (l.drop d).length < 2 ^ 63) :
    OutRa (adaptedTaken ad d r) (f (l.take d) ++ l.drop d) := by
  obtain ⟨t, ht, ht'⟩ := taken_out h d
  obtain ⟨x, hx, hx'⟩ := dropped_out h d
  obtain ⟨y, hy, hy'⟩ := had t ht'
  exact ⟨_, by simp only [adaptedTaken, ht, hx, hy, Option.bind_eq_bind, Option.bind_some], jointed_ra hy' hx' hl⟩

/-- `range | adapted_dropped_end(ad, -d)`: the last `d` elements stay. -/
theorem C120_adapted_dropped_end (ad : Rng σ α → Option (Rng τ α)) (f : List α → List α) (r : Rng σ α) (l : List α) (h : Ra r l)
    (hn : l.length < 2 ^ 63) (d : Nat) (had : ∀ x, Ra x (l.take (l.length - d)) → OutRa (ad x) (f (l.take (l.length - d))))
    (hl : (f (l.take (l.length - d))).length + (l.drop (l.length - d)).length < 2 ^ 63) :
    OutRa (adaptedDroppedEnd ad (-(d : Int)) r) (f (l.take (l.length - d)) ++ l.drop (l.length - d)) := by
  obtain ⟨t, ht, ht'⟩ := droppedEnd_out h hn d
  obtain ⟨x, hx, hx'⟩ := takenEnd_out h hn d
  obtain ⟨y, hy, hy'⟩ := had t ht'
  exact ⟨_, by simp only [adaptedDroppedEnd, ht, hx, hy, Option.bind_eq_bind, Option.bind_some], jointed_ra hy' hx' hl⟩

/-- `range | adapted_taken_end(ad, -d)`: the elements before the last `d` stay. -/
theorem C120_adapted_taken_end (ad : Rng σ α → Option (Rng τ α)) (f : List α → List α) (r : Rng σ α) (l : List α) (h : Ra r l)
    (hn : l.length < 2 ^ 63) (d : Nat) (had : ∀ x, Ra x (l.drop (l.length - d)) → OutRa (ad x) (f (l.drop (l.length - d))))
    (hl : (l.take (l.length - d)).length + (f (l.drop (l.length - d))).length < 2 ^ 63) :
    OutRa (adaptedTakenEnd ad (-(d : Int)) r) (l.take (l.length - d) ++ f (l.drop (l.length - d))) := by
  obtain ⟨t, ht, ht'⟩ := droppedEnd_out h hn d
  obtain ⟨x, hx, hx'⟩ := takenEnd_out h hn d
  obtain ⟨y, hy, hy'⟩ := had x hx'
  exact ⟨_, by simp only [adaptedTakenEnd, ht, hx, hy, Option.bind_eq_bind, Option.bind_some], jointed_ra ht' hy' hl⟩

/-- `range | adapted_window(ad, b, m)`: the elements before `b` and from `m` stay. -/
theorem C120_adapted_window_partial (ad : Rng σ α → Option (Rng τ α)) (f : List α → List α) (r : Rng σ α) (l : List α) (h : Ra r l)
    (b m : Nat) (hbm : b ≤ m) (had : ∀ x, Ra x ((l.take m).drop b) → OutRa (ad x) (f ((l.take m).drop b)))
    (hl : l.length + (f ((l.take m).drop b)).length < 2 ^ 63) :
    OutRa (adaptedWindow ad b m r) (l.take b ++ f ((l.take m).drop b) ++ l.drop m) := by
  obtain ⟨t, ht, ht'⟩ := taken_out h b
  obtain ⟨x, hx, hx'⟩ := window_out h b m hbm
  obtain ⟨y, hy, hy'⟩ := had x hx'
  obtain ⟨u, hu, hu'⟩ := dropped_out h m
  exact ⟨_, by simp only [adaptedWindow, ht, hx, hy, hu, Option.bind_eq_bind, Option.bind_some],
    jointed_ra (jointed_ra ht' hy' (by simp; omega)) hu' (by simp; omega)⟩

/-- `range | adapted_offset(ad, b, -e)` in all cases: the first `b` elements, the adapted middle, the last `e` elements. -/
theorem C120_adapted_offset_any (ad : Rng σ α → Option (Rng τ α)) (f : List α → List α) (r : Rng σ α) (l : List α) (h : Ra r l)
    (hn : l.length < 2 ^ 62) (b e : Nat) (hb : b < 2 ^ 63)
    (had : ∀ x, Ra x ((l.take (l.length - e)).drop b) → OutRa (ad x) (f ((l.take (l.length - e)).drop b)))
    (hl : 2 * l.length + (f ((l.take (l.length - e)).drop b)).length < 2 ^ 63) :
    OutRa (adaptedOffset ad b (-(e : Int)) r) (l.take b ++ f ((l.take (l.length - e)).drop b) ++ l.drop (l.length - e)) := by
  obtain ⟨t, ht, ht'⟩ := taken_out h b
  obtain ⟨x, hx, hx'⟩ := offset_out h (by omega) b e hb
  obtain ⟨y, hy, hy'⟩ := had x hx'
  obtain ⟨u, hu, hu'⟩ := takenEnd_out h (by omega) e
  exact ⟨_, by simp only [adaptedOffset, ht, hx, hy, hu, Option.bind_eq_bind, Option.bind_some],
    jointed_ra (jointed_ra ht' hy' (by simp; omega)) hu' (by simp; omega)⟩

/-- If the two distances do not overlap, `adapted_offset` with an adaptor that keeps the number of elements keeps it, and the
identity adaptor gives the same elements. -/
theorem C120_adapted_offset_partial (f : List α → List α) (l : List α) (b e : Nat) (hbe : b + e ≤ l.length)
    (hf : (f ((l.take (l.length - e)).drop b)).length = ((l.take (l.length - e)).drop b).length) :
    (l.take b ++ f ((l.take (l.length - e)).drop b) ++ l.drop (l.length - e)).length = l.length
      ∧ l.take b ++ (l.take (l.length - e)).drop b ++ l.drop (l.length - e) = l := by
  constructor
  · simp only [List.length_append, hf, List.length_take, List.length_drop]
    omega
  · have h1 : l.take b = (l.take (l.length - e)).take b := by rw [List.take_take, Nat.min_eq_left (by omega)]
    rw [h1, List.take_append_drop, List.take_append_drop]

/-- If they overlap, elements come twice: 5 elements with `b = 3` and `e = 4` become 7. -/
theorem C120_adapted_offset_refuted :
    ((adaptedOffset (fun x => some x) 3 (-4) (block [1, 2, 3, 4, 5] 0 5)).bind values) = some [1, 2, 3, 2, 3, 4, 5] := by
  obtain ⟨z, hz, hz'⟩ := C120_adapted_offset_any (fun x => some x) id (block [1, 2, 3, 4, 5] 0 5) [1, 2, 3, 4, 5]
    (C120_block [1, 2, 3, 4, 5] 0 5 (by decide) (by decide)) (by decide) 3 4 (by decide) (fun x hx => ⟨x, rfl, hx⟩) (by decide)
  have hz1 : adaptedOffset (fun x => some x) 3 (-4) (block [1, 2, 3, 4, 5] 0 5) = some z := hz
  rw [hz1, Option.bind_some, values_of_fwd (Ra.fwd hz')]
  rfl

example : ((adaptedWindow (fun x => some (reversed x)) 1 4 (block [1, 2, 3, 4, 5] 0 5)).bind values) = some [1, 4, 3, 2, 5] := by
  obtain ⟨z, hz, hz'⟩ := C120_adapted_window_partial (fun x => some (reversed x)) List.reverse (block [1, 2, 3, 4, 5] 0 5) [1, 2, 3, 4, 5]
    (C120_block [1, 2, 3, 4, 5] 0 5 (by decide) (by decide)) 1 4 (by decide) (fun x hx => ⟨_, rfl, C120_reversed x _ hx⟩) (by decide)
  have hz1 : adaptedWindow (fun x => some (reversed x)) 1 4 (block [1, 2, 3, 4, 5] 0 5) = some z := hz
  rw [hz1, Option.bind_some, values_of_fwd (Ra.fwd hz')]
  rfl

/-! ### chains -/

/-- `range | piped(a, b)` is `range | a | b`; the same for none or one adaptor. -/
theorem C120_piped_partial {ρ : Type} (r : ρ) (a b : ρ → Option ρ) :
    piped r [] = some r ∧ piped r [a] = a r ∧ piped r [a, b] = (a r).bind b := ⟨rfl, rfl, rfl⟩

/-- With three or more adaptors `piped` does not compile: the overload for them is not declared in its own return type. -/
theorem C120_piped_refuted {ρ : Type} (r : ρ) (a b c : ρ → Option ρ) (t : List (ρ → Option ρ)) : piped r (a :: b :: c :: t) = none := by
  simp [piped, applyDeclared]

end Sprout

import Verif.Proofs.RandIter
import Mathlib.Data.Int.Notation

/-!
# C135: iterators, ranges and arrays of random values
-/

namespace Sprout
open RandIter
open DrawSpec (take)

variable {γ ρ ε δ : Type}

/-- Traversing `[begin(g, n), end(g))` sees the first `n` values that `g` generates. Exactly `n + 1` values are drawn for it: it fails
if and only if one of those draws fails. -/
theorem C135_range (call : γ → Option (ρ × γ)) (r0 : RR γ ρ) (g : γ) (n : ℕ) :
    ((makeRange call r0 g n).bind fun r => (traverse call r.1 r.2).map Prod.fst) = (take call (n + 1) g).map fun p => p.1.take n := by
  unfold makeRange begin
  rw [take_succ]
  rcases call g with _ | r
  · rfl
  · simp only [Option.bind_eq_bind, Option.bind_some]
    rw [if_pos (by omega), traverse_eq]
    rcases take call n r.2 with _ | p <;> rfl

/-- what is wanted: `n` values that can be drawn suffice for a range of `n` values -/
def RangeDrawsFull : Prop := ∀ (γ ρ : Type) (call : γ → Option (ρ × γ)) (r0 : RR γ ρ) (g g' : γ) (n : ℕ) (xs : List ρ),
  take call n g = some (xs, g') → ((makeRange call r0 g n).bind fun r => (traverse call r.1 r.2).map Prod.fst) = some xs

/-- It is not so: the value after the last one is drawn too, even for the empty range. -/
theorem C135_range_refuted : ¬ RangeDrawsFull := by
  intro h
  have := h ℕ ℕ (fun g => if g < 2 then some (g * 10, g + 1) else none) ⟨0, 0⟩ 0 2 2 [0, 10] rfl
  rw [C135_range] at this
  exact absurd this (by decide)

/-- If one more value can be drawn, the range has the `n` values. -/
theorem C135_range_partial (call : γ → Option (ρ × γ)) (r0 : RR γ ρ) (g g' : γ) (n : ℕ) (xs : List ρ)
    (h : take call n g = some (xs, g')) (hn : (call g').isSome) :
    ((makeRange call r0 g n).bind fun r => (traverse call r.1 r.2).map Prod.fst) = some xs := by
  obtain ⟨r, hr⟩ := Option.isSome_iff_exists.1 hn
  have hl := take_length call n h
  rw [C135_range, take_snoc, h, Option.bind_some, hr]
  simp [hl]

/-- Every iterator, also one without an end (`count < 0`), points after `k` increments to the `k`-th value. -/
theorem C135_advance (call : γ → Option (ρ × γ)) (g : γ) (count : ℤ) (hc : count ≤ ptrdiffMax) (k : ℕ) (hk : (k : ℤ) ≤ 2 ^ 63) :
    (begin call g count).bind (advance call k) = (take call (k + 1) g).bind fun p => p.1.getLast?.map fun x =>
      ⟨⟨x, p.2⟩, (if count ≥ 0 then count else ptrdiffMax) - k⟩ := by
  unfold begin
  rcases h : call g with _ | r
  · rw [take_succ, h]; rfl
  · simp only [Option.bind_eq_bind, Option.bind_some]
    rw [advance_eq call k h]
    unfold ptrdiffMin ptrdiffMax at *
    split <;> omega

/-- the distance to the end is the count; the order is that of the positions -/
theorem C135_distance (call : γ → Option (ρ × γ)) (r0 : RR γ ρ) (g : γ) (n : ℕ) (hn : (n : ℤ) ≤ ptrdiffMax) (it : GI γ ρ)
    (h : begin call g n = some it) :
    (endIt r0).sub it = some (n : ℤ) ∧ (it.lt (endIt r0) = true ↔ 0 < n) ∧ (it.eq (endIt r0) = true ↔ n = 0) := by
  unfold begin at h
  rw [Option.bind_eq_bind, Option.bind_eq_some_iff] at h
  obtain ⟨r, -, h⟩ := h
  cases h
  have e : (if (n : ℤ) ≥ 0 then (n : ℤ) else ptrdiffMax) = n := if_pos (by omega)
  rw [e]
  refine ⟨?_, by simp [GI.lt, endIt], by simp [GI.eq, endIt]⟩
  unfold GI.sub
  rw [if_pos (by simp only [endIt, ptrdiffMin, ptrdiffMax] at *; omega)]
  simp [endIt]

/-- The increments of a result draw the next value; the old result is returned by the second form. -/
theorem C135_result (call : γ → Option (ρ × γ)) (r : RR γ ρ) :
    r.incr call = (call r.gen).map (fun p => ⟨p.1, p.2⟩) ∧ r.postIncr call = (call r.gen).map (fun p => (r, ⟨p.1, p.2⟩)) ∧
      r.incr call = r.next call := by
  unfold RR.postIncr RR.incr RR.next
  rcases call r.gen with _ | p <;> exact ⟨rfl, rfl, rfl⟩

/-- Results are equal exactly if value and generator are. -/
theorem C135_eq (eqR : ρ → ρ → Bool) (eqE : ε → ε → Bool) (eqD : δ → δ → Bool) (hR : ∀ a b, eqR a b = true ↔ a = b)
    (hE : ∀ a b, eqE a b = true ↔ a = b) (hD : ∀ a b, eqD a b = true ↔ a = b) (a b : RR (VG ε δ) ρ) :
    RR.eqv eqR (VG.eqv eqE eqD) a b = true ↔ a = b := by
  rcases a with ⟨x, ⟨e, d⟩⟩
  rcases b with ⟨y, ⟨e', d'⟩⟩
  simp [RR.eqv, VG.eqv, hR, hE, hD]

/-- A distribution with an engine: the values are those of the distribution, with the engine and the distribution that the call
before left. -/
theorem C135_variate (dist : δ → ε → Option (ρ × ε × δ)) (n : ℕ) (e : ε) (d : δ) :
    (take (VG.call dist) (n + 1) ⟨e, d⟩).map Prod.fst
      = (dist d e).bind fun r => (take (VG.call dist) n ⟨r.2.1, r.2.2⟩).map fun p => r.1 :: p.1 := by
  rw [take_succ, VG.call]
  rcases dist d e with _ | r
  · rfl
  · simp only [Option.map_some, Option.bind_some]
    rcases take (VG.call dist) n ⟨r.2.1, r.2.2⟩ with _ | p <;> rfl

/-- With a reference to a mutable engine, `variate_generator` can not be called: it hands over the distribution as the engine. -/
theorem C135_reference_undefined (dist : δ → ε → Option (ρ × ε × δ)) (g : VG ε δ) : VG.callRef dist g = none := by
  unfold VG.callRef
  rw [if_neg (by decide)]

/-- There is no `make_range(engine, count)`. -/
theorem C135_make_range_undefined (call : γ → Option (ρ × γ)) (r0 : RR γ ρ) (g : γ) (count : ℤ) : makeRangeEngine call r0 g count = none := by
  unfold makeRangeEngine
  rw [if_neg (by decide)]

/-- `generate_array` for mutable generators: the first `N` values and the generator after them -/
theorem C135_array (call : γ → Option (ρ × γ)) (z : ρ) (N : ℕ) (g : γ) : generateArray call z N g = take call N g := generateArray_eq call z N g

/-- `generate_array` for constant generators is the same for `N > 0`, and ill-formed for `N = 0`. -/
theorem C135_array_const_partial (call : γ → Option (ρ × γ)) (N : ℕ) (hN : 0 < N) (g : γ) :
    generateArrayConst call N g = take call N g := by
  obtain ⟨n, rfl⟩ : ∃ n, N = n + 1 := ⟨N - 1, by omega⟩
  exact generateArrayConst_eq call n g

theorem C135_array_const_undefined (call : γ → Option (ρ × γ)) (g : γ) : generateArrayConst call 0 g = none := generateArrayConst_zero call g

/-- `make_seed_seq<N>(v)`: the hash value of `v`, combined with it again and again, modulo 2³² -/
theorem C135_seed_seq_partial (N h : ℕ) (hN : 0 < N) :
    makeSeedSeq N h = some ((List.range N).map fun i => (fun s => Hash.combine 64 s h)^[i] h % 2 ^ 32) := by
  unfold makeSeedSeq
  rw [makeSeedSeqImpl_eq N h (N - 1) h [] (by simp; omega)]
  rw [show N - 1 + 1 = N by omega]
  rfl

theorem C135_seed_seq_undefined (h : ℕ) : makeSeedSeq 0 h = none := by
  unfold makeSeedSeq
  rw [makeSeedSeqImpl, if_neg (by simp), if_pos (by simp)]

/-- a generator that counts -/
example : ((makeRange (fun g : ℕ => some (g * g, g + 1)) ⟨0, 0⟩ 3 (4 : ℕ)).bind fun r =>
    (traverse (fun g : ℕ => some (g * g, g + 1)) r.1 r.2).map Prod.fst) = some [9, 16, 25, 36] := by
  rw [C135_range]
  decide
example : generateArrayConst (fun g : ℕ => some (g * g, g + 1)) 4 3 = some ([9, 16, 25, 36], 7) := by
  rw [C135_array_const_partial _ _ (by decide)]
  decide

end Sprout

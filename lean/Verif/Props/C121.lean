import Verif.Proofs.CountIter

/-!
# C121: counting, constant and indexed ranges; adaptors and operators that do not compile
-/

namespace Sprout
open RangeAdaptor CountIter Spec
variable {σ α : Type}

/-! ### counting -/

/-- `counting(f, l)` over the integer type `T`: `f, f + 1, …, l - 1`. -/
theorem C121_counting (T : CInt) (hT : T.Std) (f : Int) (n : Nat) (hf : T.Has f) (hl : T.Has (f + n)) :
    values (counting2 T f (f + n)) = some ((List.range n).map fun i : Nat => f + i) := values_of_fwd ⟨_, cnRng_fwd hT hf hl⟩

example : values (counting2 .int8 (-3) 1) = some [-3, -2, -1, 0] := C121_counting .int8 (.inl rfl) (-3) 4 (by decide) (by decide)

/-- `counting(f)`: all values from `f` but the largest. -/
theorem C121_counting_all (T : CInt) (hT : T.Std) (f : Int) (hf : T.Has f) :
    values (counting1 T f) = some ((List.range (T.max - f).toNat).map fun i : Nat => f + i) := by
  have e : counting1 T f = counting2 T f (f + (T.max - f).toNat) := by
    rw [counting1, counting2, cnDefault, Int.toNat_of_nonneg (by have := hf.2; omega)]
    congr 1
    omega
  rw [e]
  refine C121_counting T hT f _ hf ?_
  rw [Int.toNat_of_nonneg (by have := hf.2; omega)]
  have := hT.bounds
  constructor <;> omega

/-- Iterators of `counting(f, l)` also add and subtract as positions do, if `l - f` is a value of `T` and of `ptrdiff_t`. -/
theorem C121_counting_ra (T : CInt) (hT : T.Std) (f : Int) (n : Nat) (hf : T.Has f) (hl : T.Has (f + n)) (hd : (n : Int) ≤ T.max)
    (hd' : n < 2 ^ 63) : Ra (counting2 T f (f + n)) ((List.range n).map fun i : Nat => f + i) := ⟨_, cnRng_at hT hf hl hd hd'⟩

/-- `range | counting(f, l)`: as many values as both have. Missing: differences `l - f` that are not values of `T`, see
`C121_counting_pipe_refuted`. -/
theorem C121_counting_pipe_partial (T : CInt) (hT : T.Std) (r : Rng σ α) (l : List α) (h : Ra r l) (f : Int) (n : Nat) (hf : T.Has f)
    (hl : T.Has (f + n)) (hd : (n : Int) ≤ T.max) (hd' : n < 2 ^ 63) :
    OutRa (countingPipe T r (counting2 T f (f + n))) ((List.range (min l.length n)).map fun i : Nat => f + i) := by
  obtain ⟨pos, h⟩ := h
  have hb := hT.bounds
  have hm : ∀ m : Nat, m ≤ n → Ra (cnRng T f (f + m)) ((List.range m).map fun i : Nat => f + i) := by
    intro m hm
    exact ⟨_, cnRng_at hT hf (by unfold CInt.Has at *; omega) (by omega) (by omega)⟩
  have ed : T.arith (f + (n : Int) - f) = some (n : Int) := by
    rw [show f + (n : Int) - f = n by omega, CInt.arith_ok hT ⟨by omega, hd⟩]
  have eu : Adaptor.toU (n : Int) = n := by rw [Adaptor.toU]; omega
  by_cases hc : l.length < n
  · refine ⟨cnRng T f (f + l.length), ?_, ?_⟩
    · simp only [countingPipe, counting2, size_at h, cnRng, ed, Option.bind_eq_bind, Option.bind_some, eu]
      rw [if_pos (by omega), cnAdd_ok hT (by unfold CInt.Has at *; omega)]
      rfl
    · rw [Nat.min_eq_left (by omega)]
      exact hm _ (by omega)
  · refine ⟨cnRng T f (f + n), ?_, ?_⟩
    · simp only [countingPipe, counting2, size_at h, cnRng, ed, Option.bind_eq_bind, Option.bind_some, eu]
      rw [if_neg (by omega)]
    · rw [Nat.min_eq_right (by omega)]
      exact hm _ (le_refl _)

example : ∃ r, countingPipe .int32 (block ['a', 'b', 'c'] 0 3) (counting2 .int32 5 100) = some r ∧ values r = some [5, 6, 7] := by
  obtain ⟨r, h, h'⟩ := C121_counting_pipe_partial .int32 (.inr (.inr (.inl rfl))) (block ['a', 'b', 'c'] 0 3) _ ⟨_, block_at ['a', 'b', 'c'] 0 3 (by decide) (by decide)⟩
    5 95 (by decide) (by decide) (by decide) (by decide)
  exact ⟨r, h, values_of_fwd (Ra.fwd h')⟩

/-- `range | counting(f)` with a negative `f` of type `int` or wider is undefined for every range: `max - f` overflows. -/
theorem C121_counting_pipe_refuted (T : CInt) (hT : T.w = 32 ∨ T.w = 64) (hs : T.sg = true) (r : Rng σ α) (f : Int) (hf : f < 0) :
    countingPipe T r (counting1 T f) = none := by
  have : T.arith (T.max - f) = none := by
    rw [CInt.arith, if_neg (by omega), if_pos hs, if_neg]
    rintro ⟨-, h⟩
    omega
  simp only [countingPipe, counting1, cnRng, cnDefault, this]
  cases size r <;> rfl

/-- Differences of `counting_iterator<unsigned int>` in the other direction are not negative. -/
theorem C121_counting_diff_refuted (a b : Int) (h0 : 0 ≤ a) (h : a < b) (hb : b < 2 ^ 32) : cnDiff .uint32 a b = some (2 ^ 32 - (b - a)) := by
  have hm : CInt.int64.min = -2 ^ 63 := by decide
  have hx : CInt.int64.max = 2 ^ 63 - 1 := by decide
  have e : CInt.uint32.arith (a - b) = some (2 ^ 32 - (b - a)) := by
    rw [CInt.arith, if_neg (by decide), if_neg (by decide)]
    congr 1
    show (a - b) % 2 ^ 32 = _
    omega
  rw [cnDiff, e, Option.map_some, CInt.conv_ok std64 ⟨by rw [hm]; omega, by rw [hx]; omega⟩]

/-- The constructor `counting_range(range, first)` counts from `first` as many values as the range has. -/
theorem C121_counting_from (T : CInt) (hT : T.Std) (r : Rng σ α) (l : List α) (h : Ra r l) (f : Int) (hf : T.Has f) (hl : T.Has (f + l.length)) :
    ∃ c, countingFrom T r f = some c ∧ values c = some ((List.range l.length).map fun i : Nat => f + i) := by
  obtain ⟨pos, h⟩ := h
  exact ⟨cnRng T f (f + l.length), by simp only [countingFrom, size_at h, Option.bind_eq_bind, Option.bind_some, cnAdd_ok hT hl],
    values_of_fwd ⟨_, cnRng_fwd hT hf hl⟩⟩

/-- The constructor `counting_range(range)` counts from the largest value: for `int` a loop over it overflows. -/
theorem C121_counting_default_refuted (r : Rng σ α) (l : List α) (h : Ra r l) (h0 : l ≠ []) (hl : l.length < 2 ^ 32) :
    (countingOf .int32 r).bind values = none := by
  obtain ⟨pos, h⟩ := h
  have hp := List.length_pos_of_ne_nil h0
  have hM : CInt.int32.max = 2 ^ 31 - 1 := by decide
  have hm : CInt.int32.min = -2 ^ 31 := by decide
  have ha : cnAdd .int32 (cnDefault .int32) l.length = some (CInt.int32.conv (2 ^ 31 - 1 + l.length)) := by
    rw [cnAdd, cnDefault, hM, cnWide, if_neg (by decide), int64_ok (by omega) (by omega), Option.map_some]
  have hne : CInt.int32.conv (2 ^ 31 - 1 + l.length) ≠ 2 ^ 31 - 1 := by
    rw [CInt.conv, hm]
    show (_ % 2 ^ 32 + _ ≠ _)
    omega
  simp only [countingOf, size_at h, Option.bind_eq_bind, Option.bind_some, ha]
  rw [values, walk.eq_def]
  have e1 : (cnRng .int32 (cnDefault .int32) (CInt.int32.conv (2 ^ 31 - 1 + l.length))).eq (cnDefault .int32)
      (cnRng .int32 (cnDefault .int32) (CInt.int32.conv (2 ^ 31 - 1 + l.length))).last = false := by
    simp only [cnRng, cnDefault, hM, beq_eq_false_iff_ne]
    exact fun h => hne h.symm
  have e2 : cnNext .int32 (cnDefault .int32) = none := by decide +kernel
  show (if (cnRng .int32 (cnDefault .int32) _).eq (cnDefault .int32) _ = true then _ else _) = none
  rw [e1]
  simp [cnRng, e2]

/-! ### one value -/

/-- `range | filled(v)`: as many `v` as the range has elements; the order of the iterators is that of positions. -/
theorem C121_filled (v : α) (r : Rng σ α) (l : List α) (h : Ra r l) (hl : l.length < 2 ^ 63) :
    OutRa (filled v r) (List.replicate l.length v)
      ∧ ∀ i j : Nat, valLt ((l.length : Int) - i) ((l.length : Int) - j) = decide (i < j) := by
  obtain ⟨pos, h⟩ := h
  refine ⟨⟨_, by simp only [filled, size_at h, Option.bind_eq_bind, Option.bind_some], _, valRng_at v l.length hl⟩, ?_⟩
  intro i j
  rw [valLt]
  exact decide_eq_decide.2 (by omega)

/-! ### indexes -/

/-- A loop over `range | indexed(ix)` meets the elements with the indexes `ix, ix + 1, …`. -/
theorem C121_indexed (ix : Int) (r : Rng σ α) (l : List α) (h : Fwd r l) (h1 : -2 ^ 63 ≤ ix) (h2 : ix + l.length < 2 ^ 63) :
    values (indexed ix r) = some (l.zipIdx.map fun p => (p.1, ix + (p.2 : Int))) := by
  obtain ⟨pos, h⟩ := h
  have hlen : (l.zipIdx.map fun p : α × Nat => (p.1, ix + (p.2 : Int))).length = l.length := by simp
  refine values_of_fwd ⟨fun i => (pos i, ix + i), ?_, ?_, ?_, ?_⟩
  · simp [indexed, h.first]
  · intro i hi
    simp only [indexed]
    rw [h.deref i (by omega)]
    simp
  · intro i hi
    simp only [indexed]
    rw [h.next i (by omega), Option.bind_some, int64_ok (by omega) (by omega), Option.map_some]
    congr 2
    push_cast
    omega
  · intro i hi
    simp only [indexed]
    rw [h.eqLast i (by omega), hlen]

/-- The index of `end` is that of `begin`: the same position has another index if it is reached from the end. -/
theorem C121_indexed_end_refuted (ix : Int) (r : Rng σ α) (l : List α) (pos : Nat → σ) (h : RaAt r l pos) (h0 : l ≠ [])
    (h1 : -2 ^ 63 < ix) (h2 : ix + l.length < 2 ^ 63) :
    ∃ a b, (indexed ix r).add (indexed ix r).first (l.length - 1 : Nat) = some a ∧ (indexed ix r).add (indexed ix r).last (-1) = some b
      ∧ (indexed ix r).eq a b = true ∧ a.2 = ix + (l.length - 1 : Nat) ∧ b.2 = ix - 1 ∧ a.2 ≠ b.2 := by
  have hp := List.length_pos_of_ne_nil h0
  refine ⟨(pos (l.length - 1), ix + (l.length - 1 : Nat)), (pos (l.length - 1), ix - 1), ?_, ?_, ?_, rfl, rfl, ?_⟩
  · simp only [indexed]
    rw [h.first, h.add 0 _ (l.length - 1) (by omega) (by omega) (by omega), Option.bind_some, int64_ok (by omega) (by omega), Option.map_some]
  · simp only [indexed]
    rw [h.last, h.add _ _ (l.length - 1) (by omega) (by omega) (by omega), Option.bind_some, int64_ok (by omega) (by omega), Option.map_some]
    rfl
  · simp only [indexed]
    rw [h.eq _ _ (by omega) (by omega)]
    simp
  · show ix + ((l.length - 1 : Nat) : Int) ≠ ix - 1
    omega

/-! ### what does not compile -/

/-- `range | steps(width)`, `range | steps(width, init)` and `range | blanked(n, value)` never compile: `min` has arguments of a signed
and an unsigned type. -/
theorem C121_steps_blanked_refuted (xs : List α) (width init : Int) (v : α) (n : Int) (r : Rng σ α) :
    steps xs width init = none ∧ blankedPipe v n r = none := ⟨rfl, rfl⟩

/-- `range | removed(v)` and `range | removed_if(p)` never compile: the arguments of the constructor of `filter_iterator` are in the
wrong order. `filtered` has them right. -/
theorem C121_removed_refuted : removedCall = none ∧ filteredCall = some () := ⟨rfl, rfl⟩

/-- `it += n` is `it = it + n` for the iterator classes whose `swap` calls `sprout::swap`. -/
theorem C121_add_assign_partial (c : Cls) (hc : swapQualified c = true) (add : σ → Int → Option σ) (it : σ) (n : Int) :
    addAssign c add it n = add it n := by
  rw [addAssign]
  cases h : add it n with
  | none => rfl
  | some t => simp [memberSwap, hc]

/-- `+=`, `-=`, `swap` and converting assignment of `reverse_iterator`, `step_iterator`, `move_iterator`, `next_iterator`,
`valued_iterator`, `remake_iterator` and `indexed_iterator` do not compile. -/
theorem C121_add_assign_refuted (add : σ → Int → Option σ) (it : σ) (n : Int) :
    ∀ c ∈ [Cls.reverse, .step, .move, .next, .valued, .remake, .indexed], addAssign c add it n = none := by
  intro c hc
  have : swapQualified c = false := by
    simp only [List.mem_cons, List.not_mem_nil, or_false] at hc
    rcases hc with rfl | rfl | rfl | rfl | rfl | rfl | rfl <;> rfl
  rw [addAssign]
  cases add it n with
  | none => rfl
  | some t => simp [memberSwap, this]

example : addAssign .reverse (Adaptor.revAdd [1, 2, 3]) 3 1 = none ∧ Adaptor.revAdd [1, 2, 3] 3 1 = some 2 := by decide +kernel

end Sprout

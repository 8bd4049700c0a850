import Verif.Proofs.IndexSeq

/-!
# C116: index sequences
-/

namespace Sprout
open IndexSeq IndexSeqSpec StaticInt

/-- C116: `integer_range<T, a, b, s>` with an ascending step is the arithmetic progression from `a` to the excluded bound `b`, when the
rounded difference fits the signed type and (for signed types not narrower than `int`) `a` is not negative. -/
theorem C116_ascending_partial {T : CInt} (hT : T.Std) {a b s : Int} (ha : T.Has a) (hb : T.Has b) (hS : (sgnT T).Has s)
    (hab : a ≤ b) (hs : 0 < s) (hd : b - a ≤ (sgnT T).max) (hq : b - a + (s - 1) ≤ (promT (sgnT T)).max)
    (h0 : T.sg = true → ¬ T.w < 32 → 0 ≤ a) : ∃ l, integerRange T a b s = some l ∧ IsRange a b s l := by
  obtain ⟨n, e, h1, h2⟩ := rangeN_asc hT hab hs hS hd hq
  have pos : ∀ k : Nat, 0 ≤ (k : Int) * s := fun k => Int.mul_nonneg (by omega) hs.le
  refine ⟨prog a s n, ?_, isRange_prog (fun k hk => ?_) ?_⟩
  · rw [integerRange, if_pos (by omega), e]
    simp only [Option.bind_eq_bind, Option.bind_some, Int.toNat_natCast]
    unfold CInt.Has at ha hb
    refine dispatch_asc hT ha hs (fun k hk => ?_) (fun k hk => ?_) h0
    · have := h1 k hk
      have := pos k
      unfold CInt.Has
      omega
    · have := h1 k hk
      omega
  · rw [Before, if_pos hs]
    exact h1 k hk
  · rw [Before, if_pos hs]
    omega

/-- C116: descending ranges, for sequences of at most one element, unsigned types not narrower than `int` and signed types narrower than it. -/
theorem C116_descending_partial {T : CInt} (hT : T.Std) {a b s : Int} (ha : T.Has a) (hb : T.Has b) (hS : (sgnT T).Has s)
    (hab : b ≤ a) (hs : s < 0) (hd : a - b ≤ (sgnT T).max) (hq : a - b + (-s - 1) ≤ (promT (sgnT T)).max + 1)
    (h0 : a + s ≤ b ∨ (T.sg = false ∧ ¬ T.w < 32) ∨ (T.sg = true ∧ T.w < 32)) :
    ∃ l, integerRange T a b s = some l ∧ IsRange a b s l := by
  obtain ⟨n, e, h1, h2⟩ := rangeN_desc hT hab hs hS hd hq
  have neg : ∀ k : Nat, (k : Int) * s ≤ 0 := fun k => Int.mul_nonpos_of_nonneg_of_nonpos (by omega) hs.le
  refine ⟨prog a s n, ?_, isRange_prog (fun k hk => ?_) ?_⟩
  · rw [integerRange, if_pos (by omega), e]
    simp only [Option.bind_eq_bind, Option.bind_some, Int.toNat_natCast]
    unfold CInt.Has at ha hb
    refine dispatch_desc hT hs (fun k hk => ?_) (fun k hk => ?_) ?_
    · have := h1 k hk
      have := neg k
      unfold CInt.Has
      omega
    · have := h1 k hk
      omega
    · rcases h0 with h | h
      · left
        by_contra hc
        have := h1 1 (by omega)
        simp at this
        omega
      · exact Or.inr h
  · rw [Before, if_neg (by omega)]
    exact h1 k hk
  · rw [Before, if_neg (by omega)]
    omega

/-- C116: for the signed types not narrower than `int` (so for `index_t`), every `integer_range` that compiles is the right progression. -/
theorem C116_sound {T : CInt} (hT : T.Std) (hsg : T.sg = true) (hw : ¬ T.w < 32) {a b s : Int} (ha : T.Has a) (hb : T.Has b)
    (hS : (sgnT T).Has s) {l : List Int} (h : integerRange T a b s = some l) : IsRange a b s l := by
  rw [integerRange] at h
  split at h
  rotate_left
  · simp at h
  rename_i hc
  rcases lt_trichotomy s 0 with hs | hs | hs
  · have hab : b ≤ a := by omega
    by_cases hd : a - b ≤ (sgnT T).max ∧ a - b + (-s - 1) ≤ (promT (sgnT T)).max + 1
    · obtain ⟨n, e, h1, h2⟩ := rangeN_desc hT hab hs hS hd.1 hd.2
      rw [e] at h
      simp only [Option.bind_eq_bind, Option.bind_some, Int.toNat_natCast] at h
      have neg : ∀ k : Nat, (k : Int) * s ≤ 0 := fun k => Int.mul_nonpos_of_nonneg_of_nonpos (by omega) hs.le
      have hb2 : ∀ k : Nat, k < n → -(sgnT T).max ≤ (k : Int) * s := fun k hk => by have := h1 k hk; omega
      by_cases hn : 2 ≤ n
      · rw [dispatch_desc_none hT hsg hw hs hb2 hn] at h
        simp at h
      · rw [dispatch_desc hT hs (fun k hk => by
            have := h1 k hk; have := neg k; unfold CInt.Has at *; omega) hb2 (Or.inl (by omega))] at h
        simp only [Option.some.injEq] at h
        rw [← h]
        exact isRange_prog (fun k hk => by rw [Before, if_neg (by omega)]; exact h1 k hk) (by rw [Before, if_neg (by omega)]; omega)
    · rw [rangeN_desc_none hT hsg hw hab hs hd] at h
      simp at h
  · subst hs
    rw [rangeN_zero] at h
    simp at h
  · have hab : a ≤ b := by omega
    by_cases hd : b - a ≤ (sgnT T).max ∧ b - a + (s - 1) ≤ (promT (sgnT T)).max
    · obtain ⟨n, e, h1, h2⟩ := rangeN_asc hT hab hs hS hd.1 hd.2
      rw [e] at h
      simp only [Option.bind_eq_bind, Option.bind_some, Int.toNat_natCast] at h
      have pos : ∀ k : Nat, 0 ≤ (k : Int) * s := fun k => Int.mul_nonneg (by omega) hs.le
      rw [dispatch_sound hT hsg hw hs (fun k hk => by have := h1 k hk; have := pos k; unfold CInt.Has at *; omega)
        (fun k hk => by have := h1 k hk; omega) h]
      exact isRange_prog (fun k hk => by rw [Before, if_pos hs]; exact h1 k hk) (by rw [Before, if_pos hs]; omega)
    · rw [rangeN_asc_none hT hsg hw hab hs hd] at h
      simp at h

/-- C116 refuted: for the signed types not narrower than `int` no descending range of two or more elements compiles (`N / 2 * Step` is
unsigned and does not fit the template parameter). -/
theorem C116_descending_signed_refuted {T : CInt} (hT : T.Std) (hsg : T.sg = true) (hw : ¬ T.w < 32) {a b s : Int}
    (hS : (sgnT T).Has s) (hs : s < 0) (h2 : b < a + s) : integerRange T a b s = none := by
  rw [integerRange, if_pos (by omega)]
  by_cases hd : a - b ≤ (sgnT T).max ∧ a - b + (-s - 1) ≤ (promT (sgnT T)).max + 1
  · obtain ⟨n, e, h1, h3⟩ := rangeN_desc hT (by omega) hs hS hd.1 hd.2
    rw [e]
    simp only [Option.bind_eq_bind, Option.bind_some, Int.toNat_natCast]
    refine dispatch_desc_none hT hsg hw hs (fun k hk => by have := h1 k hk; omega) ?_
    by_contra hn
    have : n = 0 ∨ n = 1 := by omega
    rcases this with rfl | rfl <;> simp at h3 <;> omega
  · rw [rangeN_desc_none hT hsg hw (by omega) hs hd]
    rfl

/-- the instance used by `index_range`: `index_range<3, 0>` -/
theorem C116_index_range_refuted : indexRange 3 0 = none :=
  C116_descending_signed_refuted (T := CInt.int64) (by decide) rfl (by decide) (by decide) (by decide) (by decide)

/-- C116 refuted: a range of three negative values of a wide signed type does not compile (the last one is computed unsigned):
`integer_range<int, -5, -2>`; that of two does. -/
theorem C116_negative_refuted : integerRange CInt.int32 (-5) (-2) 1 = none ∧ integerRange CInt.int32 (-5) (-3) 1 = some [-5, -4] := by
  decide +kernel

/-- C116 refuted: differences above the maximum of the signed type: `make_integer_sequence<unsigned char, 200>` does not compile, and
`integer_range<signed char, -100, 100, 127>`, `integer_range<unsigned, 0, 0x80000000, 0x7fffffff>` are silently empty. -/
theorem C116_difference_refuted : makeIntegerSequence CInt.uint8 200 = none ∧ integerRange CInt.int8 (-100) 100 127 = some [] ∧
    integerRange CInt.uint32 0 0x80000000 0x7fffffff = some [] := by decide +kernel

/-- C116 refuted: descending ranges of narrow unsigned types (`integer_range<unsigned char, 3, 0>`), and an empty range with step 0, which
the `static_assert` admits. -/
theorem C116_narrow_refuted : integerRange CInt.uint8 3 0 (-1) = none ∧ integerRange CInt.int32 2 2 0 = none := by decide +kernel

/-- C116: `integer_n<T, I, N>` is `N` times `I`. -/
theorem C116_integer_n (i : Int) (n : Nat) : integerN i n = List.replicate n i := integerN_eq i n

/-- C116: `make_integer_sequence<T, N>` is `0, ..., N - 1` for `N` up to the maximum of the signed type. -/
theorem C116_make_integer_sequence_partial {T : CInt} (hT : T.Std) (n : Nat) (hn : (n : Int) ≤ (sgnT T).max) :
    makeIntegerSequence T n = some ((List.range n).map fun k : Nat => (k : Int)) := by
  obtain ⟨H, f1, f2, f3, f4, f5, f6, f7, f8, f9⟩ := facts hT
  obtain ⟨hm, hm'⟩ := prom_min hT
  have hbase : (sgnT T).Has ((n : Int) - 0 + (1 - 1)) := by unfold CInt.Has; omega
  have hq := has_prom hT hbase
  unfold CInt.Has at hq
  have hz : T.Has 0 := by rw [CInt.Has, f8, f9]; split <;> omega
  have hN : T.Has (n : Int) := by rw [CInt.Has, f8, f9]; split <;> omega
  obtain ⟨l, e, h⟩ := C116_ascending_partial hT (a := 0) (b := n) (s := 1) hz hN (by unfold CInt.Has; omega) (by omega) (by omega)
    (by omega) hq.2 (fun _ _ => le_rfl)
  rw [makeIntegerSequence, defaultStep, if_pos (by omega), e]
  have hlen : l.length = n := by
    have hf := h.full
    rw [Before, if_pos (by omega)] at hf
    by_contra hc
    have hgt : n < l.length := by omega
    have hx := h.elem n hgt
    have := h.inside _ (List.mem_of_getElem? hx)
    rw [Before, if_pos (by omega)] at this
    omega
  congr 1
  apply List.ext_getElem?
  intro k
  by_cases hk : k < n
  · rw [h.elem k (by omega)]
    simp [List.getElem?_range hk]
  · rw [List.getElem?_eq_none (by omega), List.getElem?_eq_none (by simp; omega)]

/-- `make_index_tuple<N>` -/
theorem C116_make_index_tuple (n : Nat) (hn : (n : Int) ≤ CInt.int64.max) :
    makeIndexTuple n = some ((List.range n).map fun k : Nat => (k : Int)) :=
  C116_make_integer_sequence_partial (T := CInt.int64) (by decide) n hn

/-- non-vacuity -/
example : integerRange CInt.int64 2 11 3 = some [2, 5, 8] := by decide +kernel
example : IsRange 2 11 3 [2, 5, 8] := by
  obtain ⟨l, h1, h2⟩ := C116_ascending_partial (T := CInt.int64) (a := 2) (b := 11) (s := 3) (by decide) (by decide) (by decide) (by decide)
    (by decide) (by decide) (by decide) (by decide) (by decide)
  have : integerRange CInt.int64 2 11 3 = some [2, 5, 8] := by decide +kernel
  rw [this] at h1
  rwa [Option.some.inj h1]
example : integerRange CInt.uint32 7 0 (-2) = some [7, 5, 3, 1] := by decide +kernel
example : integerRange CInt.int8 3 (-4) (-2) = some [3, 1, -1, -3] := by decide +kernel
example : makeIndexTuple 5 = some [0, 1, 2, 3, 4] := by decide +kernel

end Sprout

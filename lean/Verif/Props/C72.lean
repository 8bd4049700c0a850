import Verif.Proofs.StringSearch

/-!
# C72: searching in a string

The find functions return the lowest (the rfind and find_last functions the highest) admissible position, or `npos`.
The contents of the string are the `cs` at position `d` of `m`, the characters given the `ds` at position `s` of `ms`.
-/

namespace Sprout
open Spec.Str Str

/-- `find(s, pos, n)`: the least position from `pos` on at which the sequence occurs. *Partial*: `Traits::compare` stops at a
null character, so the sequence must not contain one beyond its first character (`C72_find_null_refuted`). -/
theorem C72_find_partial (m ms : List Int) (d s pos : Nat) (cs ds : List Int) (h1 : Seg m d cs) (h2 : Seg ms s ds)
    (h0 : 0 ∉ ds.tail) :
    ∃ r, findImpl m ms d cs.length s pos ds.length = some r ∧ Lowest (fun i => pos ≤ i ∧ OccursAt cs ds i) r := by
  rw [findImpl]
  by_cases hn : ds.length = 0
  · rw [if_pos hn]
    have e := List.length_eq_zero_iff.1 hn
    subst e
    refine ⟨_, rfl, ?_⟩
    by_cases hp : pos ≤ cs.length
    · rw [if_pos hp]
      refine Or.inl ⟨⟨Nat.le_refl _, by simpa using hp, by simp⟩, ?_⟩
      rintro i hi ⟨a, _⟩; omega
    · rw [if_neg hp]
      refine Or.inr ⟨rfl, ?_⟩
      rintro i ⟨a, b, _⟩
      simp only [List.length_nil] at b
      omega
  · rw [if_neg hn]
    by_cases hl : ds.length ≤ cs.length
    · rw [if_pos hl]
      have step : ∀ i, i < cs.length - ds.length + 1 → findImpl1 m ms d cs.length s i ds.length =
          (if (cs.drop i).take ds.length = ds then some i else findImpl1 m ms d cs.length s (i + 1) ds.length) := by
        intro i hi
        rw [findImpl1, if_pos (by omega)]
        cases ds with
        | nil => simp at hn
        | cons y ys =>
          simp only [List.length_cons] at hi hl ⊢
          have e1 : rd m (d + i) = some cs[i] := by
            have := h1 i (by omega)
            rw [List.getElem?_eq_getElem (l := cs) (by omega)] at this
            exact this
          have e2 : rd ms s = some y := (Seg.cons h2).1
          have hs2 : Seg ms (s + 1) ys := (Seg.cons h2).2
          have hc : (cs.drop i).take (ys.length + 1) = cs[i] :: (cs.drop (i + 1)).take ys.length := by
            rw [List.drop_eq_getElem_cons (by omega), List.take_succ_cons]
          simp only [e1, e2, Option.bind_eq_bind, Option.bind_some, beq_iff_eq, hc]
          by_cases hxy : cs[i] = y
          · have hlen : ((cs.drop (i + 1)).take ys.length).length = ys.length := by simp; omega
            rw [if_pos hxy, Nat.add_sub_cancel, traitsCompare_seg hlen rfl (seg_sub h1 (i + 1) ys.length) hs2]
            simp only [Option.map_some, Option.bind_some]
            obtain ⟨k0, k2⟩ := tw_eq _ _ hlen (Or.inr h0)
            by_cases ht : tw ((cs.drop (i + 1)).take ys.length) ys = 2
            · have e := k2.1 ht
              rw [e] at ht
              simp only [e, ht, ne_eq, not_true_eq_false, if_false, beq_self_eq_true, if_true, hxy]
            · have e : ¬(cs.drop (i + 1)).take ys.length = ys := fun e => ht (k2.2 e)
              simp only [ne_eq, ht, not_false_eq_true, if_true, beq_iff_eq, k0, if_false, List.cons.injEq, e, and_false]
          · rw [if_neg hxy]
            rw [if_neg (by simp), if_neg (by rw [List.cons.injEq]; rintro ⟨e, _⟩; exact hxy e)]
      apply up_spec (f := fun i => findImpl1 m ms d cs.length s i ds.length) (B := cs.length - ds.length + 1)
      · intro i hi hp
        simp only [step i hi]
        rw [if_pos ((occursAt_iff (by omega)).1 hp)]
      · intro i hi hp
        simp only [step i hi]
        rw [if_neg (fun e => hp ((occursAt_iff (by omega)).2 e))]
      · intro i hi
        rw [findImpl1, if_neg (by omega)]
      · rintro i hi ⟨a, _⟩
        omega
    · rw [if_neg hl]
      refine ⟨npos, rfl, Or.inr ⟨rfl, ?_⟩⟩
      rintro i ⟨_, a, _⟩
      omega

example : findImpl [97, 98, 97, 98, 0] [98, 97, 98] 0 4 0 0 2 = some 1 ↔
    ∃ r, findImpl [97, 98, 97, 98, 0] [98, 97, 98] 0 4 0 0 2 = some r ∧ r = 1 := by simp

example : ∃ r, findImpl [97, 98, 97, 98, 0] [98, 97] 0 4 0 1 2 = some r ∧
    Lowest (fun i => 1 ≤ i ∧ OccursAt [97, 98, 97, 98] [98, 97] i) r :=
  C72_find_partial _ _ 0 0 1 [97, 98, 97, 98] [98, 97]
    (by intro i hi; match i, hi with | 0, _ => rfl | 1, _ => rfl | 2, _ => rfl | 3, _ => rfl)
    (by intro i hi; match i, hi with | 0, _ => rfl | 1, _ => rfl) (by decide)

/-- the characters `a 0 b` are found in the string `a 0 c` -/
theorem C72_find_null_refuted : ∃ m ms : List Int, findImpl m ms 0 3 0 0 3 = some 0 ∧ Seg m 0 [97, 0, 99] ∧ Seg ms 0 [97, 0, 98] ∧
    ¬OccursAt [97, 0, 99] [97, 0, 98] 0 := by
  have s1 : Seg [97, 0, 99, 0] 0 [(97 : Int), 0, 99] := by
    intro i hi; match i, hi with | 0, _ => rfl | 1, _ => rfl | 2, _ => rfl
  have s2 : Seg [97, 0, 98] 0 [(97 : Int), 0, 98] := by
    intro i hi; match i, hi with | 0, _ => rfl | 1, _ => rfl | 2, _ => rfl
  refine ⟨[97, 0, 99, 0], [97, 0, 98], ?_, s1, s2, ?_⟩
  · rw [findImpl, if_neg (by decide), if_pos (by decide), findImpl1, if_pos (by decide)]
    have e1 : rd [(97 : Int), 0, 99, 0] (0 + 0) = some 97 := rfl
    have e2 : rd [(97 : Int), 0, 98] 0 = some 97 := rfl
    rw [e1, e2, Option.bind_eq_bind, Option.bind_some, Option.bind_eq_bind, Option.bind_some, if_pos (by decide)]
    have e3 := traitsCompare_seg (n := 2) (xs := [0, 99]) (ys := [0, 98]) rfl rfl (seg_drop s1 1) (seg_drop s2 1)
    simp only [Nat.zero_add, Nat.reduceSub] at e3 ⊢
    rw [e3]
    rfl
  · rintro ⟨_, h⟩
    have := h 2 (by decide)
    revert this; decide

/-- `rfind(s, pos, n)`: the greatest position up to `pos` at which the sequence occurs. *Partial*: no null characters in the
sequence, as above. -/
theorem C72_rfind_partial (m ms : List Int) (d s pos : Nat) (cs ds : List Int) (h1 : Seg m d cs) (h2 : Seg ms s ds)
    (h0 : 0 ∉ ds) :
    ∃ r, rfindImpl m ms d cs.length s pos ds.length = some r ∧ Highest (fun i => i ≤ pos ∧ OccursAt cs ds i) r := by
  rw [rfindImpl]
  by_cases hl : ds.length ≤ cs.length
  · rw [if_pos hl]
    have cmp : ∀ i, i + ds.length ≤ cs.length → ∃ r, traitsCompare m ms (d + i) s ds.length = some r ∧ (r = 0 ↔ OccursAt cs ds i) := by
      intro i hi
      have hlen : ((cs.drop i).take ds.length).length = ds.length := by simp; omega
      refine ⟨_, traitsCompare_seg hlen rfl (seg_sub h1 i ds.length) h2, ?_⟩
      obtain ⟨k0, k2⟩ := tw_eq _ _ hlen (Or.inr h0)
      rw [occursAt_iff hi, ← k2]
      by_cases ht : tw ((cs.drop i).take ds.length) ds = 2
      · simp [ht]
      · simp [ht, k0]
    have hm : min (cs.length - ds.length) pos =
        if cs.length - ds.length + 1 - 1 > pos then pos else cs.length - ds.length + 1 - 1 := by
      split <;> omega
    rw [hm]
    apply down_spec_lt (f := fun i => rfindImpl1 m ms d s i ds.length) (B := cs.length - ds.length + 1) (by omega)
    · intro i hi hp
      obtain ⟨r, e, hr⟩ := cmp i (by omega)
      cases i with
      | zero => simp only [rfindImpl1, e, Option.bind_eq_bind, Option.bind_some, hr.2 hp, Nat.add_zero] at e ⊢; simp [e, hr.2 hp]
      | succ i => simp only [rfindImpl1, e, Option.bind_eq_bind, Option.bind_some, hr.2 hp, if_true]
    · intro i hi hp
      obtain ⟨r, e, hr⟩ := cmp (i + 1) (by omega)
      have : r ≠ 0 := fun h => hp (hr.1 h)
      simp only [rfindImpl1, e, Option.bind_eq_bind, Option.bind_some, this, if_false]
    · intro hp
      obtain ⟨r, e, hr⟩ := cmp 0 (by omega)
      have : r ≠ 0 := fun h => hp (hr.1 h)
      rw [Nat.add_zero] at e
      simp only [rfindImpl1, e, Option.bind_eq_bind, Option.bind_some, this, if_false]
    · rintro i hi ⟨a, _⟩
      omega
  · rw [if_neg hl]
    refine ⟨npos, rfl, Or.inr ⟨rfl, ?_⟩⟩
    rintro i ⟨_, a, _⟩
    omega

example : rfindImpl [97, 98, 97, 98, 0] [97, 98] 0 4 0 npos 2 = rfindImpl [97, 98, 97, 98, 0] [97, 98] 0 4 0 2 2 := by
  simp [rfindImpl, npos]

/-- `rfind` finds `0 b` in `0 c` -/
theorem C72_rfind_null_refuted : ∃ m ms : List Int, rfindImpl m ms 0 2 0 npos 2 = some 0 ∧ Seg m 0 [0, 99] ∧ Seg ms 0 [0, 98] ∧
    ¬OccursAt [0, 99] [0, 98] 0 := by
  have s1 : Seg [0, 99, 0] 0 [(0 : Int), 99] := by
    intro i hi; match i, hi with | 0, _ => rfl | 1, _ => rfl
  have s2 : Seg [0, 98] 0 [(0 : Int), 98] := by
    intro i hi; match i, hi with | 0, _ => rfl | 1, _ => rfl
  refine ⟨[0, 99, 0], [0, 98], ?_, s1, s2, ?_⟩
  · rw [rfindImpl, if_pos (by decide)]
    have : min (2 - 2) npos = 0 := by decide
    rw [this, rfindImpl1, traitsCompare_seg (n := 2) (xs := [0, 99]) (ys := [0, 98]) rfl rfl s1 s2]
    rfl
  · rintro ⟨_, h⟩
    have := h 1 (by decide)
    revert this; decide

/-- `find(c, pos)`: the least position from `pos` on with the character `c` -/
theorem C72_find_char (m : List Int) (d pos : Nat) (cs : List Int) (c : Int) (h1 : Seg m d cs) :
    ∃ r, findCImpl m d cs.length c pos = some r ∧ Lowest (fun i => pos ≤ i ∧ cs[i]? = some c) r := by
  rw [findCImpl]
  by_cases hp : pos < cs.length
  · rw [if_pos hp]
    obtain ⟨p, e, hf, hpe⟩ := traitsFind_found (seg_drop h1 pos) c
    rw [List.length_drop] at e hf
    have hl : d + pos + (cs.length - pos) = d + cs.length := by omega
    rw [hl] at hf
    rw [e, Option.bind_eq_bind, Option.bind_some, hf]
    refine ⟨_, rfl, ?_⟩
    by_cases hc : c ∈ cs.drop pos
    · have hk : (cs.drop pos).findIdx (fun x => x == c) < (cs.drop pos).length := List.findIdx_lt_length.2 ⟨c, hc, by simp⟩
      have hv := List.findIdx_getElem (w := hk)
      simp only [beq_iff_eq, List.getElem_drop] at hv
      rw [List.length_drop] at hk
      simp only [hc, decide_true, if_true]
      refine Or.inl ⟨⟨by omega, ?_⟩, ?_⟩
      · rw [hpe]
        have : d + pos + (cs.drop pos).findIdx (fun x => x == c) - d = pos + (cs.drop pos).findIdx (fun x => x == c) := by omega
        rw [this, List.getElem?_eq_getElem (by omega), hv]
      · rintro i hi ⟨a, b⟩
        have := List.not_of_lt_findIdx (xs := cs.drop pos) (p := fun x => x == c) (i := i - pos) (by omega)
        rw [List.getElem?_eq_some_iff] at b
        obtain ⟨b1, b2⟩ := b
        simp only [List.getElem_drop, Bool.not_eq_true, beq_eq_false_iff_ne, ne_eq] at this
        apply this
        have ei : pos + (i - pos) = i := by omega
        simpa only [ei] using b2
    · simp only [hc, decide_false]
      refine Or.inr ⟨rfl, ?_⟩
      rintro i ⟨a, b⟩
      apply hc
      rw [List.mem_iff_getElem?]
      exact ⟨i - pos, by rw [List.getElem?_drop, ← b]; congr 1; omega⟩
  · rw [if_neg hp]
    refine ⟨npos, rfl, Or.inr ⟨rfl, ?_⟩⟩
    rintro i ⟨a, b⟩
    rw [List.getElem?_eq_none (by omega)] at b
    cases b

private theorem sg : Seg [97, 98, 97, 98, 0] 0 [(97 : Int), 98, 97, 98] := by
  intro i hi; match i, hi with | 0, _ => rfl | 1, _ => rfl | 2, _ => rfl | 3, _ => rfl

example : ∃ r, findCImpl [97, 98, 97, 98, 0] 0 4 98 2 = some r ∧ Lowest (fun i => 2 ≤ i ∧ [(97 : Int), 98, 97, 98][i]? = some 98) r :=
  C72_find_char _ 0 2 _ 98 sg

/-- `rfind(c, pos)`: the greatest position up to `pos` with the character `c` -/
theorem C72_rfind_char (m : List Int) (d pos : Nat) (cs : List Int) (c : Int) (h1 : Seg m d cs) :
    ∃ r, rfindCImpl m d cs.length c pos = some r ∧ Highest (fun i => i ≤ pos ∧ cs[i]? = some c) r := by
  rw [rfindCImpl]
  by_cases hl : cs.length = 0
  · rw [if_neg (by simpa using hl)]
    refine ⟨npos, rfl, Or.inr ⟨rfl, ?_⟩⟩
    rintro i ⟨a, b⟩
    rw [List.getElem?_eq_none (by omega)] at b
    cases b
  · rw [if_pos hl]
    have hm : (if cs.length - 1 > pos then pos + 1 else cs.length) = (if cs.length - 1 > pos then pos else cs.length - 1) + 1 := by
      split <;> omega
    rw [hm]
    have step : ∀ i, i < cs.length → rfindCImpl1 m d c (i + 1) = if cs[i]? = some c then some i else rfindCImpl1 m d c i := by
      intro i hi
      have e : rd m (d + i) = some cs[i] := by
        have := h1 i hi
        rw [List.getElem?_eq_getElem hi] at this
        exact this
      rw [rfindCImpl1, e, List.getElem?_eq_getElem hi, Option.bind_eq_bind, Option.bind_some]
      simp only [beq_iff_eq, Option.some.injEq]
    apply down_spec_lt (f := fun i => rfindCImpl1 m d c (i + 1)) (B := cs.length) (by omega)
    · intro i hi hp
      simp only [step i hi, hp, if_true]
    · intro i hi hp
      simp only [step (i + 1) hi, hp, if_false]
    · intro hp
      simp only [step 0 (by omega), hp, if_false]
      rfl
    · intro i hi b
      rw [List.getElem?_eq_none (by omega)] at b
      cases b

example : rfindCImpl [97, 98, 97, 98, 0] 0 4 97 npos = some 2 := by decide

/-- `find_first_of(s, pos, n)` -/
theorem C72_find_first_of (m ms : List Int) (d s pos : Nat) (cs ds : List Int) (h1 : Seg m d cs) (h2 : Seg ms s ds) :
    ∃ r, findFirstOfImpl m ms d cs.length s pos ds.length = some r ∧ Lowest (fun i => pos ≤ i ∧ OneOf cs ds i) r := by
  by_cases hn : ds.length = 0
  · rw [findFirstOfImpl, if_neg (by simp [hn])]
    refine ⟨npos, rfl, Or.inr ⟨rfl, ?_⟩⟩
    rintro i ⟨_, c, _, b⟩
    rw [List.length_eq_zero_iff.1 hn] at b
    cases b
  · have step : ∀ i (hi : i < cs.length), findFirstOfImpl m ms d cs.length s i ds.length =
        if cs[i] ∈ ds then some i else findFirstOfImpl m ms d cs.length s (i + 1) ds.length := by
      intro i hi
      have e : rd m (d + i) = some cs[i] := by
        have := h1 i hi
        rw [List.getElem?_eq_getElem hi] at this
        exact this
      obtain ⟨p, e2, hf, _⟩ := traitsFind_found h2 cs[i]
      rw [findFirstOfImpl, if_pos ⟨hn, hi⟩, e, Option.bind_eq_bind, Option.bind_some, e2, Option.bind_eq_bind, Option.bind_some, hf]
      simp only [decide_eq_true_eq]
    apply up_spec (f := fun i => findFirstOfImpl m ms d cs.length s i ds.length) (B := cs.length)
    · rintro i hi ⟨c, hc, hm⟩
      rw [List.getElem?_eq_getElem hi, Option.some.injEq] at hc
      simp only [step i hi]
      rw [if_pos (by rw [hc]; exact hm)]
    · intro i hi hp
      simp only [step i hi]
      rw [if_neg (fun h => hp ⟨_, List.getElem?_eq_getElem hi, h⟩)]
    · intro i hi
      rw [findFirstOfImpl, if_neg (by omega)]
    · rintro i hi ⟨c, hc, _⟩
      rw [List.getElem?_eq_none hi] at hc
      cases hc

example : ∃ r, findFirstOfImpl [97, 98, 97, 98, 0] [97, 98, 97, 98, 0] 0 4 1 1 1 = some r ∧
    Lowest (fun i => 1 ≤ i ∧ OneOf [97, 98, 97, 98] [98] i) r :=
  C72_find_first_of _ _ 0 1 1 _ [98] sg (by intro i hi; match i, hi with | 0, _ => rfl)

/-- `find_last_of(s, pos, n)` -/
theorem C72_find_last_of (m ms : List Int) (d s pos : Nat) (cs ds : List Int) (h1 : Seg m d cs) (h2 : Seg ms s ds) :
    ∃ r, findLastOfImpl m ms d cs.length s pos ds.length = some r ∧ Highest (fun i => i ≤ pos ∧ OneOf cs ds i) r := by
  rw [findLastOfImpl]
  by_cases hn : cs.length ≠ 0 ∧ ds.length ≠ 0
  · rw [if_pos hn]
    have pr : ∀ i (hi : i < cs.length), rd m (d + i) = some cs[i] := by
      intro i hi
      have := h1 i hi
      rw [List.getElem?_eq_getElem hi] at this
      exact this
    apply down_spec_lt (f := fun i => findLastOfImpl1 false m ms d s ds.length i) (B := cs.length) (by omega)
    · rintro i hi ⟨c, hc, hm⟩
      rw [List.getElem?_eq_getElem hi, Option.some.injEq] at hc
      obtain ⟨p, e2, hf, _⟩ := traitsFind_found h2 cs[i]
      have e := pr i hi
      rw [hc] at e e2 hf
      cases i with
      | zero =>
        rw [Nat.add_zero] at e
        simp only [findLastOfImpl1, e, e2, Option.bind_eq_bind, Option.bind_some, hf, hm]
        rfl
      | succ i =>
        simp only [findLastOfImpl1, e, e2, Option.bind_eq_bind, Option.bind_some, hf, hm]
        rfl
    · intro i hi hp
      obtain ⟨p, e2, hf, _⟩ := traitsFind_found h2 cs[i + 1]
      have hm : cs[i + 1] ∉ ds := fun h => hp ⟨_, List.getElem?_eq_getElem hi, h⟩
      simp only [findLastOfImpl1, pr (i + 1) hi, e2, Option.bind_eq_bind, Option.bind_some, hf, hm]
      rfl
    · intro hp
      obtain ⟨p, e2, hf, _⟩ := traitsFind_found h2 (cs[0]'(by omega))
      have hm : cs[0]'(by omega) ∉ ds := fun h => hp ⟨_, List.getElem?_eq_getElem (by omega), h⟩
      have e := pr 0 (by omega)
      rw [Nat.add_zero] at e
      simp only [findLastOfImpl1, e, e2, Option.bind_eq_bind, Option.bind_some, hf, hm]
      rfl
    · rintro i hi ⟨c, hc, _⟩
      rw [List.getElem?_eq_none hi] at hc
      cases hc
  · rw [if_neg hn]
    refine ⟨npos, rfl, Or.inr ⟨rfl, ?_⟩⟩
    rintro i ⟨_, c, hc, hm⟩
    apply hn
    refine ⟨?_, ?_⟩
    · intro h; rw [List.getElem?_eq_none (by omega)] at hc; cases hc
    · intro h; rw [List.length_eq_zero_iff.1 h] at hm; cases hm

example : ∃ r, findLastOfImpl [97, 98, 97, 98, 0] [97, 98, 97, 98, 0] 0 4 0 2 1 = some r ∧
    Highest (fun i => i ≤ 2 ∧ OneOf [97, 98, 97, 98] [97] i) r :=
  C72_find_last_of _ _ 0 0 2 _ [97] sg (by intro i hi; match i, hi with | 0, _ => rfl)

/-- `find_first_not_of(s, pos, n)` -/
theorem C72_find_first_not_of (m ms : List Int) (d s pos : Nat) (cs ds : List Int) (h1 : Seg m d cs) (h2 : Seg ms s ds) :
    ∃ r, findFirstNotOfImpl m ms d cs.length s pos ds.length = some r ∧ Lowest (fun i => pos ≤ i ∧ NotOneOf cs ds i) r := by
  have step : ∀ i (hi : i < cs.length), findFirstNotOfImpl m ms d cs.length s i ds.length =
      if cs[i] ∉ ds then some i else findFirstNotOfImpl m ms d cs.length s (i + 1) ds.length := by
    intro i hi
    have e : rd m (d + i) = some cs[i] := by
      have := h1 i hi
      rw [List.getElem?_eq_getElem hi] at this
      exact this
    obtain ⟨p, e2, hf, _⟩ := traitsFind_found h2 cs[i]
    rw [findFirstNotOfImpl, if_pos hi, e, Option.bind_eq_bind, Option.bind_some, e2, Option.bind_eq_bind, Option.bind_some, hf]
    by_cases h : cs[i] ∈ ds <;> simp [h]
  apply up_spec (f := fun i => findFirstNotOfImpl m ms d cs.length s i ds.length) (B := cs.length)
  · rintro i hi ⟨c, hc, hm⟩
    rw [List.getElem?_eq_getElem hi, Option.some.injEq] at hc
    simp only [step i hi]
    rw [if_pos (by rw [hc]; exact hm)]
  · intro i hi hp
    simp only [step i hi]
    rw [if_neg (fun h => hp ⟨_, List.getElem?_eq_getElem hi, h⟩)]
  · intro i hi
    rw [findFirstNotOfImpl, if_neg (by omega)]
  · rintro i hi ⟨c, hc, _⟩
    rw [List.getElem?_eq_none hi] at hc
    cases hc

example : ∃ r, findFirstNotOfImpl [97, 98, 97, 98, 0] [97, 98, 97, 98, 0] 0 4 0 0 1 = some r ∧
    Lowest (fun i => 0 ≤ i ∧ NotOneOf [97, 98, 97, 98] [97] i) r :=
  C72_find_first_not_of _ _ 0 0 0 _ [97] sg (by intro i hi; match i, hi with | 0, _ => rfl)

/-- `find_last_not_of(s, pos, n)` -/
theorem C72_find_last_not_of (m ms : List Int) (d s pos : Nat) (cs ds : List Int) (h1 : Seg m d cs) (h2 : Seg ms s ds) :
    ∃ r, findLastNotOfImpl m ms d cs.length s pos ds.length = some r ∧ Highest (fun i => i ≤ pos ∧ NotOneOf cs ds i) r := by
  rw [findLastNotOfImpl]
  by_cases hn : cs.length ≠ 0
  · rw [if_pos hn]
    have pr : ∀ i (hi : i < cs.length), rd m (d + i) = some cs[i] := by
      intro i hi
      have := h1 i hi
      rw [List.getElem?_eq_getElem hi] at this
      exact this
    apply down_spec_lt (f := fun i => findLastOfImpl1 true m ms d s ds.length i) (B := cs.length) (by omega)
    · rintro i hi ⟨c, hc, hm⟩
      rw [List.getElem?_eq_getElem hi, Option.some.injEq] at hc
      obtain ⟨p, e2, hf, _⟩ := traitsFind_found h2 cs[i]
      have e := pr i hi
      rw [hc] at e e2 hf
      cases i with
      | zero =>
        rw [Nat.add_zero] at e
        simp only [findLastOfImpl1, e, e2, Option.bind_eq_bind, Option.bind_some, hf, hm]
        rfl
      | succ i =>
        simp only [findLastOfImpl1, e, e2, Option.bind_eq_bind, Option.bind_some, hf, hm]
        rfl
    · intro i hi hp
      obtain ⟨p, e2, hf, _⟩ := traitsFind_found h2 cs[i + 1]
      have hm : cs[i + 1] ∈ ds := by by_contra h; exact hp ⟨_, List.getElem?_eq_getElem hi, h⟩
      simp only [findLastOfImpl1, pr (i + 1) hi, e2, Option.bind_eq_bind, Option.bind_some, hf, hm]
      rfl
    · intro hp
      obtain ⟨p, e2, hf, _⟩ := traitsFind_found h2 (cs[0]'(by omega))
      have hm : cs[0]'(by omega) ∈ ds := by by_contra h; exact hp ⟨_, List.getElem?_eq_getElem (by omega), h⟩
      have e := pr 0 (by omega)
      rw [Nat.add_zero] at e
      simp only [findLastOfImpl1, e, e2, Option.bind_eq_bind, Option.bind_some, hf, hm]
      rfl
    · rintro i hi ⟨c, hc, _⟩
      rw [List.getElem?_eq_none hi] at hc
      cases hc
  · rw [if_neg hn]
    refine ⟨npos, rfl, Or.inr ⟨rfl, ?_⟩⟩
    rintro i ⟨_, c, hc, hm⟩
    apply hn
    intro h; rw [List.getElem?_eq_none (by omega)] at hc; cases hc

example : ∃ r, findLastNotOfImpl [97, 98, 97, 98, 0] [97, 98, 97, 98, 0] 0 4 1 npos 1 = some r ∧
    Highest (fun i => i ≤ npos ∧ NotOneOf [97, 98, 97, 98] [98] i) r :=
  C72_find_last_not_of _ _ 0 1 npos _ [98] sg (by intro i hi; match i, hi with | 0, _ => rfl)

/-- `find_first_not_of(c, pos)` -/
theorem C72_find_first_not_of_char (m : List Int) (d pos : Nat) (cs : List Int) (c : Int) (h1 : Seg m d cs) :
    ∃ r, findFirstNotOfCImpl m d cs.length c pos = some r ∧ Lowest (fun i => pos ≤ i ∧ NotOneOf cs [c] i) r := by
  have step : ∀ i (hi : i < cs.length), findFirstNotOfCImpl m d cs.length c i =
      if cs[i] ∉ [c] then some i else findFirstNotOfCImpl m d cs.length c (i + 1) := by
    intro i hi
    have e : rd m (d + i) = some cs[i] := by
      have := h1 i hi
      rw [List.getElem?_eq_getElem hi] at this
      exact this
    rw [findFirstNotOfCImpl, if_pos hi, e, Option.bind_eq_bind, Option.bind_some]
    by_cases h : cs[i] = c <;> simp [h]
  apply up_spec (f := fun i => findFirstNotOfCImpl m d cs.length c i) (B := cs.length)
  · rintro i hi ⟨c, hc, hm⟩
    rw [List.getElem?_eq_getElem hi, Option.some.injEq] at hc
    simp only [step i hi]
    rw [if_pos (by rw [hc]; exact hm)]
  · intro i hi hp
    simp only [step i hi]
    rw [if_neg (fun h => hp ⟨_, List.getElem?_eq_getElem hi, h⟩)]
  · intro i hi
    rw [findFirstNotOfCImpl, if_neg (by omega)]
  · rintro i hi ⟨c, hc, _⟩
    rw [List.getElem?_eq_none hi] at hc
    cases hc

example : ∃ r, findFirstNotOfCImpl [97, 98, 97, 98, 0] 0 4 98 1 = some r ∧ Lowest (fun i => 1 ≤ i ∧ NotOneOf [97, 98, 97, 98] [98] i) r :=
  C72_find_first_not_of_char _ 0 1 _ 98 sg

/-- `find_last_not_of(c, pos)` -/
theorem C72_find_last_not_of_char (m : List Int) (d pos : Nat) (cs : List Int) (c : Int) (h1 : Seg m d cs) :
    ∃ r, findLastNotOfCImpl m d cs.length c pos = some r ∧ Highest (fun i => i ≤ pos ∧ NotOneOf cs [c] i) r := by
  rw [findLastNotOfCImpl]
  by_cases hn : cs.length ≠ 0
  · rw [if_pos hn]
    have pr : ∀ i (hi : i < cs.length), rd m (d + i) = some cs[i] := by
      intro i hi
      have := h1 i hi
      rw [List.getElem?_eq_getElem hi] at this
      exact this
    apply down_spec_lt (f := fun i => findLastNotOfCImpl1 m d c i) (B := cs.length) (by omega)
    · rintro i hi ⟨x, hx, hm⟩
      rw [List.getElem?_eq_getElem hi, Option.some.injEq] at hx
      have hne : ¬ cs[i] = c := by rw [hx]; simpa using hm
      have e := pr i hi
      cases i with
      | zero =>
        rw [Nat.add_zero] at e
        simp only [findLastNotOfCImpl1, e, Option.bind_eq_bind, Option.bind_some]
        simp [hne]
      | succ i =>
        simp only [findLastNotOfCImpl1, e, Option.bind_eq_bind, Option.bind_some]
        simp [hne]
    · intro i hi hp
      have hm : cs[i + 1] = c := by by_contra h; exact hp ⟨_, List.getElem?_eq_getElem hi, by simpa using h⟩
      simp only [findLastNotOfCImpl1, pr (i + 1) hi, Option.bind_eq_bind, Option.bind_some]
      simp [hm]
    · intro hp
      have hm : cs[0]'(by omega) = c := by by_contra h; exact hp ⟨_, List.getElem?_eq_getElem (by omega), by simpa using h⟩
      have e := pr 0 (by omega)
      rw [Nat.add_zero] at e
      simp only [findLastNotOfCImpl1, e, Option.bind_eq_bind, Option.bind_some]
      simp [hm]
    · rintro i hi ⟨c, hc, _⟩
      rw [List.getElem?_eq_none hi] at hc
      cases hc
  · rw [if_neg hn]
    refine ⟨npos, rfl, Or.inr ⟨rfl, ?_⟩⟩
    rintro i ⟨_, c, hc, hm⟩
    apply hn
    intro h; rw [List.getElem?_eq_none (by omega)] at hc; cases hc

example : findLastNotOfCImpl [97, 98, 97, 98, 0] 0 4 98 npos = some 2 := by decide

end Sprout

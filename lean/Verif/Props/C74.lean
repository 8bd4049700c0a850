import Verif.Proofs.StringClass

/-!
# C74: the members of `basic_string<char, N>`

Every modifier takes a string representing `cs` (with null characters behind it) to a string representing the right value, or
throws `length_error` if that has more than `N` characters. `ds` are the characters given, at position `s` of `ms`.
-/

namespace Sprout
open Spec (overwrite)
open Spec.Str Str

/-- the outcome required: the string `ds` if it fits, else `length_error` -/
def StrResult (N : Nat) (ds : List Int) (r : Option (Ret BStr)) : Prop :=
  if ds.length ≤ N then ∃ y, r = some (.ret y) ∧ Represents N y.elems y.len ds else r = some (.throw .lengthError)

variable {N N2 : Nat} {x y : BStr} {cs ds ms : List Int}

/-! ### append -/

private theorem lc {r : Option (Ret BStr)} {n : Nat} (hx : Represents N x.elems x.len cs) :
    BStr.lengthcheck x n r = if N < n then some (.throw .lengthError) else r := by
  rw [BStr.lengthcheck, maxSize_eq hx]

private theorem append_core (hx : Represents N x.elems x.len cs) (n : Nat) (hn : n = ds.length) (hw : cs.length + n < 2 ^ 64)
    {e : Option (List Int)} (he : cs.length + n ≤ N → e = some (overwrite x.elems cs.length ds)) :
    StrResult N (cs ++ ds) (BStr.lengthcheck x (BStr.wrap (x.len + n)) (BStr.finish x e (BStr.wrap (x.len + n)))) := by
  rw [lc hx, hx.len, wrap_eq hw, StrResult, List.length_append, ← hn]
  by_cases h : cs.length + n ≤ N
  · rw [if_pos h, if_neg (by omega), he h]
    obtain ⟨y, e, hy⟩ := finish_overwrite (ds := ds) (d := cs.length) (n := cs.length + n) hx (Nat.le_refl _) (by omega) h
    exact ⟨y, e, by simpa using hy⟩
  · rw [if_neg h, if_pos (by omega)]

/-- `append(s, n)` -/
theorem C74_append (hx : Represents N x.elems x.len cs) {s : Nat} (h2 : StoredAt ms s ds) (hw : cs.length + ds.length < 2 ^ 64) :
    StrResult N (cs ++ ds) (x.append ms s ds.length) := by
  apply append_core hx _ rfl hw
  intro h
  have := hx.size
  rw [hx.len]
  exact moveFrom_eq _ _ _ rfl h2 (by omega)

/-- `append(s, n)` with `s` pointing to character `k` of the string itself -/
theorem C74_append_self (hx : Represents N x.elems x.len cs) {k n : Nat} (hk : k + n ≤ cs.length) (hw : cs.length + n < 2 ^ 64) :
    StrResult N (cs ++ (cs.drop k).take n) (x.appendSelf k n) := by
  apply append_core hx n (by simp; omega) hw
  intro h
  have := hx.size
  have hs := seg_sub (repr_seg hx) k n
  rw [Nat.zero_add] at hs
  rw [hx.len]
  exact moveSelf_eq (by simp; omega) hs (Or.inr (by omega)) (by omega)

/-- `append(s)`, `operator<<=(T const*)` -/
theorem C74_append_c_str (hx : Represents N x.elems x.len cs) (pre post : List Int) (h0 : 0 ∉ ds) (hw : cs.length + ds.length < 2 ^ 64) :
    StrResult N (cs ++ ds) (x.appendC (pre ++ ds ++ 0 :: post) pre.length) := by
  rw [BStr.appendC, Cstr.strlen_eq (Cstr.IsStr.of_append pre ds post h0), Option.bind_eq_bind, Option.bind_some]
  exact C74_append hx (Seg.of_append pre ds (0 :: post)) hw

/-- `append(n, c)`. *Partial*: `size() + n` must not wrap around, see `C74_append_fill_refuted`. -/
theorem C74_append_fill_partial (hx : Represents N x.elems x.len cs) (n : Nat) (c : Int) (hw : cs.length + n < 2 ^ 64) :
    StrResult N (cs ++ List.replicate n c) (x.appendFill n c) := by
  apply append_core hx _ (by simp) hw
  intro h
  have := hx.size
  rw [hx.len]
  exact fill_eq c _ _ _ (by omega)

/-- `push_back(c)`, `operator<<=(c)` -/
theorem C74_push_back (hx : Represents N x.elems x.len cs) (c : Int) (hN : N + 1 < 2 ^ 64) :
    StrResult N (cs ++ [c]) (x.pushBack c) := by
  have := hx.fits
  exact C74_append_fill_partial hx 1 c (by omega)

/-- `append(npos, c)` on a string that is not empty is undefined instead of throwing `length_error` -/
theorem C74_append_fill_refuted : ∃ (x : BStr) (cs : List Int), Represents 3 x.elems x.len cs ∧ x.appendFill npos 98 = none ∧
    3 < (cs ++ List.replicate npos 98).length := by
  refine ⟨⟨[97, 0, 0, 0], 1⟩, [97], ⟨rfl, rfl, by decide, ?_, ?_⟩, ?_, ?_⟩
  · intro i hi; match i, hi with | 0, _ => rfl
  · intro i h1 h2; match i, h1, h2 with | 1, _, _ => rfl | 2, _, _ => rfl | 3, _, _ => rfl
  · have h0 : BStr.wrap (1 + npos) = 0 := by decide
    have hf := fill_none 98 npos 1 [97, 0, 0, 0] (by decide) (by decide)
    simp only [BStr.appendFill, h0, BStr.lengthcheck, BStr.maxSize, List.length_cons, List.length_nil, hf]
    rfl
  · rw [List.length_append, List.length_replicate]; decide

/-- `append(str)`, `operator<<=(str)` -/
theorem C74_append_str (hx : Represents N x.elems x.len cs) (hy : Represents N2 y.elems y.len ds) (hw : cs.length + ds.length < 2 ^ 64) :
    StrResult N (cs ++ ds) (x.appendStr y) := by
  rw [BStr.appendStr, hy.len]
  exact C74_append hx (repr_seg hy) hw

private theorem rlen_eq (hy : Represents N2 y.elems y.len ds) {pos n : Nat} (hN : N2 < npos) :
    BStr.rlen y pos n = ((ds.drop pos).take n).length := by
  have := hy.fits
  rw [BStr.rlen, hy.len, List.length_take, List.length_drop]
  by_cases h : n = npos
  · rw [if_neg (by simpa using h)]; omega
  · rw [if_pos h]

/-- `append(str, pos, n)`. *Partial*: `pos` less than the size; with `pos` equal to it, when nothing is to be appended, the code
throws (`C74_pos_at_end_refuted`). -/
theorem C74_append_sub_partial (hx : Represents N x.elems x.len cs) (hy : Represents N2 y.elems y.len ds) {pos n : Nat}
    (hN : N2 < npos) (hp : pos ≠ ds.length) (hw : cs.length + ds.length < 2 ^ 64) :
    if pos ≤ ds.length then StrResult N (cs ++ (ds.drop pos).take n) (x.appendSub y pos n)
    else x.appendSub y pos n = some (.throw .outOfRange) := by
  rw [BStr.appendSub, hy.len]
  by_cases h : pos ≤ ds.length
  · rw [if_pos h, if_neg (by omega), rlen_eq hy hN]
    apply C74_append hx
    · have := seg_sub (repr_seg hy) pos n
      rwa [Nat.zero_add] at this
    · have : ((ds.drop pos).take n).length ≤ ds.length := by simp; omega
      omega
  · rw [if_neg h, if_pos (by omega)]

/-- `append(first, last)` for forward iterators, `append(il)` -/
theorem C74_append_range (hx : Represents N x.elems x.len cs) (hw : cs.length + ds.length < 2 ^ 64) :
    StrResult N (cs ++ ds) (x.appendFwd ds) := by
  have := hx.size
  rw [BStr.appendFwd, lc hx, hx.len, wrap_eq hw, StrResult, List.length_append]
  by_cases h : cs.length + ds.length ≤ N
  · rw [if_pos h, if_neg (by omega), storeLoop_eq _ _ _ (by omega), Option.bind_eq_bind, Option.bind_some]
    obtain ⟨y, e, hy⟩ := finish_overwrite (ds := ds) (d := cs.length) hx (Nat.le_refl _) rfl h
    refine ⟨y, ?_, by simpa using hy⟩
    have hl : cs.length + (cs.length + ds.length - cs.length) = cs.length + ds.length := by omega
    simp only [hl]
    exact e
  · rw [if_neg h, if_pos (by omega)]

/-- `append(first, last)` for input iterators. *Partial*: unless the result has exactly `N + 1` characters. -/
theorem C74_append_input_partial (hx : Represents N x.elems x.len cs) (hne : cs.length + ds.length ≠ N + 1) :
    StrResult N (cs ++ ds) (x.appendInput ds) := by
  have hs := hx.size
  have hf := hx.fits
  rw [BStr.appendInput, maxSize_eq hx, hx.len, storeLoopChecked_eq ds x.elems cs.length (by omega) hs, StrResult, List.length_append]
  by_cases h : cs.length + ds.length ≤ N
  · rw [if_pos h, if_pos (by omega), Option.bind_eq_bind, Option.bind_some]
    obtain ⟨y, e, hy⟩ := finish_overwrite (ds := ds) (d := cs.length) hx (Nat.le_refl _) rfl h
    refine ⟨y, ?_, by simpa using hy⟩
    have hl : cs.length + (cs.length + ds.length - cs.length) = cs.length + ds.length := by omega
    simp only [hl]
    exact e
  · rw [if_neg h, if_neg (by omega)]; rfl

/-! ### assign -/

private theorem assign_core (hx : Represents N x.elems x.len cs) (n : Nat) (hn : n = ds.length)
    {e : Option (List Int)} (he : n ≤ N → e = some (overwrite x.elems 0 ds)) :
    if n ≤ N then ∃ y, BStr.finish x e n = some (.ret y) ∧ Represents N y.elems y.len ds else True := by
  by_cases h : n ≤ N
  · rw [if_pos h, he h]
    obtain ⟨y, e, hy⟩ := finish_overwrite (ds := ds) (d := 0) (n := n) hx (Nat.zero_le _) (by omega) h
    exact ⟨y, e, by simpa using hy⟩
  · rw [if_neg h]; trivial

/-- `assign(s, n)` -/
theorem C74_assign (hx : Represents N x.elems x.len cs) {s : Nat} (h2 : StoredAt ms s ds) :
    StrResult N ds (x.assign ms s ds.length) := by
  have hs := hx.size
  rw [BStr.assign, lc hx, StrResult]
  have := assign_core (ds := ds) hx ds.length rfl (e := BStr.moveFrom x.elems ms 0 s ds.length)
    (fun h => moveFrom_eq _ _ _ rfl h2 (by omega))
  by_cases h : ds.length ≤ N
  · rw [if_pos h, if_neg (by omega)]; rwa [if_pos h] at this
  · rw [if_neg h, if_pos (by omega)]

/-- `assign(s)`, `operator=(s)` -/
theorem C74_assign_c_str (hx : Represents N x.elems x.len cs) (pre post : List Int) (h0 : 0 ∉ ds) :
    StrResult N ds (x.assignC (pre ++ ds ++ 0 :: post) pre.length) := by
  rw [BStr.assignC, Cstr.strlen_eq (Cstr.IsStr.of_append pre ds post h0), Option.bind_eq_bind, Option.bind_some]
  exact C74_assign hx (Seg.of_append pre ds (0 :: post))

/-- `assign(s, n)` with `s` pointing to character `k` of the string itself. *Partial*: the characters begin at the beginning of the
string or do not overlap their new places; see `C74_assign_self_refuted`. -/
theorem C74_assign_self_partial (hx : Represents N x.elems x.len cs) {k n : Nat} (hk : k + n ≤ cs.length) (hd : k = 0 ∨ n ≤ k) :
    StrResult N ((cs.drop k).take n) (x.assignSelf k n) := by
  have hs := hx.size
  have hf := hx.fits
  have hl : ((cs.drop k).take n).length = n := by simp; omega
  have hsg := seg_sub (repr_seg hx) k n
  rw [Nat.zero_add] at hsg
  have := assign_core (ds := (cs.drop k).take n) hx n hl.symm (e := BStr.moveSelf x.elems 0 k n)
    (fun h => moveSelf_eq hl hsg (by omega) (by omega))
  rw [BStr.assignSelf, lc hx, StrResult, hl]
  rw [if_pos (by omega), if_neg (by omega)]; rwa [if_pos (by omega)] at this

/-- `s.assign(s.data() + 1, 2)` makes `abc` into `cc` instead of `bc` -/
theorem C74_assign_self_refuted : ∃ (x : BStr) (cs : List Int), Represents 3 x.elems x.len cs ∧ cs = [97, 98, 99] ∧
    x.assignSelf 1 2 = some (.ret ⟨[99, 99, 0, 0], 2⟩) := by
  refine ⟨⟨[97, 98, 99, 0], 3⟩, [97, 98, 99], ⟨rfl, rfl, by decide, ?_, ?_⟩, rfl, ?_⟩
  · intro i hi; match i, hi with | 0, _ => rfl | 1, _ => rfl | 2, _ => rfl
  · intro i h1 h2; match i, h1, h2 with | 3, _, _ => rfl
  · have : BStr.moveSelf [97, 98, 99, 0] 0 1 2 = some [99, 99, 99, 0] := by
      rw [BStr.moveSelf, copyBackward, if_neg (by decide), if_neg (by decide)]
      have r1 : rd [(97 : Int), 98, 99, 0] (1 + 2 - 1) = some 99 := rfl
      have w1 : wr [(97 : Int), 98, 99, 0] (0 + 2 - 1) 99 = some [97, 99, 99, 0] := rfl
      rw [r1, Option.bind_eq_bind, Option.bind_some, w1, Option.bind_eq_bind, Option.bind_some]
      rw [copyBackward, if_neg (by decide), if_neg (by decide)]
      have r2 : rd [(97 : Int), 99, 99, 0] (1 + 2 - 1 - 1) = some 99 := rfl
      have w2 : wr [(97 : Int), 99, 99, 0] (0 + 2 - 1 - 1) 99 = some [99, 99, 99, 0] := rfl
      rw [r2, Option.bind_eq_bind, Option.bind_some, w2, Option.bind_eq_bind, Option.bind_some]
      rw [copyBackward, if_pos (by decide)]
      rfl
    simp only [BStr.assignSelf, this]
    decide

/-- `assign(n, c)`, `operator=(c)`; if the string does not fit, the exception is `out_of_range` instead of `length_error` -/
theorem C74_assign_fill_partial (hx : Represents N x.elems x.len cs) (n : Nat) (c : Int) :
    if n ≤ N then ∃ y, x.assignFill n c = some (.ret y) ∧ Represents N y.elems y.len (List.replicate n c)
    else x.assignFill n c = some (.throw .outOfRange) := by
  have hs := hx.size
  have := assign_core (ds := List.replicate n c) hx n (by simp) (e := BStr.fill x.elems 0 n c) (fun h => fill_eq c _ _ _ (by omega))
  rw [BStr.assignFill, BStr.maxcheck, maxSize_eq hx]
  by_cases h : n ≤ N
  · rw [if_pos h, if_neg (by omega)]; rwa [if_pos h] at this
  · rw [if_neg h, if_pos (by omega)]

/-- hence `assign(n, c)` is not as required -/
theorem C74_assign_fill_refuted : ∃ (x : BStr) (cs : List Int), Represents 1 x.elems x.len cs ∧
    ¬StrResult 1 (List.replicate 2 98) (x.assignFill 2 98) := by
  refine ⟨⟨[97, 0], 1⟩, [97], ⟨rfl, rfl, by decide, ?_, ?_⟩, ?_⟩
  · intro i hi; match i, hi with | 0, _ => rfl
  · intro i h1 h2; match i, h1, h2 with | 1, _, _ => rfl
  · rw [StrResult, if_neg (by decide)]; decide

/-- `assign(str, pos, n)`. *Partial*: `pos` different from the size. -/
theorem C74_assign_sub_partial (hx : Represents N x.elems x.len cs) (hy : Represents N2 y.elems y.len ds) {pos n : Nat}
    (hN : N2 < npos) (hp : pos ≠ ds.length) :
    if pos ≤ ds.length then StrResult N ((ds.drop pos).take n) (x.assignSub y pos n)
    else x.assignSub y pos n = some (.throw .outOfRange) := by
  rw [BStr.assignSub, hy.len]
  by_cases h : pos ≤ ds.length
  · rw [if_pos h, if_neg (by omega), rlen_eq hy hN]
    apply C74_assign hx
    have := seg_sub (repr_seg hy) pos n
    rwa [Nat.zero_add] at this
  · rw [if_neg h, if_pos (by omega)]

/-- `assign(str)`, `operator=(str)`. *Partial*: for strings that are not empty. -/
theorem C74_assign_str_partial (hx : Represents N x.elems x.len cs) (hy : Represents N2 y.elems y.len ds) (hN : N2 < npos)
    (hne : ds ≠ []) : StrResult N ds (x.assignStr y) := by
  have hl : 0 < ds.length := List.length_pos_iff.2 hne
  have := C74_assign_sub_partial hx hy (pos := 0) (n := npos) hN (by omega)
  rw [if_pos (by omega)] at this
  have hf := hy.fits
  rwa [List.drop_zero, List.take_of_length_le (by omega)] at this

/-- assigning an empty string throws `out_of_range`, whatever the strings -/
theorem C74_assign_empty_refuted (hy : Represents N2 y.elems y.len []) : x.assignStr y = some (.throw .outOfRange) := by
  rw [BStr.assignStr, BStr.assignSub, hy.len, if_pos (by simp)]

/-- also `append(str, str.size())` and `copy(s, n, size())`, which should do nothing, throw -/
theorem C74_pos_at_end_refuted (hy : Represents N2 y.elems y.len ds) (n s : Nat) (m : List Int) :
    x.appendSub y ds.length n = some (.throw .outOfRange) ∧ y.copyTo m s n ds.length = some (.throw .outOfRange) := by
  rw [BStr.appendSub, BStr.copyTo, hy.len]
  simp

/-- `assign(first, last)` for forward iterators, `assign(il)`, `operator=(il)` -/
theorem C74_assign_range (hx : Represents N x.elems x.len cs) : StrResult N ds (x.assignFwd ds) := by
  have := hx.size
  rw [BStr.assignFwd, lc hx, StrResult]
  by_cases h : ds.length ≤ N
  · rw [if_pos h, if_neg (by omega), storeLoop_eq _ _ _ (by omega), Option.bind_eq_bind, Option.bind_some]
    obtain ⟨y, e, hy⟩ := finish_overwrite (ds := ds) (d := 0) hx (Nat.zero_le _) rfl (by omega)
    exact ⟨y, e, by simpa using hy⟩
  · rw [if_neg h, if_pos (by omega)]

/-- `assign(first, last)` for input iterators. *Partial*: unless there are exactly `N + 1` characters. -/
theorem C74_assign_input_partial (hx : Represents N x.elems x.len cs) (hne : ds.length ≠ N + 1) :
    StrResult N ds (x.assignInput ds) := by
  have hs := hx.size
  rw [BStr.assignInput, maxSize_eq hx, storeLoopChecked_eq ds x.elems 0 (by omega) hs, StrResult]
  by_cases h : ds.length ≤ N
  · rw [if_pos h, if_pos (by omega), Option.bind_eq_bind, Option.bind_some]
    obtain ⟨y, e, hy⟩ := finish_overwrite (ds := ds) (d := 0) hx (Nat.zero_le _) rfl (by omega)
    exact ⟨y, e, by simpa using hy⟩
  · rw [if_neg h, if_neg (by omega)]; rfl

/-- with `N + 1` characters no exception is thrown: the terminator is overwritten and the size exceeds `max_size()` -/
theorem C74_assign_input_refuted : ∃ (x : BStr) (cs : List Int), Represents 1 x.elems x.len cs ∧
    x.assignInput [98, 99] = some (.ret ⟨[98, 99], 2⟩) ∧ x.appendInput [99] = some (.ret ⟨[97, 99], 2⟩) := by
  refine ⟨⟨[97, 0], 1⟩, [97], ⟨rfl, rfl, by decide, ?_, ?_⟩, by decide, by decide⟩
  · intro i hi; match i, hi with | 0, _ => rfl
  · intro i h1 h2; match i, h1, h2 with | 1, _, _ => rfl

/-! ### resize, clear, pop_back, swap -/

/-- `resize(n, c)` -/
theorem C74_resize (hx : Represents N x.elems x.len cs) (n : Nat) (c : Int) :
    StrResult N (cs.take n ++ List.replicate (n - cs.length) c) (x.resize n c) := by
  have hs := hx.size
  have hf := hx.fits
  have hl : (cs.take n ++ List.replicate (n - cs.length) c).length = n := by simp; omega
  rw [BStr.resize, lc hx, StrResult, hl, hx.len]
  by_cases h : n ≤ N
  · rw [if_pos h, if_neg (by omega)]
    by_cases hn : n > cs.length
    · rw [if_pos hn, fill_eq c _ _ _ (by omega)]
      obtain ⟨y, e, hy⟩ := finish_overwrite (ds := List.replicate (n - cs.length) c) (d := cs.length) (n := n) hx (Nat.le_refl _)
        (by simp; omega) h
      refine ⟨y, e, ?_⟩
      rw [List.take_of_length_le (by omega)] at hy ⊢
      exact hy
    · rw [if_neg hn]
      obtain ⟨y, e, hy⟩ := finish_overwrite (ds := []) (d := n) (n := n) hx (by omega) rfl h
      rw [overwrite_nil] at e
      refine ⟨y, e, ?_⟩
      have : n - cs.length = 0 := by omega
      rw [this]
      exact hy
  · rw [if_neg h, if_pos (by omega)]

/-- `clear()` -/
theorem C74_clear (hx : Represents N x.elems x.len cs) : ∃ y, x.clear = some y ∧ Represents N y.elems y.len [] := by
  have hf := hx.fits
  exact putTerminator_repr (N := N) (ds := []) hx.size (by rw [hx.len]; exact hf) (by simp) (by simp)
    (fun i h1 h2 => hx.nulls i (by rw [hx.len] at h1; simpa using h1) h2)

/-- `pop_back()` -/
theorem C74_pop_back (hx : Represents N x.elems x.len cs) (hne : cs ≠ []) (hN : N + 1 < 2 ^ 64) :
    ∃ y, x.popBack = some y ∧ Represents N y.elems y.len cs.dropLast := by
  have hf := hx.fits
  have hl : 0 < cs.length := List.length_pos_iff.2 hne
  have hw : BStr.wrap (x.len + (2 ^ 64 - 1)) = cs.dropLast.length := by
    rw [BStr.wrap, hx.len, List.length_dropLast]
    have : cs.length + (2 ^ 64 - 1) = cs.length - 1 + 2 ^ 64 := by omega
    rw [this, Nat.add_mod_right, Nat.mod_eq_of_lt (by omega)]
  rw [BStr.popBack, hw]
  refine putTerminator_repr (N := N) hx.size (by rw [hx.len]; exact hf) (by simp; omega) ?_ ?_
  · intro i hi
    rw [List.length_dropLast] at hi
    rw [List.getElem?_dropLast, if_pos hi, hx.chars i (by omega)]
  · intro i h1 h2
    rw [hx.len, List.length_dropLast] at h1
    exact hx.nulls i (by omega) h2

/-- `swap(other)` -/
theorem C74_swap (hx : Represents N x.elems x.len cs) (hy : Represents N y.elems y.len ds) :
    ∃ x' y', x.swap y = some (x', y') ∧ Represents N x'.elems x'.len ds ∧ Represents N y'.elems y'.len cs := by
  have h1 := hx.size
  have h2 := hy.size
  have f1 := hx.fits
  have f2 := hy.fits
  obtain ⟨a, b, e, la, lb, ha, hb⟩ := swapRanges_eq N 0 y.elems x.elems (by omega) (by omega)
  rw [BStr.swap, maxSize_eq hy, e, Option.bind_eq_bind, Option.bind_some]
  refine ⟨_, _, rfl, ⟨by rw [lb, h1], hy.len, f2, ?_, ?_⟩, ⟨by rw [la, h2], hx.len, f1, ?_, ?_⟩⟩
  · intro i hi
    rw [hb i, if_pos (by omega), hy.chars i hi]
  · intro i a b
    rw [hb i]
    by_cases h : i < N
    · rw [if_pos (by omega), hy.nulls i a b]
    · rw [if_neg (by omega), hx.nulls i (by omega) b]
  · intro i hi
    rw [ha i, if_pos (by omega), hx.chars i hi]
  · intro i a b
    rw [ha i]
    by_cases h : i < N
    · rw [if_pos (by omega), hx.nulls i a b]
    · rw [if_neg (by omega), hy.nulls i (by omega) b]

/-! ### `operator>>=` -/

private theorem prepend_core (hx : Represents N x.elems x.len cs) {n : Nat} (hn : n = ds.length) (h : cs.length + n ≤ N) :
    ∃ y, BStr.finish x (some (overwrite (overwrite x.elems n cs) 0 ds)) (cs.length + n) = some (.ret y) ∧
      Represents N y.elems y.len (ds ++ cs) := by
  have hs := hx.size
  have l1 : n + cs.length ≤ x.elems.length := by omega
  have l2 : 0 + ds.length ≤ (overwrite x.elems n cs).length := by rw [overwrite_length l1]; omega
  have hlen : (ds ++ cs).length = cs.length + n := by simp; omega
  obtain ⟨y, e, hy⟩ := putTerminator_repr (N := N) (e := overwrite (overwrite x.elems n cs) 0 ds) (ds := ds ++ cs) (len := x.len)
    (by rw [overwrite_length l2, overwrite_length l1, hs]) (by rw [hx.len]; omega) (by omega) (by
      intro i hi
      rw [overwrite_getElem? l2, if_neg (by omega)]
      by_cases hi1 : i < ds.length
      · rw [if_pos (by omega), Nat.sub_zero, List.getElem?_append_left hi1]
      · rw [if_neg (by omega), overwrite_getElem? l1, if_neg (by omega), if_pos (by omega), List.getElem?_append_right (by omega)]
        congr 1; omega) (by
      intro i h1 h2
      rw [overwrite_getElem? l2, if_neg (by omega), if_neg (by omega), overwrite_getElem? l1, if_neg (by omega), if_neg (by omega),
        hx.nulls i (by omega) h2])
  rw [hlen] at e
  refine ⟨y, ?_, hy⟩
  rw [BStr.finish, Option.bind_eq_bind, Option.bind_some, e]; rfl

/-- `operator>>=(str)`, `operator>>=(il)` -/
theorem C74_prepend (hx : Represents N x.elems x.len cs) {s : Nat} (h2 : StoredAt ms s ds) (hw : cs.length + ds.length < 2 ^ 64) :
    StrResult N (ds ++ cs) (x.prepend ms s ds.length) := by
  have hs := hx.size
  rw [BStr.prepend, lc hx, hx.len, wrap_eq hw, StrResult, List.length_append, Nat.add_comm]
  by_cases h : cs.length + ds.length ≤ N
  · rw [if_pos h, if_neg (by omega), moveSelf_eq (d := ds.length) rfl (repr_seg hx) (Or.inr (by omega)) (by omega),
      Option.bind_eq_bind, Option.bind_some, moveFrom_eq _ _ _ rfl h2 (by rw [overwrite_length (by omega)]; omega)]
    exact prepend_core hx rfl h
  · rw [if_neg h, if_pos (by omega)]

/-- `operator>>=` of a string with itself -/
theorem C74_prepend_self (hx : Represents N x.elems x.len cs) (hw : cs.length + cs.length < 2 ^ 64) :
    StrResult N (cs ++ cs) x.prependSelf := by
  have hs := hx.size
  rw [BStr.prependSelf, lc hx, hx.len, wrap_eq hw, StrResult, List.length_append]
  by_cases h : cs.length + cs.length ≤ N
  · have l1 : cs.length + cs.length ≤ x.elems.length := by omega
    have hsg : Seg (overwrite x.elems cs.length cs) 0 cs := by
      intro i hi
      rw [Nat.zero_add, overwrite_getElem? l1, if_pos hi, hx.chars i hi]
    rw [if_pos h, if_neg (by omega), moveSelf_eq (d := cs.length) rfl (repr_seg hx) (Or.inr (by omega)) (by omega),
      Option.bind_eq_bind, Option.bind_some, moveSelf_eq rfl hsg (Or.inr (by omega)) (by rw [overwrite_length l1]; omega)]
    exact prepend_core hx rfl h
  · rw [if_neg h, if_pos (by omega)]

/-- `operator>>=(c)` for a character outside the string. The parameter is a reference: for one into the string itself see
`C74_prepend_ref_refuted`. -/
theorem C74_prepend_char_partial (hx : Represents N x.elems x.len cs) (c : Int) (hN : N + 1 < 2 ^ 64) :
    StrResult N ([c] ++ cs) (x.prependChar c) := by
  have hs := hx.size
  have hf := hx.fits
  rw [BStr.prependChar, lc hx, hx.len, wrap_eq (by omega), StrResult, List.length_append, List.length_singleton, Nat.add_comm 1]
  by_cases h : cs.length + 1 ≤ N
  · rw [if_pos h, if_neg (by omega), moveSelf_eq (d := 1) rfl (repr_seg hx) (Or.inr (by omega)) (by omega),
      Option.bind_eq_bind, Option.bind_some, fill_eq _ _ _ _ (by rw [overwrite_length (by omega)]; omega)]
    exact prepend_core hx rfl h
  · rw [if_neg h, if_pos (by omega)]

/-- `s >>= s[1]` makes `ab` into `aab` instead of `bab` -/
theorem C74_prepend_ref_refuted : ∃ (x : BStr) (cs : List Int), Represents 3 x.elems x.len cs ∧ cs = [97, 98] ∧
    x.prependRef 1 = some (.ret ⟨[97, 97, 98, 0], 3⟩) := by
  have hx : Represents 3 [97, 98, 0, 0] 2 [97, 98] := by
    refine ⟨rfl, rfl, by decide, ?_, ?_⟩
    · intro i hi; match i, hi with | 0, _ => rfl | 1, _ => rfl
    · intro i h1 h2; match i, h1, h2 with | 2, _, _ => rfl | 3, _, _ => rfl
  refine ⟨⟨[97, 98, 0, 0], 2⟩, [97, 98], hx, rfl, ?_⟩
  have : BStr.moveSelf [97, 98, 0, 0] 1 0 2 = some [97, 97, 98, 0] :=
    moveSelf_eq (xs := [97, 98]) rfl (repr_seg (x := ⟨[97, 98, 0, 0], 2⟩) hx) (Or.inr (by decide)) (by decide)
  simp only [BStr.prependRef, this]
  decide

/-! ### access, substrings, constructors, concatenation -/

/-- `at(i)` -/
theorem C74_at (hx : Represents N x.elems x.len cs) (i : Nat) :
    x.atPos i = match cs[i]? with | some c => some (.ret c) | none => some (.throw .outOfRange) := by
  rw [BStr.atPos, hx.len]
  by_cases h : i < cs.length
  · rw [if_pos h, rd, hx.chars i h, List.getElem?_eq_getElem h]; rfl
  · rw [if_neg h, List.getElem?_eq_none (by omega)]

/-- `copy(s, n, pos)` to a block with enough space. *Partial*: `pos` different from the size. -/
theorem C74_copy_partial (hx : Represents N x.elems x.len cs) {m : List Int} {s n pos : Nat} (hp : pos ≠ cs.length)
    (hm : s + ((cs.drop pos).take n).length ≤ m.length) :
    x.copyTo m s n pos = if pos ≤ cs.length then
      some (.ret (overwrite m s ((cs.drop pos).take n), ((cs.drop pos).take n).length)) else some (.throw .outOfRange) := by
  rw [BStr.copyTo, hx.len]
  by_cases h : pos ≤ cs.length
  · have hl : min n (cs.length - pos) = ((cs.drop pos).take n).length := by simp
    rw [if_neg (by omega), if_pos h, hl]
    have : (List.range ((cs.drop pos).take n).length).mapM (fun i => rd x.elems (pos + i)) = some ((cs.drop pos).take n) := by
      rw [mapM_range (g := fun i => (((cs.drop pos).take n)[i]?).getD 0)]
      · refine congrArg some ?_
        apply List.ext_getElem?
        intro i
        by_cases hi : i < ((cs.drop pos).take n).length
        · rw [List.getElem?_map, List.getElem?_range hi, Option.map_some, List.getElem?_eq_getElem hi]; rfl
        · rw [List.getElem?_eq_none (by rw [List.length_map, List.length_range]; omega), List.getElem?_eq_none (by omega)]
      · intro i hi
        rw [← hl] at hi
        rw [rd, hx.chars (pos + i) (by omega), List.getElem?_take_of_lt (by omega), List.getElem?_drop,
          List.getElem?_eq_getElem (by omega)]
        rfl
    rw [this, Option.bind_eq_bind, Option.bind_some, storeLoop_eq _ _ _ hm, Option.bind_eq_bind, Option.bind_some]
  · rw [if_neg h, if_pos (by omega)]

private theorem checked {s : Nat} (hs : Seg ms s ds) : StrResult N ds (BStr.ofChecked N ms s ds.length) := ofChecked_eq hs

/-- `basic_string(il)` -/
theorem C74_construct_range : StrResult N ds (BStr.ofChecked N ds 0 ds.length) := by
  apply checked
  intro i hi
  rw [Nat.zero_add]

/-- `basic_string(s)`, `from_c_str(s)` -/
theorem C74_construct_c_str (pre post : List Int) (h0 : 0 ∉ ds) : StrResult N ds (BStr.ofC N (pre ++ ds ++ 0 :: post) pre.length) := by
  rw [BStr.ofC, Cstr.strlen_eq (Cstr.IsStr.of_append pre ds post h0), Option.bind_eq_bind, Option.bind_some]
  exact checked (Seg.of_append pre ds (0 :: post))

/-- `basic_string(s, n)`, `from_c_str(s, n)`. *Partial*: for `n` characters of a null-terminated string; see
`C74_construct_n_refuted`. -/
theorem C74_construct_n_partial (pre post : List Int) (h0 : 0 ∉ ds) {n : Nat} (hn : n ≤ ds.length) :
    StrResult N (ds.take n) (BStr.ofCn N (pre ++ ds ++ 0 :: post) pre.length n) := by
  rw [BStr.ofCn, Cstr.strlen_eq (Cstr.IsStr.of_append pre ds post h0), Option.bind_eq_bind, Option.bind_some]
  have hl : min n ds.length = (ds.take n).length := by simp
  rw [hl]
  exact checked (seg_take (Seg.of_append pre ds (0 :: post)) n)

/-- the three characters `a 0 b` give the string `a` -/
theorem C74_construct_n_refuted : ¬StrResult 3 [97, 0, 98] (BStr.ofCn 3 [97, 0, 98, 0] 0 3) := by
  have e := Cstr.strlen_eq (Cstr.IsStr.of_append [] [97] [98, 0] (by decide))
  have e' : Cstr.strlen [97, 0, 98, 0] 0 = some 1 := e
  rw [StrResult, if_pos (by decide)]
  rintro ⟨y, h, hy⟩
  rw [BStr.ofCn, e', Option.bind_eq_bind, Option.bind_some] at h
  have h' : BStr.ofChecked 3 [97, 0, 98, 0] 0 (min 3 1) = some (.ret ⟨[97, 0, 0, 0], 1⟩) := by decide
  rw [h'] at h
  cases h
  have := hy.len
  revert this; decide

/-- `basic_string(n, c)` -/
theorem C74_construct_fill (n : Nat) (c : Int) : StrResult N (List.replicate n c) (BStr.ofFill N n c) := by
  rw [StrResult, List.length_replicate, BStr.ofFill]
  by_cases h : n ≤ N
  · rw [if_pos h, if_pos (by omega)]
    refine ⟨_, rfl, represents_map (by simp) h ?_ ?_⟩
    · intro i hi
      rw [List.length_replicate] at hi
      rw [if_pos (by omega), if_pos hi, List.getElem_replicate]
    · intro i h1 h2
      rw [List.length_replicate] at h1
      rw [if_neg (show ¬i < n by omega), ite_self]
  · rw [if_neg h, if_neg (by omega)]

/-- `basic_string(arr)` for an array of characters ending with a null: the characters up to the first null -/
theorem C74_construct_array (post : List Int) (h0 : 0 ∉ ds) (hN : (ds ++ 0 :: post).length - 1 ≤ N) :
    ∃ y, BStr.ofArray N (ds ++ 0 :: post) = some y ∧ Represents N y.elems y.len ds := by
  have hs := Cstr.IsStr.of_append [] ds post h0
  rw [List.nil_append, List.length_nil] at hs
  have hl : ds.length ≤ (ds ++ 0 :: post).length - 1 := by simp
  rw [BStr.ofArray, Cstr.strlenN_eq hs, Nat.min_eq_left hl, Option.bind_eq_bind, Option.bind_some]
  have hsg : Seg (ds ++ 0 :: post) 0 ds := by
    have := Seg.of_append [] ds (0 :: post)
    simpa using this
  rw [build_eq hsg rfl hl, Option.bind_eq_bind, Option.bind_some]
  exact ⟨_, rfl, represents_build (by omega)⟩

/-- the converting constructor from a shorter type -/
theorem C74_construct_shorter (hy : Represents N2 y.elems y.len ds) (hN : N2 < N) :
    ∃ x, BStr.ofShorter N y = some x ∧ Represents N x.elems x.len ds := by
  have hf := hy.fits
  rw [BStr.ofShorter, maxSize_eq hy, build_eq (repr_seg hy) hy.len (by rw [hy.len]; exact hf), Option.bind_eq_bind, Option.bind_some]
  refine ⟨_, rfl, ?_⟩
  rw [hy.len]
  exact represents_build (by omega)

/-- `basic_string(str, pos, n)`. *Partial*: `pos` not beyond the size. -/
theorem C74_construct_sub_partial (hy : Represents N2 y.elems y.len ds) (hN : N2 ≤ N) (hw : N + 1 < 2 ^ 64) {pos n : Nat}
    (hp : pos ≤ ds.length) : ∃ x, BStr.ofSub N y pos n = some x ∧ Represents N x.elems x.len ((ds.drop pos).take n) := by
  have hf := hy.fits
  have hl : min n (BStr.wrap (y.len + (2 ^ 64 - pos))) = ((ds.drop pos).take n).length := by
    rw [BStr.wrap, hy.len, List.length_take, List.length_drop]
    have : ds.length + (2 ^ 64 - pos) = ds.length - pos + 2 ^ 64 := by omega
    rw [this, Nat.add_mod_right, Nat.mod_eq_of_lt (by omega)]
  have hs := seg_sub (repr_seg hy) pos n
  rw [Nat.zero_add] at hs
  have hle : ((ds.drop pos).take n).length ≤ ds.length := by simp; omega
  rw [BStr.ofSub, hl, maxSize_eq hy, build_eq hs rfl (by omega), Option.bind_eq_bind, Option.bind_some]
  exact ⟨_, rfl, represents_build (by omega)⟩

/-- with `pos` beyond the size there is no exception: from `ab` a string of one null character is made -/
theorem C74_construct_sub_refuted : ∃ y : BStr, Represents 3 y.elems y.len [97, 98] ∧
    BStr.ofSub 3 y 3 1 = some ⟨[0, 0, 0, 0], 1⟩ := by
  refine ⟨⟨[97, 98, 0, 0], 2⟩, ⟨rfl, rfl, by decide, ?_, ?_⟩, by decide⟩
  · intro i hi; match i, hi with | 0, _ => rfl | 1, _ => rfl
  · intro i h1 h2; match i, h1, h2 with | 2, _, _ => rfl | 3, _, _ => rfl

private theorem takeWhile_take : ∀ (l : List Int) (n : Nat), 0 ∉ l.take n → (l.takeWhile (fun c => c != 0)).take n = l.take n := by
  intro l
  induction l with
  | nil => intro n _; rfl
  | cons c l ih =>
    intro n h
    cases n with
    | zero => rfl
    | succ n =>
      rw [List.take_succ_cons, List.mem_cons, not_or] at h
      rw [List.takeWhile_cons, if_pos (by simpa using fun e => h.1 e.symm), List.take_succ_cons, List.take_succ_cons, ih n h.2]

/-- `substr(pos, n)`. *Partial*: no null character among the characters taken; see `C74_substr_refuted`. -/
theorem C74_substr_partial (hx : Represents N x.elems x.len cs) {pos n : Nat} (h0 : 0 ∉ (cs.drop pos).take n) :
    if pos ≤ cs.length then ∃ y, x.substr pos n = some (.ret y) ∧ Represents N y.elems y.len ((cs.drop pos).take n)
    else x.substr pos n = some (.throw .outOfRange) := by
  have hf := hx.fits
  rw [BStr.substr, hx.len]
  by_cases h : pos ≤ cs.length
  · rw [if_pos h, if_pos (by omega), maxSize_eq hx, BStr.ofCn, Cstr.strlen_eq (isStr_suffix hx pos h), Option.bind_eq_bind,
      Option.bind_some]
    have e := takeWhile_take _ _ h0
    have hl : min (min n (cs.length - pos)) ((cs.drop pos).takeWhile (fun c => c != 0)).length = ((cs.drop pos).take n).length := by
      have e1 := congrArg List.length e
      rw [List.length_take] at e1
      rw [← e1]
      have : ((cs.drop pos).takeWhile (fun c => c != 0)).length ≤ (cs.drop pos).length :=
        (List.takeWhile_prefix _).length_le
      rw [List.length_drop] at this
      omega
    have hs := seg_sub (repr_seg hx) pos n
    rw [Nat.zero_add] at hs
    have hle : ((cs.drop pos).take n).length ≤ N := by simp; omega
    have := checked (N := N) hs
    rw [StrResult, if_pos hle] at this
    rw [hl]
    exact this
  · rw [if_neg h, if_neg (by omega)]

/-- `substr(0, 3)` of `a 0 b` is `a` -/
theorem C74_substr_refuted : ∃ x : BStr, Represents 3 x.elems x.len [97, 0, 98] ∧
    x.substr 0 3 = some (.ret ⟨[97, 0, 0, 0], 1⟩) := by
  refine ⟨⟨[97, 0, 98, 0], 3⟩, ⟨rfl, rfl, by decide, ?_, ?_⟩, ?_⟩
  · intro i hi; match i, hi with | 0, _ => rfl | 1, _ => rfl | 2, _ => rfl
  · intro i h1 h2; match i, h1, h2 with | 3, _, _ => rfl
  · have e := Cstr.strlen_eq (Cstr.IsStr.of_append [] [97] [98, 0] (by decide))
    have e' : Cstr.strlen [97, 0, 98, 0] 0 = some 1 := e
    rw [BStr.substr, if_pos (by decide), BStr.ofCn]
    simp only [e']
    decide

/-- `operator+` -/
theorem C74_concat (hx : Represents N x.elems x.len cs) (hy : Represents N2 y.elems y.len ds) :
    ∃ z, x.concat y = some z ∧ Represents (N + N2) z.elems z.len (cs ++ ds) := by
  have f1 := hx.fits
  have f2 := hy.fits
  rw [BStr.concat, maxSize_eq hx, maxSize_eq hy, mapM_range _ (fun i _ => concatElem_eq hx hy i), Option.bind_eq_bind, Option.bind_some]
  refine ⟨_, rfl, represents_map_snoc (by rw [hx.len, hy.len]; simp) (by show x.len + y.len ≤ _; rw [hx.len, hy.len]; omega) ?_ ?_⟩
  · intro i hi; rw [List.getElem?_eq_getElem hi]; rfl
  · intro i hi _; rw [List.getElem?_eq_none hi]; rfl

/-- `operator<<` -/
theorem C74_shift_concat (hx : Represents N x.elems x.len cs) (hy : Represents N2 y.elems y.len ds) :
    StrResult N (cs ++ ds) (x.shiftConcat y) := by
  rw [BStr.shiftConcat, maxSize_eq hx, StrResult, List.length_append]
  by_cases h : cs.length + ds.length ≤ N
  · rw [if_pos h, if_neg (by rw [hx.len, hy.len]; omega), mapM_range _ (fun i _ => concatElem_eq hx hy i), Option.bind_eq_bind,
      Option.bind_some]
    refine ⟨_, rfl, represents_map_snoc (by rw [hx.len, hy.len]; simp) (by rw [hx.len, hy.len]; omega) ?_ ?_⟩
    · intro i hi; rw [List.getElem?_eq_getElem hi]; rfl
    · intro i hi _; rw [List.getElem?_eq_none hi]; rfl
  · rw [if_neg h, if_pos (by rw [hx.len, hy.len]; omega)]

/-- `operator>>` -/
theorem C74_shift_prepend (hx : Represents N x.elems x.len cs) (hy : Represents N2 y.elems y.len ds) :
    StrResult N (ds ++ cs) (x.shiftPrepend y) := by
  rw [BStr.shiftPrepend, maxSize_eq hx, StrResult, List.length_append]
  by_cases h : ds.length + cs.length ≤ N
  · rw [if_pos h, if_neg (by rw [hx.len, hy.len]; omega), mapM_range _ (fun i _ => concatElem_eq hy hx i), Option.bind_eq_bind,
      Option.bind_some]
    refine ⟨_, rfl, represents_map_snoc (by rw [hx.len, hy.len]; simp) (by rw [hx.len, hy.len]; omega) ?_ ?_⟩
    · intro i hi; rw [List.getElem?_eq_getElem hi]; rfl
    · intro i hi _; rw [List.getElem?_eq_none hi]; rfl
  · rw [if_neg h, if_pos (by rw [hx.len, hy.len]; omega)]

/-! Examples: the string `ab` in a `basic_string<char, 3>`. -/

private theorem ab : Represents 3 [97, 98, 0, 0] 2 [97, 98] :=
  ⟨rfl, rfl, by decide, by intro i hi; match i, hi with | 0, _ => rfl | 1, _ => rfl,
    by intro i h1 h2; match i, h1, h2 with | 2, _, _ => rfl | 3, _, _ => rfl⟩

example : BStr.append ⟨[97, 98, 0, 0], 2⟩ [120, 99] 1 1 = some (.ret ⟨[97, 98, 99, 0], 3⟩) := by decide
example : BStr.append ⟨[97, 98, 0, 0], 2⟩ [120, 99] 0 2 = some (.throw .lengthError) := by decide
example : StrResult 3 ([97, 98] ++ [99]) (BStr.pushBack ⟨[97, 98, 0, 0], 2⟩ 99) := C74_push_back ab 99 (by decide)
example : BStr.assign ⟨[97, 98, 0, 0], 2⟩ [99] 0 1 = some (.ret ⟨[99, 0, 0, 0], 1⟩) := by decide
example : BStr.resize ⟨[97, 98, 0, 0], 2⟩ 3 99 = some (.ret ⟨[97, 98, 99, 0], 3⟩) := by decide
example : BStr.popBack ⟨[97, 98, 0, 0], 2⟩ = some ⟨[97, 0, 0, 0], 1⟩ := by decide
example : BStr.swap ⟨[97, 98, 0, 0], 2⟩ ⟨[99, 0, 0, 0], 1⟩ = some (⟨[99, 0, 0, 0], 1⟩, ⟨[97, 98, 0, 0], 2⟩) := by decide
example : ∃ y, BStr.substr ⟨[97, 98, 0, 0], 2⟩ 1 npos = some (.ret y) ∧ Represents 3 y.elems y.len [98] :=
  C74_substr_partial (x := ⟨[97, 98, 0, 0], 2⟩) ab (pos := 1) (n := npos) (by decide)
example : BStr.concat ⟨[97, 98, 0, 0], 2⟩ ⟨[99, 0], 1⟩ = some ⟨[97, 98, 99, 0, 0], 3⟩ := by decide
example : StrResult 3 ([99] ++ [97, 98]) (BStr.prependChar ⟨[97, 98, 0, 0], 2⟩ 99) := C74_prepend_char_partial ab 99 (by decide)

end Sprout

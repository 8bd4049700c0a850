import Verif.Model.StringView
import Verif.Proofs.StringCompare
import Verif.Proofs.StringClass
import Verif.Props.C72

/-!
# C75: `basic_string_view`
-/

namespace Sprout
open Spec (overwrite)
open Spec.Str Str

/-- the view `v` into the block `m` shows the characters `cs` -/
def Shows (m : List Int) (v : SView) (cs : List Int) : Prop := v.len = cs.length ∧ StoredAt m v.ptr cs

variable {m mw ms : List Int} {v w : SView} {cs ds : List Int}

/-- constructors from null-terminated strings and from `basic_string` -/
theorem C75_construct (pre post : List Int) (h0 : 0 ∉ ds) {N : Nat} {x : BStr} (hx : Represents N x.elems x.len cs) :
    (∃ v, SView.ofC (pre ++ ds ++ 0 :: post) pre.length = some v ∧ Shows (pre ++ ds ++ 0 :: post) v ds) ∧
    Shows x.elems (SView.ofStr x) cs := by
  refine ⟨?_, hx.len, repr_seg hx⟩
  rw [SView.ofC, Cstr.strlen_eq (Cstr.IsStr.of_append pre ds post h0), Option.bind_eq_bind, Option.bind_some]
  exact ⟨_, rfl, rfl, Seg.of_append pre ds (0 :: post)⟩

/-- `at` -/
theorem C75_at (h : Shows m v cs) (i : Nat) :
    v.atPos m i = match cs[i]? with | some c => some (.ret c) | none => some (.throw .outOfRange) := by
  rw [SView.atPos, h.1]
  by_cases hi : i < cs.length
  · rw [if_pos hi, rd, h.2 i hi, List.getElem?_eq_getElem hi]; rfl
  · rw [if_neg hi, List.getElem?_eq_none (by omega)]

/-- `remove_prefix` and `remove_suffix`, of variables and of constants, for any number -/
theorem C75_remove (h : Shows m v cs) (n : Nat) :
    Shows m (v.removePrefix n) (cs.drop n) ∧ v.removePrefixC n = v.removePrefix n ∧
    Shows m (v.removeSuffix n) (cs.take (cs.length - n)) ∧ v.removeSuffixC n = v.removeSuffix n := by
  obtain ⟨h1, h2⟩ := h
  rw [SView.removePrefix, SView.removePrefixC, SView.removeSuffix, SView.removeSuffixC, h1]
  by_cases hn : n > cs.length
  · simp only [if_pos hn, Nat.sub_self]
    rw [List.drop_eq_nil_of_le (by omega), show cs.length - n = 0 by omega]
    exact ⟨⟨rfl, fun i hi => absurd hi (Nat.not_lt_zero i)⟩, trivial, ⟨rfl, fun i hi => absurd hi (Nat.not_lt_zero i)⟩, trivial⟩
  · simp only [if_neg hn]
    exact ⟨⟨by simp, seg_drop h2 n⟩, trivial, ⟨by simp, seg_take h2 _⟩, trivial⟩

/-- `substr(pos, n)`. *Partial*: `n` not greater than the number of characters behind `pos`, or `npos`; otherwise see
`C75_substr_refuted`. -/
theorem C75_substr_partial (h : Shows m v cs) {pos n : Nat} (hl : cs.length < npos) (hn : n = npos ∨ pos + n ≤ cs.length) :
    if pos ≤ cs.length then ∃ u, v.substr pos n = .ret u ∧ Shows m u ((cs.drop pos).take n)
    else v.substr pos n = .throw .outOfRange := by
  obtain ⟨h1, h2⟩ := h
  rw [SView.substr, h1]
  by_cases hp : pos ≤ cs.length
  · rw [if_pos hp, if_pos (by omega)]
    by_cases hnp : n = npos
    · rw [if_pos hnp]
      refine ⟨_, rfl, ?_, seg_sub h2 pos n⟩
      rw [List.length_take, List.length_drop]
      show cs.length - pos = _
      omega
    · rw [if_neg hnp]
      refine ⟨_, rfl, ?_, seg_sub h2 pos n⟩
      rw [List.length_take, List.length_drop]
      show n = _
      omega
  · rw [if_neg hp, if_neg (by omega)]

/-- `substr(1, 5)` of a view of two characters has five characters: it extends beyond the view, here beyond the block -/
theorem C75_substr_refuted : Shows [97, 98] ⟨0, 2⟩ [97, 98] ∧ SView.substr ⟨0, 2⟩ 1 5 = .ret ⟨1, 5⟩ ∧
    (∀ xs, ¬Shows [97, 98] ⟨1, 5⟩ xs) ∧ SView.atPos ⟨1, 5⟩ [97, 98] 3 = none := by
  refine ⟨⟨rfl, fun i hi => by rw [Nat.zero_add]⟩, by decide, ?_, by decide⟩
  rintro xs ⟨h1, h2⟩
  have h1 : 5 = xs.length := h1
  have := h2 3 (by omega)
  rw [List.getElem?_eq_getElem (l := xs) (by omega)] at this
  exact absurd this (by simp)

/-- `find`, `rfind` of a view. *Partial* as in C72: the characters sought contain no null character (`find`: but for the first). -/
theorem C75_find_partial (h : Shows m v cs) (g : Shows mw w ds) (pos : Nat) :
    (0 ∉ ds.tail → ∃ r, v.find m w mw pos = some r ∧ Lowest (fun i => pos ≤ i ∧ OccursAt cs ds i) r) ∧
    (0 ∉ ds → ∃ r, v.rfind m w mw pos = some r ∧ Highest (fun i => i ≤ pos ∧ OccursAt cs ds i) r) := by
  rw [SView.find, SView.rfind, h.1, g.1]
  exact ⟨C72_find_partial _ _ _ _ _ _ _ h.2 g.2, C72_rfind_partial _ _ _ _ _ _ _ h.2 g.2⟩

/-- `find_first_of`, `find_last_of`, `find_first_not_of`, `find_last_not_of` -/
theorem C75_find_of (h : Shows m v cs) (g : Shows mw w ds) (pos : Nat) :
    (∃ r, v.findFirstOf m w mw pos = some r ∧ Lowest (fun i => pos ≤ i ∧ OneOf cs ds i) r) ∧
    (∃ r, v.findLastOf m w mw pos = some r ∧ Highest (fun i => i ≤ pos ∧ OneOf cs ds i) r) ∧
    (∃ r, v.findFirstNotOf m w mw pos = some r ∧ Lowest (fun i => pos ≤ i ∧ NotOneOf cs ds i) r) ∧
    (∃ r, v.findLastNotOf m w mw pos = some r ∧ Highest (fun i => i ≤ pos ∧ NotOneOf cs ds i) r) := by
  rw [SView.findFirstOf, SView.findLastOf, SView.findFirstNotOf, SView.findLastNotOf, h.1, g.1]
  exact ⟨C72_find_first_of _ _ _ _ _ _ _ h.2 g.2, C72_find_last_of _ _ _ _ _ _ _ h.2 g.2,
    C72_find_first_not_of _ _ _ _ _ _ _ h.2 g.2, C72_find_last_not_of _ _ _ _ _ _ _ h.2 g.2⟩

/-- `compare(pos1, n1, s, n2)`. *Partial* as in C73: characters are nonnegative numbers, and not both sequences contain null. -/
theorem C75_compare_partial (h : Shows m v cs) {s pos1 n1 : Nat} (h2 : StoredAt ms s ds) (p1 : ∀ c ∈ cs, 0 ≤ c)
    (p2 : ∀ c ∈ ds, 0 ≤ c) (h0 : 0 ∉ (cs.drop pos1).take n1 ∨ 0 ∉ ds) :
    if pos1 ≤ cs.length then ∃ r, v.compare m pos1 n1 ms s ds.length = some (.ret r) ∧ Cmp3 ((cs.drop pos1).take n1) ds r
    else v.compare m pos1 n1 ms s ds.length = some (.throw .outOfRange) := by
  rw [SView.compare, h.1]
  by_cases hp : pos1 ≤ cs.length
  · rw [if_pos hp, if_pos (by omega)]
    have hl : min n1 (cs.length - pos1) = ((cs.drop pos1).take n1).length := by simp
    rw [hl, compareImpl_eq (seg_sub h.2 pos1 n1) h2 h0 (fun c hc => p1 c (List.mem_of_mem_drop (List.mem_of_mem_take hc))) p2]
    exact ⟨_, rfl, verdict_cmp3 _ _⟩
  · rw [if_neg hp, if_neg (by omega)]

/-- `compare(pos1, n1, str, pos2, n2)` -/
theorem C75_compare_sub_partial (h : Shows m v cs) (g : Shows mw w ds) {pos1 n1 pos2 n2 : Nat} (p1 : ∀ c ∈ cs, 0 ≤ c)
    (p2 : ∀ c ∈ ds, 0 ≤ c) (h0 : 0 ∉ (cs.drop pos1).take n1 ∨ 0 ∉ (ds.drop pos2).take n2) :
    if pos1 ≤ cs.length ∧ pos2 ≤ ds.length then
      ∃ r, v.compareSub m pos1 n1 w mw pos2 n2 = some (.ret r) ∧ Cmp3 ((cs.drop pos1).take n1) ((ds.drop pos2).take n2) r
    else v.compareSub m pos1 n1 w mw pos2 n2 = some (.throw .outOfRange) := by
  rw [SView.compareSub, g.1]
  by_cases hp2 : pos2 ≤ ds.length
  · rw [if_pos (show ¬ds.length < pos2 by omega)]
    have hl : min n2 (ds.length - pos2) = ((ds.drop pos2).take n2).length := by simp
    have := C75_compare_partial (pos1 := pos1) (n1 := n1) h (seg_sub g.2 pos2 n2) p1
      (fun c hc => p2 c (List.mem_of_mem_drop (List.mem_of_mem_take hc))) h0
    rw [hl]
    by_cases hp : pos1 ≤ cs.length
    · rw [if_pos ⟨hp, hp2⟩]; rwa [if_pos hp] at this
    · rw [if_neg (fun h => hp h.1)]; rwa [if_neg hp] at this
  · rw [if_neg (fun h => hp2 h.2), if_neg (show ¬¬ds.length < pos2 by omega)]

/-- `compare(str)`, `==` and `<` -/
theorem C75_operators_partial (h : Shows m v cs) (g : Shows mw w ds) (p1 : ∀ c ∈ cs, 0 ≤ c) (p2 : ∀ c ∈ ds, 0 ≤ c)
    (h0 : 0 ∉ cs ∨ 0 ∉ ds) :
    (∃ r, v.compareView m w mw = some (.ret r) ∧ Cmp3 cs ds r) ∧ v.eq m w mw = some (.ret (decide (cs = ds))) ∧
    v.lt m w mw = some (.ret (decide (cs < ds))) := by
  have := C75_compare_partial (pos1 := 0) (n1 := cs.length) h g.2 p1 p2 (by simpa using h0)
  rw [if_pos (by omega)] at this
  have : ∃ r, v.compareView m w mw = some (.ret r) ∧ Cmp3 cs ds r := by
    rw [SView.compareView, h.1, g.1]
    simpa using this
  refine ⟨this, ?_⟩
  obtain ⟨r, e, a1, a2, a3⟩ := this
  simp only [SView.eq, SView.lt, BStr.test, e, Option.bind_eq_bind, Option.bind_some, Option.some.injEq, Ret.ret.injEq]
  constructor
  · rw [Bool.eq_iff_iff]; simp [a3]
  · rw [Bool.eq_iff_iff]; simp [a1]

/-- `compare(s)` with a null-terminated string, in full -/
theorem C75_compare_c_str (h : Shows m v cs) (pre post : List Int) (p1 : ∀ c ∈ cs, 0 ≤ c) (p2 : ∀ c ∈ ds, 0 ≤ c) (h0 : 0 ∉ ds) :
    ∃ r, v.compareC m (pre ++ ds ++ 0 :: post) pre.length = some (.ret r) ∧ Cmp3 cs ds r := by
  rw [SView.compareC, Cstr.strlen_eq (Cstr.IsStr.of_append pre ds post h0), Option.bind_eq_bind, Option.bind_some]
  have := C75_compare_partial (pos1 := 0) (n1 := cs.length) h (Seg.of_append pre ds (0 :: post)) p1 p2 (Or.inr h0)
  rw [if_pos (by omega)] at this
  rw [h.1]
  simpa using this

private theorem cmp_eq {p q n : Nat} {xs ys : List Int} (hx : xs.length = n) (hy : ys.length = n)
    (h1 : Seg m p xs) (h2 : Seg mw q ys) (h0 : 0 ∉ ys) :
    (traitsCompare m mw p q n).map (fun r => r == 0) = some (decide (xs = ys)) := by
  rw [traitsCompare_seg hx hy h1 h2, Option.map_some, Option.some.injEq]
  obtain ⟨t0, t2⟩ := tw_eq xs ys (by omega) (Or.inr h0)
  rw [Bool.eq_iff_iff, beq_iff_eq, decide_eq_true_iff, ← t2]
  by_cases e : tw xs ys = 2
  · rw [if_neg (by simpa using e)]; simp [e]
  · rw [if_pos e]; simp [e, t0]

/-- `starts_with`, `ends_with` a view. *Partial*: without a null character in it. -/
theorem C75_starts_ends_partial (h : Shows m v cs) (g : Shows mw w ds) (h0 : 0 ∉ ds) :
    v.startsWith m w mw = some (decide (ds <+: cs)) ∧ v.endsWith m w mw = some (decide (ds <:+ cs)) := by
  rw [SView.startsWith, SView.endsWith, h.1, g.1]
  by_cases hl : cs.length ≥ ds.length
  · rw [if_pos hl, if_pos hl]
    have hd := seg_drop h.2 (cs.length - ds.length)
    rw [show v.ptr + cs.length - ds.length = v.ptr + (cs.length - ds.length) by omega]
    rw [cmp_eq (by simp; omega) rfl (seg_take h.2 ds.length) g.2 h0, cmp_eq (by simp; omega) rfl hd g.2 h0]
    constructor
    · refine congrArg some ?_
      rw [Bool.eq_iff_iff, decide_eq_true_iff, decide_eq_true_iff, List.prefix_iff_eq_take, eq_comm]
    · refine congrArg some ?_
      rw [Bool.eq_iff_iff, decide_eq_true_iff, decide_eq_true_iff, List.suffix_iff_eq_drop, eq_comm]
  · rw [if_neg hl, if_neg hl]
    constructor
    · refine congrArg some ?_
      symm
      exact decide_eq_false (fun hp => hl hp.length_le)
    · refine congrArg some ?_
      symm
      exact decide_eq_false (fun hp => hl hp.length_le)

/-- `starts_with`, `ends_with` a character -/
theorem C75_starts_ends_char (h : Shows m v cs) (c : Int) :
    v.startsWithChar m c = some (decide (cs.head? = some c)) ∧ v.endsWithChar m c = some (decide (cs.getLast? = some c)) := by
  rw [SView.startsWithChar, SView.endsWithChar, h.1]
  by_cases hl : cs.length ≠ 0
  · have e0 := h.2 0 (by omega)
    have e1 := h.2 (cs.length - 1) (by omega)
    rw [if_pos hl, if_pos hl, rd, rd, List.head?_eq_getElem?, List.getLast?_eq_getElem?, e1]
    rw [Nat.add_zero] at e0
    rw [e0, List.getElem?_eq_getElem (l := cs) (i := 0) (by omega), List.getElem?_eq_getElem (l := cs) (i := cs.length - 1) (by omega)]
    simp only [Option.map_some, Option.some.injEq]
    constructor <;> (rw [Bool.eq_iff_iff, beq_iff_eq, decide_eq_true_iff]; exact eq_comm)
  · have : cs = [] := List.length_eq_zero_iff.1 (by simpa using hl)
    subst this
    rw [if_neg (by simp), if_neg (by simp)]
    simp

/-- the view `a 0 c` starts with `a 0 b` by the code -/
theorem C75_starts_null_refuted : Shows [97, 0, 99] ⟨0, 3⟩ [97, 0, 99] ∧ Shows [97, 0, 98] ⟨0, 3⟩ [97, 0, 98] ∧
    SView.startsWith ⟨0, 3⟩ [97, 0, 99] ⟨0, 3⟩ [97, 0, 98] = some true ∧ ¬[97, 0, 98] <+: [(97 : Int), 0, 99] := by
  have s1 : Shows [97, 0, 99] ⟨0, 3⟩ [97, 0, 99] := ⟨rfl, fun i hi => by rw [Nat.zero_add]⟩
  have s2 : Shows [97, 0, 98] ⟨0, 3⟩ [97, 0, 98] := ⟨rfl, fun i hi => by rw [Nat.zero_add]⟩
  refine ⟨s1, s2, ?_, by decide⟩
  have e := traitsCompare_seg (n := 3) rfl rfl s1.2 s2.2
  rw [SView.startsWith, if_pos (by decide)]
  simp only [e]
  rfl

/-- `copy(s, n, pos)`. *Partial*: `pos` different from the size, for which the code throws. -/
theorem C75_copy_partial (h : Shows m v cs) {md : List Int} {s n pos : Nat} (hp : pos ≠ cs.length)
    (hm : s + ((cs.drop pos).take n).length ≤ md.length) :
    v.copyTo m md s n pos = if pos ≤ cs.length then
      some (.ret (overwrite md s ((cs.drop pos).take n), ((cs.drop pos).take n).length)) else some (.throw .outOfRange) := by
  rw [SView.copyTo, h.1]
  by_cases hle : pos ≤ cs.length
  · have hl : min n (cs.length - pos) = ((cs.drop pos).take n).length := by simp
    have hs := seg_sub h.2 pos n
    rw [if_neg (by omega), if_pos hle, hl]
    have : (List.range ((cs.drop pos).take n).length).mapM (fun i => rd m (v.ptr + pos + i)) = some ((cs.drop pos).take n) := by
      rw [mapM_range (g := fun i => (((cs.drop pos).take n)[i]?).getD 0)]
      · refine congrArg some ?_
        apply List.ext_getElem?
        intro i
        by_cases hi : i < ((cs.drop pos).take n).length
        · rw [List.getElem?_map, List.getElem?_range hi, Option.map_some, List.getElem?_eq_getElem hi]; rfl
        · rw [List.getElem?_eq_none (by rw [List.length_map, List.length_range]; omega), List.getElem?_eq_none (by omega)]
      · intro i hi
        rw [rd, hs i hi, List.getElem?_eq_getElem hi]
        rfl
    rw [this, Option.bind_eq_bind, Option.bind_some, storeLoop_eq _ _ _ hm, Option.bind_eq_bind, Option.bind_some]
  · rw [if_neg hle, if_pos (by omega)]

/-- `to_string<N>()`. *Partial*: there is a null character somewhere behind the view, and none in it. -/
theorem C75_to_string_partial (N : Nat) (pre cs post rest : List Int) (h0 : 0 ∉ cs ++ post) :
    let r := SView.toStr N ⟨pre.length, cs.length⟩ (pre ++ (cs ++ post) ++ 0 :: rest)
    if cs.length ≤ N then ∃ y, r = some (.ret y) ∧ Represents N y.elems y.len cs else r = some (.throw .lengthError) := by
  intro r
  have hr : r = BStr.ofChecked N (pre ++ (cs ++ post) ++ 0 :: rest) pre.length cs.length := by
    show BStr.ofCn _ _ _ _ = _
    rw [BStr.ofCn, Cstr.strlen_eq (Cstr.IsStr.of_append pre (cs ++ post) rest h0), Option.bind_eq_bind, Option.bind_some,
      List.length_append, Nat.min_eq_left (Nat.le_add_right _ _)]
  have hs : Seg (pre ++ (cs ++ post) ++ 0 :: rest) pre.length cs := by
    have := Seg.of_append pre cs (post ++ 0 :: rest)
    simpa using this
  rw [hr]
  exact ofChecked_eq hs

/-- without one the code reads past the end of the block; with one in the view the string is cut -/
theorem C75_to_string_refuted : Shows [97] ⟨0, 1⟩ [97] ∧ SView.toStr 5 ⟨0, 1⟩ [97] = none ∧
    Shows [97, 0, 98, 0] ⟨0, 3⟩ [97, 0, 98] ∧ SView.toStr 3 ⟨0, 3⟩ [97, 0, 98, 0] = some (.ret ⟨[97, 0, 0, 0], 1⟩) := by
  refine ⟨⟨rfl, fun i hi => by rw [Nat.zero_add]⟩, ?_,
    ⟨rfl, by intro i hi; match i, hi with | 0, _ => rfl | 1, _ => rfl | 2, _ => rfl⟩, ?_⟩
  · rw [SView.toStr, BStr.ofCn, strlen_one (by decide)]; rfl
  · have e : Cstr.strlen [97, 0, 98, 0] 0 = some 1 := Cstr.strlen_eq (Cstr.IsStr.of_append [] [97] [98, 0] (by decide))
    rw [SView.toStr, BStr.ofCn, e, Option.bind_eq_bind, Option.bind_some]
    decide

/-! Examples: the view `bc` in the block `abcd`. -/

private theorem bc : Shows [97, 98, 99, 100] ⟨1, 2⟩ [98, 99] :=
  ⟨rfl, by intro i hi; match i, hi with | 0, _ => rfl | 1, _ => rfl⟩
private theorem bb : Shows [98] ⟨0, 1⟩ [98] := ⟨rfl, by intro i hi; match i, hi with | 0, _ => rfl⟩

example : SView.startsWith ⟨1, 2⟩ [97, 98, 99, 100] ⟨0, 1⟩ [98] = some true := (C75_starts_ends_partial bc bb (by decide)).1
example : SView.endsWith ⟨1, 2⟩ [97, 98, 99, 100] ⟨0, 1⟩ [98] = some false := (C75_starts_ends_partial bc bb (by decide)).2
example : SView.lt ⟨1, 2⟩ [97, 98, 99, 100] ⟨0, 1⟩ [98] = some (.ret false) :=
  (C75_operators_partial bc bb (by decide) (by decide) (by decide)).2.2
example : Shows [97, 98, 99, 100] ⟨2, 1⟩ [99] := (C75_remove bc 1).1
example : ∃ u, SView.substr ⟨1, 2⟩ 1 npos = .ret u ∧ Shows [97, 98, 99, 100] u [99] :=
  C75_substr_partial bc (pos := 1) (n := npos) (by decide) (Or.inl rfl)

end Sprout

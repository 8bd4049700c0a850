import Verif.Model.StringClass
import Verif.Spec.StringClass
import Verif.Proofs.StringSearch
import Verif.Proofs.StringCompare

/-!
# C73: comparison of strings
-/

namespace Sprout
open Spec.Str Str

/-- `compare(pos1, n1, s, n2)`: `out_of_range` exactly if `pos1 > size()`, else the lexicographic comparison of the characters
`pos1 … pos1 + n1` with the `n2` characters given. *Partial*: the characters are compared as unsigned numbers (which they are),
and not both sequences contain a null character; see `C73_compare_null_refuted`. -/
theorem C73_compare_partial (N : Nat) (x : BStr) (cs ds ms : List Int) (s pos1 n1 : Nat) (hx : Represents N x.elems x.len cs)
    (h2 : StoredAt ms s ds) (p1 : ∀ c ∈ cs, 0 ≤ c) (p2 : ∀ c ∈ ds, 0 ≤ c) (h0 : 0 ∉ (cs.drop pos1).take n1 ∨ 0 ∉ ds) :
    if pos1 ≤ cs.length then ∃ r, x.compare pos1 n1 ms s ds.length = some (.ret r) ∧ Cmp3 ((cs.drop pos1).take n1) ds r
    else x.compare pos1 n1 ms s ds.length = some (.throw .outOfRange) := by
  rw [BStr.compare, hx.len]
  by_cases hp : pos1 ≤ cs.length
  · rw [if_pos hp, if_pos (by omega)]
    have hs : Seg x.elems (0 + pos1) ((cs.drop pos1).take n1) := by
      apply seg_sub
      intro i hi
      rw [Nat.zero_add]; exact hx.chars i hi
    have hl : min n1 (cs.length - pos1) = ((cs.drop pos1).take n1).length := by simp
    rw [hl, compareImpl_eq hs h2 h0 (fun c hc => p1 c (List.mem_of_mem_drop (List.mem_of_mem_take hc))) p2]
    exact ⟨_, rfl, verdict_cmp3 _ _⟩
  · rw [if_neg hp, if_neg (by omega)]

/-- `compare(pos1, n1, str, pos2, n2)` -/
theorem C73_compare_sub_partial (N N2 : Nat) (x y : BStr) (cs ds : List Int) (pos1 n1 pos2 n2 : Nat)
    (hx : Represents N x.elems x.len cs) (hy : Represents N2 y.elems y.len ds) (p1 : ∀ c ∈ cs, 0 ≤ c) (p2 : ∀ c ∈ ds, 0 ≤ c)
    (h0 : 0 ∉ (cs.drop pos1).take n1 ∨ 0 ∉ (ds.drop pos2).take n2) :
    if pos1 ≤ cs.length ∧ pos2 ≤ ds.length then
      ∃ r, x.compareSub pos1 n1 y pos2 n2 = some (.ret r) ∧ Cmp3 ((cs.drop pos1).take n1) ((ds.drop pos2).take n2) r
    else x.compareSub pos1 n1 y pos2 n2 = some (.throw .outOfRange) := by
  rw [BStr.compareSub, hy.len]
  by_cases hp2 : pos2 ≤ ds.length
  · rw [if_pos (show ¬ds.length < pos2 by omega)]
    have hs : StoredAt y.elems pos2 ((ds.drop pos2).take n2) := by
      have : Seg y.elems (0 + pos2) ((ds.drop pos2).take n2) := by
        apply seg_sub
        intro i hi
        rw [Nat.zero_add]; exact hy.chars i hi
      rwa [Nat.zero_add] at this
    have hl : min n2 (ds.length - pos2) = ((ds.drop pos2).take n2).length := by simp
    have := C73_compare_partial N x cs _ _ pos2 pos1 n1 hx hs p1 (fun c hc => p2 c (List.mem_of_mem_drop (List.mem_of_mem_take hc))) h0
    rw [hl]
    by_cases hp : pos1 ≤ cs.length
    · rw [if_pos ⟨hp, hp2⟩]; rwa [if_pos hp] at this
    · rw [if_neg (fun h => hp h.1)]; rwa [if_neg hp] at this
  · rw [if_neg (fun h => hp2 h.2), if_neg (show ¬¬ds.length < pos2 by omega)]

/-- `compare(str)` -/
theorem C73_compare_str_partial (N N2 : Nat) (x y : BStr) (cs ds : List Int) (hx : Represents N x.elems x.len cs)
    (hy : Represents N2 y.elems y.len ds) (p1 : ∀ c ∈ cs, 0 ≤ c) (p2 : ∀ c ∈ ds, 0 ≤ c) (h0 : 0 ∉ cs ∨ 0 ∉ ds) :
    ∃ r, x.compareStr y = some (.ret r) ∧ Cmp3 cs ds r := by
  have hs : StoredAt y.elems 0 ds := by
    intro i hi
    rw [Nat.zero_add]; exact hy.chars i hi
  have := C73_compare_partial N x cs ds _ 0 0 cs.length hx hs p1 p2 (by simpa using h0)
  rw [if_pos (by omega)] at this
  rw [BStr.compareStr, hx.len, hy.len]
  simpa using this

/-- `compare(s)` with a null-terminated string, in full: at most one of the two can contain a null character -/
theorem C73_compare_c_str (N : Nat) (x : BStr) (cs ds pre post : List Int) (hx : Represents N x.elems x.len cs)
    (p1 : ∀ c ∈ cs, 0 ≤ c) (p2 : ∀ c ∈ ds, 0 ≤ c) (h0 : 0 ∉ ds) :
    ∃ r, x.compareC (pre ++ ds ++ 0 :: post) pre.length = some (.ret r) ∧ Cmp3 cs ds r := by
  rw [BStr.compareC, Cstr.strlen_eq (Cstr.IsStr.of_append pre ds post h0), Option.bind_eq_bind, Option.bind_some]
  have hs : StoredAt (pre ++ ds ++ 0 :: post) pre.length ds := Seg.of_append pre ds (0 :: post)
  have := C73_compare_partial N x cs ds _ pre.length 0 cs.length hx hs p1 p2 (Or.inr h0)
  rw [if_pos (by omega)] at this
  rw [hx.len]
  simpa using this

/-- the relational operators between strings; *partial* as above -/
theorem C73_operators_partial (N N2 : Nat) (x y : BStr) (cs ds : List Int) (hx : Represents N x.elems x.len cs)
    (hy : Represents N2 y.elems y.len ds) (p1 : ∀ c ∈ cs, 0 ≤ c) (p2 : ∀ c ∈ ds, 0 ≤ c) (h0 : 0 ∉ cs ∨ 0 ∉ ds) :
    x.eq y = some (.ret (decide (cs = ds))) ∧ x.ne y = some (.ret (decide (cs ≠ ds))) ∧
    x.lt y = some (.ret (decide (cs < ds))) ∧ x.gt y = some (.ret (decide (ds < cs))) ∧
    x.le y = some (.ret (decide (cs = ds ∨ cs < ds))) ∧ x.ge y = some (.ret (decide (cs = ds ∨ ds < cs))) := by
  obtain ⟨r, e, a1, a2, a3⟩ := C73_compare_str_partial N N2 x y cs ds hx hy p1 p2 h0
  obtain ⟨q, e', b1, b2, b3⟩ := C73_compare_str_partial N2 N y x ds cs hy hx p2 p1 h0.symm
  simp only [BStr.eq, BStr.ne, BStr.lt, BStr.gt, BStr.le, BStr.ge, BStr.test, e, e', Option.bind_eq_bind, Option.bind_some,
    Option.some.injEq, Ret.ret.injEq]
  refine ⟨?_, ?_, ?_, ?_, ?_, ?_⟩
  · rw [Bool.eq_iff_iff]; simp [a3]
  · rw [Bool.eq_iff_iff]; simp [a3]
  · rw [Bool.eq_iff_iff]; simp [a1]
  · rw [Bool.eq_iff_iff]; simp [b1]
  · rw [Bool.eq_iff_iff]
    simp only [Bool.not_eq_true', decide_eq_false_iff_not, decide_eq_true_eq, ← b2, eq_comm (a := cs), ← b3]
    omega
  · rw [Bool.eq_iff_iff]
    simp only [Bool.not_eq_true', decide_eq_false_iff_not, decide_eq_true_eq, ← a2, ← a3]
    omega

/-- the relational operators with a null-terminated string -/
theorem C73_operators_c_str (N : Nat) (x : BStr) (cs ds pre post : List Int) (hx : Represents N x.elems x.len cs)
    (p1 : ∀ c ∈ cs, 0 ≤ c) (p2 : ∀ c ∈ ds, 0 ≤ c) (h0 : 0 ∉ ds) :
    x.eqC (pre ++ ds ++ 0 :: post) pre.length = some (.ret (decide (cs = ds))) ∧
    x.ltC (pre ++ ds ++ 0 :: post) pre.length = some (.ret (decide (cs < ds))) ∧
    BStr.cLt (pre ++ ds ++ 0 :: post) pre.length x = some (.ret (decide (ds < cs))) := by
  obtain ⟨r, e, a1, a2, a3⟩ := C73_compare_c_str N x cs ds pre post hx p1 p2 h0
  simp only [BStr.eqC, BStr.ltC, BStr.cLt, BStr.test, e, Option.bind_eq_bind, Option.bind_some, Option.some.injEq, Ret.ret.injEq]
  refine ⟨?_, ?_, ?_⟩
  · rw [Bool.eq_iff_iff]; simp [a3]
  · rw [Bool.eq_iff_iff]; simp [a1]
  · rw [Bool.eq_iff_iff]; simp [a2]

private theorem rep1 : Represents 3 [97, 98, 0, 0] 2 [97, 98] :=
  ⟨rfl, rfl, by decide, by intro i hi; match i, hi with | 0, _ => rfl | 1, _ => rfl,
    by intro i h1 h2; match i, h1, h2 with | 2, _, _ => rfl | 3, _, _ => rfl⟩
private theorem rep2 : Represents 2 [97, 99, 0] 2 [97, 99] :=
  ⟨rfl, rfl, by decide, by intro i hi; match i, hi with | 0, _ => rfl | 1, _ => rfl,
    by intro i h1 h2; match i, h1, h2 with | 2, _, _ => rfl⟩

example : BStr.lt ⟨[97, 98, 0, 0], 2⟩ ⟨[97, 99, 0], 2⟩ = some (.ret true) :=
  (C73_operators_partial 3 2 ⟨[97, 98, 0, 0], 2⟩ ⟨[97, 99, 0], 2⟩ _ _ rep1 rep2 (by decide) (by decide) (by decide)).2.2.1
example : BStr.eqC ⟨[97, 98, 0, 0], 2⟩ [97, 98, 0] 0 = some (.ret true) :=
  (C73_operators_c_str 3 ⟨[97, 98, 0, 0], 2⟩ _ [97, 98] [] [] rep1 (by decide) (by decide) (by decide)).1
example : BStr.compareSub ⟨[97, 98, 0, 0], 2⟩ 3 1 ⟨[97, 99, 0], 2⟩ 0 npos = some (.throw .outOfRange) :=
  C73_compare_sub_partial 3 2 ⟨[97, 98, 0, 0], 2⟩ ⟨[97, 99, 0], 2⟩ _ _ 3 1 0 npos rep1 rep2 (by decide) (by decide) (by decide)

private theorem rep3 : Represents 3 [97, 0, 98, 0] 3 [97, 0, 98] :=
  ⟨rfl, rfl, by decide, by intro i hi; match i, hi with | 0, _ => rfl | 1, _ => rfl | 2, _ => rfl,
    by intro i h1 h2; match i, h1, h2 with | 3, _, _ => rfl⟩
private theorem rep4 : Represents 3 [97, 0, 99, 0] 3 [97, 0, 99] :=
  ⟨rfl, rfl, by decide, by intro i hi; match i, hi with | 0, _ => rfl | 1, _ => rfl | 2, _ => rfl,
    by intro i h1 h2; match i, h1, h2 with | 3, _, _ => rfl⟩

/-- the strings `a 0 b` and `a 0 c` compare equal -/
theorem C73_compare_null_refuted : ∃ (x y : BStr) (cs ds : List Int), Represents 3 x.elems x.len cs ∧ Represents 3 y.elems y.len ds ∧
    (∀ c ∈ cs, 0 ≤ c) ∧ (∀ c ∈ ds, 0 ≤ c) ∧ cs ≠ ds ∧ x.eq y = some (.ret true) := by
  refine ⟨⟨[97, 0, 98, 0], 3⟩, ⟨[97, 0, 99, 0], 3⟩, _, _, rep3, rep4, by decide, by decide, by decide, ?_⟩
  have s1 : Seg [97, 0, 98, 0] 0 [(97 : Int), 0, 98] := by
    intro i hi; rw [Nat.zero_add]; exact rep3.chars i hi
  have s2 : Seg [97, 0, 99, 0] 0 [(97 : Int), 0, 99] := by
    intro i hi; rw [Nat.zero_add]; exact rep4.chars i hi
  have e := traitsCompare_seg (n := 3) rfl rfl s1 s2
  rw [BStr.eq, BStr.compareStr, BStr.compare, if_pos (by decide), compareImpl]
  simp only [Nat.reduceSub, Nat.min_self, Nat.add_zero, e]
  rfl

end Sprout

import Verif.Model.Join
import Verif.Proofs.Bitset2
import Verif.Props.C14
import Verif.Props.C81

/-!
# C146: joining strings
-/

namespace Sprout

open Join

variable {α : Type}

theorem sums_length : ∀ (l : List Nat) (a : Nat), (sums l a).length = l.length
  | [], _ => rfl
  | n :: l, a => by rw [sums, List.length_cons, List.length_cons, sums_length]

theorem sums_get (parts : List (List α)) : ∀ (a k : Nat) (hk : k < (sums (parts.map List.length) a).length),
    (sums (parts.map List.length) a)[k] = a + (parts.take (k + 1)).flatten.length := by
  induction parts with
  | nil => intro a k hk; simp [sums] at hk
  | cons c parts ih =>
    intro a k hk
    cases k with
    | zero => simp [sums]
    | succ k =>
      simp only [List.map_cons, sums, List.getElem_cons_succ]
      rw [ih]
      simp only [List.take_succ_cons, List.flatten_cons, List.length_append]
      omega

theorem take_flatten_mono (parts : List (List α)) {i j : Nat} (h : i ≤ j) : (parts.take i).flatten.length ≤ (parts.take j).flatten.length := by
  have : parts.take j = parts.take i ++ (parts.take j).drop i := by
    conv_lhs => rw [← List.take_append_drop i (parts.take j)]
    rw [List.take_take, Nat.min_eq_left h]
  rw [this, List.flatten_append, List.length_append]
  omega

/-- the part an index belongs to -/
theorem join_found (parts : List (List α)) (idx : Nat) :
    ∃ k calls, lowerBound (sums (parts.map List.length) 0) 0 (sums (parts.map List.length) 0).length (idx + 1) (fun a b => decide (a < b))
        = some (k, calls) ∧
      ((parts.flatten.length ≤ idx ∧ k = parts.length) ∨
       ∃ c, k < parts.length ∧ parts[k]? = some c ∧ (parts.take k).flatten.length ≤ idx
        ∧ before (sums (parts.map List.length) 0) k = some (parts.take k).flatten.length
        ∧ c[idx - (parts.take k).flatten.length]? = parts.flatten[idx]? ∧ idx < parts.flatten.length) := by
  have hlen : (sums (parts.map List.length) 0).length = parts.length := by rw [sums_length, List.length_map]
  have hget := sums_get parts 0
  generalize hS : sums (parts.map List.length) 0 = S at *
  have hw : StrictWeak (fun a b : Nat => decide (a < b)) :=
    ⟨by simp, by intro a b c; simp; omega, by intro a b c; simp; omega⟩
  have hs : SortedBy (fun a b : Nat => decide (a < b)) S := by
    rw [SortedBy, List.pairwise_iff_getElem]
    intro i j hi hj hij
    rw [hget, hget]
    have := take_flatten_mono parts (show i + 1 ≤ j + 1 by omega)
    simpa using this
  obtain ⟨T, F, calls, e, hT, hF, hb⟩ := C14_lower_bound_sorted hw (idx + 1) [] S [] hs
  simp only [List.nil_append, List.append_nil, List.length_nil, Nat.zero_add] at hb
  refine ⟨T.length, calls, hb, ?_⟩
  have hTl : T.length ≤ parts.length := by rw [← hlen, e]; simp
  have hTS : ∀ i (hi : i < T.length), S[i]'(by omega) < idx + 1 := by
    intro i hi
    have := hT T[i] (List.getElem_mem hi)
    rw [decide_eq_true_eq] at this
    have e2 : S[i]'(by omega) = T[i] := by simp only [e, List.getElem_append_left hi]
    omega
  rcases Nat.lt_or_ge T.length parts.length with hk | hk
  · right
    have hFS : idx + 1 ≤ S[T.length]'(by omega) := by
      have hf : 0 < F.length := by
        have := congrArg List.length e
        rw [List.length_append, hlen] at this
        omega
      have := hF F[0] (List.getElem_mem hf)
      rw [decide_eq_false_iff_not] at this
      have e2 : S[T.length]'(by omega) = F[0] := by
        simp only [e]
        rw [List.getElem_append_right (Nat.le_refl _)]
        simp
      omega
    have hprev : (parts.take T.length).flatten.length ≤ idx := by
      rcases Nat.eq_zero_or_pos T.length with h0 | h0
      · simp [h0]
      · have := hTS (T.length - 1) (by omega)
        rw [hget, Nat.sub_add_cancel (by omega)] at this
        omega
    rw [hget] at hFS
    have hsplit : parts = parts.take T.length ++ parts[T.length] :: parts.drop (T.length + 1) := by
      conv_lhs => rw [← List.take_append_drop T.length parts]
      rw [List.drop_eq_getElem_cons hk]
    have hnext : (parts.take (T.length + 1)).flatten.length = (parts.take T.length).flatten.length + parts[T.length].length := by
      rw [List.take_add_one, List.getElem?_eq_getElem hk, List.flatten_append, List.length_append]
      simp
    refine ⟨parts[T.length], hk, List.getElem?_eq_getElem hk, hprev, ?_, ?_, ?_⟩
    · rw [before]
      rcases Nat.eq_zero_or_pos T.length with h0 | h0
      · rw [if_neg (by omega)]; simp [h0]
      · rw [if_pos (by omega), rd, List.getElem?_eq_getElem (by omega), hget, Nat.sub_add_cancel (by omega)]
        simp
    · conv_rhs => rw [hsplit]
      rw [List.flatten_append, List.flatten_cons, List.getElem?_append_right (by omega), List.getElem?_append_left (by omega)]
    · have := take_flatten_mono parts (show T.length + 1 ≤ parts.length by omega)
      rw [List.take_length] at this
      omega
  · left
    refine ⟨?_, by omega⟩
    rcases Nat.eq_zero_or_pos T.length with h0 | h0
    · have : parts = [] := List.length_eq_zero_iff.1 (by omega)
      simp [this]
    · have := hTS (T.length - 1) (by omega)
      rw [hget, Nat.sub_add_cancel (by omega), List.take_of_length_le (by omega)] at this
      omega

theorem element_eq [Inhabited α] (cc : List (List α)) (idx : Nat) :
    element cc (sums (cc.map List.length) 0) idx = some (cc.flatten[idx]?.getD default) := by
  obtain ⟨k, calls, h1, h2⟩ := join_found cc idx
  have hlen : (sums (cc.map List.length) 0).length = cc.length := by rw [sums_length, List.length_map]
  rw [element, h1]
  simp only [Option.bind_eq_bind, Option.bind_some]
  rcases h2 with ⟨h2, rfl⟩ | ⟨c, h2, h3, h4, h5, h6, h7⟩
  · rw [if_pos hlen.symm, List.getElem?_eq_none h2]; rfl
  · rw [if_neg (by omega), rd, h3, h5]
    simp only [Option.bind_some, rd]
    rw [h6, List.getElem?_eq_getElem h7]
    rfl

theorem range_getD [Inhabited α] (l : List α) (n : Nat) (h : l.length ≤ n) :
    (List.range n).mapM (fun i => some (l[i]?.getD default)) = some (l ++ List.replicate (n - l.length) default) := by
  rw [Bitset.mapM_range _ n (l ++ List.replicate (n - l.length) default) (by simp; omega)]
  intro j hj
  rcases Nat.lt_or_ge j l.length with h1 | h1
  · rw [List.getElem?_append_left h1, List.getElem?_eq_getElem h1]; rfl
  · rw [List.getElem?_append_right h1, List.getElem?_eq_none h1, List.getElem?_replicate, if_pos (by omega)]; rfl

theorem flatten_le (N : Nat) : ∀ (cc : List (List α)), (∀ c ∈ cc, c.length ≤ N) → cc.flatten.length ≤ N * cc.length
  | [], _ => by simp
  | c :: cc, h => by
    have := flatten_le N cc fun c hc => h c (by simp [hc])
    have := h c (by simp)
    rw [List.flatten_cons, List.length_append, List.length_cons, Nat.mul_succ]
    omega

/-- **`join`** (random access): the elements of all containers, one after the other; then `value_type()` up to the capacity -/
theorem C146_join [Inhabited α] (N : Nat) (cc : List (List α)) (h : ∀ c ∈ cc, c.length ≤ N) :
    joinRa N cc = some (cc.flatten ++ List.replicate (N * cc.length - cc.flatten.length) default) := by
  rw [joinRa, show element cc (sums (cc.map List.length) 0) = fun i => some (cc.flatten[i]?.getD default) from funext (element_eq cc), capacity,
    range_getD _ _ (flatten_le N cc h)]

/-- the sequential version: the elements -/
theorem C146_join_seq (N : Nat) (cc : List (List α)) (h : ∀ c ∈ cc, c.length ≤ N) : joinSeq N cc = cc.flatten := by
  have key : ∀ (cap : Nat) (cc : List (List α)) (cur args : List α), args.length + cur.length + cc.flatten.length ≤ cap →
      joinSeq1 cap cc cur args = args ++ cur ++ cc.flatten := by
    intro cap cc cur args
    fun_induction joinSeq1 cap cc cur args with
    | case1 cc cur args h =>
      intro hl
      have h1 : cur = [] := List.length_eq_zero_iff.1 (by omega)
      have h2 : cc.flatten = [] := List.length_eq_zero_iff.1 (by omega)
      simp [h1, h2]
    | case2 cc args hn x cur ih =>
      intro hl
      rw [ih (by simp at hl ⊢; omega)]
      simp
    | case3 args hn => intro hl; simp
    | case4 args hn c cc ih =>
      intro hl
      rw [ih (by simp at hl ⊢; omega)]
      simp
  rw [joinSeq, key _ _ _ _ (by have := flatten_le N cc h; simpa [capacity] using this)]
  simp

/-! ## separators -/

/-- the containers with the separator between them -/
def withSep (sep : List α) : List (List α) → List (List α)
  | [] => []
  | [c] => [c]
  | c :: c' :: cc => c :: sep :: withSep sep (c' :: cc)

theorem withSep_length (sep : List α) : ∀ cc : List (List α), (withSep sep cc).length = 2 * cc.length - 1
  | [] => rfl
  | [_] => rfl
  | _ :: c' :: cc => by rw [withSep, List.length_cons, List.length_cons, withSep_length]; simp only [List.length_cons]; omega

theorem withSep_get (sep : List α) : ∀ (cc : List (List α)) (k : Nat), k < (withSep sep cc).length →
    (withSep sep cc)[k]? = if k % 2 = 0 then cc[k / 2]? else some sep
  | [], k, h => by simp [withSep] at h
  | [c], k, h => by
    simp [withSep] at h
    simp [withSep, h]
  | c :: c' :: cc, 0, _ => by simp [withSep]
  | c :: c' :: cc, 1, _ => by simp [withSep]
  | c :: c' :: cc, k + 2, h => by
    simp only [withSep, List.length_cons, List.getElem?_cons_succ] at h ⊢
    rw [withSep_get sep (c' :: cc) k (by simpa using h), Nat.add_mod_right, Nat.add_div_right _ (by omega), List.getElem?_cons_succ]

theorem withSep_flatten (sep : List α) : ∀ cc : List (List α), (withSep sep cc).flatten = sep.intercalate cc
  | [] => rfl
  | [c] => by simp [withSep]
  | c :: c' :: cc => by
    rw [withSep, List.flatten_cons, List.flatten_cons, withSep_flatten]
    simp [List.intercalate]

theorem enumerate_eq (cc : List (List α)) (s : Nat) (sep : List α) (hs : sep.length = s) (hcc : cc ≠ []) :
    ∀ (j k : Nat), k + j = 2 * cc.length - 1 →
      enumerate cc s (cc.length - 1, true) (k / 2, k % 2 == 1) = some (((withSep sep cc).map List.length).drop k) := by
  have hpos := List.length_pos_iff.2 hcc
  have hwl := withSep_length sep cc
  intro j
  induction j with
  | zero =>
    intro k hk
    have h1 : k / 2 = cc.length - 1 := by omega
    have h2 : k % 2 = 1 := by omega
    rw [enumerate, if_pos (by simp [Adaptor.seEq, h1, h2]), List.drop_eq_nil_of_le (by simp; omega)]
  | succ j ih =>
    intro k hk
    have hne : Adaptor.seEq (k / 2, k % 2 == 1) (cc.length - 1, true) = false := by
      simp only [Adaptor.seEq, Bool.and_eq_false_iff]
      rcases Nat.mod_two_eq_zero_or_one k with h | h
      · right; simp [h]
      · left; simp; omega
    rw [enumerate, if_neg (by simp [hne])]
    have hkl : k < (withSep sep cc).length := by omega
    have hnext : Adaptor.seNext cc (k / 2, k % 2 == 1) = some ((k + 1) / 2, (k + 1) % 2 == 1) := by
      rw [Adaptor.seNext]
      rcases Nat.mod_two_eq_zero_or_one k with h | h
      · rw [if_neg (by simp [h]), show (k + 1) / 2 = k / 2 by omega, show (k + 1) % 2 = 1 by omega]; rfl
      · rw [if_pos (by simp [h]), show (k + 1) / 2 = k / 2 + 1 by omega, show (k + 1) % 2 = 0 by omega, Adaptor.padd,
          if_pos (by constructor <;> omega)]
        rfl
    have hd : Adaptor.seDeref (fun c : List α => (c.length : Int)) s cc (k / 2, k % 2 == 1)
        = some (((withSep sep cc)[k].length : Nat) : Int) := by
      have hg := withSep_get sep cc k hkl
      rw [List.getElem?_eq_getElem hkl] at hg
      rw [Adaptor.seDeref]
      rcases Nat.mod_two_eq_zero_or_one k with h | h
      · rw [if_pos h] at hg
        rw [if_neg (by simp [h])]
        simp only [rd]
        rw [← hg]; rfl
      · rw [if_neg (by omega)] at hg
        rw [if_pos (by simp [h]), Option.some.inj hg, hs]
    rw [hd, hnext]
    simp only [Option.bind_eq_bind, Option.bind_some]
    rw [ih (k + 1) (by omega)]
    simp only [Option.bind_some, Int.toNat_natCast]
    rw [List.drop_eq_getElem_cons (i := k) (by simpa using hkl), List.getElem_map]

theorem sizesSep_eq (cc : List (List α)) (sep : List α) : Join.sizesSep cc sep.length = some ((withSep sep cc).map List.length) := by
  rw [Join.sizesSep]
  rcases cc with _ | ⟨c, cc⟩
  · show enumerate [] sep.length (0, false) (0, false) = _
    rw [enumerate, if_pos (by decide)]; rfl
  · rw [if_neg (by simp)]
    have := enumerate_eq (c :: cc) sep.length sep rfl (by simp) (2 * (c :: cc).length - 1) 0 (by omega)
    simpa using this

theorem elementSep_eq [Inhabited α] (cc : List (List α)) (sep : List α) (idx : Nat) :
    elementSep cc sep (sums ((withSep sep cc).map List.length) 0) idx = some ((sep.intercalate cc)[idx]?.getD default) := by
  obtain ⟨k, calls, h1, h2⟩ := join_found (withSep sep cc) idx
  have hlen : (sums ((withSep sep cc).map List.length) 0).length = (withSep sep cc).length := by rw [sums_length, List.length_map]
  rw [elementSep, h1]
  simp only [Option.bind_eq_bind, Option.bind_some]
  rw [← withSep_flatten]
  rcases h2 with ⟨h2, rfl⟩ | ⟨c, h2, h3, h4, h5, h6, h7⟩
  · rw [if_pos hlen.symm, List.getElem?_eq_none h2]; rfl
  · rw [if_neg (by omega)]
    have hg := withSep_get sep cc k h2
    rw [h3] at hg
    rcases Nat.mod_two_eq_zero_or_one k with h | h
    · rw [if_pos h] at hg
      rw [if_neg (by omega), rd, ← hg, h5]
      simp only [Option.bind_some, rd]
      rw [h6, List.getElem?_eq_getElem h7]
      rfl
    · rw [if_neg (by omega)] at hg
      rw [if_pos (by omega)]
      rw [before, if_pos (by omega)] at h5
      rw [h5]
      simp only [Option.bind_some, rd]
      have hg' := Option.some.inj hg
      subst hg'
      rw [h6, List.getElem?_eq_getElem h7]
      rfl

theorem intercalate_le (N : Nat) (sep : List α) : ∀ (cc : List (List α)), (∀ c ∈ cc, c.length ≤ N) → cc ≠ [] →
    (sep.intercalate cc).length + sep.length ≤ (N + sep.length) * cc.length
  | [], _, h => absurd rfl h
  | [c], h, _ => by have := h c (by simp); simp; omega
  | c :: c' :: cc, h, _ => by
    have ih := intercalate_le N sep (c' :: cc) (fun c hc => h c (by simp [hc])) (by simp)
    have h1 := h c (by simp)
    have e : sep.intercalate (c :: c' :: cc) = c ++ sep ++ sep.intercalate (c' :: cc) := by simp [List.intercalate]
    rw [e, List.length_cons, Nat.mul_succ, List.length_append, List.length_append]
    omega

/-- **`join` with separator** (random access): the containers with the separator between them. Partial: there are containers, and they have
a capacity -/
theorem C146_join_sep_partial [Inhabited α] (N : Nat) (cc : List (List α)) (sep : List α) (hN : 0 < N) (hc : cc ≠ [])
    (h : ∀ c ∈ cc, c.length ≤ N) :
    joinRaSep N cc sep = some (sep.intercalate cc
      ++ List.replicate ((N + sep.length) * cc.length - sep.length - (sep.intercalate cc).length) default) := by
  have hle := intercalate_le N sep cc h hc
  rw [joinRaSep, capacitySep, if_neg (by omega), if_neg (by omega), sizesSep_eq]
  simp only [Option.bind_eq_bind, Option.bind_some]
  rw [show elementSep cc sep (sums ((withSep sep cc).map List.length) 0) = fun i => some ((sep.intercalate cc)[i]?.getD default) from
    funext (elementSep_eq cc sep), range_getD _ _ (by omega)]

/-- **Strings**: the contents of the result, if the strings have no null characters -/
theorem C146_content [Inhabited α] [DecidableEq α] (l : List α) (n : Nat) (h : ∀ x ∈ l, x ≠ default) :
    content (l ++ List.replicate n default) = l := by
  rw [content, List.takeWhile_append_of_pos (by simpa using h)]
  cases n <;> simp [List.replicate_succ]

/-- strings joined with a separator -/
theorem C146_join_strings_partial [Inhabited α] [DecidableEq α] (N : Nat) (cc : List (List α)) (sep : List α) (hN : 0 < N) (hc : cc ≠ [])
    (h : ∀ c ∈ cc, c.length ≤ N) (h0 : ∀ c ∈ cc, ∀ x ∈ c, x ≠ default) (hs : ∀ x ∈ sep, x ≠ default) :
    (joinRaSep N cc sep).map content = some (sep.intercalate cc) ∧ (joinRa N cc).map content = some cc.flatten := by
  constructor
  · rw [C146_join_sep_partial N cc sep hN hc h, Option.map_some, C146_content]
    rw [← withSep_flatten]
    intro x hx
    obtain ⟨c, hc, hx⟩ := List.mem_flatten.1 hx
    obtain ⟨k, hk, rfl⟩ := List.getElem_of_mem hc
    have := withSep_get sep cc k hk
    rw [List.getElem?_eq_getElem hk] at this
    split_ifs at this
    · exact h0 _ (List.mem_of_getElem? this.symm) x hx
    · rw [Option.some.inj this] at hx
      exact hs x hx
  · rw [C146_join N cc h, Option.map_some, C146_content]
    intro x hx
    obtain ⟨c, hc, hx⟩ := List.mem_flatten.1 hx
    exact h0 c hc x hx

/-- **No containers**: with a separator the call is ill-formed instead of empty -/
theorem C146_join_sep_empty_refuted [Inhabited α] (N : Nat) (sep : List α) (hN : 0 < N) (hs : sep ≠ []) :
    joinRaSep N [] sep = none ∧ sep.intercalate [] = ([] : List α) := by
  have := List.length_pos_iff.2 hs
  refine ⟨?_, rfl⟩
  rw [joinRaSep, capacitySep, if_neg (by omega), if_pos (by simpa using this)]
  rfl

/-- **Containers without capacity**: the separators are lost -/
theorem C146_join_sep_zero_refuted : joinRaSep 0 [[], []] [','] = some [] ∧ [','].intercalate [[], []] = [','] := by
  refine ⟨?_, rfl⟩
  rw [joinRaSep, capacitySep, if_pos rfl, sizesSep_eq]
  rfl

/-- **Not random access**: `join` with separator is ill-formed unless the result is empty -/
theorem C146_join_seq_sep_refuted (N : Nat) (cc : List (List α)) (sep : List α) (hN : 0 < N) (hc : cc ≠ []) : joinSeqSep N cc sep = none := by
  have := List.length_pos_iff.2 hc
  have h2 : (N + sep.length) * 1 ≤ (N + sep.length) * cc.length := Nat.mul_le_mul_left _ this
  rw [joinSeqSep, capacitySep, if_neg (by omega), if_neg (by omega)]
  simp only [Option.bind_eq_bind, Option.bind_some]
  rw [if_neg (by omega)]

/-- a null character ends the joined string -/
example : (joinRa 2 [['a', default], ['b']]).map content = some ['a'] := by
  rw [C146_join 2 _ (by simp)]
  decide

example : (joinRaSep 3 [['a', 'b'], [], ['c']] [',', ' ']).map content = some ['a', 'b', ',', ' ', ',', ' ', 'c'] := by
  rw [(C146_join_strings_partial 3 [['a', 'b'], [], ['c']] [',', ' '] (by decide) (by simp) (by simp) (by decide) (by decide)).1]
  rfl

end Sprout

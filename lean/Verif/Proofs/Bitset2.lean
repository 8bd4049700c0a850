import Verif.Proofs.Bitset

/-! # Helper lemmas for the bitset: shifts -/

namespace Sprout
open Spec Bitset

namespace Bitset
variable {B : Nat}

theorem mapM_range {β : Type} (f : Nat → Option β) : ∀ (n : Nat) (ys : List β), ys.length = n →
    (∀ j < n, f j = ys[j]?) → (List.range n).mapM f = some ys := by
  intro n
  induction n with
  | zero => intro ys hl _; rw [List.length_eq_zero_iff.1 hl]; rfl
  | succ n ih =>
    intro ys hl h
    rw [List.range_succ, List.mapM_append, ih ys.dropLast (by simp; omega)
      (fun j hj => by rw [h j (by omega), List.getElem?_dropLast, if_pos (by omega)])]
    simp only [List.mapM_cons, List.mapM_nil, Option.bind_eq_bind, Option.bind_some]
    rw [h n (by omega), List.getElem?_eq_getElem (by omega)]
    simp only [Option.bind_some, Option.pure_def]
    congr 1
    have hne : ys ≠ [] := by intro e; rw [e] at hl; simp at hl
    have := List.dropLast_append_getLast hne
    rw [List.getLast_eq_getElem] at this
    simp only [hl, Nat.add_sub_cancel] at this
    exact this

/-- the words of `ys` are those computed by `leftWord` -/
def LeftRes (ws : List (BitVec B)) (k : Nat) (ys : List (BitVec B)) : Prop :=
  ys.length = ws.length ∧ ∀ j < ws.length, leftWord ws (k / B) (k % B) j = ys[j]?

/-- the words of `ys` are those computed by `rightWord` -/
def RightRes (ws : List (BitVec B)) (k : Nat) (ys : List (BitVec B)) : Prop :=
  ys.length = ws.length ∧
    ∀ j < ws.length, rightWord ws (k / B) (k % B) (ws.length - k / B - 1) j = ys[j]?

theorem exists_words (f : Nat → Option (BitVec B)) (n : Nat) (h : ∀ j < n, ∃ v, f j = some v) :
    ∃ ys : List (BitVec B), ys.length = n ∧ ∀ j < n, f j = ys[j]? := by
  refine ⟨(List.range n).map (fun j => (f j).getD 0), by simp, fun j hj => ?_⟩
  obtain ⟨v, hv⟩ := h j hj
  rw [List.getElem?_map, List.getElem?_range hj, hv]
  simp [hv]

theorem rd_some {ws : List (BitVec B)} {i : Nat} (h : i < ws.length) : rd ws i = some (ws.getD i 0) := by
  rw [rd, List.getElem?_eq_getElem h, List.getD_eq_getElem _ _ h]

theorem leftWord_some (hB : 0 < B) {ws : List (BitVec B)} {k j : Nat} (hj : j < ws.length) :
    ∃ v, leftWord ws (k / B) (k % B) j = some v := by
  have hm := Nat.mod_lt k hB
  unfold leftWord
  generalize k / B = s
  generalize k % B = o at *
  split
  · split
    · exact ⟨_, rd_some (by omega)⟩
    · exact ⟨_, rfl⟩
  · split
    · rw [rd_some (by omega), rd_some (by omega)]
      simp only [wshl, wshr, if_pos hm, if_pos (show B - o < B by omega), Option.bind_eq_bind, Option.bind_some]
      exact ⟨_, rfl⟩
    · split
      · rw [rd_some (by omega)]
        simp only [wshl, if_pos hm, Option.bind_eq_bind, Option.bind_some]
        exact ⟨_, rfl⟩
      · exact ⟨_, rfl⟩

theorem rightWord_some (hB : 0 < B) {ws : List (BitVec B)} {k j : Nat} (hk : k / B < ws.length) :
    ∃ v, rightWord ws (k / B) (k % B) (ws.length - k / B - 1) j = some v := by
  have hm := Nat.mod_lt k hB
  unfold rightWord
  generalize k / B = s at *
  generalize k % B = o at *
  split
  · split
    · exact ⟨_, rd_some (by omega)⟩
    · exact ⟨_, rfl⟩
  · split
    · rw [rd_some (by omega), rd_some (by omega)]
      simp only [wshl, wshr, if_pos hm, if_pos (show B - o < B by omega), Option.bind_eq_bind, Option.bind_some]
      exact ⟨_, rfl⟩
    · split
      · rw [rd_some (by omega)]
        simp only [wshr, if_pos hm, Option.bind_eq_bind, Option.bind_some]
        exact ⟨_, rfl⟩
      · exact ⟨_, rfl⟩

theorem leftConst_res (hB : 0 < B) {ws : List (BitVec B)} {k : Nat} (hk : k / B < ws.length) :
    ∃ ys, leftConst ws k = some ys ∧ LeftRes ws k ys := by
  rcases ws with _ | ⟨w, _ | ⟨w', rest⟩⟩
  · simp at hk
  · simp only [List.length_cons, List.length_nil, Nat.zero_add] at hk
    have h0 := Nat.lt_one_iff.mp hk
    have hkB : k < B := by
      have := (Nat.div_lt_iff_lt_mul hB).1 hk; omega
    refine ⟨[w <<< k], ?_, rfl, fun j hj => ?_⟩
    · rw [leftConst, wshl, if_pos hkB]; rfl
    · have : j = 0 := by simpa using hj
      subst this
      rw [leftWord, h0, Nat.mod_eq_of_lt hkB]
      by_cases hk0 : k = 0
      · subst hk0; simp [rd]
      · simp [hk0, rd, wshl, hkB]
  · generalize hws : w :: w' :: rest = ws at *
    have : leftConst ws k =
      if k ≠ 0 then (List.range ws.length).mapM (leftWord ws (k / B) (k % B)) else some ws := by
      subst hws; rfl
    rw [this]
    by_cases h0 : k = 0
    · subst h0
      refine ⟨ws, rfl, rfl, fun j hj => ?_⟩
      rw [Nat.zero_div, Nat.zero_mod]
      simp [leftWord, rd]
    · obtain ⟨ys, h1, h2⟩ := exists_words _ ws.length (fun j hj => leftWord_some (k := k) hB hj)
      exact ⟨ys, by rw [if_pos h0]; exact mapM_range _ _ _ h1 h2, h1, h2⟩

theorem rightConst_res (hB : 0 < B) {ws : List (BitVec B)} {k : Nat} (hk : k / B < ws.length) :
    ∃ ys, rightConst ws k = some ys ∧ RightRes ws k ys := by
  rcases ws with _ | ⟨w, _ | ⟨w', rest⟩⟩
  · simp at hk
  · simp only [List.length_cons, List.length_nil, Nat.zero_add] at hk
    have h0 := Nat.lt_one_iff.mp hk
    have hkB : k < B := by
      have := (Nat.div_lt_iff_lt_mul hB).1 hk; omega
    refine ⟨[w >>> k], ?_, rfl, fun j hj => ?_⟩
    · rw [rightConst, wshr, if_pos hkB]; rfl
    · have : j = 0 := by simpa using hj
      subst this
      rw [rightWord, h0, Nat.mod_eq_of_lt hkB]
      by_cases hk0 : k = 0
      · subst hk0; simp [rd]
      · simp [hk0, rd, wshr, hkB]
  · generalize hws : w :: w' :: rest = ws at *
    have : rightConst ws k = if k ≠ 0 then
      (List.range ws.length).mapM (rightWord ws (k / B) (k % B) (ws.length - k / B - 1)) else some ws := by
      subst hws; rfl
    rw [this]
    by_cases h0 : k = 0
    · subst h0
      refine ⟨ws, rfl, rfl, fun j hj => ?_⟩
      rw [Nat.zero_div, Nat.zero_mod]
      simp [rightWord, rd]; omega
    · obtain ⟨ys, h1, h2⟩ := exists_words _ ws.length (fun j hj => rightWord_some (k := k) (j := j) hB hk)
      exact ⟨ys, by rw [if_pos h0]; exact mapM_range _ _ _ h1 h2, h1, h2⟩

theorem leftRes_unique {ws ys ys' : List (BitVec B)} {k : Nat} (h : LeftRes ws k ys) (h' : LeftRes ws k ys') :
    ys = ys' := by
  apply List.ext_getElem?
  intro j
  by_cases hj : j < ws.length
  · rw [← h.2 j hj, h'.2 j hj]
  · rw [List.getElem?_eq_none (by rw [h.1]; omega), List.getElem?_eq_none (by rw [h'.1]; omega)]

theorem rightRes_unique {ws ys ys' : List (BitVec B)} {k : Nat} (h : RightRes ws k ys) (h' : RightRes ws k ys') :
    ys = ys' := by
  apply List.ext_getElem?
  intro j
  by_cases hj : j < ws.length
  · rw [← h.2 j hj, h'.2 j hj]
  · rw [List.getElem?_eq_none (by rw [h.1]; omega), List.getElem?_eq_none (by rw [h'.1]; omega)]

/-! ### the modifying versions -/

theorem leftLoop1_eq (ws0 : List (BitVec B)) (s : Nat) (hs : 0 < s) (n : Nat) (ws : List (BitVec B))
    (hn : n < ws0.length) (hl : ws.length = ws0.length)
    (h1 : ∀ j < ws0.length, n < j → s ≤ j → ws[j]? = ws0[j - s]?) (h2 : ∀ j, (j ≤ n ∨ j < s) → ws[j]? = ws0[j]?) :
    ∃ ys, leftLoop1 ws s n = some ys ∧ ys.length = ws0.length ∧
      ∀ j < ws0.length, ys[j]? = if s ≤ j then ws0[j - s]? else ws0[j]? := by
  induction n generalizing ws with
  | zero =>
    refine ⟨ws, by rw [leftLoop1, if_neg (by omega)], hl, fun j hj => ?_⟩
    split
    · exact h1 j hj (by omega) (by assumption)
    · exact h2 j (by omega)
  | succ n ih =>
    rw [leftLoop1]
    by_cases h : n + 1 ≥ s
    · rw [if_pos h, rd, h2 _ (by omega), List.getElem?_eq_getElem (by omega)]
      simp only [Option.bind_eq_bind, Option.bind_some]
      rw [wr, if_pos (by omega)]
      simp only [Option.bind_some]
      refine ih _ (by omega) (by simpa using hl) (fun j hj hnj hsj => ?_) (fun j hj => ?_)
      · rw [List.getElem?_set]
        by_cases e : n + 1 = j
        · subst e
          rw [if_pos rfl, if_pos (by omega), List.getElem?_eq_getElem (by omega)]
        · rw [if_neg e]; exact h1 j hj (by omega) hsj
      · rw [List.getElem?_set_ne (by omega)]; exact h2 j (by omega)
    · refine ⟨ws, by rw [if_neg h], hl, fun j hj => ?_⟩
      split
      · exact h1 j hj (by omega) (by assumption)
      · exact h2 j (by omega)

theorem leftLoop2_eq (ws0 : List (BitVec B)) (s o : Nat) (ho : 0 < o) (hoB : o < B) (n : Nat) (ws : List (BitVec B))
    (hn : n < ws0.length) (hl : ws.length = ws0.length)
    (h1 : ∀ j < ws0.length, n < j → s < j → ws[j]? = leftWord ws0 s o j)
    (h2 : ∀ j, (j ≤ n ∨ j ≤ s) → ws[j]? = ws0[j]?) :
    ∃ ys, leftLoop2 ws s o n = some ys ∧ ys.length = ws0.length ∧
      ∀ j < ws0.length, ys[j]? = if s < j then leftWord ws0 s o j else ws0[j]? := by
  induction n generalizing ws with
  | zero =>
    refine ⟨ws, by rw [leftLoop2, if_neg (by omega)], hl, fun j hj => ?_⟩
    split
    · exact h1 j hj (by omega) (by assumption)
    · exact h2 j (by omega)
  | succ n ih =>
    rw [leftLoop2]
    by_cases h : n + 1 > s
    · have hw : leftWord ws0 s o (n + 1) =
        some ((ws0.getD (n + 1 - s) 0) <<< o ||| (ws0.getD (n + 1 - s - 1) 0) >>> (B - o)) := by
        rw [leftWord, if_neg (by omega), if_pos h, rd_some (by omega), rd_some (by omega)]
        simp only [wshl, wshr, if_pos hoB, if_pos (show B - o < B by omega), Option.bind_eq_bind, Option.bind_some]
      rw [if_pos h, rd, h2 _ (by omega), rd, h2 _ (by omega), ← rd, ← rd, rd_some (by omega), rd_some (by omega)]
      simp only [wshl, wshr, if_pos hoB, if_pos (show B - o < B by omega), Option.bind_eq_bind, Option.bind_some]
      rw [wr, if_pos (by omega)]
      simp only [Option.bind_some]
      refine ih _ (by omega) (by simpa using hl) (fun j hj hnj hsj => ?_) (fun j hj => ?_)
      · rw [List.getElem?_set]
        by_cases e : n + 1 = j
        · subst e
          rw [if_pos rfl, if_pos (by omega), hw]
        · rw [if_neg e]; exact h1 j hj (by omega) hsj
      · rw [List.getElem?_set_ne (by omega)]; exact h2 j (by omega)
    · refine ⟨ws, by rw [if_neg h], hl, fun j hj => ?_⟩
      split
      · exact h1 j hj (by omega) (by assumption)
      · exact h2 j (by omega)

theorem zeroFill_eq (k i : Nat) (ws : List (BitVec B)) (hk : i + k ≤ ws.length) :
    ∃ ys, zeroFill ws i (i + k) = some ys ∧ ys.length = ws.length ∧
      ∀ j, ys[j]? = if i ≤ j ∧ j < i + k then some 0 else ws[j]? := by
  induction k generalizing i ws with
  | zero =>
    refine ⟨ws, by rw [zeroFill, if_neg (by omega)], rfl, fun j => by rw [if_neg (by omega)]⟩
  | succ k ih =>
    rw [zeroFill, if_pos (by omega), wr, if_pos (by omega)]
    simp only [Option.bind_eq_bind, Option.bind_some]
    obtain ⟨ys, h1, h2, h3⟩ := ih (i + 1) (ws.set i 0) (by simp; omega)
    refine ⟨ys, by rw [show i + (k + 1) = i + 1 + k by omega]; exact h1, by simpa using h2, fun j => ?_⟩
    rw [h3, List.getElem?_set]
    by_cases e : i = j
    · subst e
      rw [if_neg (by omega), if_pos rfl, if_pos (by omega), if_pos (by omega)]
    · by_cases e2 : i + 1 ≤ j ∧ j < i + 1 + k
      · rw [if_pos e2, if_pos (by omega)]
      · rw [if_neg e2, if_neg e, if_neg (by omega)]

theorem leftMut_res (hB : 0 < B) {ws : List (BitVec B)} {k : Nat} (hk : k / B < ws.length) :
    ∃ ys, leftMut ws k = some ys ∧ LeftRes ws k ys := by
  rcases hcase : ws with _ | ⟨w, _ | ⟨w', rest⟩⟩
  · rw [hcase] at hk; simp at hk
  · rw [hcase] at hk; exact leftConst_res hB hk
  · rw [← hcase]
    have hunf : leftMut ws k = if k ≠ 0 then
        (leftBody ws (k / B) (k % B)).bind (fun ws => zeroFill ws 0 (k / B)) else some ws := by
      subst hcase; rfl
    have hL : 2 ≤ ws.length := by rw [hcase]; simp
    clear hcase
    rw [hunf]
    by_cases h0 : k = 0
    · subst h0
      refine ⟨ws, rfl, rfl, fun j hj => ?_⟩
      rw [Nat.zero_div, Nat.zero_mod]
      simp [leftWord, rd]
    · rw [if_pos h0]
      have hm := Nat.mod_lt k hB
      unfold LeftRes
      have hdm := Nat.div_add_mod k B
      have hsp : k % B = 0 → 0 < k / B := by
        intro e
        rcases Nat.eq_zero_or_pos (k / B) with e' | e'
        · rw [e, e'] at hdm; simp at hdm; omega
        · exact e'
      generalize k / B = s at *
      generalize k % B = o at *
      rw [leftBody]
      by_cases ho : o = 0
      · obtain ⟨ys, e1, e2, e3⟩ := leftLoop1_eq ws s (hsp ho) (ws.length - 1) ws (by omega) rfl
          (fun j hj hnj => by omega) (fun j _ => rfl)
        rw [if_pos ho, e1]
        simp only [Option.bind_some]
        obtain ⟨zs, f1, f2, f3⟩ := zeroFill_eq s 0 ys (by omega)
        refine ⟨zs, by rw [← f1, Nat.zero_add], by omega, fun j hj => ?_⟩
        rw [f3, leftWord, if_pos ho, e3 j hj]
        by_cases hjs : j ≥ s
        · rw [if_pos hjs, if_neg (by omega), if_pos hjs]; rfl
        · rw [if_neg hjs, if_pos (by omega)]
      · obtain ⟨ys, e1, e2, e3⟩ := leftLoop2_eq ws s o (by omega) hm (ws.length - 1) ws (by omega) rfl
          (fun j hj hnj => by omega) (fun j _ => rfl)
        rw [if_neg ho, e1]
        simp only [Option.bind_eq_bind, Option.bind_some]
        rw [rd, e3 0 (by omega), if_neg (by omega), ← rd, rd_some (by omega)]
        simp only [Option.bind_some, wshl, if_pos hm]
        rw [wr, if_pos (by omega)]
        simp only [Option.bind_some]
        obtain ⟨zs, f1, f2, f3⟩ := zeroFill_eq s 0 (ys.set s (ws.getD 0 0 <<< o)) (by simp; omega)
        refine ⟨zs, by rw [← f1, Nat.zero_add], by simp at f2; omega, fun j hj => ?_⟩
        rw [f3, List.getElem?_set]
        rcases Nat.lt_trichotomy j s with hjs | hjs | hjs
        · rw [if_pos (by omega), leftWord, if_neg ho, if_neg (by omega), if_neg (by omega)]
        · rw [if_neg (by omega), if_pos hjs.symm, if_pos (by omega), leftWord, if_neg ho, if_neg (by omega),
            if_pos hjs, rd_some (by omega)]
          simp only [Option.bind_eq_bind, Option.bind_some, wshl, if_pos hm]
        · rw [if_neg (by omega), if_neg (by omega), e3 j hj, if_pos hjs]

theorem rightLoop1_eq (ws0 : List (BitVec B)) (s lim : Nat) (hlim : lim + s < ws0.length) (hs : 0 < s) (d n : Nat)
    (ws : List (BitVec B))
    (hn : n + d = lim + 1) (hl : ws.length = ws0.length)
    (h1 : ∀ j < n, ws[j]? = ws0[j + s]?) (h2 : ∀ j, n ≤ j → ws[j]? = ws0[j]?) :
    ∃ ys, rightLoop1 ws s lim n = some ys ∧ ys.length = ws0.length ∧
      ∀ j < ws0.length, ys[j]? = if j ≤ lim then ws0[j + s]? else ws0[j]? := by
  induction d generalizing n ws with
  | zero =>
    refine ⟨ws, by rw [rightLoop1, if_neg (by omega)], hl, fun j hj => ?_⟩
    split
    · exact h1 j (by omega)
    · exact h2 j (by omega)
  | succ d ih =>
    rw [rightLoop1, if_pos (by omega), rd, h2 _ (by omega), List.getElem?_eq_getElem (by omega)]
    simp only [Option.bind_eq_bind, Option.bind_some]
    rw [wr, if_pos (by omega)]
    simp only [Option.bind_some]
    refine ih _ _ (by omega) (by simpa using hl) (fun j hj => ?_) (fun j hj => ?_)
    · rw [List.getElem?_set]
      by_cases e : n = j
      · subst e
        rw [if_pos rfl, if_pos (by omega), List.getElem?_eq_getElem (by omega)]
      · rw [if_neg e]; exact h1 j (by omega)
    · rw [List.getElem?_set_ne (by omega)]; exact h2 j (by omega)

theorem rightLoop2_eq (ws0 : List (BitVec B)) (s o lim : Nat) (hlim : lim + s < ws0.length) (ho : 0 < o) (hoB : o < B)
    (d n : Nat) (ws : List (BitVec B))
    (hn : n + d = lim) (hl : ws.length = ws0.length)
    (h1 : ∀ j < n, ws[j]? = rightWord ws0 s o lim j) (h2 : ∀ j, n ≤ j → ws[j]? = ws0[j]?) :
    ∃ ys, rightLoop2 ws s o lim n = some ys ∧ ys.length = ws0.length ∧
      ∀ j < ws0.length, ys[j]? = if j < lim then rightWord ws0 s o lim j else ws0[j]? := by
  induction d generalizing n ws with
  | zero =>
    refine ⟨ws, by rw [rightLoop2, if_neg (by omega)], hl, fun j hj => ?_⟩
    split
    · exact h1 j (by omega)
    · exact h2 j (by omega)
  | succ d ih =>
    have hw : rightWord ws0 s o lim n =
      some ((ws0.getD (n + s) 0) >>> o ||| (ws0.getD (n + s + 1) 0) <<< (B - o)) := by
      rw [rightWord, if_neg (by omega), if_pos (by omega), rd_some (by omega), rd_some (by omega)]
      simp only [wshl, wshr, if_pos hoB, if_pos (show B - o < B by omega), Option.bind_eq_bind, Option.bind_some]
    rw [rightLoop2, if_pos (by omega), rd, h2 _ (by omega), rd, h2 _ (by omega), ← rd, ← rd, rd_some (by omega),
      rd_some (by omega)]
    simp only [wshl, wshr, if_pos hoB, if_pos (show B - o < B by omega), Option.bind_eq_bind, Option.bind_some]
    rw [wr, if_pos (by omega)]
    simp only [Option.bind_some]
    refine ih _ _ (by omega) (by simpa using hl) (fun j hj => ?_) (fun j hj => ?_)
    · rw [List.getElem?_set]
      by_cases e : n = j
      · subst e
        rw [if_pos rfl, if_pos (by omega), hw]
      · rw [if_neg e]; exact h1 j (by omega)
    · rw [List.getElem?_set_ne (by omega)]; exact h2 j (by omega)

theorem rightMut_res (hB : 0 < B) {ws : List (BitVec B)} {k : Nat} (hk : k / B < ws.length) :
    ∃ ys, rightMut ws k = some ys ∧ RightRes ws k ys := by
  rcases hcase : ws with _ | ⟨w, _ | ⟨w', rest⟩⟩
  · rw [hcase] at hk; simp at hk
  · rw [hcase] at hk; exact rightConst_res hB hk
  · rw [← hcase]
    have hunf : rightMut ws k = if k ≠ 0 then
        (rightBody ws (k / B) (k % B) (ws.length - k / B - 1)).bind
          (fun ws => zeroFill ws (ws.length - k / B - 1 + 1) ws.length) else some ws := by
      subst hcase; rfl
    have hL : 2 ≤ ws.length := by rw [hcase]; simp
    clear hcase
    rw [hunf]
    by_cases h0 : k = 0
    · subst h0
      refine ⟨ws, rfl, rfl, fun j hj => ?_⟩
      rw [Nat.zero_div, Nat.zero_mod]
      simp [rightWord, rd]; omega
    · rw [if_pos h0]
      have hm := Nat.mod_lt k hB
      unfold RightRes
      have hdm := Nat.div_add_mod k B
      have hsp : k % B = 0 → 0 < k / B := by
        intro e
        rcases Nat.eq_zero_or_pos (k / B) with e' | e'
        · rw [e, e'] at hdm; simp at hdm; omega
        · exact e'
      generalize k / B = s at *
      generalize k % B = o at *
      rw [rightBody]
      by_cases ho : o = 0
      · obtain ⟨ys, e1, e2, e3⟩ := rightLoop1_eq ws s (ws.length - s - 1) (by omega) (hsp ho) (ws.length - s) 0 ws
          (by omega) rfl (fun j hj => by omega) (fun j _ => rfl)
        rw [if_pos ho, e1]
        simp only [Option.bind_some]
        obtain ⟨zs, f1, f2, f3⟩ := zeroFill_eq s (ws.length - s - 1 + 1) ys (by omega)
        refine ⟨zs, by rw [e2, ← f1]; congr 1; omega, by omega, fun j hj => ?_⟩
        rw [f3, rightWord, if_pos ho, e3 j hj]
        by_cases hjs : j ≤ ws.length - s - 1
        · rw [if_pos hjs, if_neg (by omega), if_pos hjs]; rfl
        · rw [if_neg hjs, if_pos (by omega)]
      · obtain ⟨ys, e1, e2, e3⟩ := rightLoop2_eq ws s o (ws.length - s - 1) (by omega) (by omega) hm (ws.length - s - 1) 0
          ws (by omega) rfl (fun j hj => by omega) (fun j _ => rfl)
        rw [if_neg ho, e1]
        simp only [Option.bind_eq_bind, Option.bind_some]
        rw [rd, e2, e3 (ws.length - 1) (by omega), if_neg (by omega), ← rd, rd_some (by omega)]
        simp only [Option.bind_some, wshr, if_pos hm]
        rw [wr, if_pos (by omega)]
        simp only [Option.bind_some]
        obtain ⟨zs, f1, f2, f3⟩ := zeroFill_eq s (ws.length - s - 1 + 1)
          (ys.set (ws.length - s - 1) (ws.getD (ws.length - 1) 0 >>> o)) (by simp; omega)
        refine ⟨zs, by rw [← f1, List.length_set, e2]; congr 1; omega, by simp at f2; omega, fun j hj => ?_⟩
        rw [f3, List.getElem?_set]
        rcases Nat.lt_trichotomy j (ws.length - s - 1) with hjs | hjs | hjs
        · rw [if_neg (by omega), if_neg (by omega), e3 j hj, if_pos hjs]
        · rw [if_neg (by omega), if_pos hjs.symm, if_pos (by omega), rightWord, if_neg ho, if_neg (by omega),
            if_pos hjs, rd_some (by omega)]
          simp only [Option.bind_eq_bind, Option.bind_some, wshr, if_pos hm]
        · rw [if_pos (by omega), rightWord, if_neg ho, if_neg (by omega), if_neg (by omega)]

/-! ### bits of the shifted array -/

theorem leftRes_bits (hB : 0 < B) {ws ys : List (BitVec B)} {k : Nat} (h : LeftRes ws k ys) {i : Nat}
    (hi : i < ws.length * B) : bitAt ys i = (decide (k ≤ i) && bitAt ws (i - k)) := by
  obtain ⟨q, r, hr, rfl⟩ := decomp hB i
  have hq : q < ws.length := by
    have : q * B < ws.length * B := by omega
    exact Nat.lt_of_mul_lt_mul_right this
  have hw := h.2 q hq
  have hm := Nat.mod_lt k hB
  have hdm := Nat.div_add_mod k B
  have hyq : ys[q]? = some (ys.getD q 0) := by
    rw [List.getElem?_eq_getElem (by rw [h.1]; exact hq), List.getD_eq_getElem _ _ (by rw [h.1]; exact hq)]
  rw [hyq] at hw
  rw [bitAt_mk _ hr]
  generalize k / B = s at *
  generalize k % B = o at *
  rw [Nat.mul_comm] at hdm
  unfold leftWord at hw
  by_cases ho : o = 0
  · rw [if_pos ho] at hw
    by_cases hqs : q ≥ s
    · rw [if_pos hqs, rd_some (by omega)] at hw
      obtain ⟨d, rfl⟩ := Nat.exists_eq_add_of_le hqs
      rw [Nat.add_mul] at *
      rw [Nat.add_sub_cancel_left] at hw
      rw [← Option.some.inj hw, bitAt_mk' (q := d) (r := r) _ hr (by omega)]
      simp; omega
    · rw [if_neg hqs] at hw
      rw [← Option.some.inj hw]
      obtain ⟨d, rfl⟩ := Nat.exists_eq_add_of_le (show q + 1 ≤ s by omega)
      rw [Nat.add_mul, Nat.add_mul] at hdm
      simp; omega
  · rw [if_neg ho] at hw
    by_cases hqs : q > s
    · rw [if_pos hqs, rd_some (by omega), rd_some (by omega)] at hw
      simp only [wshl, wshr, if_pos hm, if_pos (show B - o < B by omega), Option.bind_eq_bind, Option.bind_some] at hw
      obtain ⟨d, rfl⟩ := Nat.exists_eq_add_of_le (show s + 1 ≤ q by omega)
      rw [← Option.some.inj hw, BitVec.getLsbD_or, BitVec.getLsbD_shiftLeft, BitVec.getLsbD_ushiftRight]
      rw [show s + 1 + d - s = d + 1 by omega, Nat.add_sub_cancel, Nat.add_mul, Nat.add_mul]
      by_cases hro : o ≤ r
      · rw [bitAt_mk' (q := d + 1) (r := r - o) _ (by omega) (by rw [Nat.add_mul]; omega),
          BitVec.getLsbD_of_ge _ (B - o + r) (by omega)]
        simp [hr, show ¬ r < o by omega]; omega
      · rw [bitAt_mk' (q := d) (r := B - o + r) _ (by omega) (by omega)]
        simp [hr, show r < o by omega]; omega
    · rw [if_neg hqs] at hw
      by_cases hqe : q = s
      · rw [if_pos hqe, rd_some (by omega)] at hw
        simp only [wshl, if_pos hm, Option.bind_eq_bind, Option.bind_some] at hw
        rw [← Option.some.inj hw, BitVec.getLsbD_shiftLeft, hqe]
        by_cases hro : o ≤ r
        · rw [bitAt_mk' (q := 0) (r := r - o) _ (by omega) (by omega)]
          simp [hr, show ¬ r < o by omega]; omega
        · simp [hr, show r < o by omega]; omega
      · rw [if_neg hqe] at hw
        rw [← Option.some.inj hw]
        obtain ⟨d, rfl⟩ := Nat.exists_eq_add_of_le (show q + 1 ≤ s by omega)
        rw [Nat.add_mul, Nat.add_mul] at hdm
        simp; omega

theorem rightRes_bits (hB : 0 < B) {ws ys : List (BitVec B)} {k : Nat} (h : RightRes ws k ys) {i : Nat}
    (hi : i < ws.length * B) (hk : k / B < ws.length) : bitAt ys i = bitAt ws (i + k) := by
  obtain ⟨q, r, hr, rfl⟩ := decomp hB i
  have hq : q < ws.length := by
    have : q * B < ws.length * B := by omega
    exact Nat.lt_of_mul_lt_mul_right this
  have hw := h.2 q hq
  have hm := Nat.mod_lt k hB
  have hdm := Nat.div_add_mod k B
  have hyq : ys[q]? = some (ys.getD q 0) := by
    rw [List.getElem?_eq_getElem (by rw [h.1]; exact hq), List.getD_eq_getElem _ _ (by rw [h.1]; exact hq)]
  rw [hyq] at hw
  rw [bitAt_mk _ hr]
  generalize k / B = s at *
  generalize k % B = o at *
  rw [Nat.mul_comm] at hdm
  have hge : ∀ p, ws.length ≤ p → ws.getD p 0 = 0 := fun p hp => List.getD_eq_default _ _ hp
  unfold rightWord at hw
  by_cases ho : o = 0
  · rw [if_pos ho] at hw
    rw [bitAt_mk' (q := q + s) (r := r) _ hr (by rw [Nat.add_mul]; omega)]
    by_cases hqs : q ≤ ws.length - s - 1
    · rw [if_pos hqs, rd_some (by omega)] at hw
      rw [← Option.some.inj hw]
    · rw [if_neg hqs] at hw
      rw [← Option.some.inj hw, hge _ (by omega)]
  · rw [if_neg ho] at hw
    have hb : bitAt ws (q * B + r + k) = if r + o < B then (ws.getD (q + s) 0).getLsbD (r + o)
        else (ws.getD (q + s + 1) 0).getLsbD (r + o - B) := by
      split
      · rw [bitAt_mk' (q := q + s) (r := r + o) _ (by omega) (by rw [Nat.add_mul]; omega)]
      · rw [bitAt_mk' (q := q + s + 1) (r := r + o - B) _ (by omega) (by rw [Nat.add_mul, Nat.add_mul]; omega)]
    rw [hb]
    by_cases hqs : q < ws.length - s - 1
    · rw [if_pos hqs, rd_some (by omega), rd_some (by omega)] at hw
      simp only [wshl, wshr, if_pos hm, if_pos (show B - o < B by omega), Option.bind_eq_bind, Option.bind_some] at hw
      rw [← Option.some.inj hw, BitVec.getLsbD_or, BitVec.getLsbD_shiftLeft, BitVec.getLsbD_ushiftRight]
      by_cases hro : r + o < B
      · rw [if_pos hro]
        simp [show r < B - o by omega, Nat.add_comm]
      · rw [if_neg hro, BitVec.getLsbD_of_ge _ (o + r) (by omega)]
        simp [hr, show ¬ r < B - o by omega]
        congr 1; omega
    · rw [if_neg hqs] at hw
      by_cases hqe : q = ws.length - s - 1
      · rw [if_pos hqe, rd_some (by omega)] at hw
        simp only [wshr, if_pos hm, Option.bind_eq_bind, Option.bind_some] at hw
        rw [← Option.some.inj hw, BitVec.getLsbD_ushiftRight, show q + s = ws.length - 1 by omega]
        split
        · rw [Nat.add_comm]
        · rw [hge (ws.length - 1 + 1) (by omega), BitVec.getLsbD_of_ge _ _ (by omega)]; simp
      · rw [if_neg hqe] at hw
        rw [← Option.some.inj hw, hge (q + s) (by omega), hge (q + s + 1) (by omega)]
        simp

end Bitset
end Sprout

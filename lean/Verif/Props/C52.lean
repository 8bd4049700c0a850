import Verif.Proofs.Weed7

/-!
# C52: character sets

A set is written as a string of single characters and ranges `lo-hi`. Refuted: a leading `-` is undefined, a trailing `-` does not
stand for itself, and a reversed range `z-a` matches its two ends.
-/

namespace Sprout
open Spec Spec.Peg Weed

/-- the full statement, with the usual convention that a `-` at either end stands for itself -/
def C52_statement : Prop := ∀ (its : List Item) (lead trail : Bool) (v : Int), (∀ it ∈ its, it.Wf) → its ≠ [] →
  ∃ b, inSet ((if lead then [0x2D] else []) ++ renderSet its ++ (if trail then [0x2D] else [])) v = some b ∧
    (b = true ↔ (∃ it ∈ its, it.Has v) ∨ ((lead = true ∨ trail = true) ∧ v = 0x2D))

/-- a set of single characters other than `-` and of nonempty ranges between such characters -/
theorem C52_set_partial (its : List Item) (hw : ∀ it ∈ its, it.Wf) (v : Int) :
    ∃ b, inSet (renderSet its) v = some b ∧ (b = true ↔ ∃ it ∈ its, it.Has v) := by
  classical
  exact ⟨_, inSet_eq (setOk_items hw), by rw [decide_eq_true_iff, InSet_items hw]⟩

/-- the parser `char_(set)` -/
theorem C52_parser_partial (its : List Item) (hw : ∀ it ∈ its, it.Wf) (s : List Int) (i : Nat) (hi : i < s.length) :
    ∃ r, eval s (.set (renderSet its)) i = some r ∧ (r.ok = true ↔ ∃ it ∈ its, it.Has s[i]) ∧
      r.cur = if r.ok then i + 1 else i := by
  obtain ⟨b, h1, h2⟩ := C52_set_partial its hw s[i]
  simp only [eval, oneChar]
  rw [if_pos (by omega)]
  simp only [rd, List.getElem?_eq_getElem hi, Option.bind_eq_bind, Option.bind_some, h1]
  cases b with
  | true => exact ⟨_, rfl, by simpa using h2, rfl⟩
  | false => exact ⟨_, rfl, by simpa using h2, rfl⟩

/-- both versions of `find_character_set` find the same position -/
theorem C52_iterators_partial (t : List Int) (h : t.head? ≠ some 0x2D) (v : Int) :
    ∃ r, findSetRa (t ++ [0]) v 0 t.length = some r ∧ findSetIn (t ++ [0]) v 0 t.length = some r ∧ r ≤ t.length := by
  obtain ⟨r, h1, h2, h3⟩ := findSet_spec (t := t) (v := v) h
  exact ⟨r, h1, h2, h3.le⟩

/-- any set that does not begin with `-`: a character other than `-` stands for itself, a `-` for the range between its neighbours
(the terminator, if it is the last one) -/
theorem C52_code_partial (t : List Int) (h : t.head? ≠ some 0x2D) (v : Int) :
    ∃ b, inSet t v = some b ∧ (b = true ↔ ∃ i < t.length, ∃ x, (t ++ [0])[i]? = some x ∧ (x ≠ 0x2D ∧ x = v ∨
      x = 0x2D ∧ ∃ lo hi, (t ++ [0])[i - 1]? = some lo ∧ (t ++ [0])[i + 1]? = some hi ∧ lo ≤ v ∧ v ≤ hi)) := by
  classical
  refine ⟨_, inSet_eq h, ?_⟩
  rw [decide_eq_true_iff]
  rfl

/-- `a-cx`: the items are a range and a single character -/
example : renderSet [.range 0x61 0x63, .single 0x78] = [0x61, 0x2D, 0x63, 0x78] ∧
    (∀ it ∈ [Item.range 0x61 0x63, .single 0x78], it.Wf) := by
  refine ⟨rfl, ?_⟩
  simp [Item.Wf]

/-- `b` and `x` belong to it, `d` does not -/
example : inSet [0x61, 0x2D, 0x63, 0x78] 0x62 = some true ∧ inSet [0x61, 0x2D, 0x63, 0x78] 0x78 = some true ∧
    inSet [0x61, 0x2D, 0x63, 0x78] 0x64 = some false := by
  classical
  refine ⟨?_, ?_, ?_⟩
  all_goals
    rw [inSet_eq (by simp [SetOk]), Option.some.injEq]
    first
    | (rw [decide_eq_true_iff]
       exact (InSet_items (its := [.range 0x61 0x63, .single 0x78]) (by simp [Item.Wf])).2 (by simp [Item.Has]))
    | (rw [decide_eq_false_iff_not]
       exact fun h => absurd ((InSet_items (its := [.range 0x61 0x63, .single 0x78]) (by simp [Item.Wf])).1 h) (by simp [Item.Has]))

/-! ## Refutations -/

/-- `-a`: the character before the beginning is read -/
theorem C52_leading_refuted (v : Int) : inSet [0x2D, 0x61] v = none := by
  unfold inSet findSetRa findRa
  simp [setTest, rd, halveFind]

/-- `a-` does not contain `-` -/
theorem C52_trailing_refuted : inSet [0x61, 0x2D] 0x2D = some false := by
  classical
  rw [inSet_eq (by simp [SetOk]), Option.some.injEq, decide_eq_false_iff_not]
  rintro ⟨i, hi, x, h1, h2⟩
  simp only [List.length_cons, List.length_nil] at hi
  obtain rfl | rfl : i = 0 ∨ i = 1 := by omega
  · simp at h1; omega
  · rcases h2 with h2 | ⟨_, a, b, h3, h4, h5, h6⟩
    · simp at h1; omega
    · simp at h3 h4; omega

/-- `z-a`, an empty range, contains `a` and `z` (but not `m`) -/
theorem C52_reversed_refuted : inSet [0x7A, 0x2D, 0x61] 0x61 = some true ∧ inSet [0x7A, 0x2D, 0x61] 0x7A = some true ∧
    inSet [0x7A, 0x2D, 0x61] 0x6D = some false := by
  classical
  refine ⟨?_, ?_, ?_⟩
  · rw [inSet_eq (by simp [SetOk]), Option.some.injEq, decide_eq_true_iff]
    exact ⟨2, by simp, 0x61, rfl, .inl ⟨by decide, rfl⟩⟩
  · rw [inSet_eq (by simp [SetOk]), Option.some.injEq, decide_eq_true_iff]
    exact ⟨0, by simp, 0x7A, rfl, .inl ⟨by decide, rfl⟩⟩
  · rw [inSet_eq (by simp [SetOk]), Option.some.injEq, decide_eq_false_iff_not]
    rintro ⟨i, hi, x, h1, h2⟩
    simp only [List.length_cons, List.length_nil] at hi
    obtain rfl | rfl | rfl : i = 0 ∨ i = 1 ∨ i = 2 := by omega
    · simp at h1; omega
    · rcases h2 with h2 | ⟨_, a, b, h3, h4, h5, h6⟩
      · simp at h1; omega
      · simp at h3 h4; omega
    · simp at h1; omega

theorem C52_refuted : ¬ C52_statement := by
  intro h
  obtain ⟨b, h1, h2⟩ := h [.single 0x61] false true 0x2D (by simp [Item.Wf]) (by simp)
  have e : ((if false = true then [0x2D] else []) ++ renderSet [Item.single 0x61] ++ (if true = true then [0x2D] else []) : List Int) =
      [0x61, 0x2D] := by simp [renderSet, Item.render]
  rw [e, C52_trailing_refuted] at h1
  cases h1
  exact absurd (h2.2 (.inr ⟨.inr rfl, rfl⟩)) (by simp)

end Sprout

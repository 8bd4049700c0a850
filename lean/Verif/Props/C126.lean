import Verif.Model.Tribool
import Mathlib.Data.List.Infix
import Mathlib.Data.Rat.Defs
import Mathlib.Order.Lattice

/-!
# C126: three-valued logic
-/

namespace Sprout
open Tribool

/-! ### logic -/

/-- Kleene's truth values, doubled: 0, 1 and 2 for false, indeterminate and true -/
def kleene : Tribool → ℕ
  | .false_value => 0
  | .indeterminate_value => 1
  | .true_value => 2

/-- Negation, conjunction and disjunction are those of Kleene's logic. -/
theorem C126_logic (x y : Tribool) : kleene (Tribool.not x) = 2 - kleene x ∧ kleene (Tribool.and x y) = min (kleene x) (kleene y)
    ∧ kleene (Tribool.or x y) = max (kleene x) (kleene y) := by
  cases x <;> cases y <;> decide

/-- Construction and observation. -/
theorem C126_values (b : Bool) (x : Tribool) : kleene Tribool.default = 0 ∧ kleene (ofBool b) = (if b then 2 else 0) ∧ kleene ofKeyword = 1
    ∧ (x.toBool = true ↔ kleene x = 2) ∧ (x.indeterminate = true ↔ kleene x = 1) ∧ (∀ y, x.hash = y.hash ↔ x = y) := by
  refine ⟨rfl, by cases b <;> rfl, rfl, by cases x <;> decide, by cases x <;> decide, fun y => ?_⟩
  cases x <;> cases y <;> decide

/-- Comparison is indeterminate if one side is, and that of truth values otherwise. -/
theorem C126_equal (x y : Tribool) :
    (kleene x = 1 ∨ kleene y = 1 → kleene (Tribool.eq x y) = 1 ∧ kleene (Tribool.ne x y) = 1)
    ∧ (kleene x ≠ 1 → kleene y ≠ 1 → kleene (Tribool.eq x y) = (if kleene x = kleene y then 2 else 0)
      ∧ kleene (Tribool.ne x y) = if kleene x = kleene y then 0 else 2) := by
  cases x <;> cases y <;> decide

/-- The overloads for `bool` and the keyword agree with conversion to `tribool`. -/
theorem C126_overloads (x : Tribool) (b : Bool) :
    andBool x b = Tribool.and x (ofBool b) ∧ boolAnd b x = Tribool.and (ofBool b) x ∧ keyAnd x = Tribool.and ofKeyword x ∧ andKey x = Tribool.and x ofKeyword
    ∧ orBool x b = Tribool.or x (ofBool b) ∧ boolOr b x = Tribool.or (ofBool b) x ∧ keyOr x = Tribool.or ofKeyword x ∧ orKey x = Tribool.or x ofKeyword
    ∧ eqBool x b = Tribool.eq x (ofBool b) ∧ boolEq b x = Tribool.eq (ofBool b) x ∧ keyEq x = Tribool.eq x ofKeyword
    ∧ neBool x b = Tribool.ne x (ofBool b) ∧ boolNe b x = Tribool.ne (ofBool b) x ∧ keyNe x = Tribool.ne x ofKeyword := by
  cases x <;> cases b <;> decide

/-! ### streams -/

variable {χ : Type} [DecidableEq χ]

/-- the name of a value -/
def Tribool.Names.of (n : Names χ) : Tribool → List χ
  | .false_value => n.falsename
  | .true_value => n.truename
  | .indeterminate_value => n.othername

namespace Tribool

omit [DecidableEq χ] in
theorem prefix_take_succ {w n : List χ} {k : ℕ} (hk : k < w.length) (h : w.take k <+: n) :
    w.take (k + 1) <+: n ↔ n[k]? = some w[k] := by
  obtain ⟨r, rfl⟩ := h
  have hl : (w.take k).length = k := by simp; omega
  rw [List.take_add_one, List.getElem?_eq_getElem hk, Option.toList_some, List.prefix_append_right_inj,
    List.getElem?_append_right (by omega), hl, Nat.sub_self]
  cases r with
  | nil => simp
  | cons a r => simp [List.cons_prefix_cons, eq_comm]

/-- one name: the flag tells whether what has been read is a beginning of it -/
theorem test_eq (w n : List χ) (k : ℕ) (hk : k < w.length) (hp : n <+: w → n = w) :
    (test n k (decide (w.take k <+: n)) w[k]).1 = decide (w.take (k + 1) <+: n)
    ∧ (n = w → (test n k (decide (w.take k <+: n)) w[k]).2 = true) := by
  have hl : (w.take k).length = k := by simp; omega
  by_cases h : w.take k <+: n
  · have hkn : k < n.length := by
      have h1 := h.length_le
      rw [hl] at h1
      rcases Nat.lt_or_eq_of_le h1 with h2 | h2
      · exact h2
      · have e : w.take k = n := h.eq_of_length (by omega)
        have := hp (e ▸ List.take_prefix k w)
        rw [this] at h2
        omega
    have e := prefix_take_succ hk h
    unfold test
    rw [decide_eq_true h]
    simp only [Bool.true_and, decide_eq_true hkn, if_true]
    by_cases hc : n[k]? = some w[k]
    · rw [if_pos hc]
      exact ⟨(decide_eq_true (e.2 hc)).symm, fun _ => rfl⟩
    · rw [if_neg hc]
      refine ⟨(decide_eq_false fun h => hc (e.1 h)).symm, ?_⟩
      rintro rfl
      exact absurd (List.getElem?_eq_getElem hk) hc
  · have h' : ¬ w.take (k + 1) <+: n := fun hh => h ((List.take_prefix_take_left (by omega)).trans hh)
    unfold test
    rw [decide_eq_false h, decide_eq_false h']
    refine ⟨rfl, ?_⟩
    rintro rfl
    exact absurd (List.take_prefix k n) h

/-- the state after the first `k` characters of `w` -/
def stateAt (n : Names χ) (w : List χ) (k : ℕ) : St :=
  ⟨k, decide (w.take k <+: n.falsename), decide (w.take k <+: n.truename), decide (w.take k <+: n.othername)⟩

theorem step_eq (n : Names χ) (v : Tribool) (hp : ∀ u, n.of u <+: n.of v → n.of u = n.of v) (k : ℕ) (hk : k < (n.of v).length) :
    step n (stateAt n (n.of v) k) (n.of v)[k] = stateAt n (n.of v) (k + 1) := by
  set w := n.of v with hw
  have hl : (w.take (k + 1)).length = k + 1 := by simp; omega
  have tf := test_eq w n.falsename k hk (hp .false_value)
  have tt := test_eq w n.truename k hk (hp .true_value)
  have to' := test_eq w n.othername k hk (hp .indeterminate_value)
  have hm : ((test n.falsename k (decide (w.take k <+: n.falsename)) w[k]).2
      || (test n.truename k (decide (w.take k <+: n.truename)) w[k]).2
      || (test n.othername k (decide (w.take k <+: n.othername)) w[k]).2) = true := by
    cases v with
    | false_value => rw [tf.2 hw.symm]; rfl
    | true_value => rw [tt.2 hw.symm]; simp
    | indeterminate_value => rw [to'.2 hw.symm]; simp
  have hflag : ∀ m : List χ, (if k + 1 > m.length then false else decide (w.take (k + 1) <+: m)) = decide (w.take (k + 1) <+: m) := by
    intro m
    by_cases h : k + 1 > m.length
    · rw [if_pos h, decide_eq_false]
      intro hh
      have := hh.length_le
      omega
    · rw [if_neg h]
  obtain ⟨s, hs⟩ : ∃ s, s = step n (stateAt n w k) w[k] := ⟨_, rfl⟩
  have hpos : s.pos = k + 1 := by rw [hs]; exact if_pos hm
  have ef : s.falsename_ok = if s.pos > n.falsename.length then false else (test n.falsename k (decide (w.take k <+: n.falsename)) w[k]).1 := by
    rw [hs]; rfl
  have et : s.truename_ok = if s.pos > n.truename.length then false else (test n.truename k (decide (w.take k <+: n.truename)) w[k]).1 := by
    rw [hs]; rfl
  have eo : s.othername_ok = if s.pos > n.othername.length then false else (test n.othername k (decide (w.take k <+: n.othername)) w[k]).1 := by
    rw [hs]; rfl
  rw [hpos, tf.1, hflag] at ef
  rw [hpos, tt.1, hflag] at et
  rw [hpos, to'.1, hflag] at eo
  rw [← hs]
  show St.mk s.pos s.falsename_ok s.truename_ok s.othername_ok = _
  rw [hpos, ef, et, eo]
  rfl

theorem more_of_lt (n : Names χ) (v : Tribool) (k : ℕ) (hk : k < (n.of v).length) : more n (stateAt n (n.of v) k) = true := by
  have h := List.take_prefix k (n.of v)
  unfold more stateAt
  cases v with
  | false_value => simp only [decide_eq_true (show List.take k (n.of false_value) <+: n.falsename from h), decide_eq_true (show k < n.falsename.length from hk)]; rfl
  | true_value => simp only [decide_eq_true (show List.take k (n.of true_value) <+: n.truename from h), decide_eq_true (show k < n.truename.length from hk)]; simp
  | indeterminate_value => simp only [decide_eq_true (show List.take k (n.of indeterminate_value) <+: n.othername from h), decide_eq_true (show k < n.othername.length from hk)]; simp

theorem getLoop_steps (n : Names χ) (v : Tribool) (hp : ∀ u, n.of u <+: n.of v → n.of u = n.of v) (rest : List χ) :
    ∀ j, j ≤ (n.of v).length → getLoop n ((n.of v).drop ((n.of v).length - j) ++ rest) (stateAt n (n.of v) ((n.of v).length - j))
      = getLoop n rest (stateAt n (n.of v) (n.of v).length)
  | 0, _ => by simp
  | j + 1, hj => by
    have hk : (n.of v).length - (j + 1) < (n.of v).length := by omega
    rw [List.drop_eq_getElem_cons hk, List.cons_append, getLoop, if_pos (more_of_lt n v _ hk), step_eq n v hp _ hk,
      show (n.of v).length - (j + 1) + 1 = (n.of v).length - j by omega]
    exact getLoop_steps n v hp rest j (by omega)

end Tribool

/-- What is written with `boolalpha` can be read back, and no further character is consumed, if no name is empty or the beginning of another. -/
theorem C126_stream_alpha (n : Names χ) (hn : ∀ u, n.of u ≠ []) (hp : ∀ u v, n.of u <+: n.of v → u = v) (v : Tribool) (rest : List χ) :
    putAlpha n v = n.of v ∧ getAlpha n (putAlpha n v ++ rest) = (some v, rest) := by
  have e : putAlpha n v = n.of v := by cases v <;> rfl
  refine ⟨e, ?_⟩
  have h := getLoop_steps n v (fun u hu => by rw [hp u v hu]) rest (n.of v).length (le_refl _)
  have h0 : stateAt n (n.of v) 0 = ⟨0, true, true, true⟩ := by simp [stateAt]
  rw [Nat.sub_self, List.drop_zero, h0] at h
  rw [e, getAlpha, h]
  have hlen : 0 < (n.of v).length := List.length_pos_iff.2 (hn v)
  have hf : ∀ u, n.of v <+: n.of u ↔ v = u := fun u => ⟨hp v u, fun e => e ▸ List.prefix_refl _⟩
  have hst : stateAt n (n.of v) (n.of v).length
      = ⟨(n.of v).length, decide (v = false_value), decide (v = true_value), decide (v = indeterminate_value)⟩ := by
    unfold stateAt
    rw [List.take_length]
    congr 1
    · exact decide_eq_decide.2 (hf .false_value)
    · exact decide_eq_decide.2 (hf .true_value)
    · exact decide_eq_decide.2 (hf .indeterminate_value)
  have hm : more n (stateAt n (n.of v) (n.of v).length) = false := by
    rw [hst]
    cases v <;> simp [more, Names.of]
  have hc : choose (stateAt n (n.of v) (n.of v).length) = some v := by
    rw [hst, choose, if_neg (show ¬ (n.of v).length = 0 by omega)]
    cases v <;> rfl
  cases rest with
  | nil => rw [getLoop, hm, hc]; rfl
  | cons c s => rw [getLoop, hm, hc]; rfl

example : getAlpha ⟨"false".toList, "true".toList, "indeterminate".toList⟩ "indeterminate x".toList = (some indeterminate_value, " x".toList) := by
  decide +kernel

/-- A value is only assigned if its name, perhaps with one more character, has been consumed: what is read otherwise sets `failbit`. -/
theorem C126_stream_fail : getAlpha ⟨"false".toList, "true".toList, "indeterminate".toList⟩ "fax".toList = (none, [])
    ∧ getAlpha ⟨"false".toList, "true".toList, "indeterminate".toList⟩ "tru".toList = (none, [])
    ∧ getAlpha ⟨"false".toList, "true".toList, "indeterminate".toList⟩ "x".toList = (none, []) := by decide +kernel

/-- If a name is the beginning of another one, its value cannot be read at the end of a stream. -/
theorem C126_stream_prefix : getAlpha ⟨"no".toList, "none".toList, "indeterminate".toList⟩ "no".toList = (none, [])
    ∧ putAlpha ⟨"no".toList, "none".toList, "indeterminate".toList⟩ false_value = "no".toList := by decide +kernel

/-- Without `boolalpha`, what is written can be read back, and other numbers set `failbit`. -/
theorem C126_stream_num (v : Tribool) (k : ℤ) : getNum (putNum v) = some v ∧ (getNum k = some v ↔ k = putNum v) := by
  constructor
  · cases v <;> decide
  · unfold getNum
    split_ifs with h1 h2 h3
    · subst h1; cases v <;> decide
    · subst h2; cases v <;> decide
    · subst h3; cases v <;> decide
    · cases v <;> simp [putNum, Tribool.indeterminate, Tribool.toBool] <;> omega

end Sprout

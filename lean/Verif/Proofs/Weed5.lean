import Verif.Proofs.Weed4
import Mathlib.Tactic.IntervalCases

/-! # Terminal parsers and character sets -/

namespace Sprout.Weed
open Spec Spec.Peg

variable {s : List Int}

/-- a parser that always answers as the (total) grammar does -/
theorem Denotes.of_key {f : Nat → Option (Res Unit)} {p : Peg} (hp : PrimOk p)
    (h : ∀ i, i ≤ s.length → ∃ o, Parses s p i o ∧ f i = some (resOf i o)) : Denotes s f p := by
  refine ⟨hp, fun i hi r hr => ?_, fun i hi o ho => ?_⟩
  · obtain ⟨o, h1, h2⟩ := h i hi
    rw [h2] at hr; cases hr; exact ⟨o, h1, rfl⟩
  · obtain ⟨o', h1, h2⟩ := h i hi
    rw [parses_unique ho _ h1, h2]

theorem Denotes.oneChar {test : Int → Option Bool} {b : Int → Bool} {P : Int → Prop}
    (ht : ∀ c ∈ s, test c = some (b c)) (hb : ∀ c ∈ s, b c = true ↔ P c) : Denotes s (Weed.oneChar s test) (.one P) := by
  refine Denotes.of_key trivial fun i hi => ?_
  unfold Weed.oneChar
  by_cases h : i = s.length
  · subst h
    exact ⟨none, .one_fail (by simp), by simp [term, resOf]⟩
  · have hlt : i < s.length := by omega
    have hm : s[i] ∈ s := List.getElem_mem hlt
    rw [if_pos h]
    simp only [rd, List.getElem?_eq_getElem hlt, Option.bind_eq_bind, Option.bind_some, ht _ hm]
    by_cases hb' : b s[i] = true
    · exact ⟨some (i + 1), .one_ok (List.getElem?_eq_getElem hlt) ((hb _ hm).1 hb'), by simp [hb', term, resOf]⟩
    · refine ⟨none, .one_fail fun c hc => ?_, by simp [hb', term, resOf]⟩
      rw [List.getElem?_eq_getElem hlt] at hc
      cases hc
      exact fun h => hb' ((hb _ hm).2 h)

theorem zipWith_all_iff {t u : List Int} (h : t.length ≤ u.length) :
    (List.zipWith (fun x y => x == y) t u).all id = true ↔ t <+: u := by
  induction t generalizing u with
  | nil => simp
  | cons a t ih =>
    cases u with
    | nil => simp at h
    | cons b u =>
      simp only [List.zipWith_cons_cons, List.all_cons, id, Bool.and_eq_true, beq_iff_eq, List.cons_prefix_cons]
      rw [ih (by simpa using h)]

theorem Denotes.litStr (t : List Int) : Denotes s (Weed.litStr s t) (.str t) := by
  refine Denotes.of_key trivial fun i hi => ?_
  unfold Weed.litStr
  by_cases h : t.length ≤ s.length - i
  · rw [if_pos h]
    have := equalRa_eq (fun x y => x == y) [] t [] (s.take i) (s.drop i) [] (by simpa using h)
    simp only [List.nil_append, List.append_nil, List.take_append_drop, List.length_nil, Nat.zero_add, List.length_take,
      Nat.min_eq_left hi] at this
    rw [this]
    simp only [Option.bind_eq_bind, Option.bind_some]
    have key := zipWith_all_iff (t := t) (u := s.drop i) (by simpa using h)
    by_cases hb : t <+: s.drop i
    · exact ⟨some (i + t.length), .str_ok hb, by rw [key.2 hb]; simp [term, resOf]⟩
    · exact ⟨none, .str_fail hb, by rw [if_neg (fun h => hb (key.1 h))]; simp [term, resOf]⟩
  · rw [if_neg h]
    refine ⟨none, .str_fail fun hp => h ?_, by simp [term, resOf]⟩
    simpa using hp.length_le

theorem Denotes.eps : Denotes s Weed.eps .eps := Denotes.of_key trivial fun i _ => ⟨some i, .eps, rfl⟩

theorem Denotes.eoi : Denotes s (Weed.eoi s) .eoi := by
  refine Denotes.of_key trivial fun i hi => ?_
  unfold Weed.eoi term
  by_cases h : i = s.length
  · exact ⟨some i, .eoi_ok (by simp [h]), by simp [h, resOf]⟩
  · exact ⟨none, .eoi_fail (by simp; omega), by simp [h, resOf]⟩

theorem Denotes.eol : Denotes s (Weed.eol s) Peg.eol := by
  refine Denotes.of_key ⟨trivial, trivial⟩ fun i hi => ?_
  unfold Weed.eol term
  by_cases h : i = s.length
  · subst h
    exact ⟨none, .alt_right (.str_fail (by simp)) (.one_fail (by simp)), by simp [resOf]⟩
  · have hlt : i < s.length := by omega
    have e1 : s.drop i = s[i] :: s.drop (i + 1) := List.drop_eq_getElem_cons hlt
    rw [if_pos h]
    simp only [rd, List.getElem?_eq_getElem hlt, Option.bind_eq_bind, Option.bind_some]
    by_cases hr : s[i] = 0x0D
    · rw [if_pos hr]
      by_cases h2 : i + 1 = s.length
      · rw [if_neg (by simpa using h2)]
        have e2 : s.drop (i + 1) = [] := by simp [h2]
        exact ⟨some (i + 1), .alt_right (.str_fail (by rw [e1, e2]; simp)) (.one_ok (List.getElem?_eq_getElem hlt) (.inl hr)), rfl⟩
      · have hlt2 : i + 1 < s.length := by omega
        have e2 : s.drop (i + 1) = s[i + 1] :: s.drop (i + 1 + 1) := List.drop_eq_getElem_cons hlt2
        rw [if_pos (by simpa using h2)]
        simp only [List.getElem?_eq_getElem hlt2, Option.bind_some]
        by_cases h3 : s[i + 1] = 0x0A
        · rw [if_pos h3]
          exact ⟨some (i + 2), .alt_left (.str_ok (by rw [e1, e2, hr, h3]; simp)), rfl⟩
        · rw [if_neg h3]
          refine ⟨some (i + 1), .alt_right (.str_fail (by
            rw [e1, e2, hr, List.cons_prefix_cons, List.cons_prefix_cons]
            exact fun h => h3 h.2.1.symm))
            (.one_ok (List.getElem?_eq_getElem hlt) (.inl hr)), rfl⟩
    · rw [if_neg hr]
      have hf : ¬ [0x0D, 0x0A] <+: s.drop i := by
        rw [e1, List.cons_prefix_cons]
        exact fun h => hr h.1.symm
      by_cases h3 : s[i] = 0x0A
      · rw [if_pos h3]
        exact ⟨some (i + 1), .alt_right (.str_fail hf) (.one_ok (List.getElem?_eq_getElem hlt) (.inr h3)), rfl⟩
      · rw [if_neg h3]
        refine ⟨none, .alt_right (.str_fail hf) (.one_fail fun c hc => ?_), rfl⟩
        rw [List.getElem?_eq_getElem hlt] at hc
        cases hc
        simp [hr, h3]

/-! ## Character sets -/

/-- position `i` of the block `m` of a set accepts `v` -/
def Hit (m : List Int) (v : Int) (i : Nat) : Prop :=
  ∃ x, m[i]? = some x ∧ (x ≠ 0x2D ∧ x = v ∨
    x = 0x2D ∧ ∃ a b, m[i - 1]? = some a ∧ m[i + 1]? = some b ∧ a ≤ v ∧ v ≤ b)

open Classical in
theorem setTest_eq {m : List Int} {v : Int} {i : Nat} (hi : i + 1 < m.length) (h0 : m.head? ≠ some 0x2D) :
    setTest m v i = some (decide (Hit m v i)) := by
  have e1 : m[i]? = some m[i] := List.getElem?_eq_getElem (by omega)
  have e2 : m[i - 1]? = some m[i - 1] := List.getElem?_eq_getElem (by omega)
  have e3 : m[i + 1]? = some m[i + 1] := List.getElem?_eq_getElem hi
  unfold setTest
  simp only [rd, e1, e2, e3, Option.bind_eq_bind, Option.bind_some]
  by_cases hx : m[i] = 0x2D
  · have hi0 : i ≠ 0 := by
      rintro rfl
      rw [List.head?_eq_getElem?, e1, hx] at h0
      exact h0 rfl
    rw [if_pos hx, if_neg hi0]
    by_cases ha : m[i - 1] ≤ v
    · rw [if_pos ha]
      congr 1
      rw [decide_eq_decide]
      constructor
      · intro h; exact ⟨_, e1, .inr ⟨hx, _, _, e2, e3, ha, h⟩⟩
      · rintro ⟨x, h1, h2⟩
        rw [e1] at h1; cases h1
        rcases h2 with h2 | ⟨_, a, b, h3, h4, h5, h6⟩
        · exact absurd hx h2.1
        · rw [e3] at h4; cases h4; exact h6
    · rw [if_neg ha]
      congr 1
      symm
      rw [decide_eq_false_iff_not]
      rintro ⟨x, h1, h2⟩
      rw [e1] at h1; cases h1
      rcases h2 with h2 | ⟨_, a, b, h3, h4, h5, h6⟩
      · exact absurd hx h2.1
      · rw [e2] at h3; cases h3; exact ha h5
  · rw [if_neg hx]
    congr 1
    rw [decide_eq_decide]
    constructor
    · intro h; exact ⟨_, e1, .inl ⟨hx, h⟩⟩
    · rintro ⟨x, h1, h2⟩
      rw [e1] at h1; cases h1
      rcases h2 with h2 | h2
      · exact h2.2
      · exact absurd h2.1 hx

/-- the set does not begin with `-` -/
def SetOk (t : List Int) : Prop := t.head? ≠ some 0x2D

/-- what the code accepts -/
def InSet (t : List Int) (v : Int) : Prop := ∃ i < t.length, Hit (t ++ [0]) v i

theorem head_append {t : List Int} (h : SetOk t) : (t ++ [0]).head? ≠ some 0x2D := by
  cases t with
  | nil => simp
  | cons a t => simpa [SetOk] using h

open Classical in
theorem inSet_of_first {t : List Int} {v : Int} {r : Nat} (h : IsFirst (fun k => decide (Hit (t ++ [0]) v k)) 0 t.length r) :
    (r != t.length) = decide (InSet t v) := by
  rw [Bool.eq_iff_iff, decide_eq_true_iff, bne_iff_ne]
  constructor
  · intro hr
    have := h.at_ (by have := h.le; omega)
    exact ⟨r, by have := h.le; omega, by simpa using this⟩
  · rintro ⟨i, hi, hit⟩ rfl
    have := h.before i (by omega) hi
    simp [hit] at this

open Classical in
theorem findSet_spec {t : List Int} {v : Int} (h : SetOk t) :
    ∃ r, findSetRa (t ++ [0]) v 0 t.length = some r ∧ findSetIn (t ++ [0]) v 0 t.length = some r ∧
      IsFirst (fun k => decide (Hit (t ++ [0]) v k)) 0 t.length r := by
  have ht : ∀ k, 0 ≤ k → k < t.length → setTest (t ++ [0]) v k = some (decide (Hit (t ++ [0]) v k)) :=
    fun k _ hk => setTest_eq (by simp; omega) (head_append h)
  obtain ⟨r, h1, h2⟩ := findRa_spec (test := fun i _ => setTest (t ++ [0]) v i) (Nat.zero_le t.length) ht
  obtain ⟨r', h3, h4⟩ := findIn_spec (test := setTest (t ++ [0]) v) (Nat.zero_le t.length) ht
  rw [h4.unique h2] at h3
  exact ⟨r, h1, h3, h2⟩

open Classical in
theorem inSet_eq {t : List Int} {v : Int} (h : SetOk t) : inSet t v = some (decide (InSet t v)) := by
  obtain ⟨r, h1, _, h2⟩ := findSet_spec (v := v) h
  unfold inSet
  simp only [h1, Option.bind_eq_bind, Option.bind_some, inSet_of_first h2]

theorem Denotes.set {t : List Int} (h : SetOk t) : Denotes s (Weed.oneChar s (inSet t)) (.one (InSet t)) := by
  classical
  exact Denotes.oneChar (fun c _ => inSet_eq h) (fun c _ => by simp)

/-- hits below a position do not depend on what comes later -/
theorem hit_items : ∀ (its : List Item) (pre : List Int) (v : Int), (∀ it ∈ its, it.Wf) →
    ((∃ i, pre.length ≤ i ∧ i < pre.length + (renderSet its).length ∧ Hit (pre ++ renderSet its ++ [0]) v i) ↔
      ∃ it ∈ its, it.Has v) := by
  intro its
  induction its with
  | nil => intro pre v _; simp [renderSet]; omega
  | cons it its ih =>
    intro pre v hw
    have hw1 := hw it (by simp)
    have ih' := ih (pre ++ it.render) v (fun x hx => hw x (by simp [hx]))
    have er : renderSet (it :: its) = it.render ++ renderSet its := rfl
    have e : pre ++ renderSet (it :: its) ++ [0] = pre ++ it.render ++ renderSet its ++ [0] := by simp [er]
    have key : (∃ i, pre.length ≤ i ∧ i < pre.length + it.render.length ∧
        Hit (pre ++ it.render ++ renderSet its ++ [0]) v i) ↔ it.Has v := by
      generalize renderSet its ++ [0] = R
      rw [List.append_assoc (pre ++ it.render)]
      cases it with
      | single c =>
        simp only [Item.Wf] at hw1
        simp only [Item.render, List.length_singleton, Item.Has]
        have g : (pre ++ [c] ++ (renderSet its ++ [0]))[pre.length]? = some c := by simp
        constructor
        · rintro ⟨i, h1, h2, x, h3, h4⟩
          have : i = pre.length := by omega
          subst this
          rw [g] at h3; cases h3
          rcases h4 with h4 | h4
          · exact h4.2.symm
          · exact absurd h4.1 hw1
        · rintro rfl
          exact ⟨pre.length, by omega, by omega, v, g, .inl ⟨hw1, rfl⟩⟩
      | range lo hi =>
        simp only [Item.Wf] at hw1
        obtain ⟨w1, w2, w3⟩ := hw1
        simp only [Item.render, List.length_cons, List.length_nil, Item.Has]
        have g0 : (pre ++ [lo, 0x2D, hi] ++ (renderSet its ++ [0]))[pre.length]? = some lo := by simp
        have g1 : (pre ++ [lo, 0x2D, hi] ++ (renderSet its ++ [0]))[pre.length + 1]? = some 0x2D := by simp
        have g2 : (pre ++ [lo, 0x2D, hi] ++ (renderSet its ++ [0]))[pre.length + 2]? = some hi := by simp
        constructor
        · rintro ⟨i, h1, h2, x, h3, h4⟩
          obtain rfl | rfl | rfl : i = pre.length ∨ i = pre.length + 1 ∨ i = pre.length + 2 := by omega
          · rw [g0] at h3; cases h3
            rcases h4 with h4 | h4
            · omega
            · exact absurd h4.1 w1
          · rw [g1] at h3; cases h3
            rcases h4 with h4 | ⟨_, a, b, h5, h6, h7, h8⟩
            · exact absurd rfl h4.1
            · rw [Nat.add_sub_cancel, g0] at h5; cases h5
              rw [show pre.length + 1 + 1 = pre.length + 2 from rfl, g2] at h6; cases h6
              exact ⟨h7, h8⟩
          · rw [g2] at h3; cases h3
            rcases h4 with h4 | h4
            · omega
            · exact absurd h4.1 w2
        · rintro ⟨h1, h2⟩
          exact ⟨pre.length + 1, by omega, by omega, _, g1, .inr ⟨rfl, lo, hi, by simpa using g0, g2, h1, h2⟩⟩
    rw [e]
    simp only [List.mem_cons, exists_eq_or_imp]
    rw [← ih', ← key, er]
    simp only [List.length_append]
    constructor
    · rintro ⟨i, h1, h2, h3⟩
      by_cases h4 : i < pre.length + it.render.length
      · exact .inl ⟨i, h1, h4, h3⟩
      · exact .inr ⟨i, by omega, by omega, h3⟩
    · rintro (⟨i, h1, h2, h3⟩ | ⟨i, h1, h2, h3⟩)
      · exact ⟨i, h1, by omega, h3⟩
      · exact ⟨i, by omega, by omega, h3⟩

theorem InSet_items {its : List Item} (hw : ∀ it ∈ its, it.Wf) {v : Int} : InSet (renderSet its) v ↔ ∃ it ∈ its, it.Has v := by
  rw [← hit_items its [] v hw]
  simp [InSet]

theorem setOk_items {its : List Item} (hw : ∀ it ∈ its, it.Wf) : SetOk (renderSet its) := by
  cases its with
  | nil => simp [renderSet, SetOk]
  | cons it its =>
    have := hw it (by simp)
    cases it with
    | single c => simpa [renderSet, SetOk, Item.render, Item.Wf] using this
    | range lo hi => simpa [renderSet, SetOk, Item.render] using this.1

end Sprout.Weed

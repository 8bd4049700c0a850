import Verif.Proofs.VariantT

/-!
# C123: variant
-/

namespace Sprout
open Var Spec
variable {τ V R : Type} [DecidableEq τ] (dec : τ → τ) (dflt : τ → V) (ts : List τ)

/-! ### construction -/

/-- `variant()` holds a default value of the first alternative. -/
theorem C123_default (t : τ) (r : List τ) : VHolds (t :: r) (dfl dflt (t :: r)) 0 t (dflt t) := by
  refine ⟨rfl, ?_, rfl, rfl⟩
  simp [dfl]

/-- `variant(v)` holds `v` as the first alternative with the type of `v`; -/
theorem C123_construct (t : τ) (v : V) (i : Nat) (u : τ) (hi : ts[i]? = some u) (hu : dec u = t)
    (hf : ∀ j w, j < i → ts[j]? = some w → dec w ≠ t) :
    ∃ x, construct dec dflt ts (some t) v = some x ∧ VHolds ts x i u v := by
  obtain ⟨hlt, hi'⟩ := List.getElem?_eq_some_iff.1 hi
  have e : (ts.map dec).findIdx (fun u => some u == some t) = i := by
    rw [List.findIdx_eq (by simpa using hlt)]
    refine ⟨by simp [hi', hu], fun j hj => ?_⟩
    have := hf j ts[j] hj (List.getElem?_eq_getElem (by omega))
    simpa using this
  have hl : (init dflt ts i v).length = ts.length := by
    simp only [init, List.length_append, List.length_map, List.length_take, List.length_cons, List.length_drop]
    omega
  refine ⟨⟨init dflt ts i v, i⟩, ?_, rfl, hl, hi, ?_⟩
  · rw [construct, findIndexIf_eq, e]
    simp [hlt]
  · simp only [init]
    rw [List.getElem?_append_right (by simp)]
    simp [Nat.min_eq_left (Nat.le_of_lt hlt)]

/-- and does not compile if there is none. -/
theorem C123_construct_none (t : Option τ) (v : V) (h : ∀ u ∈ ts, some (dec u) ≠ t) : construct dec dflt ts t v = none := by
  have e : (ts.map dec).findIdx (fun u => some u == t) = ts.length := by
    rw [List.findIdx_eq_length_of_false]
    · simp
    · intro x hx
      obtain ⟨u, hu, rfl⟩ := List.mem_map.1 hx
      simpa using h u hu
  rw [construct, findIndexIf_eq, e]
  simp

/-- Alternatives 0 and 2 of `variant<int, double, int>` have the same type: the first one is chosen. -/
example : ∃ x, construct id (fun _ => (0 : Int)) ["int", "double", "int"] (some "int") 7 = some x ∧ VHolds ["int", "double", "int"] x 0 "int" 7 :=
  C123_construct id _ _ "int" 7 0 "int" rfl rfl (by intro j w h; omega)
example : construct id (fun _ => (0 : Int)) ["int", "double"] (some "char") 7 = none :=
  C123_construct_none id _ _ _ _ (by decide)

/-- Copying and moving give the value of the source. Missing: sources that are lvalues without const or rvalues with const,
see `C123_copy_refuted`. -/
theorem C123_copy_partial (c : Cat) (hc : c = .clvalue ∨ c = .rvalue) (this x : Variant V) (a : V) :
    constructFrom dec dflt ts c x a = some x ∧ assignFrom dec dflt ts c this x a = some x := by
  rcases hc with rfl | rfl <;> exact ⟨rfl, rfl⟩

/-- `variant b(a);` and `b = a;` do not compile if `a` is a variable that is not const: the constructor and the assignment operator for
values (`T&&`) are better matches than those for `variant const&`, and a variant is none of its own alternatives. -/
theorem C123_copy_refuted (c : Cat) (hc : c = .lvalue ∨ c = .crvalue) (this x : Variant V) (a : V) :
    constructFrom dec dflt ts c x a = none ∧ assignFrom dec dflt ts c this x a = none := by
  have h := C123_construct_none dec dflt ts none a (by simp)
  rcases hc with rfl | rfl <;> exact ⟨h, h⟩

theorem C123_assign_value (this : Variant V) (t : τ) (v : V) (i : Nat) (u : τ) (hi : ts[i]? = some u) (hu : dec u = t)
    (hf : ∀ j w, j < i → ts[j]? = some w → dec w ≠ t) :
    ∃ x, Var.assignValue dec dflt ts this t v = some x ∧ VHolds ts x i u v := C123_construct dec dflt ts t v i u hi hu hf

omit [DecidableEq τ] in
theorem C123_swap (a b : Variant V) (i j : Nat) (t u : τ) (v w : V) (ha : VHolds ts a i t v) (hb : VHolds ts b j u w) :
    VHolds ts (Var.swap a b).1 j u w ∧ VHolds ts (Var.swap a b).2 i t v := ⟨hb, ha⟩

/-! ### access -/

omit [DecidableEq τ] in
/-- `get_at<I>` is defined exactly for the active alternative (otherwise the assertion fails). -/
theorem C123_get_at (x : Variant V) (i : Nat) (t : τ) (v : V) (h : VHolds ts x i t v) (j : Nat) :
    getAt ts x j = if j = i then some v else none := by
  rw [getAt, h.1]
  by_cases hj : j = i
  · subst hj
    rw [if_pos (vholds_lt h), if_pos rfl, if_pos rfl, h.2.2.2]
  · rw [if_neg hj, if_neg hj, ite_self]

/-- `get<U>` is the value exactly if the first alternative of type `U` is the active one. -/
theorem C123_get (x : Variant V) (i : Nat) (t : τ) (v : V) (h : VHolds ts x i t v) (u : τ) :
    Var.get ts x u = if u = t ∧ ∀ j < i, ts[j]? ≠ some u then some v else none := by
  have hi := (vholds_lt h)
  obtain ⟨_, ht⟩ := List.getElem?_eq_some_iff.1 h.2.2.1
  rw [Var.get, findIndexIf_eq]
  simp only [Option.bind_eq_bind, Option.bind_some]
  by_cases hc : u = t ∧ ∀ j < i, ts[j]? ≠ some u
  · have e : ts.findIdx (· == u) = i := by
      rw [List.findIdx_eq hi]
      refine ⟨by simp [ht, hc.1], fun j hj => ?_⟩
      have := hc.2 j hj
      rw [List.getElem?_eq_getElem (by omega)] at this
      simpa using this
    rw [e, if_pos hi, C123_get_at ts x i t v h, if_pos rfl, if_pos hc]
  · rw [if_neg hc]
    by_cases hk : ts.findIdx (· == u) < ts.length
    · rw [if_pos hk, C123_get_at ts x i t v h, if_neg]
      intro e
      apply hc
      have h1 := List.findIdx_getElem (w := hk)
      refine ⟨?_, fun j hj hju => ?_⟩
      · have h2 : ts[ts.findIdx (· == u)] = ts[i] := by congr 1
        rw [h2, ht] at h1
        simpa using (beq_iff_eq.1 h1).symm
      · obtain ⟨_, hju'⟩ := List.getElem?_eq_some_iff.1 hju
        have := List.not_of_lt_findIdx (p := (· == u)) (xs := ts) (i := j) (by omega)
        simp [hju'] at this
    · rw [if_neg hk]

example : ∃ x, construct id (fun _ => (0 : Int)) ["int", "double"] (some "double") 7 = some x
    ∧ Var.get ["int", "double"] x "double" = some 7 ∧ Var.get ["int", "double"] x "int" = none := by
  obtain ⟨x, e, h⟩ := C123_construct id (fun _ => (0 : Int)) ["int", "double"] "double" 7 1 "double" rfl rfl
    (by intro j w hj h; obtain rfl : j = 0 := by omega
        rintro rfl; simp at h)
  refine ⟨x, e, ?_, ?_⟩
  · rw [C123_get _ x 1 _ 7 h, if_pos]
    refine ⟨rfl, fun j hj => ?_⟩
    obtain rfl : j = 0 := by omega
    decide
  · rw [C123_get _ x 1 _ 7 h, if_neg]
    rintro ⟨h, -⟩
    exact absurd h (by decide)

omit [DecidableEq τ] in
/-- `apply_visitor` calls the visitor with the active value. -/
theorem C123_visit (f : τ → V → R) (x : Variant V) (i : Nat) (t : τ) (v : V) (h : VHolds ts x i t v) : visit ts f x = some (f t v) := by
  rw [visit, h.1, if_pos (vholds_lt h)]
  exact visitFrom_eq f h.2.2.1 h.2.2.2 i 0 (by omega)

omit [DecidableEq τ] in
/-- Both output operators write the active value. -/
theorem C123_output (w : τ → V → List Nat) (x : Variant V) (i : Nat) (t : τ) (v : V) (h : VHolds ts x i t v) :
    output ts w x = some (w t v) ∧ outputVisit ts w x = some (w t v) := by
  refine ⟨?_, C123_visit ts w x i t v h⟩
  rw [output, h.1]
  exact outputFrom_eq w h.2.2.1 h.2.2.2 i 0 (by omega)

example : visit ["int", "double"] (fun t (v : Int) => (t, v + 1)) ⟨[3, 4], 1⟩ = some ("double", 5) :=
  C123_visit ["int", "double"] (fun t (v : Int) => (t, v + 1)) ⟨[3, 4], 1⟩ 1 "double" 4 ⟨rfl, by rfl, by rfl, by rfl⟩

/-! ### comparison -/

omit [DecidableEq τ] in
/-- Variants are equal if they hold equal values of the same alternative. -/
theorem C123_eq (eqv : τ → V → V → Bool) (l r : Variant V) (i j : Nat) (t u : τ) (v w : V) (hl : VHolds ts l i t v) (hr : VHolds ts r j u w) :
    Var.eq ts eqv l r = some (decide (i = j) && eqv t v w) ∧ Var.ne ts eqv l r = some (!(decide (i = j) && eqv t v w)) := by
  have h : Var.eq ts eqv l r = some (decide (i = j) && eqv t v w) := by
    rw [Var.eq, hl.1, hr.1]
    by_cases hij : i = j
    · subst hij
      rw [if_pos rfl, cmpFrom_eq eqv hl.2.2.1 hl.2.2.2 hr.2.2.2 i 0 (by omega)]
      simp
    · rw [if_neg hij]
      simp [hij]
  exact ⟨h, by rw [Var.ne, h]; rfl⟩

omit [DecidableEq τ] in
/-- Variants are ordered by the alternative, then by the value. -/
theorem C123_lt (ltv : τ → V → V → Bool) (l r : Variant V) (i j : Nat) (t u : τ) (v w : V) (hl : VHolds ts l i t v) (hr : VHolds ts r j u w) :
    Var.lt ts ltv l r = some (sumLt ts ltv (i, v) (j, w)) ∧ Var.gt ts ltv l r = some (sumLt ts ltv (j, w) (i, v))
    ∧ Var.le ts ltv l r = some (!sumLt ts ltv (j, w) (i, v)) ∧ Var.ge ts ltv l r = some (!sumLt ts ltv (i, v) (j, w)) := by
  have h : ∀ (l r : Variant V) (i j : Nat) (t u : τ) (v w : V), VHolds ts l i t v → VHolds ts r j u w →
      Var.lt ts ltv l r = some (sumLt ts ltv (i, v) (j, w)) := by
    intro l r i j t u v w hl hr
    rw [Var.lt, hl.1, hr.1]
    by_cases h1 : i < j
    · rw [if_pos h1]; simp [sumLt, h1]
    · rw [if_neg h1]
      by_cases hij : i = j
      · subst hij
        rw [if_pos rfl, cmpFrom_eq ltv hl.2.2.1 hl.2.2.2 hr.2.2.2 i 0 (by omega)]
        simp [sumLt, hl.2.2.1]
      · rw [if_neg hij]; simp [sumLt, h1, hij]
  have h1 := h l r i j t u v w hl hr
  have h2 := h r l j i u t w v hr hl
  exact ⟨h1, h2, by rw [Var.le, h2]; rfl, by rw [Var.ge, h1]; rfl⟩

omit [DecidableEq τ] in
/-- This is a strict weak ordering if each of the alternatives has one. -/
theorem C123_order (ltv : τ → V → V → Bool) (h : ∀ t ∈ ts, StrictWeak (ltv t)) : StrictWeak (sumLt ts ltv) := by
  have hs : ∀ i : Nat, StrictWeak (fun a b : V => ts[i]?.elim false fun t => ltv t a b) := by
    intro i
    cases hi : ts[i]? with
    | none => exact ⟨fun _ => rfl, fun _ _ _ h => by simp at h, fun _ _ _ h => by simp at h⟩
    | some t => exact h t (List.mem_of_getElem? hi)
  refine ⟨fun a => ?_, fun a b c hab hbc => ?_, fun a b c hac => ?_⟩
  · simp [sumLt, (hs a.1).irrefl a.2]
  · simp only [sumLt, Bool.or_eq_true, decide_eq_true_eq, Bool.and_eq_true, beq_iff_eq] at *
    rcases hab with hab | ⟨hab, h1⟩ <;> rcases hbc with hbc | ⟨hbc, h2⟩
    · left; omega
    · left; omega
    · left; omega
    · right
      refine ⟨by omega, ?_⟩
      rw [← hab] at h2
      exact (hs a.1).trans _ _ _ h1 h2
  · simp only [sumLt, Bool.or_eq_true, decide_eq_true_eq, Bool.and_eq_true, beq_iff_eq] at *
    rcases hac with hac | ⟨hac, h1⟩
    · by_cases hab : a.1 < b.1
      · exact .inl (.inl hab)
      · exact .inr (.inl (by omega))
    · rcases lt_trichotomy a.1 b.1 with hab | hab | hab
      · exact .inl (.inl hab)
      · rcases (hs a.1).cotrans a.2 b.2 c.2 h1 with h2 | h2
        · exact .inl (.inr ⟨hab, h2⟩)
        · exact .inr (.inr ⟨by omega, by rw [← hab]; exact h2⟩)
      · exact .inr (.inl (by omega))

example : Var.lt ["int", "double"] (fun _ a b => decide (a < b)) ⟨[3, 4], 1⟩ (⟨[9, 5], 1⟩ : Variant Nat) = some true := by
  rw [(C123_lt ["int", "double"] (fun _ a b => decide (a < b)) ⟨[3, 4], 1⟩ ⟨[9, 5], 1⟩ 1 1 "double" "double" 4 5 ⟨rfl, by rfl, by rfl, by rfl⟩
    ⟨rfl, by rfl, by rfl, by rfl⟩).1]
  decide

end Sprout

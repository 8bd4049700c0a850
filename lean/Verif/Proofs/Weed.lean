import Verif.Model.Weed
import Verif.Spec.Peg
import Verif.Proofs.Find2

/-! # Evaluation of weed expressions against parsing expressions -/

namespace Sprout.Weed
open Spec Spec.Peg

/-- the outcome of an evaluation at `i`: failure leaves the position alone -/
def resOf (i : Nat) : Option Nat → Res Unit
  | none => ⟨false, i, i, ()⟩
  | some j => ⟨true, j, j, ()⟩

theorem resOf_inj {i : Nat} {o o' : Option Nat} (h : resOf i o = resOf i o') : o = o' := by
  cases o <;> cases o' <;> simp_all [resOf]

/-- prim recognisers do not run past the end -/
def PrimOk : Peg → Prop
  | .prim f => ∀ s k, f s = some k → k ≤ s.length
  | .alt p q => PrimOk p ∧ PrimOk q
  | .seq p q => PrimOk p ∧ PrimOk q
  | .star p => PrimOk p
  | .opt p => PrimOk p
  | .not p => PrimOk p
  | .and p => PrimOk p
  | _ => True

theorem parses_bounds {s : List Int} {p : Peg} {i : Nat} {o : Option Nat} (h : Parses s p i o) :
    PrimOk p → i ≤ s.length → ∀ j, o = some j → i ≤ j ∧ j ≤ s.length := by
  induction h with
  | @one_ok P i c h _ =>
    intro _ hi j hj; have := (List.getElem?_eq_some_iff.1 h).1
    simp only [Option.some.injEq] at hj; omega
  | @prim_ok f i k h =>
    intro hp hi j hj; have := hp _ _ h
    simp only [Option.some.injEq] at hj; simp at this; omega
  | @str_ok t i h =>
    intro _ hi j hj; have := h.length_le
    simp only [Option.some.injEq] at hj; simp at this; omega
  | eps | eoi_ok => intro _ hi j hj; simp only [Option.some.injEq] at hj; omega
  | one_fail | prim_fail | str_fail | eoi_fail | seq_fail | not_fail | and_fail => intro _ _ j hj; cases hj
  | alt_left _ ih => intro hp hi j hj; exact ih hp.1 hi j hj
  | alt_right _ _ _ ih => intro hp hi j hj; exact ih hp.2 hi j hj
  | seq_ok _ _ ih1 ih2 =>
    intro hp hi j hj
    have h1 := ih1 hp.1 hi _ rfl
    have h2 := ih2 hp.2 h1.2 j hj
    omega
  | star_stop | opt_none | not_ok | and_ok => intro _ hi j hj; simp only [Option.some.injEq] at hj; omega
  | star_step _ _ ih1 ih2 =>
    intro hp hi j hj
    have h1 := ih1 hp hi _ rfl
    have h2 := ih2 hp h1.2 j hj
    omega
  | opt_ok _ ih => intro hp hi j hj; exact ih hp hi j hj

/-- outcomes are unique -/
theorem parses_unique {s : List Int} {p : Peg} {i : Nat} {o : Option Nat} (h : Parses s p i o) :
    ∀ o', Parses s p i o' → o = o' := by
  induction h with
  | one_ok h hp =>
    intro o' h'; cases h' with
    | one_ok => rfl
    | one_fail hf => exact absurd hp (hf _ h)
  | one_fail hf =>
    intro o' h'; cases h' with
    | one_ok h hp => exact absurd hp (hf _ h)
    | one_fail => rfl
  | prim_ok h => intro o' h'; cases h' <;> simp_all
  | prim_fail h => intro o' h'; cases h' <;> simp_all
  | str_ok h => intro o' h'; cases h' <;> simp_all
  | str_fail h => intro o' h'; cases h' <;> simp_all
  | eps => intro o' h'; cases h'; rfl
  | eoi_ok h => intro o' h'; cases h' <;> simp_all
  | eoi_fail h => intro o' h'; cases h' <;> simp_all
  | alt_left _ ih =>
    intro o' h'; cases h' with
    | alt_left h => exact ih _ h
    | alt_right h _ => cases ih _ h
  | alt_right _ _ ih1 ih2 =>
    intro o' h'; cases h' with
    | alt_left h => cases ih1 _ h
    | alt_right _ h => exact ih2 _ h
  | seq_ok _ _ ih1 ih2 =>
    intro o' h'; cases h' with
    | seq_ok h1 h2 => cases ih1 _ h1; exact ih2 _ h2
    | seq_fail h => cases ih1 _ h
  | seq_fail _ ih =>
    intro o' h'; cases h' with
    | seq_ok h1 h2 => cases ih _ h1
    | seq_fail h => rfl
  | star_stop _ ih =>
    intro o' h'; cases h' with
    | star_stop => rfl
    | star_step h _ => cases ih _ h
  | star_step _ _ ih1 ih2 =>
    intro o' h'; cases h' with
    | star_stop h => cases ih1 _ h
    | star_step h1 h2 => cases ih1 _ h1; exact ih2 _ h2
  | opt_ok _ ih =>
    intro o' h'; cases h' with
    | opt_ok h => exact ih _ h
    | opt_none h => cases ih _ h
  | opt_none _ ih =>
    intro o' h'; cases h' with
    | opt_ok h => cases ih _ h
    | opt_none => rfl
  | not_ok _ ih =>
    intro o' h'; cases h' with
    | not_ok => rfl
    | not_fail h => cases ih _ h
  | not_fail _ ih =>
    intro o' h'; cases h' with
    | not_ok h => cases ih _ h
    | not_fail => rfl
  | and_ok _ ih =>
    intro o' h'; cases h' with
    | and_ok => rfl
    | and_fail h => cases ih _ h
  | and_fail _ ih =>
    intro o' h'; cases h' with
    | and_ok h => cases ih _ h
    | and_fail => rfl

/-- the evaluation `f` implements the parsing expression `p` on the text `s` -/
structure Denotes (s : List Int) (f : Nat → Option (Res Unit)) (p : Peg) : Prop where
  prim : PrimOk p
  sound : ∀ i, i ≤ s.length → ∀ r, f i = some r → ∃ o, Parses s p i o ∧ r = resOf i o
  complete : ∀ i, i ≤ s.length → ∀ o, Parses s p i o → f i = some (resOf i o)

namespace Denotes
variable {s : List Int} {f g : Nat → Option (Res Unit)} {p q : Peg}

theorem fail (h : Denotes s f p) {i : Nat} (hi : i ≤ s.length) {r : Res Unit} (hr : f i = some r) (ho : r.ok = false) :
    Parses s p i none := by
  obtain ⟨o, h1, h2⟩ := h.sound i hi r hr
  cases o with
  | none => exact h1
  | some j => subst h2; cases ho

theorem ok (h : Denotes s f p) {i : Nat} (hi : i ≤ s.length) {r : Res Unit} (hr : f i = some r) (ho : r.ok = true) :
    ∃ j, Parses s p i (some j) ∧ i ≤ j ∧ j ≤ s.length ∧ r = ⟨true, j, j, ()⟩ := by
  obtain ⟨o, h1, h2⟩ := h.sound i hi r hr
  cases o with
  | none => subst h2; cases ho
  | some j =>
    have := parses_bounds h1 h.prim hi j rfl
    exact ⟨j, h1, this.1, this.2, h2⟩

/-- a total evaluation given by a function -/
theorem of_total (hp : PrimOk p) (out : Nat → Option Nat) (h1 : ∀ i, i ≤ s.length → f i = some (resOf i (out i)))
    (h2 : ∀ i, i ≤ s.length → Parses s p i (out i)) : Denotes s f p := by
  refine ⟨hp, fun i hi r hr => ⟨out i, h2 i hi, ?_⟩, fun i hi o ho => ?_⟩
  · rw [h1 i hi] at hr; simpa using hr.symm
  · rw [parses_unique ho _ (h2 i hi)]; exact h1 i hi

theorem congr_fun (h : Denotes s f p) (hfg : ∀ i, i ≤ s.length → f i = g i) : Denotes s g p :=
  ⟨h.prim, fun i hi r hr => h.sound i hi r (by rw [hfg i hi]; exact hr), fun i hi o ho => by
    rw [← hfg i hi]; exact h.complete i hi o ho⟩

theorem alt (hf : Denotes s f p) (hg : Denotes s g q) : Denotes s (altOp f g) (.alt p q) := by
  refine ⟨⟨hf.prim, hg.prim⟩, fun i hi r hr => ?_, fun i hi o ho => ?_⟩
  · unfold altOp at hr
    simp only [Option.bind_eq_bind, Option.bind_eq_some_iff] at hr
    obtain ⟨r1, h1, hr⟩ := hr
    cases ho : r1.ok with
    | true =>
      obtain ⟨j, hj, _, _, rfl⟩ := hf.ok hi h1 ho
      simp only [if_true, Option.some.injEq] at hr
      exact ⟨some j, .alt_left hj, hr.symm⟩
    | false =>
      have hn := hf.fail hi h1 ho
      rw [ho] at hr
      simp only [Bool.false_eq_true, if_false, Option.bind_eq_some_iff] at hr
      obtain ⟨r2, h2, hr⟩ := hr
      cases ho2 : r2.ok with
      | true =>
        obtain ⟨j, hj, _, _, rfl⟩ := hg.ok hi h2 ho2
        simp only [if_true, Option.some.injEq] at hr
        exact ⟨some j, .alt_right hn hj, hr.symm⟩
      | false =>
        rw [ho2] at hr
        simp only [Bool.false_eq_true, if_false, Option.some.injEq] at hr
        exact ⟨none, .alt_right hn (hg.fail hi h2 ho2), hr.symm⟩
  · unfold altOp
    cases ho with
    | alt_left h => simp [hf.complete i hi _ h, resOf]
    | alt_right h1 h2 =>
      simp only [hf.complete i hi _ h1, hg.complete i hi _ h2, Option.bind_eq_bind, Option.bind_some]
      cases o <;> simp [resOf]

theorem seq (hf : Denotes s f p) (hg : Denotes s g q) : Denotes s (seqOp f g) (.seq p q) := by
  refine ⟨⟨hf.prim, hg.prim⟩, fun i hi r hr => ?_, fun i hi o ho => ?_⟩
  · unfold seqOp at hr
    simp only [Option.bind_eq_bind, Option.bind_eq_some_iff] at hr
    obtain ⟨r1, h1, hr⟩ := hr
    cases ho : r1.ok with
    | true =>
      obtain ⟨j, hj, _, hjs, rfl⟩ := hf.ok hi h1 ho
      simp only [if_true, Option.bind_eq_some_iff] at hr
      obtain ⟨r2, h2, hr⟩ := hr
      cases ho2 : r2.ok with
      | true =>
        obtain ⟨k, hk, _, _, rfl⟩ := hg.ok hjs h2 ho2
        simp only [if_true, Option.some.injEq] at hr
        exact ⟨some k, .seq_ok hj hk, hr.symm⟩
      | false =>
        rw [ho2] at hr
        simp only [Bool.false_eq_true, if_false, Option.some.injEq] at hr
        exact ⟨none, .seq_ok hj (hg.fail hjs h2 ho2), hr.symm⟩
    | false =>
      rw [ho] at hr
      simp only [Bool.false_eq_true, if_false, Option.some.injEq] at hr
      exact ⟨none, .seq_fail (hf.fail hi h1 ho), hr.symm⟩
  · unfold seqOp
    cases ho with
    | seq_ok h1 h2 =>
      have hb := parses_bounds h1 hf.prim hi _ rfl
      simp only [hf.complete i hi _ h1, Option.bind_eq_bind, Option.bind_some, resOf, if_true, hg.complete _ hb.2 _ h2]
      cases o <;> simp [resOf]
    | seq_fail h => simp [hf.complete i hi _ h, resOf]

theorem diff (hf : Denotes s f p) (hg : Denotes s g q) : Denotes s (diffOp f g) (Peg.diff p q) := by
  refine ⟨⟨hf.prim, hg.prim, hf.prim⟩, fun i hi r hr => ?_, fun i hi o ho => ?_⟩
  · unfold diffOp at hr
    simp only [Option.bind_eq_bind, Option.bind_eq_some_iff] at hr
    obtain ⟨r1, h1, hr⟩ := hr
    cases ho : r1.ok with
    | true =>
      obtain ⟨j, hj, _, hjs, rfl⟩ := hf.ok hi h1 ho
      simp only [if_true, Option.bind_eq_some_iff] at hr
      obtain ⟨b, ⟨r2, h2, hb⟩, hr⟩ := hr
      simp only [Option.some.injEq] at hb
      cases ho2 : r2.ok with
      | true =>
        obtain ⟨k, hk, _, _, rfl⟩ := hg.ok hi h2 ho2
        simp only [Bool.not_true] at hb
        subst hb
        simp only [Bool.false_eq_true, if_false, Option.some.injEq] at hr
        exact ⟨none, .seq_ok (.and_ok hj) (.seq_fail (.not_fail hk)), hr.symm⟩
      | false =>
        rw [ho2] at hb
        simp only [Bool.not_false] at hb
        subst hb
        simp only [if_true, Option.some.injEq] at hr
        exact ⟨some j, .seq_ok (.and_ok hj) (.seq_ok (.not_ok (hg.fail hi h2 ho2)) hj), hr.symm⟩
    | false =>
      rw [ho] at hr
      simp only [Bool.false_eq_true, if_false, Option.some.injEq, exists_eq_left'] at hr
      exact ⟨none, .seq_fail (.and_fail (hf.fail hi h1 ho)), hr.symm⟩
  · unfold diffOp
    cases ho with
    | seq_ok h1 h2 =>
      cases h1 with
      | and_ok hp1 =>
        simp only [hf.complete i hi _ hp1, Option.bind_eq_bind, Option.bind_some, resOf, if_true]
        cases h2 with
        | seq_ok hq1 hp2 =>
          cases hq1 with
          | not_ok hq =>
            rw [parses_unique hp2 _ hp1]
            simp [hg.complete i hi _ hq, resOf]
        | seq_fail hq1 =>
          cases hq1 with
          | not_fail hq => simp [hg.complete i hi _ hq, resOf]
    | seq_fail h1 =>
      cases h1 with
      | and_fail hp1 => simp [hf.complete i hi _ hp1, resOf]

theorem opt (hf : Denotes s f p) : Denotes s (optOp f) (.opt p) := by
  refine ⟨hf.prim, fun i hi r hr => ?_, fun i hi o ho => ?_⟩
  · unfold optOp at hr
    simp only [Option.bind_eq_bind, Option.bind_eq_some_iff, Option.some.injEq] at hr
    obtain ⟨r1, h1, hr⟩ := hr
    obtain ⟨o, h2, rfl⟩ := hf.sound i hi r1 h1
    cases o with
    | none => exact ⟨some i, .opt_none h2, by simpa [resOf] using hr.symm⟩
    | some j => exact ⟨some j, .opt_ok h2, by simpa [resOf] using hr.symm⟩
  · unfold optOp
    cases ho with
    | opt_ok h => simp [hf.complete i hi _ h, resOf]
    | opt_none h => simp [hf.complete i hi _ h, resOf]

theorem not (hf : Denotes s f p) : Denotes s (notOp f) (.not p) := by
  refine ⟨hf.prim, fun i hi r hr => ?_, fun i hi o ho => ?_⟩
  · unfold notOp at hr
    simp only [Option.bind_eq_bind, Option.bind_eq_some_iff] at hr
    obtain ⟨r1, h1, hr⟩ := hr
    obtain ⟨o, h2, rfl⟩ := hf.sound i hi r1 h1
    cases o with
    | none => exact ⟨some i, .not_ok h2, by simpa [resOf] using hr.symm⟩
    | some j => exact ⟨none, .not_fail h2, by simpa [resOf] using hr.symm⟩
  · unfold notOp
    cases ho with
    | not_ok h => simp [hf.complete i hi _ h, resOf]
    | not_fail h => simp [hf.complete i hi _ h, resOf]

theorem and (hf : Denotes s f p) : Denotes s (andOp f) (.and p) := by
  refine ⟨hf.prim, fun i hi r hr => ?_, fun i hi o ho => ?_⟩
  · unfold andOp at hr
    simp only [Option.bind_eq_bind, Option.bind_eq_some_iff] at hr
    obtain ⟨r1, h1, hr⟩ := hr
    obtain ⟨o, h2, rfl⟩ := hf.sound i hi r1 h1
    cases o with
    | none => exact ⟨none, .and_fail h2, by simpa [resOf] using hr.symm⟩
    | some j => exact ⟨some i, .and_ok h2, by simpa [resOf] using hr.symm⟩
  · unfold andOp
    cases ho with
    | and_ok h => simp [hf.complete i hi _ h, resOf]
    | and_fail h => simp [hf.complete i hi _ h, resOf]

theorem wrap (hf : Denotes s f p) : Denotes s (wrapOp f) p := by
  refine ⟨hf.prim, fun i hi r hr => ?_, fun i hi o ho => ?_⟩
  · unfold wrapOp at hr
    simp only [Option.bind_eq_bind, Option.bind_eq_some_iff] at hr
    obtain ⟨r1, h1, hr⟩ := hr
    obtain ⟨o, h2, rfl⟩ := hf.sound i hi r1 h1
    refine ⟨o, h2, ?_⟩
    cases o <;> simpa [resOf, term] using hr.symm
  · unfold wrapOp
    rw [hf.complete i hi _ ho]
    cases o <;> simp [resOf, term]

theorem lim (hf : Denotes s f p) : Denotes s (limOp f) p := by
  refine ⟨hf.prim, fun i hi r hr => ?_, fun i hi o ho => ?_⟩
  · unfold limOp at hr
    simp only [Option.bind_eq_bind, Option.bind_eq_some_iff] at hr
    obtain ⟨r1, h1, hr⟩ := hr
    obtain ⟨o, h2, rfl⟩ := hf.sound i hi r1 h1
    refine ⟨o, h2, ?_⟩
    cases o <;> simpa [resOf, term] using hr.symm
  · unfold limOp
    rw [hf.complete i hi _ ho]
    cases o <;> simp [resOf, term]

end Denotes
end Sprout.Weed

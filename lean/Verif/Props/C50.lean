import Verif.Proofs.Weed7

/-!
# C50: weed expressions are parsing expressions

`eval s e i` is the evaluation of the expression `e` at position `i` of the text `s`; `meant e` its intended parsing expression
(`Verif/Spec/WeedMeaning.lean`). Refuted: `a % b` consumes a trailing separator, `repeat(n)[a]` consumes nothing when there are
exactly `n` matches, `repeat[a]` never consumes, and a stopover limit of 1 does not stop.
-/

namespace Sprout
open Spec Spec.Peg Weed

/-- evaluating `e` at `i` has the outcomes of the parsing expression `p`: success up to `j`, failure without moving, or (for an
endless repetition) no result -/
def Implements (s : List Int) (e : Expr) (p : Peg) (i : Nat) : Prop :=
  (∀ j, eval s e i = some ⟨true, j, j, ()⟩ ↔ Parses s p i (some j)) ∧
  (eval s e i = some ⟨false, i, i, ()⟩ ↔ Parses s p i none) ∧
  (eval s e i = none ↔ ∀ o, ¬ Parses s p i o)

/-- the full statement: every expression that compiles and stays within its text parses what it is meant to -/
def C50_statement : Prop := ∀ (s : List Int) (e : Expr), Defined s e → ∀ i, i ≤ s.length → Implements s e (meant e) i

theorem implements_of {s : List Int} {e : Expr} {p : Peg} (h : Denotes s (eval s e) p) {i : Nat} (hi : i ≤ s.length) :
    Implements s e p i := by
  refine ⟨fun j => ⟨fun hj => ?_, fun hp => h.complete i hi _ hp⟩, ⟨fun hf => ?_, fun hp => h.complete i hi _ hp⟩,
    ⟨fun hn o ho => ?_, fun hn => ?_⟩⟩
  · obtain ⟨o, h1, h2⟩ := h.sound i hi _ hj
    have : o = some j := resOf_inj (i := i) h2.symm
    exact this ▸ h1
  · obtain ⟨o, h1, h2⟩ := h.sound i hi _ hf
    have : o = none := resOf_inj (i := i) h2.symm
    exact this ▸ h1
  · rw [h.complete i hi o ho] at hn; cases hn
  · cases he : eval s e i with
    | none => rfl
    | some r =>
      obtain ⟨o, h1, _⟩ := h.sound i hi r he
      exact absurd h1 (hn o)

/-- on expressions and texts satisfying `Agrees` -/
theorem C50_peg_partial (s : List Int) (e : Expr) (h : Agrees s e) (i : Nat) (hi : i ≤ s.length) : Implements s e (meant e) i :=
  implements_of (eval_meant e h) hi

/-- what the code parses, for every expression: `actual` differs from `meant` in lists, `repeat`, stopover limits of 1,
character sets, and minimal numbers of digits -/
theorem C50_code_partial (s : List Int) (e : Expr) (h : Defined s e) (i : Nat) (hi : i ≤ s.length) : Implements s e (actual e) i :=
  implements_of (eval_actual e h) hi

/-- the outcome is unique and lies within the text -/
theorem C50_outcome {s : List Int} {e : Expr} (h : Agrees s e) {i : Nat} (hi : i ≤ s.length) {r : Res Unit} (hr : eval s e i = some r) :
    r.cur = r.ctx ∧ i ≤ r.cur ∧ r.cur ≤ s.length ∧ (r.ok = false → r.cur = i) := by
  obtain ⟨o, h1, rfl⟩ := (eval_meant e h).sound i hi r hr
  cases o with
  | none => exact ⟨rfl, Nat.le_refl _, hi, fun _ => rfl⟩
  | some j =>
    have := parses_bounds h1 (eval_meant e h).prim hi j rfl
    exact ⟨rfl, this.1, this.2, fun h => by cases h⟩

/-- `parse(first, last, e)` -/
theorem C50_parse_partial (s : List Int) (e : Expr) (h : Agrees s e) :
    (∀ j, parse s e = some (true, j) ↔ Parses s (meant e) 0 (some j)) ∧
    (parse s e = some (false, 0) ↔ Parses s (meant e) 0 none) := by
  obtain ⟨h1, h2, _⟩ := C50_peg_partial s e h 0 (Nat.zero_le _)
  have key : ∀ r, eval s e 0 = some r → r.ctx = r.cur ∧ (r.ok = false → r.cur = 0) := fun r hr => by
    obtain ⟨a, _, _, d⟩ := C50_outcome h (Nat.zero_le _) hr
    exact ⟨a.symm, d⟩
  unfold parse
  refine ⟨fun j => ?_, ?_⟩
  · rw [← h1 j]
    cases he : eval s e 0 with
    | none => simp
    | some r =>
      obtain ⟨a, _⟩ := key r he
      obtain ⟨ok, cur, ctx, u⟩ := r
      cases u
      simp only at a
      subst a
      simp
  · rw [← h2]
    cases he : eval s e 0 with
    | none => simp
    | some r =>
      obtain ⟨a, _⟩ := key r he
      obtain ⟨ok, cur, ctx, u⟩ := r
      cases u
      simp only at a
      subst a
      simp

/-! ## Examples -/

/-- `+digit >> -('.' >> *digit)` -/
def number : Expr := .seq (.plus (.cls .digit)) (.opt (.seq (.ch 0x2E) (.star (.cls .digit))))

/-- `12.5x` -/
def text1 : List Int := [0x31, 0x32, 0x2E, 0x35, 0x78]

example : Agrees text1 number := by
  have hc : ∀ c ∈ text1, -2 ^ 31 ≤ c ∧ c < 2 ^ 32 := by decide
  exact ⟨⟨hc, fun _ _ h => by cases h⟩, trivial, hc, fun _ _ h => by cases h⟩

/-- it consumes `12.5` -/
example : parse text1 number = some (true, 4) := by
  have hc : ∀ c ∈ text1, -2 ^ 31 ≤ c ∧ c < 2 ^ 32 := by decide
  have ha : Agrees text1 number := ⟨⟨hc, fun _ _ h => by cases h⟩, trivial, hc, fun _ _ h => by cases h⟩
  refine ((C50_parse_partial text1 number ha).1 4).2 ?_
  have d : ∀ i c, text1[i]? = some c → Ctype.digit c → Parses text1 (.one Ctype.digit) i (some (i + 1)) :=
    fun i c h1 h2 => .one_ok h1 h2
  refine .seq_ok (j := 2) (.seq_ok (d 0 0x31 rfl (by decide)) (.star_step (d 1 0x32 rfl (by decide)) (.star_stop (.one_fail ?_)))) ?_
  · intro c h; cases h; exact (by decide : ¬ Ctype.digit 0x2E)
  · refine .opt_ok (.seq_ok (.one_ok (c := 0x2E) rfl rfl) (.star_step (d 3 0x35 rfl (by decide)) (.star_stop (.one_fail ?_))))
    intro c h; cases h; exact (by decide : ¬ Ctype.digit 0x78)

/-- `*eps` does not terminate -/
theorem C50_endless (s : List Int) : eval s (.star .eps) 0 = none := by
  refine (C50_peg_partial s (.star .eps) ⟨trivial, fun _ _ h => by cases h⟩ 0 (Nat.zero_le _)).2.2.2 fun o h => ?_
  obtain ⟨k, e, _, h1, h2⟩ := star_iff.1 (show Parses s (.star .eps) 0 o from h)
  cases h2

/-! ## Refutations -/

/-- `'a' % ','` on `a,` -/
def listExpr : Expr := .list (.ch 0x61) (.ch 0x2C)

/-- the code consumes the separator, the list ends before it -/
theorem C50_list_refuted : eval [0x61, 0x2C] listExpr 0 = some ⟨true, 2, 2, ()⟩ ∧
    Parses [0x61, 0x2C] (meant listExpr) 0 (some 1) := by
  constructor
  · refine ((C50_code_partial _ listExpr ⟨trivial, trivial, fun _ _ h => by cases h⟩ 0 (by decide)).1 2).2 ?_
    refine .seq_ok (j := 1) (.one_ok (c := 0x61) rfl rfl) (.seq_ok (j := 1) (.star_stop (.seq_ok (j := 2) ?_ ?_)) (.opt_ok ?_))
    · exact .one_ok (c := 0x2C) rfl rfl
    · exact .one_fail (by simp)
    · exact .one_ok (c := 0x2C) rfl rfl
  · exact .seq_ok (j := 1) (.one_ok (c := 0x61) rfl rfl)
      (.star_stop (.seq_ok (j := 2) (.one_ok (c := 0x2C) rfl rfl) (.one_fail (by simp))))

theorem C50_refuted : ¬ C50_statement := by
  intro h
  have h1 := (h [0x61, 0x2C] listExpr ⟨trivial, trivial, fun _ _ h => by cases h⟩ 0 (by decide)).1 1
  rw [C50_list_refuted.1] at h1
  exact absurd (h1.2 C50_list_refuted.2) (by simp)

/-- `repeat(2)['a']` on `aa` succeeds without consuming anything -/
theorem C50_repeat_refuted : eval [0x61, 0x61] (.rep 2 (.ch 0x61)) 0 = some ⟨true, 0, 0, ()⟩ ∧
    Parses [0x61, 0x61] (meant (.rep 2 (.ch 0x61))) 0 (some 2) := by
  have p0 : Parses [0x61, 0x61] (.one (· = 0x61)) 0 (some 1) := .one_ok (c := 0x61) rfl rfl
  have p1 : Parses [0x61, 0x61] (.one (· = 0x61)) 1 (some 2) := .one_ok (c := 0x61) rfl rfl
  have p2 : Parses [0x61, 0x61] (.one (· = 0x61)) 2 none := .one_fail (by simp)
  constructor
  · refine ((C50_code_partial _ (.rep 2 (.ch 0x61)) ⟨trivial, fun _ _ h => by cases h⟩ 0 (by decide)).1 0).2 ?_
    exact rep_inf_iff.2 ⟨2, 2, ⟨.snoc (.snoc .nil p0) p1, p2⟩, by decide⟩
  · exact .seq_ok (.seq_ok p0 (.seq_ok p1 .eps)) (.star_stop p2)

/-- with one more match everything is consumed -/
example : eval [0x61, 0x61, 0x61] (.rep 2 (.ch 0x61)) 0 = some ⟨true, 3, 3, ()⟩ := by
  have p0 : Parses [0x61, 0x61, 0x61] (.one (· = 0x61)) 0 (some 1) := .one_ok (c := 0x61) rfl rfl
  have p1 : Parses [0x61, 0x61, 0x61] (.one (· = 0x61)) 1 (some 2) := .one_ok (c := 0x61) rfl rfl
  have p2 : Parses [0x61, 0x61, 0x61] (.one (· = 0x61)) 2 (some 3) := .one_ok (c := 0x61) rfl rfl
  have p3 : Parses [0x61, 0x61, 0x61] (.one (· = 0x61)) 3 none := .one_fail (by simp)
  refine ((C50_code_partial _ (.rep 2 (.ch 0x61)) ⟨trivial, fun _ _ h => by cases h⟩ 0 (by decide)).1 3).2 ?_
  exact rep_inf_iff.2 ⟨3, 3, ⟨.snoc (.snoc (.snoc .nil p0) p1) p2, p3⟩, by decide⟩

/-- `repeat['a']` (any number of times) never consumes: here on `aa` -/
theorem C50_repeat_any_refuted : eval [0x61, 0x61] (.rep sizeMax (.ch 0x61)) 0 = some ⟨true, 0, 0, ()⟩ ∧
    Parses [0x61, 0x61] (meant (.rep sizeMax (.ch 0x61))) 0 (some 2) := by
  have p0 : Parses [0x61, 0x61] (.one (· = 0x61)) 0 (some 1) := .one_ok (c := 0x61) rfl rfl
  have p1 : Parses [0x61, 0x61] (.one (· = 0x61)) 1 (some 2) := .one_ok (c := 0x61) rfl rfl
  have p2 : Parses [0x61, 0x61] (.one (· = 0x61)) 2 none := .one_fail (by simp)
  constructor
  · refine ((C50_code_partial _ (.rep sizeMax (.ch 0x61)) ⟨trivial, fun _ _ h => by cases h⟩ 0 (by decide)).1 0).2 ?_
    exact rep_inf_iff.2 ⟨2, 2, ⟨.snoc (.snoc .nil p0) p1, p2⟩, by decide⟩
  · exact .star_step p0 (.star_step p1 (.star_stop p2))

/-- `*lim<1>('a', stopover)` on `aa` does not stop after one element -/
theorem C50_stopover_refuted : eval [0x61, 0x61] (.star (.lim 1 .stopover (.ch 0x61))) 0 = some ⟨true, 2, 2, ()⟩ ∧
    Parses [0x61, 0x61] (meant (.star (.lim 1 .stopover (.ch 0x61)))) 0 (some 1) := by
  have p0 : Parses [0x61, 0x61] (.one (· = 0x61)) 0 (some 1) := .one_ok (c := 0x61) rfl rfl
  have p1 : Parses [0x61, 0x61] (.one (· = 0x61)) 1 (some 2) := .one_ok (c := 0x61) rfl rfl
  have p2 : Parses [0x61, 0x61] (.one (· = 0x61)) 2 none := .one_fail (by simp)
  constructor
  · refine ((C50_code_partial _ (.star (.lim 1 .stopover (.ch 0x61))) ⟨trivial, fun L cat h => ?_⟩ 0 (by decide)).1 2).2 ?_
    · have : (some (1, Cat.stopover) : Option (Nat × Cat)) = some (L, cat) := h
      cases this; exact Nat.le_refl _
    · exact .opt_ok (.seq_ok p0 (.star_step p1 (.star_stop p2)))
  · exact .opt_ok (.seq_ok p0 .eps)

/-- with a limit of 2 it does: `*lim<2>('a', stopover)` on `aaa` -/
example : eval [0x61, 0x61, 0x61] (.star (.lim 2 .stopover (.ch 0x61))) 0 = some ⟨true, 2, 2, ()⟩ := by
  refine ((C50_peg_partial _ (.star (.lim 2 .stopover (.ch 0x61))) ⟨trivial, fun L cat h => ?_⟩ 0 (by decide)).1 2).2 ?_
  · have : (some (2, Cat.stopover) : Option (Nat × Cat)) = some (L, cat) := h
    cases this; exact ⟨by decide, fun _ => Nat.le_refl _⟩
  · exact .opt_ok (.seq_ok (.one_ok (c := 0x61) rfl rfl) (.opt_ok (.seq_ok (.one_ok (c := 0x61) rfl rfl) .eps)))

end Sprout

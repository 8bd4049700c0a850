import Verif.Proofs.Weed6
import Verif.Proofs.Ascii
import Verif.Spec.WeedMeaning

/-! # Whole expressions -/

namespace Sprout.Weed
open Spec Spec.Peg

variable {s : List Int} {f g : Nat → Option (Res Unit)} {p q : Peg}

theorem NumWf.wf {P : Num} (h : NumWf P) : P.Wf := by
  refine ⟨h.std, h.radix, ?_⟩
  have hd : 2 ≤ (IntStr.integerDigits P.T P.radix).getD 0 := by
    obtain ⟨T, b, mn, mx⟩ := P
    obtain ⟨h1, h2, _⟩ := h
    simp only at h1 h2 ⊢
    obtain ⟨w, sg⟩ := T
    rcases h2 with rfl | rfl | rfl | rfl <;> rcases h1 with h | h | h | h <;> simp only at h <;> subst h <;> cases sg <;> decide
  have := h.limit
  unfold Num.limit
  dsimp only
  split <;> omega

/-! ## What the code parses, for every expression that compiles -/

/-- the expression compiles, and no undefined behaviour is reached on the text -/
def Defined (s : List Int) : Expr → Prop
  | .set t => t.head? ≠ some 0x2D
  | .uint P => NumWf P
  | .int P => NumWf P ∧ ∀ i, NegOk P (s.drop i)
  | .alt a b => Defined s a ∧ Defined s b
  | .seq a b => Defined s a ∧ Defined s b
  | .diff a b => Defined s a ∧ Defined s b
  | .list a b => Defined s a ∧ Defined s b ∧ ∀ L cat, a.limit = some (L, cat) → 1 ≤ L
  | .star a => Defined s a ∧ ∀ L cat, a.limit = some (L, cat) → 1 ≤ L
  | .plus a => Defined s a ∧ ∀ L cat, a.limit = some (L, cat) → 1 ≤ L
  | .opt a => Defined s a
  | .not a => Defined s a
  | .and a => Defined s a
  | .wrap a => Defined s a
  | .lim _ _ a => Defined s a
  | .rep _ a => Defined s a ∧ ∀ L cat, a.limit = some (L, cat) → 2 ≤ L
  | _ => True

def actual : Expr → Peg
  | .ch c => .one (· = c)
  | .range f l => .one fun v => f ≤ v ∧ v ≤ l
  | .set t => .one (InSet t)
  | .any => .one fun _ => True
  | .cls k => .one fun v => k.test v = true
  | .str t => .str t
  | .eps => .eps
  | .eol => Peg.eol
  | .eoi => .eoi
  | .uint P => .prim (numRec P)
  | .int P => .prim (signRec P)
  | .alt a b => .alt (actual a) (actual b)
  | .seq a b => .seq (actual a) (actual b)
  | .diff a b => Peg.diff (actual a) (actual b)
  | .list a b => listPeg (actual a) (actual b) a.limit
  | .star a => timesPeg false (actual a) a.limit
  | .plus a => timesPeg true (actual a) a.limit
  | .opt a => .opt (actual a)
  | .not a => .not (actual a)
  | .and a => .and (actual a)
  | .wrap a => actual a
  | .lim _ _ a => actual a
  | .rep c a => repPeg (actual a) c (a.limit.map Prod.fst)

theorem eval_actual : ∀ e : Expr, Defined s e → Denotes s (eval s e) (actual e) := by
  intro e
  induction e with
  | ch c => intro _; exact Denotes.oneChar (b := fun x => x == c) (fun _ _ => rfl) (by simp)
  | range f l =>
    intro _; exact Denotes.oneChar (b := fun x => decide (f ≤ x) && decide (x ≤ l)) (fun _ _ => rfl) (by simp)
  | set t => intro h; exact Denotes.set h
  | any => intro _; exact Denotes.oneChar (b := fun _ => true) (fun _ _ => rfl) (by simp)
  | cls k => intro _; exact Denotes.oneChar (b := k.test) (fun _ _ => rfl) (by simp)
  | str t => intro _; exact Denotes.litStr t
  | eps => intro _; exact Denotes.eps
  | eol => intro _; exact Denotes.eol
  | eoi => intro _; exact Denotes.eoi
  | uint P => intro h; exact Denotes.uint (NumWf.wf h)
  | int P => intro h; exact Denotes.int (NumWf.wf h.1) h.2
  | alt a b iha ihb => intro h; exact (iha h.1).alt (ihb h.2)
  | seq a b iha ihb => intro h; exact (iha h.1).seq (ihb h.2)
  | diff a b iha ihb => intro h; exact (iha h.1).diff (ihb h.2)
  | list a b iha ihb => intro h; exact (iha h.1).list (ihb h.2.1) _ h.2.2
  | star a ih => intro h; exact (ih h.1).times false _ h.2
  | plus a ih => intro h; exact (ih h.1).times true _ h.2
  | opt a ih => intro h; exact (ih h).opt
  | not a ih => intro h; exact (ih h).not
  | and a ih => intro h; exact (ih h).and
  | wrap a ih => intro h; exact (ih h).wrap
  | lim n cat a ih => intro h; exact (ih h).lim
  | rep c a ih =>
    intro h
    refine (ih h.1).rep c _ fun L hL => ?_
    cases hl : a.limit with
    | none => rw [hl] at hL; cases hL
    | some x =>
      rw [hl] at hL
      simp only [Option.map_some, Option.some.injEq] at hL
      exact hL ▸ h.2 x.1 x.2 hl

/-! ## Agreement with the intended meaning -/

theorem Denotes.congr (h : Denotes s f p) (hq : PrimOk q) (heq : ∀ i, i ≤ s.length → ∀ o, Parses s p i o ↔ Parses s q i o) :
    Denotes s f q :=
  ⟨hq, fun i hi r hr => by
    obtain ⟨o, h1, h2⟩ := h.sound i hi r hr
    exact ⟨o, (heq i hi o).1 h1, h2⟩, fun i hi o ho => h.complete i hi o ((heq i hi o).2 ho)⟩

theorem star_unfold {i : Nat} {o : Option Nat} : Parses s (.opt (.seq p (.star p))) i o ↔ Parses s (.star p) i o := by
  constructor
  · intro h
    cases h with
    | opt_ok h => cases h with | seq_ok h1 h2 => exact .star_step h1 h2
    | opt_none h =>
      cases h with
      | seq_ok h1 h2 => obtain ⟨_, h⟩ := star_some h2; cases h
      | seq_fail h => exact .star_stop h
  · intro h
    cases h with
    | star_stop h => exact .opt_none (.seq_fail h)
    | star_step h1 h2 =>
      obtain ⟨k, rfl⟩ := star_some h2
      exact .opt_ok (.seq_ok h1 h2)

theorem primOk_manyOf (h : PrimOk p) (lim : Option (Nat × Cat)) : PrimOk (manyOf p lim) := by
  unfold manyOf
  split
  · exact primOk_upto h _
  · exact h

theorem primOk_someOf (h : PrimOk p) (lim : Option (Nat × Cat)) : PrimOk (someOf p lim) := by
  unfold someOf
  split
  · exact ⟨h, primOk_upto h _⟩
  · exact ⟨h, h⟩

theorem Denotes.many (hf : Denotes s f p) {lim : Option (Nat × Cat)} (hl : LimitOk lim) :
    Denotes s (fun i => noAttr (timesOp false f lim i)) (manyOf p lim) := by
  refine (hf.times false lim fun L cat h => (hl L cat h).1).congr (primOk_manyOf hf.prim lim) fun i _ o => ?_
  unfold timesPeg
  simp only [Bool.false_eq_true, if_false]
  rcases lim with _ | ⟨L, _ | _ | _⟩
  · exact star_unfold
  · exact star_unfold
  · exact star_unfold
  · have := (hl L .stopover rfl).2 rfl
    simp only [timesTail, manyOf]
    rw [if_neg (by omega)]
    obtain ⟨m, rfl⟩ : ∃ m, L = m + 1 := ⟨L - 1, by omega⟩
    rfl

theorem Denotes.some (hf : Denotes s f p) {lim : Option (Nat × Cat)} (hl : LimitOk lim) :
    Denotes s (fun i => noAttr (timesOp true f lim i)) (someOf p lim) := by
  refine (hf.times true lim fun L cat h => (hl L cat h).1).congr (primOk_someOf hf.prim lim) fun i _ o => ?_
  unfold timesPeg
  simp only [if_true]
  rcases lim with _ | ⟨L, _ | _ | _⟩
  · rfl
  · rfl
  · rfl
  · have := (hl L .stopover rfl).2 rfl
    simp only [timesTail, someOf]
    rw [if_neg (by omega)]

theorem seq_congr {p q q' : Peg} (h : ∀ i o, Parses s q i o ↔ Parses s q' i o) {i : Nat} {o : Option Nat} :
    Parses s (.seq p q) i o ↔ Parses s (.seq p q') i o := by
  constructor <;> intro h' <;> cases h' with
  | seq_ok h1 h2 => first | exact .seq_ok h1 ((h _ _).1 h2) | exact .seq_ok h1 ((h _ _).2 h2)
  | seq_fail h1 => exact .seq_fail h1

theorem listRest_iff (hsep : ∀ j k, Parses s q j (some k) → ¬ Parses s p k none) {i : Nat} {o : Option Nat} :
    Parses s (listRest p q) i o ↔ Parses s (.star (.seq q p)) i o := by
  constructor
  · intro h
    obtain ⟨m, rfl, hm⟩ := listRest_ind (motive := fun c m => Parses s (.star (.seq q p)) c (some m))
      (fun c h => .star_stop (.seq_fail h)) (fun c j h h' => absurd h' (hsep _ _ h))
      (fun c j k m h1 h2 _ ih => .star_step (.seq_ok h1 h2) ih) h
    exact hm
  · intro h
    generalize hq : Peg.star (.seq q p) = x at h
    induction h with
    | star_stop h =>
      cases hq
      cases h with
      | seq_ok h1 h2 => exact absurd h2 (hsep _ _ h1)
      | seq_fail h1 => exact listRest_stop h1
    | star_step h1 _ _ ih =>
      cases hq
      cases h1 with
      | seq_ok h1 h2 => exact listRest_step h1 h2 (ih rfl)
    | _ => cases hq

theorem upto_some' {n i : Nat} {o : Option Nat} (h : Parses s (upto p n) i o) : ∃ k, o = some k := by
  cases n with
  | zero => cases h; exact ⟨_, rfl⟩
  | succ n => exact upto_some h

theorem listRestN_some {n i : Nat} {o : Option Nat} (h : Parses s (listRestN p q n) i o) : ∃ k, o = some k := by
  cases n with
  | zero => cases h; exact ⟨_, rfl⟩
  | succ n => cases h with
    | opt_ok => exact ⟨_, rfl⟩
    | opt_none => exact ⟨_, rfl⟩

theorem listRestN_iff (hsep : ∀ j k, Parses s q j (some k) → ¬ Parses s p k none) : ∀ {n i : Nat} {o : Option Nat},
    Parses s (listRestN p q n) i o ↔ Parses s (upto (.seq q p) n) i o := by
  intro n
  induction n with
  | zero => intro i o; exact Iff.rfl
  | succ n ih =>
    intro i o
    constructor
    · intro h
      cases h with
      | opt_ok h =>
        cases h with
        | seq_ok h1 h2 =>
          cases h2 with
          | opt_ok h2 => cases h2 with | seq_ok h2 h3 => exact .opt_ok (.seq_ok (.seq_ok h1 h2) (ih.1 h3))
          | opt_none h2 =>
            cases h2 with
            | seq_ok _ h3 => obtain ⟨_, h⟩ := listRestN_some h3; cases h
            | seq_fail h2 => exact absurd h2 (hsep _ _ h1)
      | opt_none h =>
        cases h with
        | seq_ok _ h2 => cases h2
        | seq_fail h1 => exact .opt_none (.seq_fail (.seq_fail h1))
    · intro h
      cases h with
      | opt_ok h =>
        cases h with
        | seq_ok h1 h2 =>
          cases h1 with | seq_ok h0 h1 => exact .opt_ok (.seq_ok h0 (.opt_ok (.seq_ok h1 (ih.2 h2))))
      | opt_none h =>
        cases h with
        | seq_ok _ h2 => obtain ⟨_, h⟩ := upto_some' h2; cases h
        | seq_fail h1 =>
          cases h1 with
          | seq_ok h0 h1 => exact absurd h1 (hsep _ _ h0)
          | seq_fail h0 => exact .opt_none (.seq_fail h0)

theorem primOk_listOf (h : PrimOk p) (hq : PrimOk q) (lim : Option (Nat × Cat)) : PrimOk (listOf p q lim) := by
  unfold listOf
  split
  · exact ⟨h, primOk_upto (p := .seq q p) ⟨hq, h⟩ _⟩
  · exact ⟨h, hq, h⟩

theorem Denotes.listOf (hf : Denotes s f p) (hg : Denotes s g q) {lim : Option (Nat × Cat)} (hl : LimitOk lim)
    (hsep : ∀ j k, Parses s q j (.some k) → ¬ Parses s p k none) :
    Denotes s (fun i => noAttr (listOp f g lim i)) (Spec.listOf p q lim) := by
  refine (hf.list hg lim fun L cat h => (hl L cat h).1).congr (primOk_listOf hf.prim hg.prim lim) fun i _ o => ?_
  rcases lim with _ | ⟨L, _ | _ | _⟩
  · exact seq_congr fun i o => listRest_iff hsep
  · exact seq_congr fun i o => listRest_iff hsep
  · exact seq_congr fun i o => listRest_iff hsep
  · have := (hl L .stopover rfl).2 rfl
    simp only [listPeg, Spec.listOf]
    rw [if_neg (by omega)]
    exact seq_congr fun i o => listRestN_iff hsep

theorem upto_iff {n i : Nat} {o : Option Nat} : Parses s (upto p n) i o ↔
    (∃ e, Chain s p i n e ∧ o = some e) ∨ ∃ k e, k < n ∧ Total s p i k e ∧ o = some e := by
  induction n generalizing i with
  | zero =>
    constructor
    · intro h; cases h; exact .inl ⟨i, .nil, rfl⟩
    · rintro (⟨e, h, rfl⟩ | ⟨k, e, hk, _⟩)
      · cases h; exact .eps
      · omega
  | succ n ih =>
    constructor
    · intro h
      cases h with
      | opt_ok h =>
        cases h with
        | seq_ok h1 h2 =>
          rcases ih.1 h2 with ⟨e, h3, h4⟩ | ⟨k, e, hk, h3, h4⟩
          · exact .inl ⟨e, .cons h1 h3, h4⟩
          · exact .inr ⟨k + 1, e, by omega, ⟨.cons h1 h3.1, h3.2⟩, h4⟩
      | opt_none h =>
        cases h with
        | seq_ok _ h2 => obtain ⟨_, h⟩ := upto_some' h2; cases h
        | seq_fail h1 => exact .inr ⟨0, i, by omega, ⟨.nil, h1⟩, rfl⟩
    · rintro (⟨e, h, rfl⟩ | ⟨k, e, hk, h, rfl⟩)
      · obtain ⟨j, h1, h2⟩ := h.uncons
        exact .opt_ok (.seq_ok h1 (ih.2 (.inl ⟨e, h2, rfl⟩)))
      · cases k with
        | zero => obtain ⟨h1, h2⟩ := h; cases h1; exact .opt_none (.seq_fail h2)
        | succ k =>
          obtain ⟨j, h1, h2⟩ := h.1.uncons
          exact .opt_ok (.seq_ok h1 (ih.2 (.inr ⟨k, e, by omega, ⟨h2, h.2⟩, rfl⟩)))

theorem primOk_repeatOf (h : PrimOk p) (c : Nat) (lim : Option Nat) : PrimOk (repeatOf p c lim) := by
  cases lim with
  | none => exact ⟨primOk_pow h c, h⟩
  | some L => exact ⟨primOk_pow h c, primOk_upto h _⟩

/-- `c` times and then as often as possible -/
theorem repeat_inf_iff {c i : Nat} {o : Option Nat} : Parses s (repeatOf p c none) i o ↔
    ∃ n e, Total s p i n e ∧ o = if c ≤ n then some e else none := by
  unfold repeatOf
  constructor
  · intro h
    cases h with
    | seq_ok h1 h2 =>
      obtain ⟨k, e, rfl, h3⟩ := star_iff.1 h2
      exact ⟨c + k, e, ⟨(pow_ok_iff.1 h1).append h3.1, h3.2⟩, by rw [if_pos (by omega)]⟩
    | seq_fail h1 =>
      obtain ⟨k, e, hk, h⟩ := pow_fail_iff.1 h1
      exact ⟨k, e, h, by rw [if_neg (by omega)]⟩
  · rintro ⟨n, e, h, rfl⟩
    by_cases hc : c ≤ n
    · rw [if_pos hc]
      obtain ⟨d, rfl⟩ : ∃ d, n = c + d := ⟨n - c, by omega⟩
      obtain ⟨j, h1, h2⟩ := h.1.split
      exact .seq_ok (pow_ok_iff.2 h1) (star_iff.2 ⟨d, e, rfl, h2, h.2⟩)
    · rw [if_neg hc]
      exact .seq_fail (pow_fail_iff.2 ⟨n, e, by omega, h⟩)

theorem repeat_lim_iff {c L i : Nat} (hcL : c ≤ L) {o : Option Nat} : Parses s (repeatOf p c (some L)) i o ↔
    (∃ e, Chain s p i L e ∧ o = some e) ∨ ∃ n e, n < L ∧ Total s p i n e ∧ o = if c ≤ n then some e else none := by
  unfold repeatOf
  constructor
  · intro h
    cases h with
    | seq_ok h1 h2 =>
      rcases upto_iff.1 h2 with ⟨e, h3, rfl⟩ | ⟨k, e, hk, h3, rfl⟩
      · refine .inl ⟨e, ?_, rfl⟩
        have := (pow_ok_iff.1 h1).append h3
        rwa [show c + (L - c) = L by omega] at this
      · exact .inr ⟨c + k, e, by omega, ⟨(pow_ok_iff.1 h1).append h3.1, h3.2⟩, by rw [if_pos (by omega)]⟩
    | seq_fail h1 =>
      obtain ⟨k, e, hk, h⟩ := pow_fail_iff.1 h1
      exact .inr ⟨k, e, by omega, h, by rw [if_neg (by omega)]⟩
  · rintro (⟨e, h, rfl⟩ | ⟨n, e, hn, h, rfl⟩)
    · obtain ⟨d, rfl⟩ : ∃ d, L = c + d := ⟨L - c, by omega⟩
      obtain ⟨j, h1, h2⟩ := h.split
      refine .seq_ok (pow_ok_iff.2 h1) (upto_iff.2 (.inl ⟨e, ?_, rfl⟩))
      rwa [Nat.add_sub_cancel_left]
    · by_cases hc : c ≤ n
      · rw [if_pos hc]
        obtain ⟨d, rfl⟩ : ∃ d, n = c + d := ⟨n - c, by omega⟩
        obtain ⟨j, h1, h2⟩ := h.1.split
        exact .seq_ok (pow_ok_iff.2 h1) (upto_iff.2 (.inr ⟨d, e, by omega, ⟨h2, h.2⟩, rfl⟩))
      · rw [if_neg hc]
        exact .seq_fail (pow_fail_iff.2 ⟨n, e, by omega, h⟩)

theorem repOut_eq {c i n e : Nat} (hc : c = 0 ∨ c ≠ n) (ht : Total s p i n e) :
    repOut c false i n e = if c ≤ n then some e else none := by
  unfold repOut
  by_cases h : c < n
  · rw [if_pos h, if_pos (by omega)]
  · rw [if_neg h]
    by_cases h2 : c = n
    · have : c = 0 := by omega
      subst this; subst h2
      cases ht.1
      simp
    · rw [if_neg (by simp [h2]), if_neg (by omega)]

theorem Denotes.repeatOf (hf : Denotes s f p) {c : Nat} {lim : Option Nat} (hc : c ≠ sizeMax)
    (hl : ∀ L, lim = Option.some L → 2 ≤ L ∧ c ≤ L)
    (hex : c = 0 ∨ lim = Option.some c ∨ ∀ i e, Parses s (pow p c) i (Option.some e) → ¬ Parses s p e none) :
    Denotes s (fun i => noAttr (repOp f c lim i)) (Spec.repeatOf p c lim) := by
  refine (hf.rep c lim fun L h => (hl L h).1).congr (primOk_repeatOf hf.prim c lim) fun i _ o => ?_
  have hex' : ∀ n e, Total s p i n e → (c = 0 ∨ lim = Option.some c ∨ c ≠ n) := by
    intro n e ht
    rcases hex with h | h | h
    · exact .inl h
    · exact .inr (.inl h)
    · refine .inr (.inr ?_)
      rintro rfl
      exact h i e (pow_ok_iff.2 ht.1) ht.2
  cases lim with
  | none =>
    rw [rep_inf_iff, repeat_inf_iff]
    have e0 : (c == sizeMax) = false := by simpa using hc
    rw [e0]
    have : ∀ n e, Total s p i n e → (c = 0 ∨ c ≠ n) := by
      intro n e ht
      rcases hex' n e ht with h | h | h
      · exact .inl h
      · cases h
      · exact .inr h
    constructor
    · rintro ⟨n, e, ht, rfl⟩; exact ⟨n, e, ht, repOut_eq (this n e ht) ht⟩
    · rintro ⟨n, e, ht, rfl⟩; exact ⟨n, e, ht, (repOut_eq (this n e ht) ht).symm⟩
  | some L =>
    rw [rep_lim_iff, repeat_lim_iff (hl L rfl).2]
    have : ∀ n e, n < L → Total s p i n e → (c = 0 ∨ c ≠ n) := by
      intro n e hn ht
      rcases hex' n e ht with h | h | h
      · exact .inl h
      · cases h; exact .inr (by omega)
      · exact .inr h
    refine or_congr Iff.rfl ?_
    constructor
    · rintro ⟨n, e, hn, ht, rfl⟩; exact ⟨n, e, hn, ht, repOut_eq (this n e hn ht) ht⟩
    · rintro ⟨n, e, hn, ht, rfl⟩; exact ⟨n, e, hn, ht, (repOut_eq (this n e hn ht) ht).symm⟩

theorem cls_test {k : Cls} {c : Int} (h : Ascii.IsChar c) : k.test c = true ↔ clsProp k c := by
  cases k <;> simp only [Cls.test, clsProp]
  · rw [Ascii.isalnum_eq h, decide_eq_true_iff]
  · rw [Ascii.isalpha_eq h, decide_eq_true_iff]
  · rw [Ascii.isblank_eq h, decide_eq_true_iff]
  · rw [Ascii.iscntrl_eq h, decide_eq_true_iff]
  · rw [Ascii.isdigit_eq h, decide_eq_true_iff]
  · rw [Ascii.isgraph_eq h, decide_eq_true_iff]
  · rw [Ascii.isprint_eq h, decide_eq_true_iff]
  · rw [Ascii.ispunct_eq h, decide_eq_true_iff]
  · rw [Ascii.isspace_eq h, decide_eq_true_iff]
  · rw [Ascii.isxdigit_eq h, decide_eq_true_iff]
  · rw [Ascii.islower_eq h, decide_eq_true_iff]
  · rw [Ascii.isupper_eq h, decide_eq_true_iff]

theorem negOk_of {P : Num} (hP : P.Wf) (hmn : P.mn ≤ 1) (h : NoLeast s P) (i : Nat) : NegOk P (s.drop i) := by
  intro v k h1 h2 h3 h4
  exact h i v k h1 (numRec_spec hP hmn v ▸ h2) h3 h4

theorem eval_meant : ∀ e : Expr, Agrees s e → Denotes s (eval s e) (meant e) := by
  intro e
  induction e with
  | ch c => intro _; exact Denotes.oneChar (b := fun x => x == c) (fun _ _ => rfl) (by simp)
  | range f l =>
    intro _; exact Denotes.oneChar (b := fun x => decide (f ≤ x) && decide (x ≤ l)) (fun _ _ => rfl) (by simp)
  | set t =>
    classical
    rintro ⟨its, hw, rfl⟩
    refine Denotes.oneChar (b := fun v => decide (InSet (renderSet its) v)) (fun c _ => inSet_eq (setOk_items hw)) fun c _ => ?_
    rw [decide_eq_true_iff]
    constructor
    · intro h; exact ⟨its, hw, rfl, (InSet_items hw).1 h⟩
    · rintro ⟨its', hw', e, h⟩
      rw [← e]
      exact (InSet_items hw').2 h
  | any => intro _; exact Denotes.oneChar (b := fun _ => true) (fun _ _ => rfl) (by simp)
  | cls k => intro h; exact Denotes.oneChar (b := k.test) (fun _ _ => rfl) (fun c hc => cls_test (h c hc))
  | str t => intro _; exact Denotes.litStr t
  | eps => intro _; exact Denotes.eps
  | eol => intro _; exact Denotes.eol
  | eoi => intro _; exact Denotes.eoi
  | uint P =>
    intro h
    have e : numRec P = digits P.radix (max 1 P.mn) P.mx := by
      funext u; rw [numRec_spec (NumWf.wf h.1) h.2 u, show max 1 P.mn = 1 by have := h.2; omega]
    have := Denotes.uint (s := s) (NumWf.wf h.1)
    rw [e] at this
    exact this
  | int P =>
    intro h
    have e : signRec P = signedDigits P.radix (max 1 P.mn) P.mx := by
      funext u; rw [signRec_spec (NumWf.wf h.1) h.2.1 u, show max 1 P.mn = 1 by have := h.2.1; omega]
    have := Denotes.int (s := s) (NumWf.wf h.1) (negOk_of (NumWf.wf h.1) h.2.1 h.2.2)
    rw [e] at this
    exact this
  | alt a b iha ihb => intro h; exact (iha h.1).alt (ihb h.2)
  | seq a b iha ihb => intro h; exact (iha h.1).seq (ihb h.2)
  | diff a b iha ihb => intro h; exact (iha h.1).diff (ihb h.2)
  | list a b iha ihb => intro h; exact (iha h.1).listOf (ihb h.2.1) h.2.2.1 h.2.2.2
  | star a ih => intro h; exact (ih h.1).many h.2
  | plus a ih => intro h; exact (ih h.1).some h.2
  | opt a ih => intro h; exact (ih h).opt
  | not a ih => intro h; exact (ih h).not
  | and a ih => intro h; exact (ih h).and
  | wrap a ih => intro h; exact (ih h).wrap
  | lim n cat a ih => intro h; exact (ih h).lim
  | rep c a ih =>
    intro h
    have := (ih h.1).repeatOf (c := c) (lim := a.limit.map Prod.fst) h.2.1 (fun L hL => by
      cases hl : a.limit with
      | none => rw [hl] at hL; cases hL
      | some x =>
        rw [hl] at hL
        simp only [Option.map_some, Option.some.injEq] at hL
        exact hL ▸ h.2.2.1 x.1 x.2 hl) h.2.2.2
    simp only [meant, if_neg h.2.1]
    exact this

end Sprout.Weed

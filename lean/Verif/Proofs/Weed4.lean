import Verif.Proofs.Weed3

/-! # `repeat(n)[a]` -/

namespace Sprout.Weed
open Spec Spec.Peg

variable {s : List Int} {f g : Nat → Option (Res Unit)} {p q : Peg}

/-- `n` successes in a row lead from `i` to `e` -/
inductive Chain (s : List Int) (p : Peg) : Nat → Nat → Nat → Prop
  | nil {i} : Chain s p i 0 i
  | snoc {i n j e} : Chain s p i n j → Parses s p j (some e) → Chain s p i (n + 1) e

/-- exactly `n` successes, then a failure -/
def Total (s : List Int) (p : Peg) (i n e : Nat) : Prop := Chain s p i n e ∧ Parses s p e none

theorem Chain.cons {i j n e : Nat} (h : Parses s p i (some j)) (hc : Chain s p j n e) : Chain s p i (n + 1) e := by
  induction hc with
  | nil => exact .snoc .nil h
  | snoc _ h2 ih => exact .snoc ih h2

theorem Chain.uncons {i n e : Nat} (hc : Chain s p i (n + 1) e) : ∃ j, Parses s p i (some j) ∧ Chain s p j n e := by
  induction n generalizing e with
  | zero => cases hc with | snoc h1 h2 => cases h1; exact ⟨_, h2, .nil⟩
  | succ n ih =>
    cases hc with
    | snoc h1 h2 =>
      obtain ⟨j, hj, hc⟩ := ih h1
      exact ⟨j, hj, .snoc hc h2⟩

theorem Chain.le (hp : PrimOk p) {i n e : Nat} (hc : Chain s p i n e) (hi : i ≤ s.length) : e ≤ s.length := by
  induction hc with
  | nil => exact hi
  | snoc _ h ih => exact (parses_bounds h hp ih _ rfl).2

theorem Chain.unique {i n e e' : Nat} (h : Chain s p i n e) (h' : Chain s p i n e') : e = e' := by
  induction h generalizing e' with
  | nil => cases h'; rfl
  | snoc _ h1 ih =>
    cases h' with
    | snoc h2 h3 => cases ih h2; simpa using parses_unique h1 _ h3

/-- a longer chain passes through the end of a shorter one -/
theorem Chain.split {i m n e : Nat} (h : Chain s p i (m + n) e) : ∃ j, Chain s p i m j ∧ Chain s p j n e := by
  induction n generalizing e with
  | zero => exact ⟨e, h, .nil⟩
  | succ n ih =>
    cases h with
    | snoc h1 h2 => obtain ⟨j, h3, h4⟩ := ih h1; exact ⟨j, h3, .snoc h4 h2⟩

theorem Chain.append {i j m n e : Nat} (h : Chain s p i m j) (h' : Chain s p j n e) : Chain s p i (m + n) e := by
  induction h' with
  | nil => exact h
  | snoc _ h2 ih => exact .snoc ih h2

theorem Total.of_chain {i n m e j : Nat} (h : Total s p i n e) (hc : Chain s p i m j) : m ≤ n := by
  by_contra hlt
  obtain ⟨d, rfl⟩ : ∃ d, m = n + (1 + d) := ⟨m - n - 1, by omega⟩
  obtain ⟨j', h1, h2⟩ := hc.split
  obtain ⟨j'', h3, _⟩ := h2.split
  cases h1.unique h.1
  obtain ⟨_, h4, _⟩ := Chain.uncons (n := 0) h3
  cases parses_unique h4 _ h.2

theorem Total.unique {i n e n' e' : Nat} (h : Total s p i n e) (h' : Total s p i n' e') : n = n' ∧ e = e' := by
  have h1 := h.of_chain h'.1
  have h2 := h'.of_chain h.1
  have : n = n' := by omega
  subst this
  exact ⟨rfl, h.1.unique h'.1⟩

theorem pow_ok_iff {n i : Nat} {e : Nat} : Parses s (pow p n) i (some e) ↔ Chain s p i n e := by
  induction n generalizing i with
  | zero =>
    refine ⟨fun h => ?_, fun h => ?_⟩
    · cases h; exact .nil
    · cases h; exact .eps
  | succ n ih =>
    refine ⟨fun h => ?_, fun h => ?_⟩
    · cases h with | seq_ok h1 h2 => exact .cons h1 (ih.1 h2)
    · obtain ⟨j, h1, h2⟩ := h.uncons
      exact .seq_ok h1 (ih.2 h2)

theorem pow_fail_iff {n i : Nat} : Parses s (pow p n) i none ↔ ∃ k e, k < n ∧ Total s p i k e := by
  induction n generalizing i with
  | zero =>
    refine ⟨fun h => ?_, fun ⟨k, e, hk, _⟩ => ?_⟩
    · cases h
    · omega
  | succ n ih =>
    refine ⟨fun h => ?_, fun ⟨k, e, hk, h⟩ => ?_⟩
    · cases h with
      | seq_ok h1 h2 =>
        obtain ⟨k, e, hk, ht⟩ := ih.1 h2
        exact ⟨k + 1, e, by omega, .cons h1 ht.1, ht.2⟩
      | seq_fail h1 => exact ⟨0, i, by omega, .nil, h1⟩
    · cases k with
      | zero => obtain ⟨h1, h2⟩ := h; cases h1; exact .seq_fail h2
      | succ k =>
        obtain ⟨j, h1, h2⟩ := h.1.uncons
        exact .seq_ok h1 (ih.2 ⟨k, e, by omega, h2, h.2⟩)

theorem star_iff {i : Nat} {o : Option Nat} : Parses s (.star p) i o ↔ ∃ k e, o = some e ∧ Total s p i k e := by
  refine ⟨fun h => ?_, fun ⟨k, e, ho, h⟩ => ?_⟩
  · generalize hq : Peg.star p = q at h
    induction h with
    | star_stop h => cases hq; exact ⟨0, _, rfl, .nil, h⟩
    | star_step h1 h2 _ ih =>
      cases hq
      obtain ⟨k, e, ho, h3⟩ := ih rfl
      exact ⟨k + 1, e, ho, .cons h1 h3.1, h3.2⟩
    | _ => cases hq
  · subst ho
    clear * - h
    induction k generalizing i with
    | zero => obtain ⟨h1, h2⟩ := h; cases h1; exact .star_stop h2
    | succ k ih =>
      obtain ⟨j, h1, h2⟩ := h.1.uncons
      exact .star_step h1 (ih (h := ⟨h2, h.2⟩))

/-- at least `c + 1` times, to the end; else exactly `c` times, but then nothing is consumed -/
def repPeg (p : Peg) (c : Nat) : Option Nat → Peg
  | none => .alt (.seq (pow p (c + 1)) (.star p)) (if c = sizeMax then .eps else .and (pow p c))
  | some L => .alt (pow p L) (.alt (.seq (pow p (c + 1)) (.star p)) (.and (pow p c)))

/-- the outcome of `repeat` when there are `n` successes leading from `i` to `e` -/
def repOut (c : Nat) (free : Bool) (i n e : Nat) : Option Nat :=
  if c < n then some e else if c = n ∨ free then some i else none

theorem long_fail_iff {c i : Nat} : Parses s (.seq (pow p (c + 1)) (.star p)) i none ↔ ∃ k e, k ≤ c ∧ Total s p i k e := by
  refine ⟨fun h => ?_, fun ⟨k, e, hk, h⟩ => .seq_fail (pow_fail_iff.2 ⟨k, e, by omega, h⟩)⟩
  cases h with
  | seq_ok _ h => obtain ⟨_, h⟩ := star_some h; cases h
  | seq_fail h => obtain ⟨k, e, hk, h⟩ := pow_fail_iff.1 h; exact ⟨k, e, by omega, h⟩

theorem long_ok_iff {c i e : Nat} : Parses s (.seq (pow p (c + 1)) (.star p)) i (some e) ↔ ∃ k, c < k ∧ Total s p i k e := by
  refine ⟨fun h => ?_, fun ⟨k, hk, h⟩ => ?_⟩
  · cases h with
    | seq_ok h1 h2 =>
      obtain ⟨k, e', ho, ht⟩ := star_iff.1 h2
      cases ho
      have h1 := pow_ok_iff.1 h1
      refine ⟨c + 1 + k, by omega, ?_, ht.2⟩
      exact h1.append ht.1
  · obtain ⟨d, rfl⟩ : ∃ d, k = (c + 1) + d := ⟨k - c - 1, by omega⟩
    obtain ⟨j, h1, h2⟩ := h.1.split
    exact .seq_ok (pow_ok_iff.2 h1) (star_iff.2 ⟨d, e, rfl, h2, h.2⟩)

theorem rep_inf_iff {c i : Nat} {o : Option Nat} : Parses s (repPeg p c none) i o ↔
    ∃ n e, Total s p i n e ∧ o = repOut c (c == sizeMax) i n e := by
  have key : ∀ n e, Total s p i n e → Parses s (repPeg p c none) i (repOut c (c == sizeMax) i n e) := by
    intro n e ht
    unfold repPeg repOut
    by_cases h1 : c < n
    · rw [if_pos h1]
      exact .alt_left (long_ok_iff.2 ⟨n, h1, ht⟩)
    · rw [if_neg h1]
      refine .alt_right (long_fail_iff.2 ⟨n, e, by omega, ht⟩) ?_
      by_cases h2 : c = sizeMax
      · rw [if_pos h2, if_pos (by simp [h2])]; exact .eps
      · rw [if_neg h2]
        by_cases h3 : c = n
        · rw [if_pos (.inl h3), h3]; exact .and_ok (pow_ok_iff.2 ht.1)
        · rw [if_neg (by simp [h2, h3])]; exact .and_fail (pow_fail_iff.2 ⟨n, e, by omega, ht⟩)
  refine ⟨fun h => ?_, fun ⟨n, e, ht, ho⟩ => ho ▸ key n e ht⟩
  have : ∃ n e, Total s p i n e := by
    cases h with
    | alt_left h => obtain ⟨k, _, h⟩ := long_ok_iff.1 h; exact ⟨_, _, h⟩
    | alt_right h _ => obtain ⟨k, e, _, h⟩ := long_fail_iff.1 h; exact ⟨_, _, h⟩
  obtain ⟨n, e, ht⟩ := this
  exact ⟨n, e, ht, parses_unique h _ (key n e ht)⟩

theorem rep_lim_iff {c L i : Nat} {o : Option Nat} : Parses s (repPeg p c (some L)) i o ↔
    (∃ e, Chain s p i L e ∧ o = some e) ∨ ∃ n e, n < L ∧ Total s p i n e ∧ o = repOut c false i n e := by
  have key1 : ∀ e, Chain s p i L e → Parses s (repPeg p c (some L)) i (some e) := fun e h => .alt_left (pow_ok_iff.2 h)
  have key2 : ∀ n e, n < L → Total s p i n e → Parses s (repPeg p c (some L)) i (repOut c false i n e) := by
    intro n e hn ht
    unfold repPeg repOut
    refine .alt_right (pow_fail_iff.2 ⟨n, e, hn, ht⟩) ?_
    by_cases h1 : c < n
    · rw [if_pos h1]
      exact .alt_left (long_ok_iff.2 ⟨n, h1, ht⟩)
    · rw [if_neg h1]
      refine .alt_right (long_fail_iff.2 ⟨n, e, by omega, ht⟩) ?_
      by_cases h3 : c = n
      · rw [if_pos (.inl h3), h3]; exact .and_ok (pow_ok_iff.2 ht.1)
      · rw [if_neg (by simp [h3])]; exact .and_fail (pow_fail_iff.2 ⟨n, e, by omega, ht⟩)
  refine ⟨fun h => ?_, fun h => ?_⟩
  · cases h with
    | alt_left h => exact .inl ⟨_, pow_ok_iff.1 h, rfl⟩
    | alt_right h1 h2 =>
      obtain ⟨k, e, hk, ht⟩ := pow_fail_iff.1 h1
      exact .inr ⟨k, e, hk, ht, parses_unique (Parses.alt_right h1 h2) _ (key2 k e hk ht)⟩
  · rcases h with ⟨e, h, rfl⟩ | ⟨n, e, hn, ht, rfl⟩
    · exact key1 e h
    · exact key2 n e hn ht

/-- the result object of `repeat` -/
def repRes (c : Nat) (free : Bool) (i n e : Nat) (bs : List Unit) : Res (List Unit) :=
  (resOf i (repOut c free i n e)).withAttr bs

theorem repInf_sound (hf : Denotes s f p) (count i : Nat) (first : Nat) (res : Res Unit) (n : Nat) (r : Res (List Unit))
    (h : repInf f count first res n = some r) (pos : Nat) (hi : i ≤ s.length) (hc : Chain s p i n pos) (hr : f pos = some res)
    (hfirst : first = if count < n then pos else i) :
    ∃ k e, Total s p i k e ∧ r = repRes count (count == sizeMax) i k e [] := by
  refine repInf.partial_correctness f count
    (fun first res n r => ∀ pos, Chain s p i n pos → f pos = some res → first = (if count < n then pos else i) →
      ∃ k e, Total s p i k e ∧ r = repRes count (count == sizeMax) i k e [])
    ?_ first res n r h pos hc hr hfirst
  intro T ih first res n r h pos hc hr hfirst
  have hpos := hc.le hf.prim hi
  obtain ⟨o, hp, rfl⟩ := hf.sound pos hpos res hr
  cases o with
  | some j =>
    simp only [resOf, if_true, Option.bind_eq_bind, Option.bind_eq_some_iff] at h
    obtain ⟨r1, h1, h⟩ := h
    refine ih _ _ _ _ h j (.snoc hc hp) h1 ?_
    by_cases h1 : count ≤ n
    · rw [if_pos h1, if_pos (by omega)]
    · rw [if_neg h1, if_neg (by omega), hfirst, if_neg (by omega)]
  | none =>
    refine ⟨n, pos, ⟨hc, hp⟩, ?_⟩
    simp only [resOf, Bool.false_eq_true, if_false, term, Option.some.injEq] at h
    rw [← h, hfirst]
    unfold repRes repOut
    by_cases h1 : count < n
    · simp [h1, show count ≤ n by omega, resOf, Res.withAttr]
    · by_cases h2 : count = n
      · simp [h2, resOf, Res.withAttr]
      · by_cases h3 : count = sizeMax
        · subst h3; simp [h1, h2, resOf, Res.withAttr]
        · simp [h1, h2, h3, show ¬ count ≤ n by omega, resOf, Res.withAttr]

theorem repInf_complete (hf : Denotes s f p) (count i k e : Nat) (hi : i ≤ s.length) (ht : Total s p i k e) :
    ∀ d n first res pos, n + d = k → Chain s p i n pos → f pos = some res → first = (if count < n then pos else i) →
    repInf f count first res n = some (repRes count (count == sizeMax) i k e []) := by
  intro d
  induction d with
  | zero =>
    intro n first res pos hn hc hr hfirst
    have : n = k := by omega
    subst this
    have hpos := hc.le hf.prim hi
    rw [hc.unique ht.1] at hpos hr hfirst
    rw [hf.complete e hpos _ ht.2] at hr
    cases hr
    rw [repInf, hfirst]
    simp only [resOf, Bool.false_eq_true, if_false, term, Option.some.injEq]
    unfold repRes repOut
    by_cases h1 : count < n
    · simp [h1, show count ≤ n by omega, resOf, Res.withAttr]
    · by_cases h2 : count = n
      · simp [h2, resOf, Res.withAttr]
      · by_cases h3 : count = sizeMax
        · subst h3; simp [h1, h2, resOf, Res.withAttr]
        · simp [h1, h2, h3, show ¬ count ≤ n by omega, resOf, Res.withAttr]
  | succ d ih =>
    intro n first res pos hn hc hr hfirst
    have hpos := hc.le hf.prim hi
    obtain ⟨j, h1, h2⟩ : ∃ j, Parses s p pos (some j) ∧ Chain s p j d e := by
      have hte := ht.1
      rw [show k = n + (d + 1) by omega] at hte
      obtain ⟨j', h1, h2⟩ := hte.split
      cases h1.unique hc
      exact h2.uncons
    rw [hf.complete pos hpos _ h1] at hr
    cases hr
    have hj := parses_bounds h1 hf.prim hpos _ rfl
    obtain ⟨r1, hr1⟩ : ∃ r1, f j = some r1 := by
      cases d with
      | zero => cases h2; exact ⟨_, hf.complete _ hj.2 _ ht.2⟩
      | succ d => obtain ⟨_, h, _⟩ := h2.uncons; exact ⟨_, hf.complete _ hj.2 _ h⟩
    rw [repInf]
    simp only [resOf, if_true, Option.bind_eq_bind, hr1, Option.bind_some]
    refine ih (n + 1) _ r1 j (by omega) (.snoc hc h1) hr1 ?_
    by_cases h1 : count ≤ n
    · rw [if_pos h1, if_pos (by omega)]
    · rw [if_neg h1, if_neg (by omega), hfirst, if_neg (by omega)]

theorem repLim_spec (hf : Denotes s f p) (count L i : Nat) (hi : i ≤ s.length) :
    ∀ d first res (as : List Unit) pos, as.length + 1 + d = L → Chain s p i as.length pos → f pos = some res →
    first = (if count < as.length then pos else i) →
    (∀ r, repLim f count L first res as = some r →
      (∃ e bs, Chain s p i L e ∧ r = ⟨true, e, e, bs⟩) ∨
      ∃ n e bs, n < L ∧ Total s p i n e ∧ r = repRes count false i n e bs) ∧
    (∀ e, Chain s p i L e → ∃ bs, repLim f count L first res as = some ⟨true, e, e, bs⟩) ∧
    (∀ n e, n < L → Total s p i n e → ∃ bs, repLim f count L first res as = some (repRes count false i n e bs)) := by
  have hend : ∀ (first : Nat) (as : List Unit) (pos : Nat), Chain s p i as.length pos → Parses s p pos none →
      first = (if count < as.length then pos else i) →
      (if count ≤ as.length then term true first as else term false first []) =
        some (repRes count false i as.length pos (if count ≤ as.length then as else [])) := by
    intro first as pos hc hp hfirst
    rw [hfirst]
    unfold repRes repOut term
    by_cases h1 : count < as.length
    · simp [h1, show count ≤ as.length by omega, resOf, Res.withAttr]
    · by_cases h2 : count = as.length
      · simp [h2, resOf, Res.withAttr]
      · simp [h1, h2, show ¬ count ≤ as.length by omega, resOf, Res.withAttr]
  intro d
  induction d with
  | zero =>
    intro first res as pos hd hc hr hfirst
    have hpos := hc.le hf.prim hi
    rw [repLim, if_pos (by omega)]
    obtain ⟨o, hp, rfl⟩ := hf.sound pos hpos res hr
    cases o with
    | none =>
      simp only [resOf, Bool.false_eq_true, if_false]
      rw [hend first as pos hc hp hfirst]
      have hT : Total s p i as.length pos := ⟨hc, hp⟩
      refine ⟨fun r h => .inr ⟨as.length, pos, _, by omega, hT, (Option.some.inj h).symm⟩, fun e he => ?_, fun n e hn ht => ?_⟩
      · have := hT.of_chain he; omega
      · obtain ⟨h1, h2⟩ := hT.unique ht
        subst h1 h2
        exact ⟨_, rfl⟩
    | some j =>
      simp only [resOf, if_true, term]
      have hC : Chain s p i L j := by rw [← hd]; exact .snoc hc hp
      refine ⟨fun r h => .inl ⟨j, _, hC, (Option.some.inj h).symm⟩, fun e he => ?_, fun n e hn ht => ?_⟩
      · cases he.unique hC; exact ⟨_, rfl⟩
      · have := ht.of_chain hC; omega
  | succ d ih =>
    intro first res as pos hd hc hr hfirst
    have hpos := hc.le hf.prim hi
    rw [repLim, if_neg (by omega)]
    obtain ⟨o, hp, rfl⟩ := hf.sound pos hpos res hr
    cases o with
    | none =>
      simp only [resOf, Bool.false_eq_true, if_false]
      rw [hend first as pos hc hp hfirst]
      have hT : Total s p i as.length pos := ⟨hc, hp⟩
      refine ⟨fun r h => .inr ⟨as.length, pos, _, by omega, hT, (Option.some.inj h).symm⟩, fun e he => ?_, fun n e hn ht => ?_⟩
      · have := hT.of_chain he; omega
      · obtain ⟨h1, h2⟩ := hT.unique ht
        subst h1 h2
        exact ⟨_, rfl⟩
    | some j =>
      have hj := parses_bounds hp hf.prim hpos _ rfl
      simp only [resOf, if_true, Option.bind_eq_bind]
      have hfirst' : (if count ≤ as.length then j else first) = (if count < (as ++ [()]).length then j else i) := by
        simp only [List.length_append, List.length_singleton]
        by_cases h1 : count ≤ as.length
        · rw [if_pos h1, if_pos (by omega)]
        · rw [if_neg h1, if_neg (by omega), hfirst, if_neg (by omega)]
      have hC : Chain s p i (as ++ [()]).length j := by
        simp only [List.length_append, List.length_singleton]; exact .snoc hc hp
      refine ⟨fun r h => ?_, fun e he => ?_, fun n e hn ht => ?_⟩
      · obtain ⟨r1, h1, h⟩ := Option.bind_eq_some_iff.1 h
        exact (ih _ r1 (as ++ [()]) j (by simp; omega) hC h1 hfirst').1 r h
      · obtain ⟨r1, hr1⟩ : ∃ r1, f j = some r1 := by
          rw [show L = (as ++ [()]).length + (d + 1) by simp; omega] at he
          obtain ⟨j', h1, h2⟩ := he.split
          cases h1.unique hC
          obtain ⟨_, h, _⟩ := h2.uncons
          exact ⟨_, hf.complete _ hj.2 _ h⟩
        rw [hr1]
        exact (ih _ r1 (as ++ [()]) j (by simp; omega) hC hr1 hfirst').2.1 e he
      · obtain ⟨r1, hr1⟩ : ∃ r1, f j = some r1 := by
          have hle := ht.of_chain hC
          by_cases hn' : n = (as ++ [()]).length
          · subst hn'
            cases ht.1.unique hC
            exact ⟨_, hf.complete _ hj.2 _ ht.2⟩
          · have hte := ht.1
            rw [show n = (as ++ [()]).length + ((n - (as ++ [()]).length - 1) + 1) by omega] at hte
            obtain ⟨j', h1, h2⟩ := hte.split
            cases h1.unique hC
            obtain ⟨_, h, _⟩ := h2.uncons
            exact ⟨_, hf.complete _ hj.2 _ h⟩
        rw [hr1]
        exact (ih _ r1 (as ++ [()]) j (by simp; omega) hC hr1 hfirst').2.2 n e hn ht

theorem primOk_pow (h : PrimOk p) : ∀ n, PrimOk (pow p n)
  | 0 => trivial
  | n + 1 => ⟨h, primOk_pow h n⟩

theorem primOk_rep (h : PrimOk p) (c : Nat) (lim : Option Nat) : PrimOk (repPeg p c lim) := by
  cases lim with
  | none =>
    refine ⟨⟨primOk_pow h _, h⟩, ?_⟩
    split
    · trivial
    · exact primOk_pow h c
  | some L => exact ⟨primOk_pow h L, ⟨primOk_pow h (c + 1), h⟩, primOk_pow h c⟩

theorem Denotes.rep (hf : Denotes s f p) (count : Nat) (lim : Option Nat) (hlim : ∀ L, lim = some L → 2 ≤ L) :
    Denotes s (fun i => noAttr (repOp f count lim i)) (repPeg p count lim) := by
  have hwa : ∀ (i : Nat) (o : Option Nat) (bs : List Unit), ((resOf i o).withAttr bs).withAttr () = resOf i o := by
    intro i o bs; cases o <;> rfl
  have h0 : ∀ (i : Nat) (bs : List Unit) (free : Bool), term (decide (count ≤ 0) || free) i bs =
      some (repRes count free i 0 i bs) := by
    intro i bs free
    unfold term repRes repOut
    by_cases h : count = 0
    · simp [h, resOf, Res.withAttr]
    · cases free <;> simp [h, resOf, Res.withAttr]
  have hfirst : ∀ i j : Nat, (if count ≤ 0 then j else i) = (if count < 1 then j else i) := by
    intro i j
    by_cases h : count = 0
    · simp [h]
    · rw [if_neg (by omega), if_neg (by omega)]
  refine ⟨primOk_rep hf.prim count lim, fun i hi r hr => ?_, fun i hi o ho => ?_⟩
  · simp only [repOp, noAttr, Option.bind_eq_bind, Option.map_eq_some_iff, Option.bind_eq_some_iff] at hr
    obtain ⟨r0, ⟨res, h1, h2⟩, rfl⟩ := hr
    obtain ⟨o, hp, rfl⟩ := hf.sound i hi res h1
    cases lim with
    | none =>
      cases o with
      | none =>
        simp only [resOf, Bool.false_eq_true, if_false] at h2
        rw [h0 i [] (count == sizeMax)] at h2
        cases h2
        exact ⟨_, rep_inf_iff.2 ⟨0, i, ⟨.nil, hp⟩, rfl⟩, hwa ..⟩
      | some j =>
        simp only [resOf, if_true, Option.bind_eq_some_iff] at h2
        obtain ⟨r1, h3, h2⟩ := h2
        obtain ⟨k, e, ht, rfl⟩ := repInf_sound hf count i _ r1 1 r0 h2 j hi (.snoc .nil hp) h3 (hfirst i j)
        exact ⟨_, rep_inf_iff.2 ⟨k, e, ht, rfl⟩, hwa ..⟩
    | some L =>
      have hL := hlim L rfl
      cases o with
      | none =>
        simp only [resOf, Bool.false_eq_true, if_false] at h2
        have := h0 i [] false
        simp only [Bool.or_false] at this
        rw [this] at h2
        cases h2
        exact ⟨_, rep_lim_iff.2 (.inr ⟨0, i, by omega, ⟨.nil, hp⟩, rfl⟩), hwa ..⟩
      | some j =>
        simp only [resOf, if_true, Option.bind_eq_some_iff] at h2
        obtain ⟨r1, h3, h2⟩ := h2
        rcases (repLim_spec hf count L i hi (L - 2) _ r1 [()] j (by simp; omega) (.snoc .nil hp) h3 (hfirst i j)).1 r0 h2 with
          ⟨e, bs, hc, rfl⟩ | ⟨n, e, bs, hn, ht, rfl⟩
        · exact ⟨some e, rep_lim_iff.2 (.inl ⟨e, hc, rfl⟩), rfl⟩
        · exact ⟨_, rep_lim_iff.2 (.inr ⟨n, e, hn, ht, rfl⟩), hwa ..⟩
  · have hstep : ∀ {n e}, Total s p i n e ∨ (0 < n ∧ Chain s p i n e) →
        (n = 0 ∧ Parses s p i none) ∨ ∃ j, Parses s p i (some j) ∧ Chain s p i 1 j ∧ (∃ r1, 1 < n ∨ Parses s p j none →
          f j = some r1) := by
      intro n e h
      cases n with
      | zero =>
        rcases h with h | h
        · obtain ⟨h1, h2⟩ := h; cases h1; exact .inl ⟨rfl, h2⟩
        · omega
      | succ n =>
        have hc : Chain s p i (n + 1) e := by rcases h with h | h <;> [exact h.1; exact h.2]
        obtain ⟨j, h1, h2⟩ := hc.uncons
        have hj := parses_bounds h1 hf.prim hi _ rfl
        refine .inr ⟨j, h1, .snoc .nil h1, ?_⟩
        cases n with
        | zero => exact ⟨resOf j none, fun h' => by
            rcases h' with h' | h'
            · omega
            · exact hf.complete _ hj.2 _ h'⟩
        | succ n =>
          obtain ⟨k, h3, _⟩ := h2.uncons
          exact ⟨_, fun _ => hf.complete _ hj.2 _ h3⟩
    simp only [repOp, noAttr, Option.bind_eq_bind]
    cases lim with
    | none =>
      obtain ⟨n, e, ht, rfl⟩ := rep_inf_iff.1 ho
      rcases hstep (.inl ht) with ⟨rfl, hp⟩ | ⟨j, hp, hc, r1, hr1⟩
      · cases ht.1
        simp only [hf.complete i hi _ hp, Option.bind_some, resOf, Bool.false_eq_true, if_false]
        rw [h0 i [] (count == sizeMax)]
        simp only [Option.map_some, repRes, hwa]
        rfl
      · have hle := ht.of_chain hc
        have hr1' : f j = some r1 := hr1 (by
          by_cases h1 : 1 < n
          · exact .inl h1
          · have : n = 1 := by omega
            subst this
            cases ht.1.unique hc
            exact .inr ht.2)
        simp only [hf.complete i hi _ hp, Option.bind_some, resOf, if_true, hr1']
        rw [repInf_complete hf count i n e hi ht (n - 1) 1 _ r1 j (by omega) hc hr1' (hfirst i j)]
        simp only [Option.map_some, repRes, hwa]
        rfl
    | some L =>
      have hL := hlim L rfl
      rcases rep_lim_iff.1 ho with ⟨e, hC, rfl⟩ | ⟨n, e, hn, ht, rfl⟩
      · rcases hstep (.inr ⟨by omega, hC⟩) with ⟨h, _⟩ | ⟨j, hp, hc, r1, hr1⟩
        · omega
        · have hr1' := hr1 (.inl (by omega))
          simp only [hf.complete i hi _ hp, Option.bind_some, resOf, if_true, hr1']
          obtain ⟨bs, e2⟩ := (repLim_spec hf count L i hi (L - 2) _ r1 [()] j (by simp; omega) hc hr1' (hfirst i j)).2.1 e hC
          rw [e2]; rfl
      · rcases hstep (.inl ht) with ⟨rfl, hp⟩ | ⟨j, hp, hc, r1, hr1⟩
        · cases ht.1
          simp only [hf.complete i hi _ hp, Option.bind_some, resOf, Bool.false_eq_true, if_false]
          have := h0 i [] false
          simp only [Bool.or_false] at this
          rw [this]
          simp only [Option.map_some, repRes, hwa]
          rfl
        · have hle := ht.of_chain hc
          have hr1' : f j = some r1 := hr1 (by
            by_cases h1 : 1 < n
            · exact .inl h1
            · have : n = 1 := by omega
              subst this
              cases ht.1.unique hc
              exact .inr ht.2)
          simp only [hf.complete i hi _ hp, Option.bind_some, resOf, if_true, hr1']
          obtain ⟨bs, e2⟩ := (repLim_spec hf count L i hi (L - 2) _ r1 [()] j (by simp; omega) hc hr1' (hfirst i j)).2.2 n e hn ht
          rw [e2]
          simp only [Option.map_some, repRes, hwa]
          rfl

end Sprout.Weed

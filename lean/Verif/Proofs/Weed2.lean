import Verif.Proofs.Weed

/-! # Repetition: `*a`, `+a`, `a % b`, `repeat(n)[a]` -/

namespace Sprout.Weed
open Spec Spec.Peg

variable {s : List Int} {f g : Nat → Option (Res Unit)} {p q : Peg}

theorem timesInf_sound (hf : Denotes s f p) (c : Nat) (res : Res Unit) (r : Res (List Unit)) (h : timesInf f c res = some r)
    (hc : c ≤ s.length) (hr : f c = some res) : ∃ k, Parses s (.star p) c (some k) ∧ r = ⟨true, k, k, []⟩ := by
  refine timesInf.partial_correctness f
    (fun c res r => c ≤ s.length → f c = some res → ∃ k, Parses s (.star p) c (some k) ∧ r = ⟨true, k, k, []⟩)
    ?_ c res r h hc hr
  intro T ih c res r h hc hr
  cases ho : res.ok with
  | true =>
    obtain ⟨j, hj, _, hjs, rfl⟩ := hf.ok hc hr ho
    simp only [if_true, Option.bind_eq_bind, Option.bind_eq_some_iff] at h
    obtain ⟨r1, h1, h⟩ := h
    obtain ⟨k, hk, e⟩ := ih _ _ _ h hjs h1
    exact ⟨k, .star_step hj hk, e⟩
  | false =>
    rw [ho] at h
    simp only [Bool.false_eq_true, if_false, Option.some.injEq] at h
    exact ⟨c, .star_stop (hf.fail hc hr ho), h.symm⟩

theorem star_some {c : Nat} {o : Option Nat} (h : Parses s (.star p) c o) : ∃ k, o = some k := by
  generalize hq : Peg.star p = q at h
  induction h with
  | star_stop => exact ⟨_, rfl⟩
  | star_step _ _ _ ih => exact ih hq
  | _ => cases hq

theorem timesInf_complete (hf : Denotes s f p) {c k : Nat} (h : Parses s (.star p) c (some k)) (hc : c ≤ s.length) (res : Res Unit)
    (hr : f c = some res) : timesInf f c res = some ⟨true, k, k, []⟩ := by
  generalize hq : Peg.star p = q at h
  generalize ho : some k = o at h
  induction h generalizing res with
  | @star_stop p' i h' =>
    cases hq; cases ho
    rw [hf.complete _ hc _ h'] at hr
    cases hr
    rw [timesInf]; simp [resOf]
  | @star_step p' i j o h1 h2 ih1 ih2 =>
    cases hq
    rw [hf.complete _ hc _ h1] at hr
    cases hr
    have hb := parses_bounds h1 hf.prim hc _ rfl
    obtain ⟨r1, hr1⟩ : ∃ r1, f j = some r1 := by
      cases h2 with
      | star_stop h => exact ⟨_, hf.complete _ hb.2 _ h⟩
      | star_step h _ => exact ⟨_, hf.complete _ hb.2 _ h⟩
    rw [timesInf]
    simp only [resOf, if_true, hr1, Option.bind_eq_bind, Option.bind_some]
    exact ih2 hb.2 _ hr1 rfl ho
  | _ => cases hq

/-- with a limit that does not stop the repetition: the same as without -/
theorem timesLim_sound (hf : Denotes s f p) (L : Nat) (cat : Cat) (c : Nat) (res : Res Unit) (as : List Unit) (r : Res (List Unit))
    (h : timesLim f L cat c res as = some r) (hc : c ≤ s.length) (hr : f c = some res)
    (hcat : cat ≠ .stopover ∨ as.length = L) (hL : 1 ≤ L) :
    ∃ k bs, Parses s (.star p) c (some k) ∧ r = ⟨true, k, k, bs⟩ := by
  refine timesLim.partial_correctness f L cat
    (fun c res as r => c ≤ s.length → f c = some res → (cat ≠ .stopover ∨ as.length = L) →
      ∃ k bs, Parses s (.star p) c (some k) ∧ r = ⟨true, k, k, bs⟩)
    ?_ c res as r h hc hr hcat
  intro T ih c res as r h hc hr hcat
  cases ho : res.ok with
  | true =>
    obtain ⟨j, hj, _, hjs, rfl⟩ := hf.ok hc hr ho
    simp only [if_true, Option.bind_eq_bind, Option.bind_eq_some_iff] at h
    split at h
    · rename_i h1
      simp only [Option.bind_eq_some_iff] at h
      obtain ⟨r1, h1', h⟩ := h
      split at h
      · obtain ⟨k, bs, hk, e⟩ := ih _ _ _ _ h hjs h1' (.inr h1)
        exact ⟨k, bs, .star_step hj hk, e⟩
      · obtain ⟨k, bs, hk, e⟩ := ih _ _ _ _ h hjs h1' (.inr (by simp; omega))
        exact ⟨k, bs, .star_step hj hk, e⟩
    · rename_i h1
      have hcat' : cat ≠ .stopover := by rcases hcat with h | h <;> [exact h; exact absurd h h1]
      rw [if_pos hcat'] at h
      split at h
      · simp only [Option.bind_eq_some_iff] at h
        obtain ⟨r1, h1', h⟩ := h
        obtain ⟨k, bs, hk, e⟩ := ih _ _ _ _ h hjs h1' (.inl hcat')
        exact ⟨k, bs, .star_step hj hk, e⟩
      · split at h
        · simp only [Option.bind_eq_some_iff] at h
          obtain ⟨r1, h1', h⟩ := h
          obtain ⟨k, bs, hk, e⟩ := ih _ _ _ _ h hjs h1' (.inl hcat')
          exact ⟨k, bs, .star_step hj hk, e⟩
        · cases h
  | false =>
    have hn := hf.fail hc hr ho
    rw [ho] at h
    simp only [Bool.false_eq_true, if_false] at h
    split at h
    · exact ⟨c, as, .star_stop hn, by simpa using h.symm⟩
    · split at h
      · exact ⟨c, as, .star_stop hn, by simpa using h.symm⟩
      · split at h
        · exact ⟨c, as, .star_stop hn, by simpa using h.symm⟩
        · cases h

theorem timesLim_complete (hf : Denotes s f p) (L : Nat) (cat : Cat) {c k : Nat} (h : Parses s (.star p) c (some k))
    (hc : c ≤ s.length) (res : Res Unit) (as : List Unit) (hr : f c = some res) (hcat : cat ≠ .stopover ∨ as.length = L)
    (hL : 1 ≤ L) (has : as.length ≤ L) : ∃ bs, timesLim f L cat c res as = some ⟨true, k, k, bs⟩ := by
  generalize hq : Peg.star p = q at h
  generalize ho : some k = o at h
  induction h generalizing res as with
  | @star_stop p' i h' =>
    cases hq; cases ho
    rw [hf.complete _ hc _ h'] at hr
    cases hr
    refine ⟨as, ?_⟩
    rw [timesLim]
    simp only [resOf, Bool.false_eq_true, if_false]
    split
    · rfl
    · split
      · rfl
      · rw [if_pos (by omega)]
  | @star_step p' i j o h1 h2 ih1 ih2 =>
    cases hq
    rw [hf.complete _ hc _ h1] at hr
    cases hr
    have hb := parses_bounds h1 hf.prim hc _ rfl
    obtain ⟨r1, hr1⟩ : ∃ r1, f j = some r1 := by
      cases h2 with
      | star_stop h => exact ⟨_, hf.complete _ hb.2 _ h⟩
      | star_step h _ => exact ⟨_, hf.complete _ hb.2 _ h⟩
    rw [timesLim]
    simp only [resOf, if_true, hr1, Option.bind_eq_bind, Option.bind_some]
    split
    · rename_i h1
      split
      · exact ih2 hb.2 _ _ hr1 (.inr h1) has rfl ho
      · exact ih2 hb.2 _ _ hr1 (.inr (by simp; omega)) (by simp; omega) rfl ho
    · rename_i h1
      have hcat' : cat ≠ .stopover := by rcases hcat with h | h <;> [exact h; exact absurd h h1]
      rw [if_pos hcat']
      split
      · exact ih2 hb.2 _ _ hr1 (.inl hcat') (by simp; omega) rfl ho
      · rw [if_pos (by omega)]
        exact ih2 hb.2 _ _ hr1 (.inl hcat') (by simp; omega) rfl ho
  | _ => cases hq

/-- a limit that stops the repetition -/
theorem timesLim_stop (hf : Denotes s f p) (L : Nat) : ∀ (m c : Nat) (res : Res Unit) (as : List Unit),
    m + 1 + as.length = L → c ≤ s.length → f c = some res →
    (∀ r, timesLim f L .stopover c res as = some r →
      ∃ k bs, Parses s (upto p (m + 1)) c (some k) ∧ r = ⟨true, k, k, bs⟩) ∧
    (∀ o, Parses s (upto p (m + 1)) c o → ∃ k bs, o = some k ∧ timesLim f L .stopover c res as = some ⟨true, k, k, bs⟩) := by
  intro m
  induction m with
  | zero =>
    intro c res as hm hc hr
    rw [timesLim, if_neg (by omega), if_pos (by omega)]
    simp only [ne_eq, not_true_eq_false, if_false]
    obtain ⟨o, hp, rfl⟩ := hf.sound c hc res hr
    cases o with
    | none =>
      refine ⟨fun r h => ?_, fun o h => ?_⟩
      · exact ⟨c, as, .opt_none (.seq_fail hp), by simpa [resOf] using h.symm⟩
      · refine ⟨c, as, ?_, by simp [resOf]⟩
        exact parses_unique h _ (.opt_none (.seq_fail hp))
    | some j =>
      refine ⟨fun r h => ?_, fun o h => ?_⟩
      · exact ⟨j, _, .opt_ok (.seq_ok hp .eps), by simpa [resOf] using h.symm⟩
      · refine ⟨j, as ++ [()], ?_, by simp [resOf]⟩
        exact parses_unique h _ (.opt_ok (.seq_ok hp .eps))
  | succ m ih =>
    intro c res as hm hc hr
    rw [timesLim, if_neg (by omega), if_neg (by omega), if_pos (by omega)]
    obtain ⟨o, hp, rfl⟩ := hf.sound c hc res hr
    cases o with
    | none =>
      refine ⟨fun r h => ?_, fun o h => ?_⟩
      · exact ⟨c, as, .opt_none (.seq_fail hp), by simpa [resOf] using h.symm⟩
      · refine ⟨c, as, ?_, by simp [resOf]⟩
        exact parses_unique h _ (.opt_none (.seq_fail hp))
    | some j =>
      have hb := parses_bounds hp hf.prim hc _ rfl
      simp only [resOf, if_true, Option.bind_eq_bind]
      refine ⟨fun r h => ?_, fun o h => ?_⟩
      · simp only [Option.bind_eq_some_iff] at h
        obtain ⟨r1, h1, h⟩ := h
        obtain ⟨k, bs, hk, e⟩ := (ih j r1 (as ++ [()]) (by simp; omega) hb.2 h1).1 r h
        exact ⟨k, bs, .opt_ok (.seq_ok hp hk), e⟩
      · have key : ∀ o', Parses s (upto p (m + 1)) j o' →
            ∃ k bs, o' = some k ∧ ((f j).bind fun r => timesLim f L .stopover j r (as ++ [()])) = some ⟨true, k, k, bs⟩ := by
          intro o' ho'
          obtain ⟨r1, hr1⟩ : ∃ r1, f j = some r1 := by
            cases ho' with
            | opt_ok h => cases h with | seq_ok h _ => exact ⟨_, hf.complete _ hb.2 _ h⟩
            | opt_none h => cases h with
              | seq_ok h _ => exact ⟨_, hf.complete _ hb.2 _ h⟩
              | seq_fail h => exact ⟨_, hf.complete _ hb.2 _ h⟩
          rw [hr1]
          exact (ih j r1 (as ++ [()]) (by simp; omega) hb.2 hr1).2 o' ho'
        cases h with
        | opt_ok h =>
          cases h with
          | seq_ok h1 h2 =>
            cases parses_unique h1 _ hp
            obtain ⟨k, bs, e1, e2⟩ := key _ h2
            exact ⟨k, bs, e1, e2⟩
        | opt_none h =>
          cases h with
          | seq_ok h1 h2 =>
            cases parses_unique h1 _ hp
            obtain ⟨k, bs, e1, e2⟩ := key _ h2
            cases e1
          | seq_fail h1 => cases parses_unique h1 _ hp

/-- what `*a` repeats after its first element, and `+a` too -/
def timesTail (p : Peg) : Option (Nat × Cat) → Peg
  | some (L, .stopover) => if L = 1 then .star p else upto p (L - 1)
  | _ => .star p

/-- the operators with at least one element resp. any number -/
def timesPeg (least : Bool) (p : Peg) (lim : Option (Nat × Cat)) : Peg :=
  if least then .seq p (timesTail p lim) else .opt (.seq p (timesTail p lim))

theorem primOk_upto (h : PrimOk p) : ∀ n, PrimOk (upto p n)
  | 0 => trivial
  | n + 1 => ⟨h, primOk_upto h n⟩

theorem primOk_tail (h : PrimOk p) (lim : Option (Nat × Cat)) : PrimOk (timesTail p lim) := by
  unfold timesTail
  split
  · split
    · exact h
    · exact primOk_upto h _
  · exact h

/-- the loop after the first element -/
def tailOp (f : Nat → Option (Res Unit)) (lim : Option (Nat × Cat)) (c : Nat) : Option (Res (List Unit)) := do
  let r ← f c
  match lim with
  | none => timesInf f c r
  | some (L, cat) => timesLim f L cat c r [()]

theorem upto_some {n c : Nat} {o : Option Nat} (h : Parses s (upto p (n + 1)) c o) : ∃ k, o = some k := by
  cases h with
  | opt_ok => exact ⟨_, rfl⟩
  | opt_none => exact ⟨_, rfl⟩

/-- the first step of a repetition evaluates its operand -/
theorem star_first (hf : Denotes s f p) {c : Nat} (hc : c ≤ s.length) {o : Option Nat} (h : Parses s (.star p) c o) :
    ∃ r, f c = some r := by
  cases h with
  | star_stop h => exact ⟨_, hf.complete _ hc _ h⟩
  | star_step h _ => exact ⟨_, hf.complete _ hc _ h⟩

theorem upto_first (hf : Denotes s f p) {n c : Nat} (hc : c ≤ s.length) {o : Option Nat} (h : Parses s (upto p (n + 1)) c o) :
    ∃ r, f c = some r := by
  cases h with
  | opt_ok h => cases h with | seq_ok h _ => exact ⟨_, hf.complete _ hc _ h⟩
  | opt_none h => cases h with
    | seq_ok h _ => exact ⟨_, hf.complete _ hc _ h⟩
    | seq_fail h => exact ⟨_, hf.complete _ hc _ h⟩

theorem tailOp_spec (hf : Denotes s f p) (lim : Option (Nat × Cat)) (hlim : ∀ L cat, lim = some (L, cat) → 1 ≤ L) (c : Nat)
    (hc : c ≤ s.length) :
    (∀ r, tailOp f lim c = some r → ∃ k bs, Parses s (timesTail p lim) c (some k) ∧ r = ⟨true, k, k, bs⟩) ∧
    (∀ o, Parses s (timesTail p lim) c o → ∃ k bs, o = some k ∧ tailOp f lim c = some ⟨true, k, k, bs⟩) := by
  unfold tailOp
  rcases lim with _ | ⟨L, cat⟩
  · simp only [timesTail, Option.bind_eq_bind]
    refine ⟨fun r h => ?_, fun o h => ?_⟩
    · simp only [Option.bind_eq_some_iff] at h
      obtain ⟨r1, h1, h⟩ := h
      obtain ⟨k, hk, e⟩ := timesInf_sound hf c r1 r h hc h1
      exact ⟨k, [], hk, e⟩
    · obtain ⟨k, rfl⟩ := star_some h
      obtain ⟨r1, h1⟩ := star_first hf hc h
      exact ⟨k, [], rfl, by rw [h1]; exact timesInf_complete hf h hc r1 h1⟩
  · have hL := hlim L cat rfl
    simp only [Option.bind_eq_bind]
    by_cases hst : cat = .stopover ∧ L ≠ 1
    · obtain ⟨rfl, hL1⟩ := hst
      simp only [timesTail, hL1, if_false]
      obtain ⟨m, rfl⟩ : ∃ m, L = m + 2 := ⟨L - 2, by omega⟩
      rw [show m + 2 - 1 = m + 1 from rfl]
      refine ⟨fun r h => ?_, fun o h => ?_⟩
      · simp only [Option.bind_eq_some_iff] at h
        obtain ⟨r1, h1, h⟩ := h
        exact (timesLim_stop hf (m + 2) m c r1 [()] (by simp) hc h1).1 r h
      · obtain ⟨r1, h1⟩ := upto_first hf hc h
        rw [h1]
        exact (timesLim_stop hf (m + 2) m c r1 [()] (by simp) hc h1).2 o h
    · have htail : timesTail p (some (L, cat)) = .star p := by
        unfold timesTail
        split
        · rename_i L' heq
          simp only [Option.some.injEq, Prod.mk.injEq] at heq
          rw [if_pos (by grind)]
        · rfl
      have hcat : cat ≠ .stopover ∨ [()].length = L := by
        by_cases h : cat = .stopover
        · right; simp; grind
        · exact .inl h
      rw [htail]
      refine ⟨fun r h => ?_, fun o h => ?_⟩
      · simp only [Option.bind_eq_some_iff] at h
        obtain ⟨r1, h1, h⟩ := h
        exact timesLim_sound hf L cat c r1 [()] r h hc h1 hcat hL
      · obtain ⟨k, rfl⟩ := star_some h
        obtain ⟨r1, h1⟩ := star_first hf hc h
        rw [h1]
        obtain ⟨bs, e⟩ := timesLim_complete hf L cat h hc r1 [()] h1 hcat hL (by simpa using hL)
        exact ⟨k, bs, rfl, e⟩

theorem timesOp_eq (least : Bool) (lim : Option (Nat × Cat)) (i : Nat) : timesOp least f lim i = (do
    let res ← f i
    if res.ok then tailOp f lim res.ctx else some ⟨!least, i, i, []⟩) := by
  unfold timesOp tailOp
  rfl

theorem Denotes.times (hf : Denotes s f p) (least : Bool) (lim : Option (Nat × Cat))
    (hlim : ∀ L cat, lim = some (L, cat) → 1 ≤ L) :
    Denotes s (fun i => noAttr (timesOp least f lim i)) (timesPeg least p lim) := by
  refine ⟨?_, fun i hi r hr => ?_, fun i hi o ho => ?_⟩
  · unfold timesPeg
    split <;> exact ⟨hf.prim, primOk_tail hf.prim lim⟩
  · simp only [timesOp_eq, noAttr, Option.bind_eq_bind, Option.map_eq_some_iff, Option.bind_eq_some_iff] at hr
    obtain ⟨r0, ⟨res, h1, h2⟩, rfl⟩ := hr
    obtain ⟨o, hp, rfl⟩ := hf.sound i hi res h1
    cases o with
    | none =>
      simp only [resOf, Bool.false_eq_true, if_false, Option.some.injEq] at h2
      subst h2
      cases least with
      | true => exact ⟨none, .seq_fail hp, rfl⟩
      | false => exact ⟨some i, .opt_none (.seq_fail hp), rfl⟩
    | some j =>
      have hb := parses_bounds hp hf.prim hi _ rfl
      simp only [resOf, if_true] at h2
      obtain ⟨k, bs, hk, rfl⟩ := (tailOp_spec hf lim hlim j hb.2).1 r0 h2
      cases least with
      | true => exact ⟨some k, .seq_ok hp hk, rfl⟩
      | false => exact ⟨some k, .opt_ok (.seq_ok hp hk), rfl⟩
  · simp only [timesOp_eq, noAttr]
    have key : ∀ {o}, Parses s (.seq p (timesTail p lim)) i o →
        (o = none → ((f i).bind fun res => if res.ok then tailOp f lim res.ctx else some ⟨!least, i, i, []⟩) =
          some ⟨!least, i, i, []⟩) ∧
        ∀ k, o = some k → ∃ bs, ((f i).bind fun res => if res.ok then tailOp f lim res.ctx else some ⟨!least, i, i, []⟩) =
          some ⟨true, k, k, bs⟩ := by
      intro o h
      cases h with
      | seq_ok h1 h2 =>
        have hb := parses_bounds h1 hf.prim hi _ rfl
        obtain ⟨k, bs, e1, e2⟩ := (tailOp_spec hf lim hlim _ hb.2).2 _ h2
        subst e1
        refine ⟨fun h => (by cases h), fun k' hk' => ⟨bs, ?_⟩⟩
        cases hk'
        simp [hf.complete i hi _ h1, resOf, e2]
      | seq_fail h1 =>
        refine ⟨fun _ => by simp [hf.complete i hi _ h1, resOf], fun k hk => (by cases hk)⟩
    unfold timesPeg at ho
    cases least with
    | true =>
      simp only [if_true] at ho
      have := key ho
      cases o with
      | none => simp only [Option.bind_eq_bind, this.1 rfl]; rfl
      | some k =>
        obtain ⟨bs, e⟩ := this.2 k rfl
        simp only [Option.bind_eq_bind, e]; rfl
    | false =>
      simp only [Bool.false_eq_true, if_false] at ho
      cases ho with
      | opt_ok h =>
        obtain ⟨bs, e⟩ := (key h).2 _ rfl
        simp only [Option.bind_eq_bind, e]; rfl
      | opt_none h =>
        simp only [Option.bind_eq_bind, (key h).1 rfl]; rfl

end Sprout.Weed

import Verif.Proofs.Weed2

/-! # Lists `a % b` -/

namespace Sprout.Weed
open Spec Spec.Peg

variable {s : List Int} {f g : Nat → Option (Res Unit)} {p q : Peg}

/-- what follows the first element of `a % b`: any number of `b a`, and one more `b` if there is one -/
def listRest (p q : Peg) : Peg := .seq (.star (.seq q p)) (.opt q)

/-- what follows the first element if at most `n` further elements are wanted -/
def listRestN (p q : Peg) : Nat → Peg
  | 0 => .eps
  | n + 1 => .opt (.seq q (.opt (.seq p (listRestN p q n))))

theorem listRest_stop {c : Nat} (h : Parses s q c none) : Parses s (listRest p q) c (some c) :=
  .seq_ok (.star_stop (.seq_fail h)) (.opt_none h)

theorem listRest_sep {c j : Nat} (h : Parses s q c (some j)) (h' : Parses s p j none) : Parses s (listRest p q) c (some j) :=
  .seq_ok (.star_stop (.seq_ok h h')) (.opt_ok h)

theorem listRest_step {c j k : Nat} {o : Option Nat} (h : Parses s q c (some j)) (h' : Parses s p j (some k))
    (h2 : Parses s (listRest p q) k o) : Parses s (listRest p q) c o := by
  cases h2 with
  | seq_ok h3 h4 => exact .seq_ok (.star_step (.seq_ok h h') h3) h4
  | seq_fail h3 => obtain ⟨_, h⟩ := star_some h3; cases h

/-- the only ways to parse the rest of a list -/
theorem listRest_ind {motive : Nat → Nat → Prop}
    (stop : ∀ c, Parses s q c none → motive c c)
    (sep : ∀ c j, Parses s q c (some j) → Parses s p j none → motive c j)
    (step : ∀ c j k m, Parses s q c (some j) → Parses s p j (some k) → Parses s (listRest p q) k (some m) → motive k m → motive c m)
    {c : Nat} {o : Option Nat} (h : Parses s (listRest p q) c o) : ∃ m, o = some m ∧ motive c m := by
  cases h with
  | seq_fail h => obtain ⟨_, h⟩ := star_some h; cases h
  | @seq_ok _ _ _ j _ h1 h2 =>
    generalize hq : Peg.star (.seq q p) = e at h1
    generalize ho : some j = o1 at h1
    induction h1 with
    | star_stop h' =>
      cases hq; cases ho
      cases h' with
      | seq_ok h3 h4 =>
        cases h2 with
        | opt_ok h5 => cases parses_unique h3 _ h5; exact ⟨_, rfl, sep _ _ h3 h4⟩
        | opt_none h5 => cases parses_unique h3 _ h5
      | seq_fail h3 =>
        cases h2 with
        | opt_ok h5 => cases parses_unique h3 _ h5
        | opt_none h5 => exact ⟨_, rfl, stop _ h3⟩
    | star_step h1 h3 ih1 ih2 =>
      cases hq
      obtain ⟨m, rfl, hm⟩ := ih2 rfl ho
      subst ho
      cases h1 with
      | seq_ok h4 h5 => exact ⟨m, rfl, step _ _ _ _ h4 h5 (.seq_ok h3 h2) hm⟩
    | _ => cases hq

theorem listInf_sound (hf : Denotes s f p) (hg : Denotes s g q) (c : Nat) (res : Res Unit) (r : Res (List Unit))
    (h : listInf f g c res = some r) (hc : c ≤ s.length) (hr : g c = some res) :
    ∃ k, Parses s (listRest p q) c (some k) ∧ r = ⟨true, k, k, []⟩ := by
  refine listInf.partial_correctness f g
    (fun c res r => c ≤ s.length → g c = some res → ∃ k, Parses s (listRest p q) c (some k) ∧ r = ⟨true, k, k, []⟩)
    ?_ c res r h hc hr
  intro T ih c res r h hc hr
  obtain ⟨o, hq, rfl⟩ := hg.sound c hc res hr
  cases o with
  | none =>
    simp only [resOf, Bool.false_eq_true, if_false, Option.some.injEq] at h
    exact ⟨c, listRest_stop hq, h.symm⟩
  | some j =>
    have hb := parses_bounds hq hg.prim hc _ rfl
    simp only [resOf, if_true, Option.bind_eq_bind, Option.bind_eq_some_iff] at h
    obtain ⟨r1, h1, h⟩ := h
    obtain ⟨o, hp, rfl⟩ := hf.sound j hb.2 r1 h1
    cases o with
    | none =>
      simp only [resOf, Bool.false_eq_true, if_false, Option.some.injEq] at h
      exact ⟨j, listRest_sep hq hp, h.symm⟩
    | some k =>
      have hb2 := parses_bounds hp hf.prim hb.2 _ rfl
      simp only [resOf, if_true, Option.bind_eq_some_iff] at h
      obtain ⟨r2, h2, h⟩ := h
      obtain ⟨m, hm, e⟩ := ih _ _ _ h hb2.2 h2
      exact ⟨m, listRest_step hq hp hm, e⟩

/-- the rest of a list begins by trying the separator -/
theorem listRest_first (hg : Denotes s g q) {c : Nat} (hc : c ≤ s.length) {o : Option Nat} (h : Parses s (listRest p q) c o) :
    ∃ r, g c = some r := by
  cases h with
  | seq_ok h1 h2 =>
    cases h1 with
    | star_stop h => cases h with
      | seq_ok h _ => exact ⟨_, hg.complete _ hc _ h⟩
      | seq_fail h => exact ⟨_, hg.complete _ hc _ h⟩
    | star_step h _ => cases h with
      | seq_ok h _ => exact ⟨_, hg.complete _ hc _ h⟩
  | seq_fail h => obtain ⟨_, h⟩ := star_some h; cases h

theorem listInf_complete (hf : Denotes s f p) (hg : Denotes s g q) {c : Nat} {o : Option Nat} (h : Parses s (listRest p q) c o)
    (hc : c ≤ s.length) (res : Res Unit) (hr : g c = some res) :
    ∃ m, o = some m ∧ listInf f g c res = some ⟨true, m, m, []⟩ := by
  suffices hs : ∃ m, o = some m ∧ (c ≤ s.length → ∀ res, g c = some res → listInf f g c res = some ⟨true, m, m, []⟩) by
    obtain ⟨m, e, hm⟩ := hs
    exact ⟨m, e, hm hc res hr⟩
  refine listRest_ind (s := s) (p := p) (q := q)
    (motive := fun c m => c ≤ s.length → ∀ res, g c = some res → listInf f g c res = some ⟨true, m, m, []⟩)
    ?_ ?_ ?_ h
  · intro c h hc res hr
    rw [hg.complete c hc _ h] at hr; cases hr
    rw [listInf]; simp [resOf]
  · intro c j h h' hc res hr
    have hb := parses_bounds h hg.prim hc _ rfl
    rw [hg.complete c hc _ h] at hr; cases hr
    rw [listInf]; simp [resOf, hf.complete j hb.2 _ h']
  · intro c j k m h h' h2 ih hc res hr
    have hb := parses_bounds h hg.prim hc _ rfl
    have hb2 := parses_bounds h' hf.prim hb.2 _ rfl
    rw [hg.complete c hc _ h] at hr; cases hr
    obtain ⟨r1, hr1⟩ := listRest_first hg hb2.2 h2
    rw [listInf]
    simp only [resOf, if_true, Option.bind_eq_bind, hf.complete j hb.2 _ h', Option.bind_some, hr1]
    exact ih hb2.2 r1 hr1

theorem listLim_sound (hf : Denotes s f p) (hg : Denotes s g q) (L : Nat) (cat : Cat) (c : Nat) (res : Res Unit) (as : List Unit)
    (r : Res (List Unit)) (h : listLim f g L cat c res as = some r) (hc : c ≤ s.length) (hr : g c = some res)
    (hcat : cat ≠ .stopover ∨ as.length = L) (hL : 1 ≤ L) :
    ∃ k bs, Parses s (listRest p q) c (some k) ∧ r = ⟨true, k, k, bs⟩ := by
  refine listLim.partial_correctness f g L cat
    (fun c res as r => c ≤ s.length → g c = some res → (cat ≠ .stopover ∨ as.length = L) →
      ∃ k bs, Parses s (listRest p q) c (some k) ∧ r = ⟨true, k, k, bs⟩)
    ?_ c res as r h hc hr hcat
  intro T ih c res as r h hc hr hcat
  obtain ⟨o, hq, rfl⟩ := hg.sound c hc res hr
  cases o with
  | none =>
    simp only [resOf, Bool.false_eq_true, if_false, Option.some.injEq] at h
    exact ⟨c, as, listRest_stop hq, h.symm⟩
  | some j =>
    have hb := parses_bounds hq hg.prim hc _ rfl
    simp only [resOf, if_true, Option.bind_eq_bind, Option.bind_eq_some_iff] at h
    obtain ⟨r1, h1, h⟩ := h
    obtain ⟨o, hp, rfl⟩ := hf.sound j hb.2 r1 h1
    cases o with
    | none =>
      simp only [resOf, Bool.false_eq_true, if_false] at h
      refine ⟨j, as, listRest_sep hq hp, ?_⟩
      split at h
      · simpa using h.symm
      · split at h
        · simpa using h.symm
        · split at h
          · simpa using h.symm
          · cases h
    | some k =>
      have hb2 := parses_bounds hp hf.prim hb.2 _ rfl
      simp only [resOf, if_true] at h
      split at h
      · rename_i hl
        simp only [Option.bind_eq_some_iff] at h
        obtain ⟨r2, h2, h⟩ := h
        split at h
        · obtain ⟨m, bs, hm, e⟩ := ih _ _ _ _ h hb2.2 h2 (.inr hl)
          exact ⟨m, bs, listRest_step hq hp hm, e⟩
        · obtain ⟨m, bs, hm, e⟩ := ih _ _ _ _ h hb2.2 h2 (.inr (by simp; omega))
          exact ⟨m, bs, listRest_step hq hp hm, e⟩
      · rename_i hl
        have hcat' : cat ≠ .stopover := by rcases hcat with h | h <;> [exact h; exact absurd h hl]
        rw [if_pos hcat'] at h
        split at h
        · simp only [Option.bind_eq_some_iff] at h
          obtain ⟨r2, h2, h⟩ := h
          obtain ⟨m, bs, hm, e⟩ := ih _ _ _ _ h hb2.2 h2 (.inl hcat')
          exact ⟨m, bs, listRest_step hq hp hm, e⟩
        · split at h
          · simp only [Option.bind_eq_some_iff] at h
            obtain ⟨r2, h2, h⟩ := h
            obtain ⟨m, bs, hm, e⟩ := ih _ _ _ _ h hb2.2 h2 (.inl hcat')
            exact ⟨m, bs, listRest_step hq hp hm, e⟩
          · cases h

theorem listLim_complete (hf : Denotes s f p) (hg : Denotes s g q) (L : Nat) (cat : Cat) {c : Nat} {o : Option Nat}
    (h : Parses s (listRest p q) c o) (hc : c ≤ s.length) (res : Res Unit) (as : List Unit) (hr : g c = some res)
    (hcat : cat ≠ .stopover ∨ as.length = L) (hL : 1 ≤ L) (has : as.length ≤ L) :
    ∃ m bs, o = some m ∧ listLim f g L cat c res as = some ⟨true, m, m, bs⟩ := by
  suffices hs : ∃ m, o = some m ∧ (c ≤ s.length → ∀ res (as : List Unit), g c = some res → (cat ≠ .stopover ∨ as.length = L) →
      as.length ≤ L → ∃ bs, listLim f g L cat c res as = some ⟨true, m, m, bs⟩) by
    obtain ⟨m, e, hm⟩ := hs
    obtain ⟨bs, e'⟩ := hm hc res as hr hcat has
    exact ⟨m, bs, e, e'⟩
  refine listRest_ind (s := s) (p := p) (q := q)
    (motive := fun c m => c ≤ s.length → ∀ res (as : List Unit), g c = some res → (cat ≠ .stopover ∨ as.length = L) →
      as.length ≤ L → ∃ bs, listLim f g L cat c res as = some ⟨true, m, m, bs⟩)
    ?_ ?_ ?_ h
  · intro c h hc res as hr _ _
    rw [hg.complete c hc _ h] at hr; cases hr
    refine ⟨as, ?_⟩
    rw [listLim]; simp [resOf]
  · intro c j h h' hc res as hr hcat has
    have hb := parses_bounds h hg.prim hc _ rfl
    rw [hg.complete c hc _ h] at hr; cases hr
    refine ⟨as, ?_⟩
    rw [listLim]
    simp only [resOf, if_true, Option.bind_eq_bind, hf.complete j hb.2 _ h', Option.bind_some, Bool.false_eq_true, if_false]
    split
    · rfl
    · split
      · rfl
      · rw [if_pos (by omega)]
  · intro c j k m h h' h2 ih hc res as hr hcat has
    have hb := parses_bounds h hg.prim hc _ rfl
    have hb2 := parses_bounds h' hf.prim hb.2 _ rfl
    rw [hg.complete c hc _ h] at hr; cases hr
    obtain ⟨r1, hr1⟩ := listRest_first hg hb2.2 h2
    rw [listLim]
    simp only [resOf, if_true, Option.bind_eq_bind, hf.complete j hb.2 _ h', Option.bind_some, hr1]
    split
    · rename_i hl
      split
      · exact ih hb2.2 r1 as hr1 (.inr hl) has
      · exact ih hb2.2 r1 _ hr1 (.inr (by simp; omega)) (by simp; omega)
    · rename_i hl
      have hcat' : cat ≠ .stopover := by rcases hcat with h | h <;> [exact h; exact absurd h hl]
      rw [if_pos hcat']
      split
      · exact ih hb2.2 r1 _ hr1 (.inl hcat') (by simp; omega)
      · rw [if_pos (by omega)]
        exact ih hb2.2 r1 _ hr1 (.inl hcat') (by simp; omega)

theorem listRestN_first (hg : Denotes s g q) {n c : Nat} (hc : c ≤ s.length) {o : Option Nat}
    (h : Parses s (listRestN p q (n + 1)) c o) : ∃ r, g c = some r := by
  cases h with
  | opt_ok h => cases h with | seq_ok h _ => exact ⟨_, hg.complete _ hc _ h⟩
  | opt_none h => cases h with
    | seq_ok h _ => exact ⟨_, hg.complete _ hc _ h⟩
    | seq_fail h => exact ⟨_, hg.complete _ hc _ h⟩

theorem listLim_stop (hf : Denotes s f p) (hg : Denotes s g q) (L : Nat) : ∀ (m c : Nat) (res : Res Unit) (as : List Unit),
    m + 1 + as.length = L → c ≤ s.length → g c = some res →
    (∀ r, listLim f g L .stopover c res as = some r →
      ∃ k bs, Parses s (listRestN p q (m + 1)) c (some k) ∧ r = ⟨true, k, k, bs⟩) ∧
    (∀ o, Parses s (listRestN p q (m + 1)) c o →
      ∃ k bs, o = some k ∧ listLim f g L .stopover c res as = some ⟨true, k, k, bs⟩) := by
  intro m
  induction m with
  | zero =>
    intro c res as hm hc hr
    rw [listLim]
    simp only [show ¬ as.length = L by omega, show as.length + 1 = L by omega, if_false, if_true, ne_eq, not_true_eq_false,
      Option.bind_eq_bind]
    obtain ⟨o, hq, rfl⟩ := hg.sound c hc res hr
    cases o with
    | none =>
      have hP : Parses s (listRestN p q (0 + 1)) c (some c) := .opt_none (.seq_fail hq)
      refine ⟨fun r h => ?_, fun o h => ?_⟩
      · exact ⟨c, as, hP, by simpa [resOf] using h.symm⟩
      · exact ⟨c, as, parses_unique h _ hP, by simp [resOf]⟩
    | some j =>
      have hb := parses_bounds hq hg.prim hc _ rfl
      simp only [resOf, if_true]
      have key : ∀ o, f j = some (resOf j o) → Parses s p j o →
          ∃ k bs, Parses s (listRestN p q (0 + 1)) c (some k) ∧
            (f j).bind (fun r => if r.ok = true then some (⟨true, r.cur, r.ctx, as ++ [r.attr]⟩ : Res (List Unit))
              else some ⟨true, j, j, as⟩) = some ⟨true, k, k, bs⟩ := by
        intro o e ho
        rw [e]
        cases o with
        | none => exact ⟨j, as, .opt_ok (.seq_ok hq (.opt_none (.seq_fail ho))), by simp [resOf]⟩
        | some k => exact ⟨k, as ++ [()], .opt_ok (.seq_ok hq (.opt_ok (.seq_ok ho .eps))), by simp [resOf]⟩
      refine ⟨fun r h => ?_, fun o h => ?_⟩
      · obtain ⟨r1, h1, _⟩ := Option.bind_eq_some_iff.1 h
        obtain ⟨o, hp, rfl⟩ := hf.sound j hb.2 r1 h1
        obtain ⟨k, bs, hk, e⟩ := key o h1 hp
        rw [e] at h
        exact ⟨k, bs, hk, by simpa using h.symm⟩
      · have hex : ∃ o', Parses s p j o' := by
          cases h with
          | opt_ok h => cases h with
            | seq_ok h1 h2 =>
              cases parses_unique h1 _ hq
              cases h2 with
              | opt_ok h => cases h with | seq_ok h _ => exact ⟨_, h⟩
              | opt_none h => cases h with
                | seq_ok h _ => exact ⟨_, h⟩
                | seq_fail h => exact ⟨_, h⟩
          | opt_none h => cases h with
            | seq_ok h1 h2 => cases h2
            | seq_fail h1 => cases parses_unique h1 _ hq
        obtain ⟨o', ho'⟩ := hex
        obtain ⟨k, bs, hk, e⟩ := key o' (hf.complete j hb.2 _ ho') ho'
        exact ⟨k, bs, parses_unique h _ hk, e⟩
  | succ m ih =>
    intro c res as hm hc hr
    rw [listLim]
    simp only [show ¬ as.length = L by omega, show ¬ as.length + 1 = L by omega, show as.length + 1 < L by omega, if_false, if_true,
      Option.bind_eq_bind]
    obtain ⟨o, hq, rfl⟩ := hg.sound c hc res hr
    cases o with
    | none =>
      have hP : Parses s (listRestN p q (m + 1 + 1)) c (some c) := .opt_none (.seq_fail hq)
      refine ⟨fun r h => ?_, fun o h => ?_⟩
      · exact ⟨c, as, hP, by simpa [resOf] using h.symm⟩
      · exact ⟨c, as, parses_unique h _ hP, by simp [resOf]⟩
    | some j =>
      have hb := parses_bounds hq hg.prim hc _ rfl
      simp only [resOf, if_true]
      refine ⟨fun r h => ?_, fun o h => ?_⟩
      · obtain ⟨r1, h1, h⟩ := Option.bind_eq_some_iff.1 h
        obtain ⟨o, hp, rfl⟩ := hf.sound j hb.2 r1 h1
        cases o with
        | none =>
          exact ⟨j, as, .opt_ok (.seq_ok hq (.opt_none (.seq_fail hp))), by simpa [resOf] using h.symm⟩
        | some k =>
          have hb2 := parses_bounds hp hf.prim hb.2 _ rfl
          simp only [resOf, if_true] at h
          obtain ⟨r2, h2, h⟩ := Option.bind_eq_some_iff.1 h
          obtain ⟨k', bs, hk, e⟩ := (ih k r2 (as ++ [()]) (by simp; omega) hb2.2 h2).1 r h
          exact ⟨k', bs, .opt_ok (.seq_ok hq (.opt_ok (.seq_ok hp hk))), e⟩
      · have hin : ∃ o', Parses s (.opt (.seq p (listRestN p q (m + 1)))) j o' ∧ o = o' := by
          cases h with
          | opt_ok h => cases h with
            | seq_ok h1 h2 =>
              cases parses_unique h1 _ hq
              exact ⟨_, h2, rfl⟩
          | opt_none h => cases h with
            | seq_ok h1 h2 => cases h2
            | seq_fail h1 => cases parses_unique h1 _ hq
        obtain ⟨_, hin, rfl⟩ := hin
        have hrest : ∀ {k o'}, Parses s p j (some k) → Parses s (listRestN p q (m + 1)) k o' →
            ∃ k' bs, o' = some k' ∧ ((f j).bind fun r => if r.ok = true then
              (g r.ctx).bind fun r2 => listLim f g L .stopover r.ctx r2 (as ++ [r.attr])
              else some (⟨true, j, j, as⟩ : Res (List Unit))) = some ⟨true, k', k', bs⟩ := by
          intro k o' hp hk
          have hb2 := parses_bounds hp hf.prim hb.2 _ rfl
          obtain ⟨r2, h2⟩ := listRestN_first hg hb2.2 hk
          obtain ⟨k', bs, e1, e2⟩ := (ih k r2 (as ++ [()]) (by simp; omega) hb2.2 h2).2 o' hk
          refine ⟨k', bs, e1, ?_⟩
          simp only [hf.complete j hb.2 _ hp, Option.bind_some, resOf, if_true, h2]
          exact e2
        clear h
        cases hin with
        | opt_ok h => cases h with
          | seq_ok h1 h2 =>
            obtain ⟨k', bs, e1, e2⟩ := hrest h1 h2
            exact ⟨k', bs, e1, e2⟩
        | opt_none h => cases h with
          | seq_ok h1 h2 =>
            obtain ⟨k', bs, e1, e2⟩ := hrest h1 h2
            cases e1
          | seq_fail h1 =>
            exact ⟨j, as, rfl, by simp [hf.complete j hb.2 _ h1, resOf]⟩

/-- what `a % b` recognises -/
def listPeg (p q : Peg) : Option (Nat × Cat) → Peg
  | some (L, .stopover) => .seq p (if L = 1 then listRest p q else listRestN p q (L - 1))
  | _ => .seq p (listRest p q)

/-- the same without the first element -/
def listTail (p q : Peg) : Option (Nat × Cat) → Peg
  | some (L, .stopover) => if L = 1 then listRest p q else listRestN p q (L - 1)
  | _ => listRest p q

theorem listPeg_eq (lim : Option (Nat × Cat)) : listPeg p q lim = .seq p (listTail p q lim) := by
  unfold listPeg listTail
  split <;> rfl

theorem primOk_listRestN (hp : PrimOk p) (hq : PrimOk q) : ∀ n, PrimOk (listRestN p q n)
  | 0 => trivial
  | n + 1 => ⟨hq, hp, primOk_listRestN hp hq n⟩

theorem primOk_listTail (hp : PrimOk p) (hq : PrimOk q) (lim : Option (Nat × Cat)) : PrimOk (listTail p q lim) := by
  unfold listTail
  split
  · split
    · exact ⟨⟨hq, hp⟩, hq⟩
    · exact primOk_listRestN hp hq _
  · exact ⟨⟨hq, hp⟩, hq⟩

def ltailOp (f g : Nat → Option (Res Unit)) (lim : Option (Nat × Cat)) (c : Nat) : Option (Res (List Unit)) := do
  let r ← g c
  match lim with
  | none => listInf f g c r
  | some (L, cat) => listLim f g L cat c r [()]

theorem ltailOp_spec (hf : Denotes s f p) (hg : Denotes s g q) (lim : Option (Nat × Cat))
    (hlim : ∀ L cat, lim = some (L, cat) → 1 ≤ L) (c : Nat) (hc : c ≤ s.length) :
    (∀ r, ltailOp f g lim c = some r → ∃ k bs, Parses s (listTail p q lim) c (some k) ∧ r = ⟨true, k, k, bs⟩) ∧
    (∀ o, Parses s (listTail p q lim) c o → ∃ k bs, o = some k ∧ ltailOp f g lim c = some ⟨true, k, k, bs⟩) := by
  unfold ltailOp
  rcases lim with _ | ⟨L, cat⟩
  · simp only [listTail, Option.bind_eq_bind]
    refine ⟨fun r h => ?_, fun o h => ?_⟩
    · simp only [Option.bind_eq_some_iff] at h
      obtain ⟨r1, h1, h⟩ := h
      obtain ⟨k, hk, e⟩ := listInf_sound hf hg c r1 r h hc h1
      exact ⟨k, [], hk, e⟩
    · obtain ⟨r1, h1⟩ := listRest_first hg hc h
      obtain ⟨m, e1, e2⟩ := listInf_complete hf hg h hc r1 h1
      exact ⟨m, [], e1, by rw [h1]; exact e2⟩
  · have hL := hlim L cat rfl
    simp only [Option.bind_eq_bind]
    by_cases hst : cat = .stopover ∧ L ≠ 1
    · obtain ⟨rfl, hL1⟩ := hst
      simp only [listTail, hL1, if_false]
      obtain ⟨m, rfl⟩ : ∃ m, L = m + 2 := ⟨L - 2, by omega⟩
      rw [show m + 2 - 1 = m + 1 from rfl]
      refine ⟨fun r h => ?_, fun o h => ?_⟩
      · simp only [Option.bind_eq_some_iff] at h
        obtain ⟨r1, h1, h⟩ := h
        exact (listLim_stop hf hg (m + 2) m c r1 [()] (by simp) hc h1).1 r h
      · obtain ⟨r1, h1⟩ := listRestN_first hg hc h
        rw [h1]
        exact (listLim_stop hf hg (m + 2) m c r1 [()] (by simp) hc h1).2 o h
    · have htail : listTail p q (some (L, cat)) = listRest p q := by
        unfold listTail
        split
        · rename_i L' heq
          simp only [Option.some.injEq, Prod.mk.injEq] at heq
          rw [if_pos (by grind)]
        · rfl
      have hcat : cat ≠ .stopover ∨ [()].length = L := by
        by_cases h : cat = .stopover
        · right; simp; grind
        · exact .inl h
      rw [htail]
      refine ⟨fun r h => ?_, fun o h => ?_⟩
      · simp only [Option.bind_eq_some_iff] at h
        obtain ⟨r1, h1, h⟩ := h
        exact listLim_sound hf hg L cat c r1 [()] r h hc h1 hcat hL
      · obtain ⟨r1, h1⟩ := listRest_first hg hc h
        rw [h1]
        exact listLim_complete hf hg L cat h hc r1 [()] h1 hcat hL (by simpa using hL)

theorem listOp_eq (lim : Option (Nat × Cat)) (i : Nat) : listOp f g lim i = (do
    let res ← f i
    if res.ok then ltailOp f g lim res.ctx else some ⟨false, i, i, []⟩) := by
  unfold listOp ltailOp
  rfl

theorem Denotes.list (hf : Denotes s f p) (hg : Denotes s g q) (lim : Option (Nat × Cat))
    (hlim : ∀ L cat, lim = some (L, cat) → 1 ≤ L) :
    Denotes s (fun i => noAttr (listOp f g lim i)) (listPeg p q lim) := by
  rw [listPeg_eq]
  refine ⟨⟨hf.prim, primOk_listTail hf.prim hg.prim lim⟩, fun i hi r hr => ?_, fun i hi o ho => ?_⟩
  · simp only [listOp_eq, noAttr, Option.bind_eq_bind, Option.map_eq_some_iff, Option.bind_eq_some_iff] at hr
    obtain ⟨r0, ⟨res, h1, h2⟩, rfl⟩ := hr
    obtain ⟨o, hp, rfl⟩ := hf.sound i hi res h1
    cases o with
    | none =>
      simp only [resOf, Bool.false_eq_true, if_false, Option.some.injEq] at h2
      subst h2
      exact ⟨none, .seq_fail hp, rfl⟩
    | some j =>
      have hb := parses_bounds hp hf.prim hi _ rfl
      simp only [resOf, if_true] at h2
      obtain ⟨k, bs, hk, rfl⟩ := (ltailOp_spec hf hg lim hlim j hb.2).1 r0 h2
      exact ⟨some k, .seq_ok hp hk, rfl⟩
  · simp only [listOp_eq, noAttr]
    cases ho with
    | seq_ok h1 h2 =>
      have hb := parses_bounds h1 hf.prim hi _ rfl
      obtain ⟨k, bs, e1, e2⟩ := (ltailOp_spec hf hg lim hlim _ hb.2).2 _ h2
      subst e1
      simp only [Option.bind_eq_bind, hf.complete i hi _ h1, Option.bind_some, resOf, if_true, e2]
      rfl
    | seq_fail h1 =>
      simp only [Option.bind_eq_bind, hf.complete i hi _ h1, Option.bind_some, resOf, Bool.false_eq_true, if_false]
      rfl

end Sprout.Weed

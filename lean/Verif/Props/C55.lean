import Verif.Proofs.Mt4

/-!
# C55: equality of Mersenne twister engines

`==` compares engines whose blocks are at different positions by running the recurrence backwards. With C++14 constexpr, for all
parameters with an invertible matrix (`a` has its top bit), `1 < m`, and tempering shifts by at least one: engines from which at least one
number was drawn are equal exactly if all their future outputs agree. Refuted: for an engine that is fresh from its seed (its first word is
compared in full, though only its upper bits matter), and for `m = 1` (engines with different outputs compare equal).
-/

namespace Sprout
open Mt Spec

/-- the two engines produce the same numbers from now on -/
def MtSameFuture {W : Nat} (P : Par W) (e1 e2 : Eng W) : Prop := ∀ k, (draw P k e1).map Prod.fst = (draw P k e2).map Prod.fst

/-- `e` comes from a seed by `k` calls of `operator()` -/
def MtReached {W : Nat} (P : Par W) (value : BitVec W) (k : Nat) (e : Eng W) : Prop :=
  ∃ e0 vs, seed P value = some e0 ∧ draw P k e0 = some (vs, e)

/-- the full statement, for parameters that the standard admits, and tempering that is one-to-one -/
def C55_statement : Prop := ∀ (W : Nat) (P : Par W), 32 ≤ W → P.Fits → 0 < P.u → 0 < P.s → 0 < P.t → 0 < P.l →
  2 ^ (P.w - 1) ≤ P.a.toNat → ∀ s1 k1 e1 s2 k2 e2, MtReached P s1 k1 e1 → MtReached P s2 k2 e2 →
    ∃ r, eqOp P e1 e2 = some r ∧ (r = true ↔ MtSameFuture P e1 e2)

/-- a reached engine is at the place in the sequence where it should be -/
theorem Mt.Reached.live {W : Nat} {P : Par W} (h : P.Fits) {value : BitVec W} {k : Nat} {e : Eng W} (hr : MtReached P value k e) :
    ∃ X, IsMt P.nat value.toNat X ∧ Live P X (P.n + k) e ∧ (0 < k → P.n ≤ P.n + k - e.i) := by
  obtain ⟨e0, vs, h1, h2⟩ := hr
  have hX := seqAt_isMt P.nat value.toNat h.ok
  refine ⟨_, hX, ?_⟩
  obtain ⟨e0', g1, g2, g3⟩ := seed_at h hX
  rw [h1] at g1; cases g1
  have hmn := h.ok.mn
  simp only [Par.nat] at hmn
  have gen : ∀ k q e vs e', At P (seqAt P.nat value.toNat h.ok) q e → (e.i = P.n ∨ P.n ≤ q - e.i) → P.n ≤ q → draw P k e = some (vs, e') →
      At P (seqAt P.nat value.toNat h.ok) (q + k) e' ∧ (e'.i = P.n ∨ P.n ≤ q + k - e'.i) ∧ (0 < k → P.n ≤ q + k - e'.i) := by
    intro k
    induction k with
    | zero =>
      intro q e vs e' hA ht hq hd
      unfold draw at hd
      cases hd
      exact ⟨hA, ht, fun h => absurd h (by omega)⟩
    | succ k ih =>
      intro q e vs e' hA ht hq hd
      obtain ⟨v, e1, a1, -, a3, a4⟩ := next_eq h hX.step hA
      have htw : P.n ≤ q + 1 - e1.i := by
        have hle := hA.le
        unfold next at a1
        by_cases hi : e.i = P.n
        · rw [if_pos hi] at a1
          obtain ⟨x', b1, -, -⟩ := doTwist_eq h hX.step hA.len hA.holds
          simp only [Option.bind_eq_bind, b1, Option.bind_some] at a1
          obtain ⟨z, -, a1⟩ := Option.bind_eq_some_iff.1 a1
          obtain ⟨z', -, a1⟩ := Option.bind_eq_some_iff.1 a1
          simp only [Option.some.injEq, Prod.mk.injEq] at a1
          rw [← a1.2]
          simp only
          omega
        · rw [if_neg hi] at a1
          simp only [Option.bind_eq_bind, Option.bind_some] at a1
          obtain ⟨z, -, a1⟩ := Option.bind_eq_some_iff.1 a1
          obtain ⟨z', -, a1⟩ := Option.bind_eq_some_iff.1 a1
          simp only [Option.some.injEq, Prod.mk.injEq] at a1
          rw [← a1.2]
          simp only
          have := hA.iq
          omega
      unfold draw at hd
      simp only [Option.bind_eq_bind, a1, Option.bind_some] at hd
      obtain ⟨⟨vs2, e2⟩, b1, hd⟩ := Option.bind_eq_some_iff.1 hd
      simp only [Option.some.injEq, Prod.mk.injEq] at hd
      rw [← hd.2]
      obtain ⟨c1, c2, c3⟩ := ih (q + 1) e1 vs2 e2 a3 (Or.inr htw) (by omega) b1
      rw [show q + (k + 1) = q + 1 + k by omega]
      refine ⟨c1, c2, fun _ => ?_⟩
      by_cases hk : 0 < k
      · exact c3 hk
      · have hk0 : k = 0 := by omega
        subst hk0
        unfold draw at b1
        cases b1
        exact htw
  obtain ⟨c1, c2, c3⟩ := gen k P.n e0 vs e g2 (Or.inl g3) (Nat.le_refl _) h2
  refine ⟨⟨c1, ?_, c2⟩, c3⟩
  cases k with
  | zero => unfold draw at h2; cases h2; rw [g3]; omega
  | succ k => exact draw_i h hX.step k g2 h2

/-- the futures agree exactly if the words do -/
theorem Mt.sameFuture_iff {W : Nat} {P : Par W} (h : P.Fits) (hu : 0 < P.u) (hs : 0 < P.s) (ht : 0 < P.t) (hl : 0 < P.l) {X Y : Nat → Nat}
    (hX : MtRec P.nat X) (hY : MtRec P.nat Y) (hXl : ∀ k, X k < 2 ^ P.w) (hYl : ∀ k, Y k < 2 ^ P.w) {q1 q2 : Nat} {e1 e2 : Eng W}
    (h1 : At P X q1 e1) (h2 : At P Y q2 e2) : MtSameFuture P e1 e2 ↔ ∀ k, X (q1 + k) = Y (q2 + k) := by
  have out : ∀ k, ((draw P k e1).map Prod.fst = (draw P k e2).map Prod.fst) ↔
      (List.range' q1 k).map (fun j => mtTemper P.nat (X j)) = (List.range' q2 k).map (fun j => mtTemper P.nat (Y j)) := by
    intro k
    obtain ⟨v1, f1, a1, a2, -⟩ := draw_eq h hX k h1
    obtain ⟨v2, f2, b1, b2, -⟩ := draw_eq h hY k h2
    rw [a1, b1, ← a2, ← b2]
    simp only [Option.map_some, Option.some.injEq]
    exact ⟨fun h => by rw [h], fun h => List.map_injective_iff.2 (fun _ _ h => BitVec.eq_of_toNat_eq h) h⟩
  constructor
  · intro hf k
    have := (out (k + 1)).1 (hf (k + 1))
    have g := congrArg (fun l => l[k]?) this
    simp only [List.getElem?_map, List.getElem?_range' (show k < k + 1 by omega), Option.map_some, Option.some.injEq, Nat.one_mul] at g
    exact mtTemper_inj h.ok hu hs ht hl (hXl _) (hYl _) g
  · intro hf k
    rw [out k, List.range'_eq_map_range, List.range'_eq_map_range, List.map_map, List.map_map]
    apply List.map_congr_left
    intro j _
    simp only [Function.comp]
    rw [hf j]

/-- a reached engine compared with another one: the result says whether the windows of `n` words coincide -/
theorem Mt.eqOp_eq {W : Nat} {P : Par W} (h : P.Inv) {X Y : Nat → Nat} (hX : MtRec P.nat X) (hY : MtRec P.nat Y) (hXl : ∀ k, X k < 2 ^ P.w)
    (hYl : ∀ k, Y k < 2 ^ P.w) {q1 q2 : Nat} {e1 e2 : Eng W} (h1 : Live P X q1 e1) (h2 : Live P Y q2 e2) :
    ∃ r, eqOp P e1 e2 = some r ∧
      (r = true ↔ ∀ j, j < P.n → X (q1 - max e1.i e2.i + j) = Y (q2 - max e1.i e2.i + j)) := by
  unfold eqOp
  split
  · rename_i hlt
    rw [show max e1.i e2.i = e2.i by omega]
    exact doEqualImpl_eq h hX hXl h1 h2 (by omega)
  · rename_i hlt
    rw [show max e1.i e2.i = e1.i by omega]
    obtain ⟨r, a, b⟩ := doEqualImpl_eq h hY hYl h2 h1 (by omega)
    exact ⟨r, a, b.trans ⟨fun h j hj => (h j hj).symm, fun h j hj => (h j hj).symm⟩⟩

/-- equal engines have the same future, also fresh ones -/
theorem C55_sound_partial {W : Nat} (P : Par W) (h : P.Inv) (hu : 0 < P.u) (hs : 0 < P.s) (ht : 0 < P.t) (hl : 0 < P.l)
    (s1 s2 : BitVec W) (k1 k2 : Nat) (e1 e2 : Eng W) (h1 : MtReached P s1 k1 e1) (h2 : MtReached P s2 k2 e2) :
    ∃ r, eqOp P e1 e2 = some r ∧ (r = true → MtSameFuture P e1 e2) := by
  obtain ⟨X, hX, l1, -⟩ := Mt.Reached.live h.fits h1
  obtain ⟨Y, hY, l2, -⟩ := Mt.Reached.live h.fits h2
  have hXl := Mt.IsMt.lt h.fits.ok hX
  have hYl := Mt.IsMt.lt h.fits.ok hY
  obtain ⟨r, a, b⟩ := Mt.eqOp_eq h hX.step hY.step hXl hYl l1 l2
  refine ⟨r, a, fun hr => ?_⟩
  rw [Mt.sameFuture_iff h.fits hu hs ht hl hX.step hY.step hXl hYl l1.toAt l2.toAt]
  intro k
  have := forth_agree h.fits.ok hX.step hY.step (b.1 hr) (max e1.i e2.i + k)
  have i1 := l1.le; have i2 := l2.le
  rwa [show P.n + k1 - max e1.i e2.i + (max e1.i e2.i + k) = P.n + k1 + k by omega,
    show P.n + k2 - max e1.i e2.i + (max e1.i e2.i + k) = P.n + k2 + k by omega] at this

/-- for engines from which a number was drawn, equality decides whether the futures are the same -/
theorem C55_iff_partial {W : Nat} (P : Par W) (h : P.Inv) (hu : 0 < P.u) (hs : 0 < P.s) (ht : 0 < P.t) (hl : 0 < P.l)
    (s1 s2 : BitVec W) (k1 k2 : Nat) (hk1 : 0 < k1) (hk2 : 0 < k2) (e1 e2 : Eng W) (h1 : MtReached P s1 k1 e1) (h2 : MtReached P s2 k2 e2) :
    ∃ r, eqOp P e1 e2 = some r ∧ (r = true ↔ MtSameFuture P e1 e2) := by
  obtain ⟨X, hX, l1, t1⟩ := Mt.Reached.live h.fits h1
  obtain ⟨Y, hY, l2, t2⟩ := Mt.Reached.live h.fits h2
  have hXl := Mt.IsMt.lt h.fits.ok hX
  have hYl := Mt.IsMt.lt h.fits.ok hY
  have i1 := l1.le; have i2 := l2.le
  have t1 := t1 hk1
  have t2 := t2 hk2
  obtain ⟨r, a, b⟩ := Mt.eqOp_eq h hX.step hY.step hXl hYl l1 l2
  refine ⟨r, a, b.trans ?_⟩
  rw [Mt.sameFuture_iff h.fits hu hs ht hl hX.step hY.step hXl hYl l1.toAt l2.toAt]
  constructor
  · intro hr k
    have := forth_agree h.fits.ok hX.step hY.step hr (max e1.i e2.i + k)
    rwa [show P.n + k1 - max e1.i e2.i + (max e1.i e2.i + k) = P.n + k1 + k by omega,
      show P.n + k2 - max e1.i e2.i + (max e1.i e2.i + k) = P.n + k2 + k by omega] at this
  · intro hf j _
    have := back_agree h.fits.ok h.top h.m1 hX.step hY.step hXl hYl (max e1.i e2.i)
      (p := P.n + k1 - max e1.i e2.i - 1) (q := P.n + k2 - max e1.i e2.i - 1) (fun k => by
        have := hf k
        rwa [show P.n + k1 - max e1.i e2.i - 1 + 1 + max e1.i e2.i + k = P.n + k1 + k by omega,
          show P.n + k2 - max e1.i e2.i - 1 + 1 + max e1.i e2.i + k = P.n + k2 + k by omega]) j
    rwa [show P.n + k1 - max e1.i e2.i - 1 + 1 + j = P.n + k1 - max e1.i e2.i + j by omega,
      show P.n + k2 - max e1.i e2.i - 1 + 1 + j = P.n + k2 - max e1.i e2.i + j by omega] at this

/-- the same seed and the same number of calls: equal -/
theorem C55_refl {W : Nat} (P : Par W) (h : P.Inv) (s : BitVec W) (k : Nat) (e1 e2 : Eng W) (h1 : MtReached P s k e1) (h2 : MtReached P s k e2) :
    eqOp P e1 e2 = some true := by
  have he : e1 = e2 := by
    obtain ⟨a, b, c, d⟩ := h1
    obtain ⟨a', b', c', d'⟩ := h2
    rw [c] at c'; cases c'
    rw [d] at d'; cases d'; rfl
  subst he
  obtain ⟨X, hX, l1, -⟩ := Mt.Reached.live h.fits h1
  have hXl := Mt.IsMt.lt h.fits.ok hX
  obtain ⟨r, a, b⟩ := Mt.eqOp_eq h hX.step hX.step hXl hXl l1 l1
  rw [a, b.2 (fun _ _ => rfl)]

/-- the predefined engines satisfy the conditions -/
theorem C55_predefined : (∀ W, W = 32 ∨ W = 64 → (mt19937 W).Inv ∧ (mt11213b W).Inv) ∧ mt19937_64.Inv := by
  refine ⟨?_, ?_⟩
  · rintro W (rfl | rfl) <;>
      exact ⟨⟨⟨⟨by decide, by decide, by decide, by decide, by decide, by decide, by decide, by decide, by decide, by decide, by decide, by decide,
        by decide⟩, by decide, by decide, by decide, by decide, by decide, by decide, by decide⟩, by decide, by decide⟩,
       ⟨⟨⟨by decide, by decide, by decide, by decide, by decide, by decide, by decide, by decide, by decide, by decide, by decide, by decide,
        by decide⟩, by decide, by decide, by decide, by decide, by decide, by decide, by decide⟩, by decide, by decide⟩⟩
  · exact ⟨⟨⟨by decide, by decide, by decide, by decide, by decide, by decide, by decide, by decide, by decide, by decide, by decide, by decide,
        by decide⟩, by decide, by decide, by decide, by decide, by decide, by decide, by decide⟩, by decide, by decide⟩

/-- a small engine: `w = 3, n = 3, m = 2, r = 2` -/
def mtSmall : Par 32 := ⟨3, 3, 2, 2, 4#32, 1, 7#32, 1, 7#32, 1, 7#32, 1, 5#32⟩

theorem mtSmall_fits : mtSmall.Fits := ⟨⟨by decide, by decide, by decide, by decide, by decide, by decide, by decide, by decide, by decide, by decide,
  by decide, by decide, by decide⟩, by decide, by decide, by decide, by decide, by decide, by decide, by decide⟩

/-- a fresh engine (seed 0) and one after three numbers (seed 3): the same future, but not equal -/
theorem C55_fresh_false : ¬ C55_statement := by
  intro h
  obtain ⟨r, h1, h2⟩ := h 32 mtSmall (by decide) mtSmall_fits (by decide) (by decide) (by decide) (by decide) (by decide)
    0#32 0 ⟨[0#32, 1#32, 7#32], 3⟩ 3#32 3 ⟨[1#32, 1#32, 7#32], 3⟩
    ⟨⟨[0#32, 1#32, 7#32], 3⟩, [], by decide, by decide⟩
    (by
      refine ⟨⟨[3#32, 3#32, 4#32], 3⟩, [7#32, 7#32, 6#32], by decide, by decide⟩)
  have e1 : eqOp mtSmall ⟨[0#32, 1#32, 7#32], 3⟩ ⟨[1#32, 1#32, 7#32], 3⟩ = some false := by decide
  rw [e1] at h1; cases h1
  have hn : next mtSmall ⟨[0#32, 1#32, 7#32], 3⟩ = next mtSmall ⟨[1#32, 1#32, 7#32], 3⟩ := by decide
  have : MtSameFuture mtSmall ⟨[0#32, 1#32, 7#32], 3⟩ ⟨[1#32, 1#32, 7#32], 3⟩ := by
    intro k
    cases k with
    | zero => rfl
    | succ k => unfold draw; rw [hn]
  exact absurd (h2.2 this) (by decide)

/-- the same with `m = 1, r = 1` -/
def mtSmall1 : Par 32 := ⟨3, 3, 1, 1, 4#32, 1, 7#32, 1, 7#32, 1, 7#32, 1, 5#32⟩

theorem mtSmall1_fits : mtSmall1.Fits := ⟨⟨by decide, by decide, by decide, by decide, by decide, by decide, by decide, by decide, by decide, by decide,
  by decide, by decide, by decide⟩, by decide, by decide, by decide, by decide, by decide, by decide, by decide⟩

/-- `m = 1`: engines that compare equal, though the next numbers are 5 and 7 -/
theorem C55_m_one_false : mtSmall1.Fits ∧ ∃ e1 e2, MtReached mtSmall1 1#32 1 e1 ∧ MtReached mtSmall1 5#32 3 e2 ∧ eqOp mtSmall1 e1 e2 = some true ∧
    (draw mtSmall1 1 e1).map Prod.fst = some [5#32] ∧ (draw mtSmall1 1 e2).map Prod.fst = some [7#32] :=
  ⟨mtSmall1_fits, ⟨[6#32, 4#32, 7#32], 1⟩, ⟨[6#32, 2#32, 6#32], 3⟩, ⟨⟨[1#32, 6#32, 3#32], 3⟩, [1#32], by decide, by decide⟩,
    ⟨⟨[5#32, 4#32, 0#32], 3⟩, [1#32, 4#32, 1#32], by decide, by decide⟩, by decide, by decide, by decide⟩

/-- engines at different positions of their blocks that are recognised as equal, and others that are recognised as different -/
example : mtSmall.Inv ∧ ∃ e1 e2 e3, MtReached mtSmall 0#32 1 e1 ∧ MtReached mtSmall 3#32 4 e2 ∧ MtReached mtSmall 3#32 5 e3 ∧
    eqOp mtSmall e1 e2 = some true ∧ eqOp mtSmall e1 e3 = some false :=
  ⟨⟨mtSmall_fits, by decide, by decide⟩, _, _, _, ⟨_, _, rfl, rfl⟩, ⟨_, _, rfl, rfl⟩, ⟨_, _, rfl, rfl⟩, by decide, by decide⟩

end Sprout

import Verif.Proofs.Mt2

/-!
# C54: Mersenne twister

With C++14 constexpr, for all parameters with `0 < r` and no shift by the whole width of the type: the outputs are exactly those of the
standard's recurrence. Refuted: for `r = 0` (the parity is taken from the wrong word), for a shift by the width of the type, and, without
C++14 constexpr, for `mt19937` itself.
-/

namespace Sprout
open Mt Spec

/-- parameters that the standard admits for an unsigned type of `W >= 32` bits -/
structure MtParams {W : Nat} (P : Par W) : Prop where
  W32 : 32 ≤ W
  wW : P.w ≤ W
  ok : P.nat.Ok

/-- the full statement: the first `k` outputs of the engine seeded with `value` are the tempered words `X n .. X (n + k - 1)` -/
def C54_statement (init : {W : Nat} → Par W → BitVec W → Option (Eng W))
    (nxt : {W : Nat} → Par W → Eng W → Option (BitVec W × Eng W)) : Prop :=
  ∀ (W : Nat) (P : Par W) (value : BitVec W) (X : Nat → Nat), MtParams P → IsMt P.nat value.toNat X →
    ∃ e, init P value = some e ∧
      ∀ k, ∃ v e', ((List.range k).foldlM (fun (p : BitVec W × Eng W) _ => nxt P p.2) (0#W, e)).bind (fun p => nxt P p.2) = some (v, e') ∧
        v.toNat = mtTemper P.nat (X (P.n + k))

/-- the outputs, one list for all of them -/
theorem C54_outputs_partial {W : Nat} (P : Par W) (value : BitVec W) (X : Nat → Nat) (h : P.Fits) (hX : IsMt P.nat value.toNat X) (k : Nat) :
    ∃ e vs e', seed P value = some e ∧ draw P k e = some (vs, e') ∧
      vs.map BitVec.toNat = (List.range k).map (fun j => mtTemper P.nat (X (P.n + j))) := by
  obtain ⟨e, h1, h2, -⟩ := seed_at h hX
  obtain ⟨vs, e', h3, h4, -⟩ := draw_eq h hX.step k h2
  refine ⟨e, vs, e', h1, h3, ?_⟩
  rw [h4, List.range'_eq_map_range, List.map_map]
  rfl

/-- in the form of the statement, where `0 < r` and the shifts are by less than the width -/
theorem C54_nth_partial {W : Nat} (P : Par W) (value : BitVec W) (X : Nat → Nat) (h : P.Fits) (hX : IsMt P.nat value.toNat X) :
    ∃ e, seed P value = some e ∧
      ∀ k, ∃ v e', ((List.range k).foldlM (fun (p : BitVec W × Eng W) _ => next P p.2) (0#W, e)).bind (fun p => next P p.2) = some (v, e') ∧
        v.toNat = mtTemper P.nat (X (P.n + k)) := by
  obtain ⟨e, h1, h2, -⟩ := seed_at h hX
  refine ⟨e, h1, fun k => ?_⟩
  have key : ∃ v e', (List.range k).foldlM (fun (p : BitVec W × Eng W) _ => next P p.2) (0#W, e) = some (v, e') ∧ At P X (P.n + k) e' := by
    induction k with
    | zero => exact ⟨_, _, rfl, h2⟩
    | succ k ih =>
      obtain ⟨v, e1, h3, h4⟩ := ih
      obtain ⟨v2, e2, h5, -, h6, -⟩ := next_eq h hX.step h4
      refine ⟨v2, e2, ?_, h6⟩
      rw [List.range_succ, List.foldlM_append, h3]
      simp only [Option.bind_eq_bind, Option.bind_some, List.foldlM_cons, List.foldlM_nil, h5]
      rfl
  obtain ⟨v, e1, h3, h4⟩ := key
  obtain ⟨v2, e2, h5, h6, -, -⟩ := next_eq h hX.step h4
  exact ⟨v2, e2, by rw [h3]; exact h5, h6⟩

/-- the sequence of the standard exists, is unique, and consists of `w`-bit words -/
theorem C54_sequence (P : MtPar) (h : P.Ok) (value : Nat) :
    (∃ X, IsMt P value X) ∧ (∀ X Y, IsMt P value X → IsMt P value Y → X = Y) ∧ (∀ X, IsMt P value X → ∀ k, X k < 2 ^ P.w) :=
  ⟨⟨_, seqAt_isMt P value h⟩, fun _ _ hX hY => funext (Mt.IsMt.unique h hX hY), fun _ hX => Mt.IsMt.lt h hX⟩

/-- every output lies in `[min(), max()]` -/
theorem C54_range {W : Nat} (P : Par W) (value : BitVec W) (h : P.Fits) (k : Nat) :
    ∃ e vs e', seed P value = some e ∧ draw P k e = some (vs, e') ∧ ∀ v ∈ vs, v.toNat ≤ 2 ^ P.w - 1 := by
  obtain ⟨X, hX⟩ := (C54_sequence P.nat h.ok value.toNat).1
  obtain ⟨e, vs, e', h1, h2, h3⟩ := C54_outputs_partial P value X h hX k
  refine ⟨e, vs, e', h1, h2, fun v hv => ?_⟩
  have : v.toNat ∈ vs.map BitVec.toNat := List.mem_map_of_mem hv
  rw [h3, List.mem_map] at this
  obtain ⟨j, -, hj⟩ := this
  have := mtTemper_lt h.ok (Mt.IsMt.lt h.ok hX (P.n + j))
  simp only [Par.nat] at this hj
  omega

/-- the predefined engines with `std::uint_fast32_t` of 32 or 64 bits: parameters in order, and equal to the standard's -/
theorem C54_mt19937 (W : Nat) (hW : W = 32 ∨ W = 64) : (mt19937 W).Fits ∧ (mt19937 W).nat = std_mt19937 := by
  rcases hW with rfl | rfl <;>
    exact ⟨⟨⟨by decide, by decide, by decide, by decide, by decide, by decide, by decide, by decide, by decide, by decide, by decide, by decide,
      by decide⟩, by decide, by decide, by decide, by decide, by decide, by decide, by decide⟩, rfl⟩
theorem C54_mt19937_64 : mt19937_64.Fits ∧ mt19937_64.nat = std_mt19937_64 :=
  ⟨⟨⟨by decide, by decide, by decide, by decide, by decide, by decide, by decide, by decide, by decide, by decide, by decide, by decide,
      by decide⟩, by decide, by decide, by decide, by decide, by decide, by decide, by decide⟩, rfl⟩
theorem C54_mt11213b (W : Nat) (hW : W = 32 ∨ W = 64) : (mt11213b W).Fits := by
  rcases hW with rfl | rfl <;>
    exact ⟨⟨by decide, by decide, by decide, by decide, by decide, by decide, by decide, by decide, by decide, by decide, by decide, by decide,
      by decide⟩, by decide, by decide, by decide, by decide, by decide, by decide, by decide⟩

/-- `mersenne_twister_engine<uint32_t, 32, 2, 1, 0, 1, 0, 0, 0, 0, 0, 0, 0, 0>`: `r = 0`, the parity of the wrong word decides -/
theorem C54_r_zero_false : ¬ C54_statement @seed @next := by
  intro h
  let P : Par 32 := ⟨32, 2, 1, 0, 0x80000000#32, 0, 0#32, 0, 0#32, 0, 0#32, 1, 0#32⟩
  have hP : MtParams P := ⟨by decide, by decide, ⟨by decide, by decide, by decide, by decide, by decide, by decide, by decide, by decide, by decide,
    by decide, by decide, by decide, by decide⟩⟩
  obtain ⟨e, h1, h2⟩ := h 32 P 0#32 _ hP (seqAt_isMt P.nat (0#32).toNat hP.ok)
  obtain ⟨v, e', h3, h4⟩ := h2 0
  have h4 := h4.trans (IsMt.first_out hP.ok (seqAt_isMt P.nat (0#32).toNat hP.ok))
  have : (seed P 0#32).bind (fun e => (next P e).map (fun p => p.1.toNat)) = some (firstOut P.nat 0) := by
    rw [h1]
    simp only [List.range_zero, List.foldlM_nil, Option.pure_def, Option.bind_some] at h3 ⊢
    rw [h3, Option.map_some, h4]; rfl
  exact absurd this (by decide)

/-- a tempering shift by the width of the type, which the standard admits, is undefined -/
theorem C54_shift_false : ¬ C54_statement @seed @next := by
  intro h
  let P : Par 32 := ⟨32, 2, 1, 1, 0#32, 32, 0#32, 0, 0#32, 0, 0#32, 1, 0#32⟩
  have hP : MtParams P := ⟨by decide, by decide, ⟨by decide, by decide, by decide, by decide, by decide, by decide, by decide, by decide, by decide,
    by decide, by decide, by decide, by decide⟩⟩
  obtain ⟨e, h1, h2⟩ := h 32 P 0#32 _ hP (seqAt_isMt P.nat (0#32).toNat hP.ok)
  obtain ⟨v, e', h3, h4⟩ := h2 0
  have : ((seed P 0#32).bind (fun e => next P e)).isSome = true := by
    rw [h1]
    simp only [List.range_zero, List.foldlM_nil, Option.pure_def, Option.bind_some] at h3 ⊢
    rw [h3]; rfl
  exact absurd this (by decide)

/-- without C++14 constexpr: the very first number of `mt19937` with the default seed is wrong -/
theorem C54_cxx11_false : ¬ C54_statement @seed @Cxx11.next := by
  intro h
  have hF := (C54_mt19937 32 (Or.inl rfl)).1
  have hP : MtParams (mt19937 32) := ⟨by decide, hF.wW, hF.ok⟩
  obtain ⟨X, hX⟩ := (C54_sequence (mt19937 32).nat hP.ok (5489#32).toNat).1
  obtain ⟨e, h1, h2⟩ := h 32 (mt19937 32) 5489#32 X hP hX
  obtain ⟨v, e', h3, h4⟩ := h2 0
  obtain ⟨e1, g1, g2, g3⟩ := seed_at hF hX
  rw [h1] at g1; cases g1
  simp only [List.range_zero, List.foldlM_nil, Option.pure_def, Option.bind_some] at h3
  obtain ⟨x0, x1, xm, a0, a1, am, hv⟩ := next11_first (by decide) (by decide) g3 h3
  have hh := g2.holds
  rw [g3, Nat.sub_self] at hh
  have b : ∀ k (x : BitVec 32), k < 624 → e.x[k]? = some x → x = BitVec.ofNat 32 (seedIter std_mt19937 5489 k) := by
    intro k x hk hx
    obtain ⟨hk', hx⟩ := List.getElem?_eq_some_iff.1 hx
    have e1 := hh k hk'
    rw [hx, Nat.zero_add, IsMt.seedIter hX hk] at e1
    apply BitVec.eq_of_toNat_eq
    have hlt := IsMt.lt hP.ok hX k
    rw [IsMt.seedIter hX hk] at hlt
    rw [e1, BitVec.toNat_ofNat]
    exact (Nat.mod_eq_of_lt hlt).symm
  rw [b 0 x0 (by decide) a0, b 1 x1 (by decide) a1, b 397 xm (by decide) am] at hv
  have h4 := h4.trans (IsMt.first_out hP.ok hX)
  have : (firstOut11 (mt19937 32) (BitVec.ofNat 32 (seedIter std_mt19937 5489 0)) (BitVec.ofNat 32 (seedIter std_mt19937 5489 1))
      (BitVec.ofNat 32 (seedIter std_mt19937 5489 397))).map BitVec.toNat = some (firstOut std_mt19937 5489) := by
    rw [hv, Option.map_some, h4]; rfl
  exact absurd this (by decide +kernel)

/-- the first numbers of the default engines, in agreement with other implementations -/
theorem C54_first_outputs :
    (∀ e v e', Mt.default (mt19937 32) = some e → next (mt19937 32) e = some (v, e') → v = 3499211612#32) ∧
    (∀ e v e', Mt.default mt19937_64 = some e → next mt19937_64 e = some (v, e') → v = 14514284786278117030#64) := by
  constructor
  · intro e v e' h1 h2
    obtain ⟨hF, -⟩ := C54_mt19937 32 (Or.inl rfl)
    obtain ⟨X, hX⟩ := (C54_sequence (mt19937 32).nat hF.ok (5489#32).toNat).1
    obtain ⟨e1, g1, g2, -⟩ := seed_at hF hX
    have : e1 = e := Option.some.inj (g1.symm.trans h1)
    subst this
    obtain ⟨v1, e2, g3, g4, -⟩ := next_eq hF hX.step g2
    rw [h2] at g3; cases g3
    apply BitVec.eq_of_toNat_eq
    rw [g4]
    exact (IsMt.first_out hF.ok hX).trans (by decide +kernel)
  · intro e v e' h1 h2
    obtain ⟨hF, -⟩ := C54_mt19937_64
    obtain ⟨X, hX⟩ := (C54_sequence mt19937_64.nat hF.ok (5489#64).toNat).1
    obtain ⟨e1, g1, g2, -⟩ := seed_at hF hX
    have : e1 = e := Option.some.inj (g1.symm.trans h1)
    subst this
    obtain ⟨v1, e2, g3, g4, -⟩ := next_eq hF hX.step g2
    rw [h2] at g3; cases g3
    apply BitVec.eq_of_toNat_eq
    rw [g4]
    exact (IsMt.first_out hF.ok hX).trans (by decide +kernel)

-- a small engine by hand: n = 3, m = 1; five outputs (two twists)
example : (let P : Par 32 := ⟨32, 3, 1, 31, 0x9908b0df#32, 11, 0xffffffff#32, 7, 0x9d2c5680#32, 15, 0xefc60000#32, 18, 1812433253#32⟩
    (seed P 1#32).bind (fun e => (draw P 5 e).map (fun p => p.1))) =
      some [3666689535#32, 1068932924#32, 609421231#32, 971620995#32, 1989449859#32] := by decide +kernel

end Sprout

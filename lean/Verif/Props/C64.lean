import Verif.Proofs.Lfsr

/-!
# C64: `xor_combine_engine` and `taus88`

The numbers of the combination lie in `[min(), max()]`: refuted in general, proved without shifts for engines with `min() = 0` and
`max() = 2^k - 1`. `taus88`: every bit of every number is the sum of bits of three Tausworthe sequences.
-/

namespace Sprout
open XorCombine Spec Lfsr

/-- an engine whose numbers lie between its bounds -/
def Bounded {W : Nat} {σ : Type} (g : Gen W σ) : Prop := ∀ s v s', g.next s = some (v, s') → g.min ≤ v ∧ v ≤ g.max

/-- the full statement -/
def C64_statement : Prop := ∀ (W : Nat) (σ τ : Type) (g : Gen W σ) (h : Gen W τ) (s1 s2 : Nat), Bounded g → Bounded h → Bounded (gen g s1 h s2)

/-- an engine that returns always `v` and has the bounds `lo`, `hi` -/
def constGen (v lo hi : BitVec 32) : Gen 32 Unit := ⟨fun _ => some (v, ()), lo, hi⟩

theorem constGen_bounded {v lo hi : BitVec 32} (h1 : lo ≤ v) (h2 : v ≤ hi) : Bounded (constGen v lo hi) := by
  intro s v' s' e
  simp only [constGen, Option.some.injEq, Prod.mk.injEq] at e
  rw [← e.1]
  exact ⟨h1, h2⟩

/-- numbers up to 2 are combined to 3 -/
theorem C64_max_false : ¬ C64_statement := by
  intro h
  have := (h 32 Unit Unit (constGen 1 0 2) (constGen 2 0 2) 0 0 (constGen_bounded (by decide) (by decide)) (constGen_bounded (by decide) (by decide))
    ((), ()) 3#32 ((), ()) rfl).2
  revert this
  decide

/-- numbers from 1 on are combined to 0 -/
theorem C64_min_false : ¬ C64_statement := by
  intro h
  have := (h 32 Unit Unit (constGen 1 1 9) (constGen 1 1 9) 0 0 (constGen_bounded (by decide) (by decide)) (constGen_bounded (by decide) (by decide))
    ((), ()) 0#32 ((), ()) rfl).1
  revert this
  decide

/-- a shift leads out of the range even of engines with `max() = 2^k - 1` -/
theorem C64_shift_false : ¬ C64_statement := by
  intro h
  have := (h 32 Unit Unit (constGen 3 0 3) (constGen 1 0 3) 1 0 (constGen_bounded (by decide) (by decide)) (constGen_bounded (by decide) (by decide))
    ((), ()) 7#32 ((), ()) rfl).2
  revert this
  decide

/-- without shifts, for engines with the numbers below a power of two -/
theorem C64_bounds_partial {W : Nat} {σ τ : Type} (g : Gen W σ) (h : Gen W τ) (hg : Bounded g) (hh : Bounded h) (k l : Nat)
    (g0 : g.min = 0#W) (h0 : h.min = 0#W) (gk : g.max.toNat = 2 ^ k - 1) (hl : h.max.toNat = 2 ^ l - 1) : Bounded (gen g 0 h 0) := by
  have key : ∀ (a b : BitVec W) (n : Nat), a.toNat ≤ 2 ^ n - 1 → b.toNat ≤ 2 ^ n - 1 → (a ^^^ b).toNat ≤ 2 ^ n - 1 := by
    intro a b n ha hb
    have := Nat.two_pow_pos n
    have := Nat.xor_lt_two_pow (x := a.toNat) (y := b.toNat) (n := n) (by omega) (by omega)
    rw [BitVec.toNat_xor]
    omega
  rintro ⟨s, t⟩ v s' e
  simp only [gen, Option.bind_eq_bind] at e
  obtain ⟨⟨v1, s1⟩, e1, e⟩ := Option.bind_eq_some_iff.1 e
  obtain ⟨⟨v2, t1⟩, e2, e⟩ := Option.bind_eq_some_iff.1 e
  obtain ⟨a, ea, e⟩ := Option.bind_eq_some_iff.1 e
  obtain ⟨b, eb, e⟩ := Option.bind_eq_some_iff.1 e
  cases e
  have ha : a = v1 := by
    unfold Mt.shl at ea; split at ea
    · cases ea; simp
    · cases ea
  have hb : b = v2 := by
    unfold Mt.shl at eb; split at eb
    · cases eb; simp
    · cases eb
  subst ha; subst hb
  have b1 := (hg _ _ _ e1).2
  have b2 := (hh _ _ _ e2).2
  rw [BitVec.le_def] at b1 b2
  simp only [gen, g0, h0, ite_self]
  refine ⟨by rw [BitVec.le_def]; exact Nat.zero_le _, ?_⟩
  rw [BitVec.le_def]
  split
  · rename_i hc
    rw [BitVec.lt_def] at hc
    rw [hl]
    exact key _ _ _ (by omega) (by omega)
  · rename_i hc
    rw [BitVec.lt_def] at hc
    rw [gk]
    exact key _ _ _ (by omega) (by omega)

/-- `n + 1` numbers of an engine: the last of them, and the state after it -/
def nth {W : Nat} {σ : Type} (g : Gen W σ) : Nat → σ → Option (BitVec W × σ)
  | 0, s => g.next s
  | n + 1, s => (nth g n s).bind fun p => g.next p.2

theorem P1_ok : P1.Ok 32 := ⟨by decide, by decide, by decide, by decide, by decide, by decide⟩
theorem P2_ok : P2.Ok 32 := ⟨by decide, by decide, by decide, by decide, by decide, by decide⟩
theorem P3_ok : P3.Ok 32 := ⟨by decide, by decide, by decide, by decide, by decide, by decide⟩

theorem gen_next0 {W : Nat} {σ τ : Type} {g : Gen W σ} {h : Gen W τ} {s s' : σ} {t t' : τ} {v w : BitVec W} (hW : 0 < W)
    (h1 : g.next s = some (v, s')) (h2 : h.next t = some (w, t')) : (gen g 0 h 0).next (s, t) = some (v ^^^ w, (s', t')) := by
  have sh : ∀ x : BitVec W, Mt.shl x 0 = some x := fun x => by rw [Mt.shl, if_pos hW, BitVec.shiftLeft_zero]
  simp only [gen, h1, h2, sh, Option.bind_eq_bind, Option.bind_some, Option.pure_def]

theorem lfsr_next {W : Nat} {P : Par} {u u' : BitVec W} (h : Lfsr.next P u = some u') : (lfsr W P).next u = some (u', u') := by
  simp only [lfsr, h, Option.map_some]

theorem nth_gen0 {W : Nat} {σ τ : Type} {g : Gen W σ} {h : Gen W τ} (hW : 0 < W) (n : Nat) {s s' : σ} {t t' : τ} {v w : BitVec W}
    (h1 : nth g n s = some (v, s')) (h2 : nth h n t = some (w, t')) : nth (gen g 0 h 0) n (s, t) = some (v ^^^ w, (s', t')) := by
  induction n generalizing v w s' t' with
  | zero => exact gen_next0 hW h1 h2
  | succ n ih =>
    rw [nth] at h1 h2
    obtain ⟨⟨a, sa⟩, ha, h1⟩ := Option.bind_eq_some_iff.1 h1
    obtain ⟨⟨b, sb⟩, hb, h2⟩ := Option.bind_eq_some_iff.1 h2
    rw [nth, ih ha hb]
    exact gen_next0 hW h1 h2

theorem nth_lfsr {W : Nat} {P : Par} (n : Nat) {x x' : BitVec W} (h : run P (n + 1) x = some x') : nth (lfsr W P) n x = some (x', x') := by
  induction n generalizing x' with
  | zero =>
    rw [run, run, Option.bind_some] at h
    exact lfsr_next h
  | succ n ih =>
    rw [run] at h
    obtain ⟨a, ha, h⟩ := Option.bind_eq_some_iff.1 h
    rw [nth, ih ha]
    exact lfsr_next h

/-- `taus88`, seeded with any number: all 32 bits of every number are sums of bits of three sequences that are nowhere zero -/
theorem C64_taus88 (x0 : BitVec 32) : ∃ st, taus88Seed x0 = some st ∧ ∃ b1 b2 b3,
    IsTaus 31 13 b1 ∧ IsTaus 29 2 b2 ∧ IsTaus 28 3 b3 ∧ NeverZero 31 b1 ∧ NeverZero 29 b2 ∧ NeverZero 28 b3 ∧
    ∀ n, ∃ v st', nth taus88 n st = some (v, st') ∧
      ∀ i, i < 32 → leadBit 32 v.toNat i = (b1 ((n + 1) * 12 + i) ^^ b2 ((n + 1) * 4 + i) ^^ b3 ((n + 1) * 17 + i)) := by
  have one : ∀ (P : Par), P.Ok 32 → P.w = 32 → P.w - P.k < 31 → P.w ≤ P.k + (P.k - P.q - P.s) →
      ∃ x : BitVec 32, initSeed P x0 = some x ∧ ∃ b, IsTaus P.k P.q b ∧ NeverZero P.k b ∧
        ∀ n, ∃ y, run P (n + 1) x = some y ∧ ∀ i, i < 32 → leadBit 32 y.toNat i = b ((n + 1) * P.s + i) := by
    intro P h hw h31 hg
    have := h.q0; have := h.qk; have := h.kw
    obtain ⟨x, e, h1, h2, -⟩ := initSeed_eq h h31 x0
    have hb := seqOf_taus (k := P.k) (q := P.q) (by omega) (by omega) (top P x)
    refine ⟨x, e, _, hb, neverZero h.q0 (by omega) hb ?_, fun n => ?_⟩
    · obtain ⟨i, hi, ht⟩ := lead_of_le h h1 h2
      exact ⟨i, hi, by rw [seqOf_lt hi]; exact ht⟩
    · obtain ⟨y, ey, hy⟩ := run_agree h hb (x := x) (fun i hi => by rw [Nat.zero_add, seqOf_lt hi]) (n + 1)
      have : P.w ≤ P.k + (n + 1) * (P.k - P.q - P.s) := by
        have : 1 * (P.k - P.q - P.s) ≤ (n + 1) * (P.k - P.q - P.s) := Nat.mul_le_mul_right _ (by omega)
        omega
      refine ⟨y, ey, fun i hi => ?_⟩
      have := hy i (by omega)
      rw [← this, leadBit, top, hw]
      rfl
  obtain ⟨x, ex, b1, t1, z1, r1⟩ := one P1 P1_ok rfl (by decide) (by decide)
  obtain ⟨y, ey, b2, t2, z2, r2⟩ := one P2 P2_ok rfl (by decide) (by decide)
  obtain ⟨z, ez, b3, t3, z3, r3⟩ := one P3 P3_ok rfl (by decide) (by decide)
  refine ⟨((x, y), z), by simp [taus88Seed, ex, ey, ez], b1, b2, b3, t1, t2, t3, z1, z2, z3, fun n => ?_⟩
  obtain ⟨x', h1, h1'⟩ := r1 n
  obtain ⟨y', h2, h2'⟩ := r2 n
  obtain ⟨z', h3, h3'⟩ := r3 n
  refine ⟨_, _, nth_gen0 (by decide) n (nth_gen0 (by decide) n (nth_lfsr n h1) (nth_lfsr n h2)) (nth_lfsr n h3), fun i hi => ?_⟩
  have e1 : _ = b1 ((n + 1) * 12 + i) := h1' i hi
  have e2 : _ = b2 ((n + 1) * 4 + i) := h2' i hi
  have e3 : _ = b3 ((n + 1) * 17 + i) := h3' i hi
  rw [← e1, ← e2, ← e3]
  simp only [leadBit, BitVec.toNat_xor, Nat.testBit_xor]

/-- and they lie between the bounds of the engine -/
theorem C64_taus88_bounded : Bounded taus88 := by
  intro s v s' _
  have h1 : taus88.min = 0#32 := by decide
  have h2 : taus88.max = 4294967295#32 := by decide
  rw [h1, h2, BitVec.le_def, BitVec.le_def]
  have := v.isLt
  exact ⟨Nat.zero_le _, by simp only [BitVec.toNat_ofNat]; omega⟩

-- the first number with the default seed 341
example : (taus88Seed 341#32).bind (fun s => (taus88.next s).map (·.1)) = some 0x2b55504#32 := by decide

end Sprout

import Verif.Proofs.Lfsr

/-!
# C63: linear feedback shift engine

For all parameters that the `static_assert`s admit and all seeds: the `k` leading bits of the `n`-th state are the bits `n * s .. n * s + k - 1` of
a sequence with `b (i + k) = b (i + q) + b i`, and they are never all zero. Holds for all unsigned types with at least `w` bits, except that
the numbers exceed `max()` if the type is wider than `w`, and that seeding is undefined for `w - k >= 31`.
-/

namespace Sprout
open Lfsr Spec

/-- the full statement -/
def C63_statement : Prop := ∀ (W : Nat) (P : Par) (x0 : BitVec W), P.Ok W →
  ∃ x, initSeed P x0 = some x ∧ ∃ b, IsTaus P.k P.q b ∧ NeverZero P.k b ∧
    ∀ n, ∃ y, run P n x = some y ∧ y ≤ staticMax W P ∧ ∀ i, i < P.k → leadBit P.w y.toNat i = b (n * P.s + i)

/-- everything but `max()` -/
theorem C63_run_partial {W : Nat} (P : Par) (x0 : BitVec W) (h : P.Ok W) (h31 : P.w - P.k < 31) :
    ∃ x, initSeed P x0 = some x ∧ ∃ b, IsTaus P.k P.q b ∧ NeverZero P.k b ∧
      ∀ n, ∃ y, run P n x = some y ∧ ∀ i, i < P.k → leadBit P.w y.toNat i = b (n * P.s + i) := by
  have := h.q0; have := h.qk; have := h.kw
  obtain ⟨x, e, h1, h2, -⟩ := initSeed_eq h h31 x0
  have hb := seqOf_taus (k := P.k) (q := P.q) (by omega) (by omega) (top P x)
  refine ⟨x, e, _, hb, neverZero h.q0 (by omega) hb ?_, fun n => ?_⟩
  · obtain ⟨i, hi, ht⟩ := lead_of_le h h1 h2
    exact ⟨i, hi, by rw [seqOf_lt hi]; exact ht⟩
  · obtain ⟨y, ey, hy⟩ := run_agree h hb (x := x) (fun i hi => by rw [Nat.zero_add, seqOf_lt hi]) n
    exact ⟨y, ey, fun i hi => hy i (by omega)⟩

/-- if the type has exactly `w` bits: the full statement -/
theorem C63_word_partial (P : Par) (x0 : BitVec P.w) (h : P.Ok P.w) (h31 : P.w - P.k < 31) :
    ∃ x, initSeed P x0 = some x ∧ ∃ b, IsTaus P.k P.q b ∧ NeverZero P.k b ∧
      ∀ n, ∃ y, run P n x = some y ∧ y ≤ staticMax P.w P ∧ ∀ i, i < P.k → leadBit P.w y.toNat i = b (n * P.s + i) := by
  obtain ⟨x, e, b, h1, h2, h3⟩ := C63_run_partial P x0 h h31
  refine ⟨x, e, b, h1, h2, fun n => ?_⟩
  obtain ⟨y, h4, h5⟩ := h3 n
  refine ⟨y, h4, ?_, h5⟩
  rw [BitVec.le_def]
  have hp := Nat.two_pow_pos P.w
  have e : (staticMax P.w P).toNat = 2 ^ P.w - 1 := by
    rw [staticMax, wordmask, BitVec.toNat_ofNat, Nat.mod_eq_of_lt (by omega)]
  have := y.isLt
  omega

/-- all `w` bits, from the step on at which the bits below the leading `k` bits of the seed have been shifted out -/
theorem C63_low {W : Nat} (P : Par) (x : BitVec W) (b : Nat → Bool) (h : P.Ok W) (hb : IsTaus P.k P.q b)
    (hx : ∀ i, i < P.k → leadBit P.w x.toNat i = b i) (n : Nat) (hn : P.w ≤ P.k + n * (P.k - P.q - P.s)) :
    ∃ y, run P n x = some y ∧ ∀ i, i < P.w → leadBit P.w y.toNat i = b (n * P.s + i) := by
  obtain ⟨y, e, hy⟩ := run_agree h hb (x := x) (fun i hi => by rw [Nat.zero_add]; exact hx i hi) n
  exact ⟨y, e, fun i hi => hy i (by omega)⟩

/-- the sequence is determined by its first `k` bits -/
theorem C63_unique (k q : Nat) (h : q < k) (b c : Nat → Bool) (hb : IsTaus k q b) (hc : IsTaus k q c) (e : ∀ i, i < k → b i = c i) : b = c := by
  funext n
  induction n using Nat.strongRecOn with
  | ind n ih =>
    rcases Nat.lt_or_ge n k with hn | hn
    · exact e n hn
    · have h1 := hb (n - k)
      have h2 := hc (n - k)
      rw [Nat.sub_add_cancel hn] at h1 h2
      rw [h1, h2, ih (n - k) (by omega), ih (n - k + q) (by omega)]

/-- seeding: the seed modulo `2^w`, with bit `w - k` set if all leading bits were zero -/
theorem C63_seed {W : Nat} (P : Par) (x0 : BitVec W) (h : P.Ok W) (h31 : P.w - P.k < 31) :
    ∃ x, initSeed P x0 = some x ∧
      x.toNat = if x0.toNat % 2 ^ P.w < 2 ^ (P.w - P.k) then x0.toNat % 2 ^ P.w + 2 ^ (P.w - P.k) else x0.toNat % 2 ^ P.w := by
  obtain ⟨x, e, -, -, h1⟩ := initSeed_eq h h31 x0
  exact ⟨x, e, h1⟩

/-- a 32-bit engine with `std::uint64_t` (for instance `std::uint_fast32_t`): the numbers exceed `max()` -/
theorem C63_max_false : ¬ C63_statement := by
  intro h
  obtain ⟨x, h1, b, -, -, h2⟩ := h 64 ⟨32, 31, 13, 12⟩ 0x80000000#64 ⟨by decide, by decide, by decide, by decide, by decide, by decide⟩
  have e : initSeed ⟨32, 31, 13, 12⟩ 0x80000000#64 = some 0x80000000#64 := by decide
  rw [e] at h1
  cases h1
  obtain ⟨y, h3, h4, -⟩ := h2 1
  have e : run ⟨32, 31, 13, 12⟩ 1 0x80000000#64 = some 0x80000001000#64 := by decide
  rw [e] at h3
  cases h3
  revert h4
  decide

/-- `w - k = 32`: seeding shifts an `int` by 32 -/
theorem C63_seed_false : ¬ C63_statement := by
  intro h
  obtain ⟨x, h1, -⟩ := h 64 ⟨64, 32, 3, 5⟩ 1#64 ⟨by decide, by decide, by decide, by decide, by decide, by decide⟩
  have e : initSeed ⟨64, 32, 3, 5⟩ 1#64 = none := by decide
  rw [e] at h1
  cases h1

-- the first component of `taus88`, seeded with 1: the lowest bit is not one of the leading bits
example : initSeed ⟨32, 31, 13, 12⟩ 1#32 = some 3#32 ∧ run ⟨32, 31, 13, 12⟩ 1 3#32 = some 0x2000#32 ∧ run ⟨32, 31, 13, 12⟩ 2 3#32 = some 0x2000080#32 := by
  decide

end Sprout

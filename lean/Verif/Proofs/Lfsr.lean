import Verif.Model.Lfsr
import Verif.Spec.Taus

/-! # `linear_feedback_shift_engine` -/

namespace Sprout.Lfsr
open Spec
open Mt (shl shr)

variable {W : Nat}

/-- bit `i` of a `w`-bit word, counted from the top -/
def top (P : Par) (x : BitVec W) (i : Nat) : Bool := x.getLsbD (P.w - 1 - i)

theorem mask_bit (P : Par) (h : P.w ≤ W) (i : Nat) : (wordmask W P).getLsbD i = decide (i < P.w) := by
  unfold wordmask
  rw [BitVec.getLsbD_ofNat, Nat.testBit_two_pow_sub_one]
  by_cases hi : i < P.w
  · simp [hi]; omega
  · simp [hi]

/-- one step, bit by bit -/
theorem next_bits (P : Par) (h : P.Ok W) (x : BitVec W) :
    ∃ y, next P x = some y ∧ ∀ j, j < P.w →
      top P y j = if j + P.s < P.k then top P x (j + P.s) else (top P x (j + P.s - P.k) ^^ top P x (j + P.s - P.k + P.q)) := by
  have := h.wW; have := h.q0; have := h.kw; have := h.qk; have := h.s0; have := h.sk
  refine ⟨(((x &&& ((wordmask W P <<< (P.w - P.k)) &&& wordmask W P)) <<< P.s) ^^^ ((((x <<< P.q) ^^^ x) &&& wordmask W P) >>> (P.k - P.s))), ?_, ?_⟩
  · unfold next shl shr
    simp only [show P.w - P.k < W by omega, show P.s < W by omega, show P.q < W by omega, show P.k - P.s < W by omega, if_true,
      Option.bind_eq_bind, Option.bind_some]
  · intro j hj
    unfold top
    simp only [BitVec.getLsbD_xor, BitVec.getLsbD_shiftLeft, BitVec.getLsbD_and, BitVec.getLsbD_ushiftRight, mask_bit P h.wW]
    have hw : P.w - 1 - j < W := by omega
    by_cases hc : j + P.s < P.k
    · rw [if_pos hc]
      have e : P.w - 1 - j - P.s = P.w - 1 - (j + P.s) := by omega
      simp [show ¬ P.k - P.s + (P.w - 1 - j) < P.w by omega, hw, show ¬ P.w - 1 - j < P.s by omega, e, show P.w - 1 - (j + P.s) < W by omega,
        show ¬ P.w - 1 - (j + P.s) < P.w - P.k by omega, show P.w - 1 - (j + P.s) < P.w by omega,
        show P.w - 1 - (j + P.s) - (P.w - P.k) < P.w by omega]
    · rw [if_neg hc]
      have e : P.k - P.s + (P.w - 1 - j) = P.w - 1 - (j + P.s - P.k) := by omega
      have e2 : P.w - 1 - (j + P.s - P.k) - P.q = P.w - 1 - (j + P.s - P.k + P.q) := by omega
      have hz : (decide (P.w - 1 - j < P.s) || decide (P.w - 1 - j - P.s < P.w - P.k)) = true := by
        simp only [Bool.or_eq_true, decide_eq_true_eq]; omega
      rw [e, e2]
      have hA : (decide (P.w - 1 - j < W) && !decide (P.w - 1 - j < P.s) &&
          (x.getLsbD (P.w - 1 - j - P.s) && (decide (P.w - 1 - j - P.s < W) && !decide (P.w - 1 - j - P.s < P.w - P.k) &&
            decide (P.w - 1 - j - P.s - (P.w - P.k) < P.w) && decide (P.w - 1 - j - P.s < P.w)))) = false := by
        rcases Bool.or_eq_true _ _ ▸ hz with hz | hz
        · rw [hz]; simp
        · rw [hz]; simp
      rw [hA]
      simp [show P.w - 1 - (j + P.s - P.k) < W by omega, show ¬ P.w - 1 - (j + P.s - P.k) < P.q by omega,
        show P.w - 1 - (j + P.s - P.k) < P.w by omega, Bool.xor_comm]

/-- the first `L` bits are those of the sequence from `n` on -/
def Agree (P : Par) (b : Nat → Bool) (L n : Nat) (x : BitVec W) : Prop := ∀ i, i < L → top P x i = b (n + i)

theorem agree_next {P : Par} (h : P.Ok W) {b : Nat → Bool} (hb : IsTaus P.k P.q b) {L L' n : Nat} (hL : P.k ≤ L) (hLw : L' ≤ P.w)
    (hL' : L' ≤ L + (P.k - P.q - P.s)) {x : BitVec W} (hx : Agree P b L n x) : ∃ y, next P x = some y ∧ Agree P b L' (n + P.s) y := by
  have := h.wW; have := h.q0; have := h.kw; have := h.qk; have := h.s0; have := h.sk
  obtain ⟨y, e, hy⟩ := next_bits P h x
  refine ⟨y, e, fun j hj => ?_⟩
  rw [hy j (by omega)]
  split
  · rw [hx _ (by omega)]
    congr 1; omega
  · rw [hx _ (by omega), hx _ (by omega)]
    have := hb (n + (j + P.s - P.k))
    rw [show n + P.s + j = n + (j + P.s - P.k) + P.k by omega, this, Bool.xor_comm, Nat.add_assoc]

/-- the sequence that begins with the leading bits of `x` -/
def seqOf (k q : Nat) (f : Nat → Bool) (n : Nat) : Bool :=
  if h : n < k ∨ k ≤ q then f n else (seqOf k q f (n - k + q) ^^ seqOf k q f (n - k))
termination_by n
decreasing_by all_goals omega

theorem seqOf_lt {k q : Nat} {f : Nat → Bool} {n : Nat} (h : n < k) : seqOf k q f n = f n := by
  rw [seqOf, dif_pos (Or.inl h)]

theorem seqOf_taus {k q : Nat} (h : q < k) (hk : 0 < k) (f : Nat → Bool) : IsTaus k q (seqOf k q f) := by
  intro n
  rw [seqOf, dif_neg (by omega), Nat.add_sub_cancel]

theorem taus_zero {k q : Nat} (h0 : 0 < q) (h : q < k) {b : Nat → Bool} (hb : IsTaus k q b) : ∀ {n}, (∀ i, i < k → b (n + i) = false) →
    ∀ i, i < k → b i = false := by
  intro n
  induction n with
  | zero => intro hn i hi; simpa using hn i hi
  | succ n ih =>
    intro hn
    refine ih fun i hi => ?_
    rcases Nat.eq_zero_or_pos i with rfl | hi0
    · have e := hb n
      have e1 := hn (k - 1) (by omega)
      have e2 := hn (q - 1) (by omega)
      rw [show n + 1 + (k - 1) = n + k by omega] at e1
      rw [show n + 1 + (q - 1) = n + q by omega] at e2
      rw [e1, e2] at e
      simpa using e.symm
    · have := hn (i - 1) (by omega)
      rwa [show n + 1 + (i - 1) = n + i by omega] at this

theorem neverZero {k q : Nat} (h0 : 0 < q) (h : q < k) {b : Nat → Bool} (hb : IsTaus k q b) (hz : ∃ i, i < k ∧ b i = true) : NeverZero k b := by
  intro n
  by_contra hc
  obtain ⟨i, hi, hbi⟩ := hz
  have := taus_zero h0 h hb (n := n) (fun i hi => by
    cases e : b (n + i) with
    | false => rfl
    | true => exact absurd ⟨i, hi, e⟩ hc) i hi
  rw [this] at hbi
  cases hbi

/-- a seeded engine: one of the `k` leading bits is set, and the state is a word -/
theorem initSeed_eq {P : Par} (h : P.Ok W) (h31 : P.w - P.k < 31) (x0 : BitVec W) :
    ∃ x, initSeed P x0 = some x ∧ x.toNat < 2 ^ P.w ∧ 2 ^ (P.w - P.k) ≤ x.toNat ∧
      x.toNat = if x0.toNat % 2 ^ P.w < 2 ^ (P.w - P.k) then x0.toNat % 2 ^ P.w + 2 ^ (P.w - P.k) else x0.toNat % 2 ^ P.w := by
  have := h.wW; have := h.q0; have := h.kw; have := h.qk
  have h1 : 2 ^ P.w ≤ 2 ^ W := Nat.pow_le_pow_right (by omega) h.wW
  have h2 : 2 ^ (P.w - P.k) * 2 ≤ 2 ^ P.w := by
    rw [← Nat.pow_succ]; exact Nat.pow_le_pow_right (by omega) (by omega)
  have h3 : 0 < 2 ^ (P.w - P.k) := Nat.two_pow_pos _
  have hx : (x0 &&& wordmask W P).toNat = x0.toNat % 2 ^ P.w := by
    unfold wordmask
    rw [BitVec.toNat_and, BitVec.toNat_ofNat, Nat.mod_eq_of_lt (a := 2 ^ P.w - 1) (by omega), Nat.and_two_pow_sub_one_eq_mod]
  have hone : (BitVec.ofNat W (2 ^ (P.w - P.k))).toNat = 2 ^ (P.w - P.k) := by
    rw [BitVec.toNat_ofNat, Nat.mod_eq_of_lt (by omega)]
  have hm : x0.toNat % 2 ^ P.w < 2 ^ P.w := Nat.mod_lt _ (Nat.two_pow_pos _)
  unfold initSeed
  simp only [if_pos h31, BitVec.lt_def, hx, hone]
  refine ⟨_, rfl, ?_⟩
  by_cases hc : x0.toNat % 2 ^ P.w < 2 ^ (P.w - P.k)
  · simp only [if_pos hc, BitVec.toNat_add, hx, hone]
    rw [Nat.mod_eq_of_lt (by omega)]
    omega
  · rw [if_neg hc, if_neg hc, hx]
    exact ⟨hm, by omega, rfl⟩

theorem lead_of_le {P : Par} (h : P.Ok W) {x : BitVec W} (h1 : x.toNat < 2 ^ P.w) (h2 : 2 ^ (P.w - P.k) ≤ x.toNat) :
    ∃ i, i < P.k ∧ top P x i = true := by
  have := h.kw
  obtain ⟨p, hp, hb⟩ := Nat.exists_ge_and_testBit_of_ge_two_pow h2
  have hpw : p < P.w := by
    by_contra hc
    have := Nat.testBit_lt_two_pow (x := x.toNat) (i := p) (Nat.lt_of_lt_of_le h1 (Nat.pow_le_pow_right (by omega) (by omega)))
    rw [this] at hb; cases hb
  refine ⟨P.w - 1 - p, by omega, ?_⟩
  unfold top
  rw [show P.w - 1 - (P.w - 1 - p) = p by omega]
  exact hb

/-- `n` steps -/
def run (P : Par) : Nat → BitVec W → Option (BitVec W)
  | 0, x => some x
  | n + 1, x => (run P n x).bind (next P)

theorem run_agree {P : Par} (h : P.Ok W) {b : Nat → Bool} (hb : IsTaus P.k P.q b) {x : BitVec W} (hx : Agree P b P.k 0 x) (n : Nat) :
    ∃ y, run P n x = some y ∧ Agree P b (min P.w (P.k + n * (P.k - P.q - P.s))) (n * P.s) y := by
  have := h.kw
  induction n with
  | zero => exact ⟨x, rfl, fun i hi => by rw [Nat.zero_mul]; exact hx i (by omega)⟩
  | succ n ih =>
    obtain ⟨y, e, hy⟩ := ih
    obtain ⟨z, ez, hz⟩ := agree_next h hb (L' := min P.w (P.k + (n + 1) * (P.k - P.q - P.s))) (by omega) (by omega)
      (by rw [Nat.add_mul]; omega) hy
    refine ⟨z, by rw [run, e]; exact ez, ?_⟩
    rw [Nat.add_mul n 1 P.s, Nat.one_mul]
    exact hz

end Sprout.Lfsr

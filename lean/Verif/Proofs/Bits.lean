import Verif.Model.Bits
import Verif.Spec.Bits

/-! # Lemmas about the bit operations -/

namespace Sprout
open Spec
variable {w : Nat}

theorem getLsbD_negOne {x : BitVec w} {i : Nat} (h : i < w) :
    (-x).getLsbD i = (x.getLsbD i ^^ decide (∃ j < i, x.getLsbD j = true)) := by
  rw [BitVec.getLsbD_neg]; simp [h]

theorem getLsbD_sub_one {x : BitVec w} {i : Nat} (h : i < w) :
    (x - 1).getLsbD i = (x.getLsbD i ^^ decide (∀ j < i, x.getLsbD j = false)) := by
  have e : x - 1 = ~~~ (-x) := by
    rw [BitVec.not_neg]; rfl
  rw [e, BitVec.getLsbD_not, getLsbD_negOne h]
  have : (decide (∀ j < i, x.getLsbD j = false)) = !(decide (∃ j < i, x.getLsbD j = true)) := by
    rw [← decide_not]; congr 1; simp
  rw [this]
  cases x.getLsbD i <;> simp [h]

theorem getLsbD_add_one {x : BitVec w} {i : Nat} (h : i < w) :
    (x + 1).getLsbD i = (x.getLsbD i ^^ decide (∀ j < i, x.getLsbD j = true)) := by
  have e : x + 1 = - (~~~ x) := by
    rw [BitVec.neg_eq_not_add]; simp
  rw [e, getLsbD_negOne h]
  have : (decide (∀ j < i, x.getLsbD j = true)) = !(decide (∃ j < i, (~~~x).getLsbD j = true)) := by
    rw [← decide_not]; congr 1
    simp only [BitVec.getLsbD_not, eq_iff_iff, not_exists, not_and]
    constructor
    · intro hh j hj; simp [hh j hj]
    · intro hh j hj
      have := hh j hj
      simp only [Bool.and_eq_true, decide_eq_true_eq, Bool.not_eq_true', not_and, Bool.not_eq_false] at this
      exact this (by omega)
  rw [this, BitVec.getLsbD_not]
  generalize decide (∃ j < i, (~~~x).getLsbD j = true) = b
  simp only [h, decide_true, Bool.true_and]
  cases x.getLsbD i <;> cases b <;> rfl

theorem prom_pos : 0 < prom w := by unfold prom; omega

theorem shlr_eq (x : BitVec w) {s : Nat} (h : s < prom w) : shlr x s = some (x >>> s) := by
  unfold shlr shrP
  rw [if_pos ⟨by omega, by exact_mod_cast h⟩]
  simp only [Option.map_some, Int.toNat_natCast]
  congr 1
  apply BitVec.eq_of_getLsbD_eq
  intro i hi
  simp only [back, ext, BitVec.getLsbD_setWidth, BitVec.getLsbD_ushiftRight, hi, decide_true, Bool.true_and]
  by_cases hp : s + i < prom w
  · simp [hp]
  · have := le_prom w
    simp [hp, BitVec.getLsbD_of_ge x (s + i) (by omega)]

theorem ext_getLsbD (x : BitVec w) (i : Nat) : (ext x).getLsbD i = x.getLsbD i := by
  have := le_prom w
  by_cases hp : i < prom w
  · simp [ext, hp]
  · simp [ext, hp, BitVec.getLsbD_of_ge x i (by omega)]

theorem back_getLsbD (X : BitVec (prom w)) {i : Nat} (hi : i < w) : (back w X).getLsbD i = X.getLsbD i := by
  simp [back, hi]

theorem ext_toNat (x : BitVec w) : (ext x).toNat = x.toNat := by
  simp only [ext, BitVec.toNat_setWidth]
  exact Nat.mod_eq_of_lt (Nat.lt_of_lt_of_le x.isLt (Nat.pow_le_pow_right (by omega) (le_prom w)))

theorem shlP_eq (X : BitVec (prom w)) {s : Nat} (h : s < prom w)
    (hov : w < 32 → X.toNat * 2 ^ s < 2 ^ 32) : shlP w X s = some (X <<< s) := by
  unfold shlP
  rw [if_pos ⟨by omega, by exact_mod_cast h, by simpa using hov⟩]
  simp

/-- a left shift at the promoted type followed by truncation -/
theorem back_shl_getLsbD (X : BitVec (prom w)) (s i : Nat) (hi : i < w) :
    (back w (X <<< s)).getLsbD i = (decide (s ≤ i) && X.getLsbD (i - s)) := by
  have := le_prom w
  simp only [back, BitVec.getLsbD_setWidth, BitVec.getLsbD_shiftLeft, hi, decide_true, Bool.true_and]
  have : i < prom w := by omega
  by_cases h : i < s
  · simp [h]; omega
  · simp [h, this]; omega

/-! ### popcount -/

theorem countP_range_update (p q : Nat → Bool) (k : Nat) :
    ∀ n, k < n → (∀ i < n, i ≠ k → p i = q i) → p k = true → q k = false →
      (List.range n).countP p = (List.range n).countP q + 1 := by
  intro n
  induction n with
  | zero => intro h; omega
  | succ n ih =>
    intro hk heq hp hq
    rw [List.range_succ, List.countP_append, List.countP_append]
    by_cases hkn : k = n
    · subst hkn
      have : (List.range k).countP p = (List.range k).countP q := by
        apply List.countP_congr
        intro i hi
        have := List.mem_range.1 hi
        rw [heq i (by omega) (by omega)]
      simp [this, hp, hq]
    · rw [ih (by omega) (fun i hi hne => heq i (by omega) hne) hp hq]
      have : p n = q n := heq n (by omega) (by omega)
      simp only [List.countP_cons, List.countP_nil, this]
      omega

theorem exists_lowest {x : BitVec w} (h : x ≠ 0) :
    ∃ k, k < w ∧ x.getLsbD k = true ∧ ∀ i < k, x.getLsbD i = false := by
  by_cases hex : ∃ k, k < w ∧ x.getLsbD k = true
  · obtain ⟨k0, hk0⟩ := hex
    induction k0 using Nat.strongRecOn with
    | ind k ih =>
      by_cases hl : ∃ j < k, x.getLsbD j = true
      · obtain ⟨j, hj, hjt⟩ := hl
        exact ih j hj ⟨by omega, hjt⟩
      · refine ⟨k, hk0.1, hk0.2, fun i hi => ?_⟩
        cases hx : x.getLsbD i with
        | false => rfl
        | true => exact absurd ⟨i, hi, hx⟩ hl
  · exfalso; apply h
    apply BitVec.eq_of_getLsbD_eq
    intro i hi
    cases hx : x.getLsbD i with
    | false => simp
    | true => exact absurd ⟨i, hi, hx⟩ hex

theorem clearLow_getLsbD (x : BitVec w) {i : Nat} (hi : i < w) :
    (back w (ext x &&& (ext x - 1))).getLsbD i
      = (x.getLsbD i && !decide (∀ j < i, x.getLsbD j = false)) := by
  have := le_prom w
  have hp : i < prom w := by omega
  simp only [back_getLsbD _ hi, BitVec.getLsbD_and, getLsbD_sub_one hp, ext_getLsbD]
  cases x.getLsbD i <;> simp

theorem ones_clearLow {x : BitVec w} (h : x ≠ 0) :
    ones x = ones (back w (ext x &&& (ext x - 1))) + 1 := by
  obtain ⟨k, hk, hkt, hlow⟩ := exists_lowest h
  apply countP_range_update _ _ k w hk
  · intro i hi hne
    rw [clearLow_getLsbD x hi]
    cases hx : x.getLsbD i with
    | false => simp
    | true =>
      have hki : k < i := by
        rcases Nat.lt_or_ge i k with h1 | h1
        · rw [hlow i h1] at hx; simp at hx
        · omega
      simp only [Bool.true_and]
      symm; rw [Bool.not_eq_true', decide_eq_false_iff_not]
      intro hh; rw [hh k hki] at hkt; simp at hkt
  · exact hkt
  · rw [clearLow_getLsbD x hk, hkt]
    simp only [Bool.true_and, Bool.not_eq_false', decide_eq_true_eq]
    exact hlow

theorem ones_zero : ones (0 : BitVec w) = 0 := by
  unfold ones; rw [List.countP_eq_zero]; intro i _; simp

theorem popcount_eq : ∀ (n : Nat) (x : BitVec w), ones x = n → popcount x = some n := by
  intro n
  induction n with
  | zero =>
    intro x hx
    rw [popcount]
    by_cases h : x = 0
    · rw [if_pos h]
    · rw [ones_clearLow h] at hx; omega
  | succ n ih =>
    intro x hx
    rw [popcount]
    have h : x ≠ 0 := by intro h; rw [h, ones_zero] at hx; omega
    rw [if_neg h, ih _ (by rw [ones_clearLow h] at hx; omega)]
    simp only [Option.bind_eq_bind, Option.bind_some]; congr 1; omega

/-! ### parity -/

/-- exclusive or of the bits `0, s, 2s, ..., (n-1)s` -/
def comb (f : Nat → Bool) (s : Nat) : Nat → Bool
  | 0 => false
  | n + 1 => comb f s n ^^ f (n * s)

theorem comb_xor (f g : Nat → Bool) (s n : Nat) :
    comb (fun i => f i ^^ g i) s n = (comb f s n ^^ comb g s n) := by
  induction n with
  | zero => rfl
  | succ n ih =>
    simp only [comb, ih]
    cases comb f s n <;> cases comb g s n <;> cases f (n * s) <;> cases g (n * s) <;> rfl

theorem comb_add (f : Nat → Bool) (s a b : Nat) :
    comb f s (a + b) = (comb f s a ^^ comb (fun i => f (a * s + i)) s b) := by
  induction b with
  | zero => simp [comb]
  | succ b ih =>
    rw [← Nat.add_assoc]
    simp only [comb, ih, Nat.add_mul]
    cases comb f s a <;> simp

theorem comb_fold (f : Nat → Bool) (s n : Nat) :
    comb (fun i => f i ^^ f (n * s + i)) s n = comb f s (n + n) := by
  rw [comb_xor, comb_add]

theorem comb_half (f : Nat → Bool) (s n : Nat) :
    comb (fun i => f i ^^ f (s + i)) (2 * s) n = comb f s (2 * n) := by
  induction n with
  | zero => rfl
  | succ n ih =>
    rw [show 2 * (n + 1) = 2 * n + 1 + 1 by omega]
    simp only [comb, ih]
    rw [show (2 * n + 1) * s = s + n * (2 * s) by rw [Nat.add_mul, Nat.mul_comm 2 n, Nat.mul_assoc]; omega,
      show 2 * n * s = n * (2 * s) by rw [Nat.mul_comm 2 n, Nat.mul_assoc]]
    cases comb f s (2 * n) <;> simp

theorem comb_ones (f : Nat → Bool) (n : Nat) :
    (comb f 1 n).toNat = (List.range n).countP f % 2 := by
  induction n with
  | zero => rfl
  | succ n ih =>
    rw [List.range_succ, List.countP_append]
    simp only [comb, Nat.mul_one, List.countP_cons, List.countP_nil, Nat.zero_add]
    have : (List.range n).countP f % 2 = 0 ∨ (List.range n).countP f % 2 = 1 := by omega
    cases hc : comb f 1 n <;> cases f n <;> rw [hc] at ih <;> simp_all <;> omega

theorem comb_congr {f g : Nat → Bool} (s n : Nat) (h : ∀ i, f i = g i) : comb f s n = comb g s n := by
  rw [funext h]

theorem parityBytes_spec (k : Nat) : ∀ x : BitVec w, 8 * 2 ^ k ≤ w →
    ∃ y, parityBytes (2 ^ k) x = some y ∧ y.getLsbD 0 = comb x.getLsbD 8 (2 ^ k) := by
  induction k with
  | zero =>
    intro x _
    refine ⟨x, ?_, by simp [comb]⟩
    rw [parityBytes]; simp
  | succ k ih =>
    intro x hw
    rw [parityBytes]
    have hpow : 2 ^ (k + 1) = 2 * 2 ^ k := by rw [Nat.pow_succ]; omega
    have hpos : 0 < 2 ^ k := Nat.pow_pos (by omega)
    have hp := le_prom w
    rw [if_neg (by omega), if_neg (by omega)]
    rw [hpow, Nat.mul_div_cancel_left _ (by omega), shlr_eq x (by omega)]
    simp only [Option.bind_eq_bind, Option.bind_some]
    obtain ⟨y, hy, hb⟩ := ih (x ^^^ (x >>> (2 ^ k * 8))) (by omega)
    refine ⟨y, hy, ?_⟩
    rw [hb, show 2 * 2 ^ k = 2 ^ k + 2 ^ k by omega, ← comb_fold]
    apply comb_congr
    intro i
    simp

theorem parityBits_spec (hw : 4 < prom w) (x : BitVec w) (n : Nat) :
    ∃ y, parityBits x = some y ∧ comb y.getLsbD 8 n = comb x.getLsbD 1 (8 * n) := by
  unfold parityBits parityBits2 parityBits4
  have h1 : shlr x 1 = some (x >>> 1) := shlr_eq x (s := 1) (by omega)
  have h2 : shlr (x ^^^ x >>> 1) 2 = some _ := shlr_eq (x ^^^ x >>> 1) (s := 2) (by omega)
  have h3 : shlr ((x ^^^ x >>> 1) ^^^ (x ^^^ x >>> 1) >>> 2) 4 = some _ :=
    shlr_eq ((x ^^^ x >>> 1) ^^^ (x ^^^ x >>> 1) >>> 2) (s := 4) (by omega)
  simp only [Option.bind_eq_bind]
  rw [h1, Option.bind_some, h2, Option.bind_some, h3, Option.bind_some]
  refine ⟨_, rfl, ?_⟩
  have st : ∀ (z : BitVec w) (s n : Nat),
      comb (z ^^^ z >>> s).getLsbD (2 * s) n = comb z.getLsbD s (2 * n) := by
    intro z s n
    rw [← comb_half]
    apply comb_congr; intro i; simp
  rw [st _ 4, st _ 2, st _ 1]
  congr 1; omega

theorem parity_eq (hw : Width w) (x : BitVec w) : parity x = some (ones x % 2) := by
  obtain ⟨k, rfl⟩ := hw
  have hpos : 0 < 2 ^ k := Nat.pow_pos (by omega)
  have hp := le_prom (8 * 2 ^ k)
  unfold parity
  obtain ⟨y, hy, hc⟩ := parityBits_spec (by omega) x (2 ^ k)
  obtain ⟨z, hz, hb⟩ := parityBytes_spec k y (by omega)
  rw [hy]
  simp only [Option.bind_eq_bind, Option.bind_some, Nat.mul_div_cancel_left _ (show 0 < 8 by omega)]
  rw [hz]
  simp only [Option.bind_some]
  congr 1
  rw [ones, ← comb_ones, ← hc, ← hb]
  have h1 : (1 : BitVec (8 * 2 ^ k)).toNat = 1 := by
    have : 1 < 2 ^ (8 * 2 ^ k) := Nat.one_lt_two_pow (by omega)
    change 1 % 2 ^ (8 * 2 ^ k) = 1
    exact Nat.mod_eq_of_lt this
  rw [BitVec.toNat_and, h1, Nat.and_one_is_mod]
  change _ = (z.toNat.testBit 0).toNat
  rw [Nat.testBit_zero]
  have : z.toNat % 2 = 0 ∨ z.toNat % 2 = 1 := by omega
  rcases this with h | h <;> simp [h]

end Sprout

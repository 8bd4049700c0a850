import Verif.Model.Endian
import Verif.Spec.ByteOrder

/-! Lemmas for C71. -/

namespace Sprout.Endian
open Spec

variable {N : Nat}

/-- the bytes as bit vectors -/
def bv (v : BitVec (8 * N)) (k : Nat) : BitVec 8 := v.extractLsb' (8 * k) 8

theorem bv_toNat (v : BitVec (8 * N)) (k : Nat) : (bv v k).toNat = byte v k := by
  rw [bv, byte, BitVec.extractLsb'_toNat, Nat.shiftRight_eq_div_pow, Nat.pow_mul]

theorem bv_ext {v w : BitVec (8 * N)} (h : ∀ k < N, bv v k = bv w k) : v = w := by
  apply BitVec.eq_of_getLsbD_eq
  intro i hi
  have := congrArg (fun b => b.getLsbD (i % 8)) (h (i / 8) (by omega))
  simp only [bv, BitVec.getLsbD_extractLsb'] at this
  rw [Nat.div_add_mod] at this
  have h8 : i % 8 < 8 := by omega
  simpa [h8] using this

theorem mask_bit (N j : Nat) : (BitVec.ofNat (8 * N) 255).getLsbD j = (decide (j < 8 * N) && decide (j < 8)) := by
  have : (255 : Nat) = 2 ^ 8 - 1 := rfl
  rw [BitVec.getLsbD_ofNat, this, Nat.testBit_two_pow_sub_one]

theorem byteAt_eq {v : BitVec (8 * N)} {n : Nat} (hn : n < N) : byteAt v n = some (bv v n) := by
  have hm : n * 8 < max (8 * N) 32 := by omega
  simp only [byteAt, maskAt, lshiftBy, rshiftBy, if_pos hm, Option.bind_eq_bind, Option.bind_some]
  refine congrArg some ?_
  apply BitVec.eq_of_getLsbD_eq
  intro i hi
  have h1 : n * 8 + i < 8 * N := by omega
  have e : 8 * n + i = n * 8 + i := by omega
  have e1 : ¬ n * 8 + i < n * 8 := by omega
  have e2 : n * 8 + i - n * 8 = i := by omega
  have e3 : i < 8 * N := by omega
  simp only [bv, BitVec.getLsbD_extractLsb', BitVec.getLsbD_setWidth, BitVec.getLsbD_ushiftRight, BitVec.getLsbD_and,
    BitVec.getLsbD_shiftLeft, mask_bit, hi, h1, e, e1, e2, e3, decide_true, decide_false, Bool.not_false, Bool.and_true,
    Bool.true_and]

theorem bv_replaceAt {v : BitVec (8 * N)} {b : BitVec 8} {n : Nat} (hn : n < N) :
    ∃ w, replaceAt v b n = some w ∧ ∀ k < N, bv w k = if k = n then b else bv v k := by
  have hm : n * 8 < max (8 * N) 32 := by omega
  simp only [replaceAt, maskAt, lshiftBy, if_pos hm, Option.bind_eq_bind, Option.bind_some]
  refine ⟨_, rfl, ?_⟩
  intro k hk
  apply BitVec.eq_of_getLsbD_eq
  intro i hi
  have h1 : 8 * k + i < 8 * N := by omega
  by_cases e : k = n
  · subst e
    have e1 : ¬ 8 * k + i < k * 8 := by omega
    have e2 : 8 * k + i - k * 8 = i := by omega
    have e3 : i < 8 * N := by omega
    simp only [bv, BitVec.getLsbD_extractLsb', BitVec.getLsbD_setWidth, BitVec.getLsbD_and, BitVec.getLsbD_or,
      BitVec.getLsbD_not, BitVec.getLsbD_shiftLeft, mask_bit, hi, h1, e1, e2, e3, decide_true, decide_false, Bool.not_false,
      Bool.not_true, Bool.and_true, Bool.true_and, Bool.and_false, Bool.false_and, Bool.or_false, Bool.false_or, if_true]
  · simp only [if_neg e]
    rcases Nat.lt_or_gt_of_ne e with h | h
    · have e1 : 8 * k + i < n * 8 := by omega
      simp only [bv, BitVec.getLsbD_extractLsb', BitVec.getLsbD_setWidth, BitVec.getLsbD_and, BitVec.getLsbD_or,
      BitVec.getLsbD_not, BitVec.getLsbD_shiftLeft, mask_bit, hi, h1, e1, decide_true, decide_false, Bool.not_false,
      Bool.not_true, Bool.and_true, Bool.true_and, Bool.and_false, Bool.false_and, Bool.or_false, Bool.false_or, if_true]
    · have e1 : ¬ 8 * k + i < n * 8 := by omega
      have e2 : ¬ 8 * k + i - n * 8 < 8 := by omega
      have e3 : b.getLsbD (8 * k + i - n * 8) = false := BitVec.getLsbD_of_ge _ _ (by omega)
      simp only [bv, BitVec.getLsbD_extractLsb', BitVec.getLsbD_setWidth, BitVec.getLsbD_and, BitVec.getLsbD_or,
      BitVec.getLsbD_not, BitVec.getLsbD_shiftLeft, mask_bit, hi, h1, e1, e2, e3, decide_true, decide_false, Bool.not_false,
      Bool.not_true, Bool.and_true, Bool.true_and, Bool.and_false, Bool.false_and, Bool.or_false, Bool.false_or, if_true]

theorem bv_swap {v : BitVec (8 * N)} {n1 n2 : Nat} (h1 : n1 < N) (h2 : n2 < N) :
    ∃ w, swap v n1 n2 = some w ∧ ∀ k < N, bv w k = if k = n1 then bv v n2 else if k = n2 then bv v n1 else bv v k := by
  obtain ⟨c, hc, ec⟩ := bv_replaceAt (v := v) (b := bv v n1) h2
  obtain ⟨w, hw, ew⟩ := bv_replaceAt (v := c) (b := bv v n2) h1
  refine ⟨w, ?_, ?_⟩
  · simp only [swap, copy, byteAt_eq h1, byteAt_eq h2, Option.bind_eq_bind, Option.bind_some, hc, hw]
  · intro k hk
    rw [ew k hk, ec k hk]

theorem reverseImpl_spec (N2 : 2 ≤ N) (N256 : N ≤ 256) (v : BitVec (8 * N)) :
    ∀ (m n1 n2 : Nat) (x : BitVec (8 * N)), n2 + 1 - n1 ≤ m → n1 + n2 + 1 = N → n1 ≤ n2 + 2 → n1 ≤ 255 →
      (∀ k < N, bv x k = if k < n1 ∨ n2 < k then bv v (N - 1 - k) else bv v k) →
      ∃ w, reverseImpl x n1 n2 = some w ∧ ∀ k < N, bv w k = bv v (N - 1 - k) := by
  intro m
  induction m with
  | zero =>
    intro n1 n2 x hm hs hle h255 hx
    rw [reverseImpl, if_pos (by omega)]
    refine ⟨x, rfl, ?_⟩
    intro k hk
    rw [hx k hk]
    split
    · rfl
    · exfalso; omega
  | succ m ih =>
    intro n1 n2 x hm hs hle h255 hx
    rw [reverseImpl]
    by_cases hgt : n1 > n2
    · rw [if_pos hgt]
      refine ⟨x, rfl, ?_⟩
      intro k hk
      rw [hx k hk]
      split
      · rfl
      · exfalso; omega
    · rw [if_neg hgt]
      obtain ⟨w, hw, ew⟩ := bv_swap (v := x) (n1 := n1) (n2 := n2) (by omega) (by omega)
      rw [hw]
      simp only [Option.bind_eq_bind, Option.bind_some]
      have e1 : (n1 + 1) % 256 = n1 + 1 := by omega
      have e2 : (n2 + 255) % 256 = n2 - 1 := by omega
      rw [e1, e2]
      apply ih (n1 + 1) (n2 - 1) w (by omega) (by omega) (by omega) (by omega)
      intro k hk
      rw [ew k hk]
      by_cases k1 : k = n1
      · subst k1
        rw [if_pos rfl, if_pos (Or.inl (by omega)), hx n2 (by omega), if_neg (by omega)]
        congr 1; omega
      · rw [if_neg k1]
        by_cases k2 : k = n2
        · subst k2
          rw [if_pos rfl, if_pos (Or.inr (by omega)), hx n1 (by omega), if_neg (by omega)]
          congr 1; omega
        · rw [if_neg k2, hx k hk]
          by_cases k3 : k < n1 ∨ n2 < k
          · rw [if_pos k3, if_pos (by omega)]
          · rw [if_neg k3, if_neg (by omega)]

theorem reverse_spec (N2 : 2 ≤ N) (N256 : N ≤ 256) (v : BitVec (8 * N)) :
    ∃ w, reverse v = some w ∧ ∀ k < N, bv w k = bv v (N - 1 - k) := by
  have e : (N - 1) % 256 = N - 1 := by omega
  rw [reverse, e]
  apply reverseImpl_spec N2 N256 v N 0 (N - 1) v (by omega) (by omega) (by omega) (by omega)
  intro k hk
  rw [if_neg (by omega)]

theorem reverseWordsImpl_spec (v : BitVec (8 * N)) (N256 : N < 256) :
    ∀ (m : Nat) (x : BitVec (8 * N)), 2 * m ≤ N →
      (∀ k < N, bv x k = if k < 2 * m then bv v k else if k % 2 = 0 then bv v (k + 1) else bv v (k - 1)) →
      ∃ w, reverseWordsImpl x (2 * m) = some w ∧
        ∀ k < N, bv w k = if k % 2 = 0 then bv v (k + 1) else bv v (k - 1) := by
  intro m
  induction m with
  | zero =>
    intro x _ hx
    rw [reverseWordsImpl, if_pos rfl]
    refine ⟨x, rfl, ?_⟩
    intro k hk
    rw [hx k hk, if_neg (by omega)]
  | succ m ih =>
    intro x hm hx
    rw [reverseWordsImpl, if_neg (by omega)]
    have e1 : (2 * (m + 1) + 255) % 256 = 2 * m + 1 := by omega
    have e2 : (2 * (m + 1) + 254) % 256 = 2 * m := by omega
    rw [e1, e2]
    obtain ⟨w, hw, ew⟩ := bv_swap (v := x) (n1 := 2 * m + 1) (n2 := 2 * m) (by omega) (by omega)
    rw [hw]
    simp only [Option.bind_eq_bind, Option.bind_some]
    apply ih w (by omega)
    intro k hk
    rw [ew k hk]
    by_cases k1 : k = 2 * m + 1
    · subst k1
      rw [if_pos rfl, if_neg (by omega), if_neg (by omega), hx (2 * m) (by omega), if_pos (by omega)]
      rfl
    · rw [if_neg k1]
      by_cases k2 : k = 2 * m
      · subst k2
        rw [if_pos rfl, if_neg (by omega), if_pos (by omega), hx (2 * m + 1) (by omega), if_pos (by omega)]
      · rw [if_neg k2, hx k hk]
        by_cases k3 : k < 2 * m
        · rw [if_pos k3, if_pos (by omega)]
        · rw [if_neg k3, if_neg (by omega)]

theorem reverseWords_spec (v : BitVec (8 * N)) (N256 : N < 256) (he : N % 2 = 0) :
    ∃ w, reverseWords v = some w ∧ ∀ k < N, bv w k = if k % 2 = 0 then bv v (k + 1) else bv v (k - 1) := by
  have e : N % 256 = 2 * (N / 2) := by omega
  rw [reverseWords, e]
  apply reverseWordsImpl_spec v N256 (N / 2) v (by omega)
  intro k hk
  rw [if_pos (by omega)]

end Sprout.Endian

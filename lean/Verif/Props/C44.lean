import Verif.Proofs.Bitset4
import Verif.Props.C26

/-!
# C44: bitset(unsigned long long)

The constructor should set bit `i < min(N, 64)` to bit `i` of the argument and the rest to zero. On a platform where
`unsigned long` has 64 bits it shifts a 64-bit value by 64 as soon as there are two words, whatever the argument: undefined.
-/

namespace Sprout
open Spec Bitset

/-- the property as stated fails: `bitset<65>(0)` on LP64 is undefined behaviour, as is every `bitset<N>(v)`, `N > 64` -/
theorem C44_undefined {N : Nat} (hN : 64 < N) (v : BitVec 64) : ofUllong 64 N v = none := by
  have h2 : ∃ k, nwords 64 N = k + 2 := ⟨nwords 64 N - 2, by unfold nwords; split <;> omega⟩
  obtain ⟨k, hk⟩ := h2
  rw [ofUllong, sanitizeVal, if_neg (by omega), hk]
  rfl

/-- so the statement for every `N` is false -/
theorem C44_false : ¬ ∀ (N : Nat) (v : BitVec 64), ∃ ws, ofUllong 64 N v = some ws ∧
    Rep 64 N ws (fun i => v.getLsbD i) := by
  intro h
  obtain ⟨ws, h1, -⟩ := h 65 0
  rw [C44_undefined (by decide)] at h1
  cases h1

theorem sanitizeVal_eq (N : Nat) (v : BitVec 64) : ∃ v', sanitizeVal N v = some v' ∧
    ∀ i, v'.getLsbD i = (decide (i < N) && v.getLsbD i) := by
  unfold sanitizeVal
  by_cases h : N < 64
  · rw [if_pos h, wshl, if_pos h]
    refine ⟨_, rfl, fun i => ?_⟩
    by_cases hi : i < 64
    · rw [BitVec.getLsbD_and, BitVec.getLsbD_not, allOnes_shl hi, Bool.and_comm]
      congr 1
      by_cases hN : i < N
      · simp [hi, hN]
      · simp [hi, hN]; omega
    · rw [BitVec.getLsbD_of_ge _ _ (by omega), BitVec.getLsbD_of_ge _ _ (by omega)]; simp
  · rw [if_neg h]
    refine ⟨v, rfl, fun i => ?_⟩
    by_cases hi : i < N
    · simp [hi]
    · rw [BitVec.getLsbD_of_ge _ _ (by omega)]; simp

/-- it holds if `unsigned long` is shorter than `unsigned long long` (but at least half as long), or if one word
suffices. Missing: `N > B = 64`, where the code is undefined. -/
theorem C44_of_ullong_partial {B N : Nat} (hB : 32 ≤ B) (hB' : B ≤ 64) (h : B < 64 ∨ N ≤ B) (v : BitVec 64) :
    ∃ ws, ofUllong B N v = some ws ∧ Rep B N ws (fun i => v.getLsbD i) := by
  have hBp : 0 < B := by omega
  obtain ⟨v', e1, e2⟩ := sanitizeVal_eq N v
  obtain ⟨b1, b2⟩ := nwords_bounds hBp N
  have hunf : ofUllong B N v = match nwords B N with
    | 0 => some []
    | 1 => some [v'.setWidth B]
    | k + 2 => (wshr v' B).bind fun h => some (v'.setWidth B :: h.setWidth B :: List.replicate k 0) := by
    rw [ofUllong, e1]; rfl
  rw [hunf]
  have hlow : ∀ i < B, (v'.setWidth B).getLsbD i = (decide (i < N) && v.getLsbD i) := by
    intro i hi
    rw [BitVec.getLsbD_setWidth, e2]; simp [hi]
  generalize hn : nwords B N = n at *
  rcases n with _ | _ | k
  · refine ⟨[], rfl, (rep_iff hBp).2 ⟨by simp [hn], fun i => ?_⟩⟩
    rw [bitAt_nil]; simp; intro _; omega
  · refine ⟨_, rfl, (rep_iff hBp).2 ⟨by simp [hn], fun i => ?_⟩⟩
    by_cases hi : i < B
    · rw [bitAt_cons_lo _ _ hi, hlow i hi]
    · rw [bitAt_ge _ hBp (by simp; omega)]
      simp; intro _; omega
  · have : 2 * B ≤ (k + 1 + 1) * B := Nat.mul_le_mul_right _ (by omega)
    have hB64 : B < 64 := by
      rcases h with h | h
      · exact h
      · omega
    refine ⟨v'.setWidth B :: (v' >>> B).setWidth B :: List.replicate k 0, ?_,
      (rep_iff hBp).2 ⟨by simp [hn], fun i => ?_⟩⟩
    · show (wshr v' B).bind _ = _
      rw [wshr, if_pos hB64]; rfl
    · by_cases hi : i < B
      · rw [bitAt_cons_lo _ _ hi, hlow i hi]
      · obtain ⟨d, rfl⟩ := Nat.exists_eq_add_of_le (show B ≤ i by omega)
        rw [bitAt_cons_hi hBp]
        by_cases hd : d < B
        · rw [bitAt_cons_lo _ _ hd, BitVec.getLsbD_setWidth, BitVec.getLsbD_ushiftRight, e2]; simp [hd]
        · obtain ⟨c, rfl⟩ := Nat.exists_eq_add_of_le (show B ≤ d by omega)
          rw [bitAt_cons_hi hBp, bitAt_replicate_zero, BitVec.getLsbD_of_ge v _ (by omega)]; simp

example : ofUllong 64 10 0xFFFF#64 = some [0x3FF#64] ∧
    ofUllong 32 70 0x123456789#64 = some [0x23456789#32, 1#32, 0#32] ∧ ofUllong 64 70 0#64 = none := by decide

end Sprout

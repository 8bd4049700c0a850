import Verif.Proofs.Bitset2
import Verif.Props.C26

/-!
# C27: bitset shifts

For every word size, every `N`, every bitset and every shift amount `k` (zero, multiples of the word size, `k ≥ N`), the
const operators and the compound ones.
-/

namespace Sprout
open Spec Bitset

variable {B N : Nat} {ws : List (BitVec B)} {f : Nat → Bool}

/-- `b << k` and `b <<= k` represent `i ↦ b[i - k]` for `i ≥ k`, `0` otherwise -/
theorem C27_left (hB : 0 < B) (h : Rep B N ws f) (k : Nat) :
    ∃ ws', shl N ws k = some ws' ∧ shlAssign N ws k = some ws' ∧
      Rep B N ws' (fun i => decide (k ≤ i) && f (i - k)) := by
  have h' := (rep_iff hB).1 h
  by_cases hk : k < N
  · have hw := pos_word hB h'.1 hk
    obtain ⟨ys, e1, e2⟩ := leftConst_res hB hw
    obtain ⟨zs, e3, e4⟩ := leftMut_res hB hw
    rw [← leftRes_unique e2 e4] at e3
    obtain ⟨ws', e5, e6⟩ := rep_sanitized (N := N) (f := fun i => decide (k ≤ i) && f (i - k)) hB (ys := ys)
      (by rw [e2.1, h'.1]) (fun i hi hn => by
        rw [leftRes_bits hB e2 (by rw [← e2.1]; exact hi), h'.2]
        by_cases hki : k ≤ i
        · simp [hki]; omega
        · simp [hki])
    refine ⟨ws', ?_, ?_, e6⟩
    · rw [shl, if_pos hk, e1]; exact e5
    · rw [shlAssign, if_pos hk, e3]; exact e5
  · refine ⟨resetAll ws, by rw [shl, if_neg hk], by rw [shlAssign, if_neg hk], ?_⟩
    rw [rep_iff hB]
    refine ⟨by simpa [resetAll] using h'.1, fun i => ?_⟩
    rw [bitAt_resetAll]
    by_cases hi : i < N
    · simp [show ¬ k ≤ i by omega]
    · simp [hi]

/-- `b >> k` and `b >>= k` represent `i ↦ b[i + k]` for `i + k < N`, `0` otherwise -/
theorem C27_right (hB : 0 < B) (h : Rep B N ws f) (k : Nat) :
    ∃ ws', shr N ws k = some ws' ∧ shrAssign N ws k = some ws' ∧
      Rep B N ws' (fun i => decide (i + k < N) && f (i + k)) := by
  have h' := (rep_iff hB).1 h
  by_cases hk : k < N
  · have hw := pos_word hB h'.1 hk
    obtain ⟨ys, e1, e2⟩ := rightConst_res hB hw
    obtain ⟨zs, e3, e4⟩ := rightMut_res hB hw
    rw [← rightRes_unique e2 e4] at e3
    obtain ⟨ws', e5, e6⟩ := rep_sanitized (N := N) (f := fun i => decide (i + k < N) && f (i + k)) hB (ys := ys)
      (by rw [e2.1, h'.1]) (fun i hi hn => by
        rw [rightRes_bits hB e2 (by rw [← e2.1]; exact hi) hw, h'.2])
    refine ⟨ws', ?_, ?_, e6⟩
    · rw [shr, if_pos hk, e1]; exact e5
    · rw [shrAssign, if_pos hk, e3]; exact e5
  · refine ⟨resetAll ws, by rw [shr, if_neg hk], by rw [shrAssign, if_neg hk], ?_⟩
    rw [rep_iff hB]
    refine ⟨by simpa [resetAll] using h'.1, fun i => ?_⟩
    rw [bitAt_resetAll]
    simp [show ¬ (i + k < N) by omega]

/-- non-vacuity: 70-bit bitset, shift by 3 moves a bit over the word boundary and one out of the top -/
example : shl 70 [0xC000000000000001#64, 0x20#64] 3 = some [8#64, 6#64] ∧
    shl 70 [0xC000000000000001#64, 0x20#64] 64 = some [0#64, 1#64] ∧
    shl 70 [0xC000000000000001#64, 0x20#64] 0 = some [0xC000000000000001#64, 0x20#64] ∧
    shl 70 [0xC000000000000001#64, 0x20#64] 70 = some [0#64, 0#64] ∧
    shr 70 [0xC000000000000001#64, 0x25#64] 3 = some [0xB800000000000000#64, 4#64] ∧
    shr 70 [0xC000000000000001#64, 0x25#64] 66 = some [9#64, 0#64] := by decide +kernel

end Sprout

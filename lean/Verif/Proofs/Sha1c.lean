import Verif.Proofs.Sha1b

/-! # sha1: the variant for Clang -/

namespace Sprout.Sha1.Workaround
open Spec Spec.SHA1

theorem processBlock1_eq {s : Sha1} (hb : s.block.length = 64) (n : Nat) : ∀ (D : Nat) (v : H5) (i : Nat), i + n = 80 →
    D + 2 * n < limit - 1 → processBlock1 D s v i = (Sha1.processBlock1 s v i).map Ret.ret := by
  induction n with
  | zero =>
    intro D v i h hD
    rw [processBlock1, if_neg (by omega), if_neg (by omega), Sha1.processBlock1, if_neg (by omega)]; rfl
  | succ n ih =>
    intro D v i h hD
    rw [processBlock1, if_neg (by omega), if_pos (by omega), if_neg (by omega), Sha1.processBlock1, if_pos (by omega),
      show (5 : Int) = ((5 : Nat) : Int) from rfl, show (30 : Int) = ((30 : Nat) : Int) from rfl,
      rotl32 _ _ (by decide) (by decide), calcW_eq hb i (by omega), rotl32 _ _ (by decide) (by decide)]
    rw [obind, obind, obind, obind, obind, obind, ih _ _ _ (by omega) (by omega)]

theorem process_eq {D : Nat} {h : H5} {block : List (BitVec 8)} {k : Nat} {bits : BitVec 64} (hb : block.length = 64)
    (hD : D + 162 < limit - 1) : process D h block k bits = (Sha1.process h block k bits).map Ret.ret := by
  rw [process, if_neg (by omega), Sha1.process]
  split
  · rfl
  · rw [processBlock, if_neg (by omega), cProcessBlock]
    exact processBlock1_eq (s := ⟨h, block, 0, bits⟩) hb 80 _ _ _ rfl (by omega)

/-- what fits into the current block is processed as in the other variant; otherwise an exception -/
theorem processBlockImpl_eq (bytes : List (BitVec 8)) : ∀ (D : Nat) (s : Sha1) (m args : List (BitVec 8)), Inv s m →
    D = 16 + args.length → s.idx + args.length ≤ 64 →
    (s.idx + args.length + bytes.length ≤ 64 →
      ∃ s', processBlockImpl D s bytes args = some (.ret s') ∧ Inv s' (m ++ args ++ bytes)) ∧
    (64 < s.idx + args.length + bytes.length → processBlockImpl D s bytes args = some (.throw .runtimeError)) := by
  induction bytes with
  | nil =>
    intro D s m args h hD hle
    refine ⟨fun _ => ?_, fun hlt => by simp at hlt; omega⟩
    obtain ⟨s1, p1, p2, p3⟩ := process_put h.1 (xs := args) (bits := s.bits + BitVec.ofNat 64 (args.length * 8)) hle
    have hinv : Inv s1 (m ++ args) := ⟨p2, by rw [p3]; exact bits_add h.2 (by simp)⟩
    refine ⟨s1, ?_, by simpa using hinv⟩
    rw [processBlockImpl.eq_def, if_neg (by simp [limit]; omega)]
    by_cases h64 : args.length = 64
    · have hi : s.idx = 0 := by omega
      have hput : put s.block s.idx args = args := by
        rw [put, hi, h.1.len, h64]
        simp only [List.take_zero, List.nil_append]
        rw [List.take_of_length_le (by omega), List.drop_of_length_le (by rw [h.1.len]; omega), List.append_nil]
      rw [hput, hi, h64] at p1
      rw [if_pos h64]
      simp only
      have p1' : Sha1.process s.h args 64 (s.bits + 512) = some s1 := p1
      rw [process_eq h64 (by simp [limit]; omega), p1']
      rfl
    · rw [if_neg h64]
      simp only
      rw [process_eq (by rw [(put_take (by rw [h.1.len]; exact hle)).2, h.1.len]) (by simp [limit]; omega), p1]
      rfl
  | cons b bs ih =>
    intro D s m args h hD hle
    rw [processBlockImpl.eq_def, if_neg (by simp [limit]; omega)]
    by_cases h64 : args.length = 64
    · rw [if_pos h64]
      exact ⟨fun hh => by simp at hh; omega, fun _ => rfl⟩
    · rw [if_neg h64]
      simp only
      by_cases hi : s.idx + args.length = 64
      · rw [if_pos hi]
        exact ⟨fun hh => by simp at hh; omega, fun _ => rfl⟩
      · rw [if_neg hi]
        obtain ⟨q1, q2⟩ := ih (D + 1) s m (args ++ [b]) h (by simp; omega) (by simp; omega)
        refine ⟨fun hh => ?_, fun hh => q2 (by simp at hh ⊢; omega)⟩
        obtain ⟨s', r1, r2⟩ := q1 (by simp at hh ⊢; omega)
        exact ⟨s', r1, by simpa using r2⟩

end Sprout.Sha1.Workaround

import Verif.Proofs.SeedArray

/-!
# C133: `seed_array::generate` is `std::seed_seq::generate`
-/

namespace Sprout
open SeedArray

/-- the version for mutable ranges -/
theorem C133_generate (v : List (BitVec 32)) (n : ℕ) : generate v n = some (SeedSpec.generate v n) := generate_eq v n

/-- the version for constant expressions -/
theorem C133_const (v : List (BitVec 32)) (n : ℕ) : generateConst v n = some (SeedSpec.generate v n) := generateConst_eq v n

/-- neither leaves the array, and the result has `n` elements -/
theorem C133_length (v : List (BitVec 32)) (n : ℕ) :
    ∃ r, generate v n = some r ∧ generateConst v n = some r ∧ r.length = n :=
  ⟨_, generate_eq v n, generateConst_eq v n, by simp [SeedSpec.generate]⟩

/-- the constructor takes every value of a type of at most 64 bits modulo 2³², although the remainder is taken by 2³³ -/
theorem C133_init (x : ℤ) : initWord x = BitVec.ofInt 32 x := by
  unfold initWord
  apply BitVec.eq_of_toInt_eq
  rw [BitVec.toInt_ofInt, BitVec.toInt_ofInt]
  simp only [Int.bmod_def]
  omega

/-- a `seed_array<N>` made from `N` values has them, modulo 2³² -/
theorem C133_make (xs : List ℤ) : make xs.length xs = xs.map (BitVec.ofInt 32) := by
  simp [make, funext C133_init, List.take_of_length_le]

/-- `seed_array<N>` always has `N` seeds: the others are zeros, or are left out -/
theorem C133_size (N : ℕ) (xs : List ℤ) : (make N xs).length = N := by
  simp [make]; omega

/-- the values that [rand.util.seedseq] gives for the seeds 1, 2, 3, 4, 5 -/
example : generate (make 5 [1, 2, 3, 4, 5]) 10
      = some [4204997637, 4246533866, 1856049002, 1129615051, 690460811, 1075771511, 46783058, 3904109078, 1534123438, 1495905678] ∧
    generateConst (make 5 [1, 2, 3, 4, 5]) 10
      = some [4204997637, 4246533866, 1856049002, 1129615051, 690460811, 1075771511, 46783058, 3904109078, 1534123438, 1495905678] := by
  rw [C133_generate, C133_const]
  decide +kernel

/-- negative seeds, and more seeds than places -/
example : make 2 [-1, 2 ^ 32 + 7, 5] = [0xffffffff, 7] ∧ make 3 [4] = [4, 0, 0] ∧ generate [0xffffffff, 7] 1 = generateConst [0xffffffff, 7] 1 := by
  refine ⟨by decide +kernel, by decide +kernel, ?_⟩
  rw [C133_generate, C133_const]

end Sprout

import Verif.Proofs.SeedOne
import Verif.Proofs.SeedArray
import Verif.Props.C39

/-!
# C134: seeding an engine from a sequence of seeds
-/

namespace Sprout
open SeedOne
open SeedArray (Word)

/-- For a mutable seed sequence the seed is the sum that the standard prescribes, if the modulus is at most 2³² or a power of two. -/
theorem C134_one_int_partial (w m : ℕ) (hw : w = 32 ∨ w = 64) (hm : 2 ≤ m) (h : m < 2 ^ w) (hok : m ≤ 2 ^ 32 ∨ ∃ e, m = 2 ^ e)
    (gen : ℕ → Option (List Word)) (a : ℕ → List Word) (hg : ∀ n, gen n = some (a n)) (hl : ∀ n, (a n).length = n) :
    seedOneInt w m gen = some (SeedSpec.oneInt m a : ℤ) := seedOneInt_eq hw hm h hok hg hl

/-- The state of a linear congruential engine that is seeded from a `seed_array` is that of the standard. -/
theorem C134_lcg_partial (w c m : ℕ) (hw : w = 32 ∨ w = 64) (hm : 2 ≤ m) (h : m < 2 ^ w) (hc : c < m) (hok : m ≤ 2 ^ 32 ∨ ∃ e, m = 2 ^ e)
    (v : List Word) :
    lcgSeed w c m (SeedArray.generate v) = some (SeedSpec.lcgState c m (SeedSpec.generate v) : ℤ) := by
  have hM := uty_mod hw (by omega : 1 ≤ m) h
  have hlt : SeedSpec.oneInt m (SeedSpec.generate v) < m := Nat.mod_lt _ (by omega)
  unfold lcgSeed
  rw [C134_one_int_partial w m hw hm h hok _ (SeedSpec.generate v) (SeedArray.generate_eq v) (fun n => by simp [SeedSpec.generate])]
  simp only [Option.bind_eq_bind, Option.bind_some]
  have hle := hM.le
  rw [(C39_seed (uty w) c m _ hM (by omega) (CInt.has_nn hM.std (by omega) (by omega))).1]
  congr 1
  unfold SeedSpec.lcgState
  rw [Int.emod_eq_of_lt (by omega) (by omega), Nat.mod_eq_of_lt hc]
  norm_cast

/-- what the standard asks of every modulus -/
def SeedOneFull : Prop := ∀ (m : ℕ), 2 ≤ m → m < 2 ^ 64 → ∀ v : List Word,
  seedOneInt 64 m (SeedArray.generate v) = some (SeedSpec.oneInt m (SeedSpec.generate v) : ℤ)

/-- Other moduli fail always, whatever the sequence generates: the product is "not implemented" (const_mod.hpp 50-56). -/
theorem C134_large_undefined (m : ℕ) (h : m < 2 ^ 64) (hlo : 2 ^ 32 < m) (hp : ∀ e, m ≠ 2 ^ e) (gen : ℕ → Option (List Word)) :
    seedOneInt 64 m gen = none := seedOneInt_none h hlo hp gen

theorem C134_full_refuted : ¬ SeedOneFull := by
  intro h
  have h1 := h (2 ^ 40 - 87) (by norm_num) (by norm_num) [1]
  rw [C134_large_undefined (2 ^ 40 - 87) (by norm_num) (by norm_num) ?_] at h1
  · exact absurd h1 (by simp)
  · intro e he
    rcases e with _ | e
    · norm_num at he
    · have : 2 ^ (e + 1) = 2 ^ e * 2 := Nat.pow_succ ..
      omega

/-- The modulus 0, which stands for 2 ^ w, has no seed (this is the modulus with which `taus88`, `w = 32`, is seeded). -/
theorem C134_zero_undefined (w : ℕ) (gen : ℕ → Option (List Word)) : seedOneInt w 0 gen = none := by
  unfold seedOneInt
  rw [(seedLog_spec w (by norm_num)).1 rfl]
  rfl

/-- The overload for constant sequences and the one for iterators are ill-formed: the template parameter `k` can not be deduced. -/
theorem C134_const_undefined (w m : ℕ) (gen : ℕ → Option (List Word)) (xs : List Word) :
    seedOneConst w m gen = none ∧ getOneInt w m xs = none := by
  have h1 : oneIntCallable = false := by decide
  have h2 : getIntCallable = false := by decide
  simp [seedOneConst, getOneInt, h1, h2]

/-- If the call were completed, the two overloads would still differ: for the modulus 2³² one generates 4 words, the other 5. -/
theorem C134_meant_differs : seedOneMeant 64 (2 ^ 32) (SeedArray.generate [1]) ≠ seedOneInt 64 (2 ^ 32) (SeedArray.generate [1]) := by
  rw [C134_one_int_partial 64 (2 ^ 32) (by omega) (by norm_num) (by norm_num) (Or.inl (by norm_num)) _ (SeedSpec.generate [1]) (SeedArray.generate_eq [1])
    (fun n => by simp [SeedSpec.generate])]
  obtain ⟨log, e, h1, h2⟩ := (seedLog_spec 64 (by norm_num : 2 ^ 32 < 2 ^ 64)).2 (by norm_num)
  have hl : log = 32 := by
    have a1 := (Nat.pow_le_pow_iff_right (by omega : 1 < 2)).1 h1
    have a2 := (Nat.pow_lt_pow_iff_right (by omega : 1 < 2)).1 h2
    omega
  subst hl
  have hw1 : SeedSpec.words (2 ^ 32) = 1 := by
    have := pow_lt_of_lt_words (m := 2 ^ 32) (j := 1)
    have h3 := words_le_one (m := 2 ^ 32) (by norm_num)
    have h4 : SeedSpec.words (2 ^ 32) ≠ 0 := by
      intro h0
      have : ¬ (0 < SeedSpec.words (2 ^ 32)) := by omega
      apply this
      unfold SeedSpec.words
      exact Nat.clog_pos (by norm_num) (by norm_num)
    omega
  unfold seedOneMeant
  rw [e]
  simp only [Option.bind_eq_bind, Option.bind_some]
  rw [seedK_spec (by norm_num) (by norm_num) h1 h2, SeedArray.generate_eq]
  simp only [Option.bind_some]
  rw [hw1, seedOneImpl, if_pos (by norm_num)]
  simp only [Option.bind_eq_bind]
  rw [body_eq (Or.inr rfl) (by norm_num) (by norm_num) (by norm_num) (by simp [SeedSpec.generate]) (by norm_num)
    (by unfold CMod.Able; right; right; left; norm_num), Option.bind_some, seedOneImpl, if_neg (by norm_num)]
  unfold SeedSpec.oneInt
  rw [hw1]
  decide +kernel

/-- `E e(x)` for a non-const engine `x` does not copy it: the constructor for seed sequences is chosen, and that is ill-formed. The
other forms copy. -/
theorem C134_copy_undefined (x : ℤ) :
    copyState true false x = none ∧ copyState true true x = some x ∧ copyState false false x = some x ∧ copyState false true x = some x :=
  ⟨rfl, rfl, rfl, rfl⟩

/-- `minstd_rand` seeded with the sequence 1, 2, 3, and the modulus 2⁴⁸ of `rand48` -/
example : lcgSeed 64 0 2147483647 (SeedArray.generate [1, 2, 3]) = some (SeedSpec.lcgState 0 2147483647 (SeedSpec.generate [1, 2, 3]) : ℤ) :=
  C134_lcg_partial 64 0 _ (by norm_num) (by norm_num) (by norm_num) (by norm_num) (Or.inl (by norm_num)) _
example : seedOneInt 64 (2 ^ 48) (SeedArray.generate [7]) = some (SeedSpec.oneInt (2 ^ 48) (SeedSpec.generate [7]) : ℤ) :=
  C134_one_int_partial 64 _ (by norm_num) (by norm_num) (by norm_num) (Or.inr ⟨48, rfl⟩) _ _ (SeedArray.generate_eq [7]) (fun n => by simp [SeedSpec.generate])
example : SeedSpec.generate [1, 2, 3] 4 ≠ SeedSpec.generate [1, 2, 4] 4 := by decide +kernel

end Sprout

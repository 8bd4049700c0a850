import Verif.Spec.RangeAlg
import Verif.Proofs.Find2

/-! helper lemmas on `pack` -/

namespace Sprout.RangeAlg
open Spec
variable {α : Type}

theorem shows_mid (pre xs post : List α) (i j : Nat) (hij : i ≤ j) (hj : j ≤ xs.length) :
    shows (pre ++ xs ++ post) (.rng (pre.length + i) (pre.length + j)) = some ((xs.drop i).take (j - i)) := by
  show (if _ ∧ _ then _ else _) = _
  rw [if_pos ⟨by omega, by simp; omega⟩]
  congr 1
  have e : pre.length + j - (pre.length + i) = j - i := by omega
  rw [e, List.append_assoc, ← List.drop_drop, List.drop_left, List.drop_append_of_le_length (by omega),
    List.take_append_of_le_length (by simp; omega)]

theorem pack_cut (v : RetV) (pre xs post : List α) (i : Nat) (hi : i ≤ xs.length) :
    Cut v pre xs post i (pack v (pre.length + i) (seg pre xs post)) := by
  cases v
  · rfl
  · have := shows_mid pre xs post i xs.length hi (Nat.le_refl _)
    simp only [Cut, pack, seg]
    rw [this, List.take_of_length_le (by simp)]
  · have := shows_mid pre xs post 0 i (Nat.zero_le _) hi
    simpa [Cut, pack, seg] using this

end Sprout.RangeAlg

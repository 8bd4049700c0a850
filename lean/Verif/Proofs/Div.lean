import Verif.Spec.Div
import Mathlib.Tactic.Ring
import Mathlib.Tactic.Linarith
import Mathlib.Tactic.NormNum

/-! # Helper lemmas for C115 -/

namespace Sprout
namespace Div

/-- a quotient other than `MIN / -1` is a value of the type -/
theorem quot_has {T : CInt} (hsg : T.sg = true) {n d : Int} (hn : T.Has n) (h : ¬ (n = T.min ∧ d = -1)) :
    T.Has (n.tdiv d) ∧ T.Has (n.tmod d) := by
  have hmin : T.min = -2 ^ (T.w - 1) := by unfold CInt.min; rw [if_pos hsg]
  have hmax : T.max = 2 ^ (T.w - 1) - 1 := by unfold CInt.max; rw [if_pos hsg]
  have hq : (n.tdiv d).natAbs ≤ n.natAbs := by rw [Int.natAbs_tdiv]; exact Nat.div_le_self _ _
  have hr : (n.tmod d).natAbs ≤ n.natAbs := by rw [Int.natAbs_tmod]; exact Nat.mod_le _ _
  have hs : 0 ≤ n → 0 ≤ n.tmod d := fun h => Int.tmod_nonneg d h
  have hs2 : n ≤ 0 → n.tmod d ≤ 0 := fun h => by
    have := Int.tmod_nonneg d (by omega : 0 ≤ -n)
    rw [Int.neg_tmod] at this
    omega
  obtain ⟨h1, h2⟩ := hn
  refine ⟨⟨by omega, ?_⟩, ⟨by omega, by omega⟩⟩
  by_contra hc
  have he : n = T.min := by omega
  have hqe : n.tdiv d = 2 ^ (T.w - 1) := by omega
  have := Int.mul_tdiv_add_tmod n d
  rw [hqe] at this
  have hn0 : n ≤ 0 := by have : (0 : Int) < 2 ^ (T.w - 1) := by positivity
                         omega
  have hr0 := hs2 hn0
  have hp : (0 : Int) < 2 ^ (T.w - 1) := by positivity
  have hd : d * 2 ^ (T.w - 1) + n.tmod d = -2 ^ (T.w - 1) := by rw [this, he, hmin]
  have hge : d ≥ -1 := by nlinarith
  rcases (by omega : d = -1 ∨ d = 0 ∨ 0 < d) with e | e | e
  · exact h ⟨he, e⟩
  · rw [e, Int.tdiv_zero] at hqe; omega
  · have hq0 : n.tdiv d ≤ 0 := by
      have h3 := Int.tdiv_nonneg (by omega : 0 ≤ -n) e.le
      rw [Int.neg_tdiv] at h3
      omega
    omega

end Div
end Sprout

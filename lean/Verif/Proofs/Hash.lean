import Verif.Model.Hash
import Mathlib.Data.Nat.Bitwise
import Mathlib.Data.Int.ModEq
import Mathlib.Tactic.Positivity
import Mathlib.Tactic.Linarith

/-! # Lemmas about hash values -/

namespace Sprout
namespace Hash
variable {α : Type}

theorem xor_lt {w a b : Nat} (ha : a < 2 ^ w) (hb : b < 2 ^ w) : a ^^^ b < 2 ^ w := Nat.xor_lt_two_pow ha hb

theorem mod_lt' (w x : Nat) : x % 2 ^ w < 2 ^ w := Nat.mod_lt _ (Nat.two_pow_pos w)

theorem combine_lt {w seed x : Nat} (hs : seed < 2 ^ w) : combine w seed x < 2 ^ w := xor_lt hs (mod_lt' _ _)

theorem add_mod_inj {M a b c : Nat} (ha : a < M) (hb : b < M) (h : (a + c) % M = (b + c) % M) : a = b := by
  have h1 : (a + c) % M = (b + c) % M := h
  have : a ≡ b [MOD M] := Nat.ModEq.add_right_cancel' c h1
  rw [Nat.ModEq, Nat.mod_eq_of_lt ha, Nat.mod_eq_of_lt hb] at this
  exact this

theorem combine_inj {w seed a b : Nat} (ha : a < 2 ^ w) (hb : b < 2 ^ w) (h : combine w seed a = combine w seed b) : a = b := by
  unfold combine at h
  have h1 := Nat.xor_right_injective h
  simp only [Nat.add_assoc] at h1
  exact add_mod_inj ha hb h1

theorem combineAll_eq (w : Nat) : ∀ (l : List Nat) (seed x : Nat),
    combineAll w seed (x :: l) = some ((x :: l).foldl (combine w) seed)
  | [], _, _ => rfl
  | y :: l, seed, x => by
    rw [combineAll, combineAll_eq w l]
    rfl

theorem shl_lt (w seed : Nat) : (((seed <<< 6) % 2 ^ w : Nat) : Int) < 2 ^ w := by
  have := mod_lt' w (seed <<< 6)
  exact_mod_cast this

theorem shr_lt {w seed : Nat} (h : seed < 2 ^ w) : ((seed >>> 2 : Nat) : Int) < 2 ^ w := by
  have : seed >>> 2 < 2 ^ w := by
    rw [Nat.shiftRight_eq_div_pow]
    exact lt_of_le_of_lt (Nat.div_le_self _ _) h
  exact_mod_cast this

theorem emod_toNat_lt (w : Nat) (s : Int) : (s % 2 ^ w).toNat < 2 ^ w := by
  have hp : (0 : Int) < 2 ^ w := by positivity
  have := Int.emod_lt_of_pos s hp
  rw [Int.toNat_lt (Int.emod_nonneg s hp.ne')]
  exact_mod_cast this

theorem signed_ok {b : Nat} {x : Int} (h1 : -2 ^ (b - 1) ≤ x) (h2 : x < 2 ^ (b - 1)) : signed b x = some x := if_pos ⟨h1, h2⟩

end Hash
end Sprout

import Verif.Proofs.Bitset3

/-! # Helper lemmas for the bitset: strings and integers -/

namespace Sprout
open Spec Bitset

namespace Bitset
variable {B : Nat} {χ : Type} [DecidableEq χ]

/-- the loop of `copy_from_ptr` when every remaining character is `zero` or `one` -/
theorem stringLoop_ok (hB : 0 < B) {N : Nat} (s : List χ) (pos nbits : Nat) (zero one : χ) (hs : pos + nbits ≤ s.length)
    (hnb : nbits ≤ N) (i : Nat) (hi : i ≤ nbits) (ws : List (BitVec B)) (hl : ws.length = nwords B N)
    (hc : ∀ p < i, ∀ c, s[pos + nbits - 1 - p]? = some c → c = zero ∨ c = one) :
    ∃ ys, stringLoop ws s pos nbits zero one i = some (.ret ys) ∧ ys.length = nwords B N ∧
      ∀ p, bitAt ys p = (bitAt ws p || decide (p < i ∧ s[pos + nbits - 1 - p]? ≠ some zero)) := by
  induction i generalizing ws with
  | zero =>
    refine ⟨ws, by rw [stringLoop, if_neg (by omega)], hl, fun p => by simp⟩
  | succ i ih =>
    have hlt : pos + nbits - (i + 1) < s.length := by omega
    have hidx : s[pos + nbits - 1 - i]? = some s[pos + nbits - (i + 1)] := by
      rw [show pos + nbits - 1 - i = pos + nbits - (i + 1) by omega, List.getElem?_eq_getElem hlt]
    rw [stringLoop, if_pos (by omega), rd, List.getElem?_eq_getElem hlt]
    simp only [Option.bind_eq_bind, Option.bind_some]
    generalize s[pos + nbits - (i + 1)] = c at *
    by_cases h0 : c = zero
    · rw [stringStep, if_pos h0]
      simp only [Option.bind_some]
      obtain ⟨ys, e1, e2, e3⟩ := ih (by omega) ws hl (fun p hp => hc p (by omega))
      refine ⟨ys, e1, e2, fun p => ?_⟩
      rw [e3]; congr 1
      apply decide_eq_decide.2
      constructor
      · rintro ⟨a, b⟩; exact ⟨by omega, b⟩
      · rintro ⟨a, b⟩
        refine ⟨?_, b⟩
        by_contra hcon
        have : p = i := by omega
        subst this
        exact b (by rw [hidx, h0])
    · have h1 : c = one := (hc i (by omega) c hidx).resolve_left h0
      have hw : i / B < ws.length := pos_word hB hl (by omega)
      rw [stringStep, if_neg h0, if_pos h1, Nat.add_sub_cancel, getword_eq hw, maskbit_eq hB]
      simp only [Option.bind_eq_bind, Option.bind_some]
      rw [setword_eq hw]
      simp only [Option.bind_some]
      obtain ⟨ys, e1, e2, e3⟩ := ih (by omega) (ws.set (i / B) (ws.getD (i / B) 0 ||| (1 : BitVec B) <<< (i % B))) (by simpa using hl) (fun p hp => hc p (by omega))
      refine ⟨ys, e1, e2, fun p => ?_⟩
      rw [e3, bitAt_set hB hw (set_mask_or _)]
      by_cases hp : p = i
      · subst hp
        rw [if_pos rfl, Bool.true_or]
        have : p < p + 1 ∧ s[pos + nbits - 1 - p]? ≠ some zero := ⟨by omega, by rw [hidx]; simpa using h0⟩
        rw [decide_eq_true this, Bool.or_true]
      · rw [if_neg hp]; congr 1
        apply decide_eq_decide.2
        constructor
        · rintro ⟨a, b⟩; exact ⟨by omega, b⟩
        · rintro ⟨a, b⟩; exact ⟨by omega, b⟩

/-- the loop of `copy_from_ptr` when some remaining character is neither -/
theorem stringLoop_bad (hB : 0 < B) {N : Nat} (s : List χ) (pos nbits : Nat) (zero one : χ) (hs : pos + nbits ≤ s.length)
    (hnb : nbits ≤ N) (i : Nat) (hi : i ≤ nbits) (ws : List (BitVec B)) (hl : ws.length = nwords B N)
    (hc : ∃ p < i, ∃ c, s[pos + nbits - 1 - p]? = some c ∧ c ≠ zero ∧ c ≠ one) :
    stringLoop ws s pos nbits zero one i = some (.throw .invalidArgument) := by
  induction i generalizing ws with
  | zero => obtain ⟨p, hp, -⟩ := hc; omega
  | succ i ih =>
    have hlt : pos + nbits - (i + 1) < s.length := by omega
    have hidx : s[pos + nbits - 1 - i]? = some s[pos + nbits - (i + 1)] := by
      rw [show pos + nbits - 1 - i = pos + nbits - (i + 1) by omega, List.getElem?_eq_getElem hlt]
    rw [stringLoop, if_pos (by omega), rd, List.getElem?_eq_getElem hlt]
    simp only [Option.bind_eq_bind, Option.bind_some]
    generalize s[pos + nbits - (i + 1)] = c at *
    have hrest : (c = zero ∨ c = one) → ∃ p < i, ∃ c, s[pos + nbits - 1 - p]? = some c ∧ c ≠ zero ∧ c ≠ one := by
      intro hzo
      obtain ⟨p, hp, c', h1, h2, h3⟩ := hc
      refine ⟨p, ?_, c', h1, h2, h3⟩
      by_contra hcon
      have : p = i := by omega
      subst this
      rw [hidx] at h1
      have := Option.some.inj h1
      subst this
      exact hzo.elim h2 h3
    by_cases h0 : c = zero
    · rw [stringStep, if_pos h0]
      simp only [Option.bind_some]
      exact ih (by omega) ws hl (hrest (Or.inl h0))
    · by_cases h1 : c = one
      · have hw : i / B < ws.length := pos_word hB hl (by omega)
        rw [stringStep, if_neg h0, if_pos h1, Nat.add_sub_cancel, getword_eq hw, maskbit_eq hB]
        simp only [Option.bind_eq_bind, Option.bind_some]
        rw [setword_eq hw]
        simp only [Option.bind_some]
        exact ih (by omega) _ (by simpa using hl) (hrest (Or.inr h1))
      · rw [stringStep, if_neg h0, if_neg h1]
        simp only [Option.bind_some]

theorem toStringLoop_eq (hB : 0 < B) {N : Nat} {ws : List (BitVec B)} (hl : ws.length = nwords B N) (one : χ) (i : Nat)
    (hi : i ≤ N) (s : List χ) (hs : s.length = N) :
    ∃ t, toStringLoop N ws s one i = some t ∧ t.length = N ∧
      ∀ j, t[j]? = if N - i ≤ j ∧ j < N ∧ bitAt ws (N - 1 - j) = true then some one else s[j]? := by
  induction i generalizing s with
  | zero => exact ⟨s, by rw [toStringLoop, if_neg (by omega)], hs, fun j => by rw [if_neg (by omega)]⟩
  | succ i ih =>
    rw [toStringLoop, if_pos (by omega), Nat.add_sub_cancel, uncheckedTest_eq hB (pos_word hB hl (by omega))]
    simp only [Option.bind_eq_bind, Option.bind_some]
    by_cases hb : bitAt ws i = true
    · rw [if_pos hb, wr, if_pos (by omega)]
      simp only [Option.bind_some]
      obtain ⟨t, e1, e2, e3⟩ := ih (by omega) (s.set (N - (i + 1)) one) (by simpa using hs)
      refine ⟨t, e1, e2, fun j => ?_⟩
      rw [e3, List.getElem?_set]
      by_cases hj : N - (i + 1) = j
      · subst hj
        rw [if_neg (by omega), if_pos rfl, if_pos (by omega), if_pos]
        refine ⟨by omega, by omega, ?_⟩
        rw [show N - 1 - (N - (i + 1)) = i by omega]; exact hb
      · rw [if_neg hj]
        by_cases hc : N - i ≤ j ∧ j < N ∧ bitAt ws (N - 1 - j) = true
        · rw [if_pos hc, if_pos ⟨by omega, hc.2⟩]
        · rw [if_neg hc, if_neg]
          rintro ⟨a, b, c⟩
          exact hc ⟨by omega, b, c⟩
    · rw [if_neg hb]
      obtain ⟨t, e1, e2, e3⟩ := ih (by omega) s hs
      refine ⟨t, e1, e2, fun j => ?_⟩
      rw [e3]
      by_cases hc : N - i ≤ j ∧ j < N ∧ bitAt ws (N - 1 - j) = true
      · rw [if_pos hc, if_pos ⟨by omega, hc.2⟩]
      · rw [if_neg hc, if_neg]
        rintro ⟨a, b, c⟩
        refine hc ⟨?_, b, c⟩
        by_contra hcon
        rw [show N - 1 - j = i by omega] at c
        exact hb c

/-! ### conversion to integers -/

theorem any_ne_iff (hB : 0 < B) (ws : List (BitVec B)) (q : Nat) :
    (ws.drop q).any (fun t => t != 0) = true ↔ ∃ i, q * B ≤ i ∧ bitAt ws i = true := by
  have := any_iff hB (ws.drop q)
  rw [any] at this
  rw [this]
  constructor
  · rintro ⟨i, hi⟩; rw [bitAt_drop hB] at hi; exact ⟨_, by omega, hi⟩
  · rintro ⟨i, h1, h2⟩
    refine ⟨i - q * B, ?_⟩
    rw [bitAt_drop hB, show q * B + (i - q * B) = i by omega]; exact h2

end Bitset
end Sprout

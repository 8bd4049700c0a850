import Verif.Proofs.Bits3

/-! # C24: rotations and reversals are bit permutations -/

namespace Sprout
open Spec
variable {w : Nat}

/-- The property for rotations: for every width and `0 ≤ s < w`, `rotl` moves bit `i` to `(i + s) mod w` and `rotr`
moves it back. -/
def RotFull : Prop :=
  ∀ (w : Nat), Width w → ∀ (x : BitVec w) (s : Nat), s < w →
    (∃ r, rotl x s = some r ∧ ∀ i < w, r.getLsbD ((i + s) % w) = x.getLsbD i) ∧
    (∃ r, rotr x s = some r ∧ ∀ i < w, r.getLsbD i = x.getLsbD ((i + s) % w))

/-- It fails for `s = 0` when the type is at least as wide as `int`: the complementary shift is by the full width,
which is undefined. -/
theorem C24_rot_false : ¬ RotFull := by
  intro h
  obtain ⟨⟨r, h1, -⟩, -⟩ := h 32 ⟨2, rfl⟩ 1#32 0 (by omega)
  have h2 : rotl 1#32 ((0 : Nat) : Int) = none := by decide +kernel
  rw [h2] at h1; simp at h1

/-- `s = 0` on a wide type is undefined for every value, for both rotations. -/
theorem C24_rot_zero_undefined (h32 : 32 ≤ w) (x : BitVec w) : rotl x 0 = none ∧ rotr x 0 = none := by
  have hp : prom w = w := by unfold prom; omega
  have e1 : shlr x ((w : Int) - 0) = none := by
    unfold shlr shrP; rw [if_neg (by omega)]; rfl
  have e2 : shlP w (ext x) ((w : Int) - 0) = none := by
    unfold shlP; rw [if_neg (by omega)]
  constructor
  · unfold rotl
    rw [e1]
    cases shlP w (ext x) 0 <;> rfl
  · unfold rotr
    rw [e2]
    cases shlr x 0 <;> rfl

example : rotl 0x12345678#32 0 = none := (C24_rot_zero_undefined (by decide) _).1

/-- What holds: the rotations are the stated permutations for every `0 < s < w`, and for `s = 0` on types narrower than
`int`.  Missing: `s = 0` on wide types (undefined, `C24_rot_zero_undefined`). -/
theorem C24_rot_partial (hw : Width w) (x : BitVec w) (s : Nat) (hs : s < w) (h0 : 0 < s ∨ w < 32) :
    (∃ r, rotl x s = some r ∧ ∀ i < w, r.getLsbD ((i + s) % w) = x.getLsbD i) ∧
    (∃ r, rotr x s = some r ∧ ∀ i < w, r.getLsbD i = x.getLsbD ((i + s) % w)) :=
  ⟨rotl_spec hw x s hs h0, rotr_spec hw x s hs h0⟩

/-- `rotl` and `rotr` by the same amount are inverse to each other. -/
theorem C24_rot_inverse_partial (hw : Width w) (x : BitVec w) (s : Nat) (hs : s < w) (h0 : 0 < s ∨ w < 32) :
    (rotl x s).bind (fun r => rotr r s) = some x ∧ (rotr x s).bind (fun r => rotl r s) = some x := by
  constructor
  · obtain ⟨r, h1, h2⟩ := rotl_spec hw x s hs h0
    obtain ⟨q, h3, h4⟩ := rotr_spec hw r s hs h0
    rw [h1, Option.bind_some, h3]
    congr 1
    apply BitVec.eq_of_getLsbD_eq
    intro i hi
    rw [h4 i hi, h2 i hi]
  · obtain ⟨r, h1, h2⟩ := rotr_spec hw x s hs h0
    obtain ⟨q, h3, h4⟩ := rotl_spec hw r s hs h0
    rw [h1, Option.bind_some, h3]
    congr 1
    apply BitVec.eq_of_getLsbD_eq
    intro i hi
    have hsurj : ∃ j < w, (j + s) % w = i := by
      rcases Nat.lt_or_ge i s with h | h
      · exact ⟨i + w - s, by omega, by rw [show i + w - s + s = i + w by omega, Nat.add_mod_right, Nat.mod_eq_of_lt hi]⟩
      · exact ⟨i - s, by omega, by rw [show i - s + s = i by omega, Nat.mod_eq_of_lt hi]⟩
    obtain ⟨j, hj, hji⟩ := hsurj
    have a := h4 j hj
    have b := h2 j hj
    rw [hji] at a b
    rw [a, b]

example : rotl 0x12345678#32 ((8 : Nat) : Int) = some 0x34567812#32 := by decide +kernel
example : (rotl 0x12345678#32 ((8 : Nat) : Int)).bind (fun r => rotr r ((8 : Nat) : Int)) = some 0x12345678#32 :=
  (C24_rot_inverse_partial ⟨2, rfl⟩ _ 8 (by decide) (Or.inl (by decide))).1

/-- `bit_reverse` moves bit `i` to `w - 1 - i`. -/
theorem C24_bit_reverse (hw : Width w) (x : BitVec w) :
    ∃ r, bitReverse x = some r ∧ ∀ i < w, r.getLsbD (w - 1 - i) = x.getLsbD i := by
  obtain ⟨r, h1, h2⟩ := bitRev_width hw x
  refine ⟨back w r, by unfold bitReverse; rw [h1]; rfl, ?_⟩
  intro i hi
  rw [back_getLsbD _ (by omega), h2]
  have : w - 1 - i < w := by omega
  simp only [this, decide_true, Bool.true_and]
  congr 1; omega

/-- `bit_reverse` is an involution. -/
theorem C24_bit_reverse_involution (hw : Width w) (x : BitVec w) : (bitReverse x).bind bitReverse = some x := by
  obtain ⟨r, h1, h2⟩ := C24_bit_reverse hw x
  obtain ⟨q, h3, h4⟩ := C24_bit_reverse hw r
  rw [h1, Option.bind_some, h3]
  congr 1
  apply BitVec.eq_of_getLsbD_eq
  intro i hi
  have a := h4 (w - 1 - i) (by omega)
  rw [show w - 1 - (w - 1 - i) = i by omega] at a
  rw [a, h2 i hi]

example : ∃ r, bitReverse 0x12345678#32 = some r ∧ ∀ i < 32, r.getLsbD (31 - i) = (0x12345678#32).getLsbD i :=
  C24_bit_reverse ⟨2, rfl⟩ _
example : (bitReverse 0x12345678#32).bind bitReverse = some 0x12345678#32 := C24_bit_reverse_involution ⟨2, rfl⟩ _

/-- `bit_reverse_in(x, n)` reverses the low `n` bits and drops the others (`0 < n ≤ w`, or `n = 0` on a narrow type). -/
theorem C24_bit_reverse_in (hw : Width w) (x : BitVec w) (n : Nat) (hn : n ≤ w) (h0 : 0 < n ∨ w < 32) :
    ∃ r, bitReverseIn x n = some r ∧ ∀ i < w, r.getLsbD i = (decide (i < n) && x.getLsbD (n - 1 - i)) := by
  have hp := le_prom w
  obtain ⟨r, h1, h2⟩ := bitRev_width hw x
  have hlt : w - n < prom w := by
    rcases h0 with h | h
    · have : 0 < w := by omega
      omega
    · unfold prom; omega
  unfold bitReverseIn
  rw [if_pos ⟨by omega, by exact_mod_cast hn⟩, h1]
  simp only [Option.bind_eq_bind, Option.bind_some]
  rw [show ((w : Int) - n) = ((w - n : Nat) : Int) by omega, shrP_eq _ hlt]
  refine ⟨_, rfl, ?_⟩
  intro i hi
  rw [back_getLsbD _ hi, BitVec.getLsbD_ushiftRight, ext_getLsbD]
  rcases Nat.lt_or_ge i n with h | h
  · rw [back_getLsbD _ (by omega), h2]
    have : w - n + i < w := by omega
    simp only [this, h, decide_true, Bool.true_and]
    congr 1; omega
  · have : ¬ i < n := by omega
    rw [BitVec.getLsbD_of_ge _ _ (by omega)]
    simp [this]

example : ∃ r, bitReverseIn 0b1011#8 ((4 : Nat) : Int) = some r ∧
    ∀ i < 8, r.getLsbD i = (decide (i < 4) && (0b1011#8).getLsbD (4 - 1 - i)) :=
  C24_bit_reverse_in ⟨0, rfl⟩ _ 4 (by decide) (Or.inl (by decide))

end Sprout

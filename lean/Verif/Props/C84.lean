import Verif.Model.EndianTraits

/-!
# C84: get_byte and set_byte of the endian traits

Byte `k` of a value are its bits `8 k … 8 k + 7`; little endian numbers the bytes so, big endian the other way round.
-/

namespace Sprout
open EndianTraits

/-- `b` is byte `k` of `t` -/
def IsByte {N : Nat} (t : BitVec (8 * N)) (k : Nat) (b : BitVec 8) : Prop := ∀ j < 8, b.getLsbD j = t.getLsbD (8 * k + j)

/-- `u` is `t` with byte `k` replaced by `v` -/
def IsWith {N : Nat} (t : BitVec (8 * N)) (k : Nat) (v : BitVec 8) (u : BitVec (8 * N)) : Prop :=
  ∀ i < N, ∀ j < 8, u.getLsbD (8 * i + j) = if i = k then v.getLsbD j else t.getLsbD (8 * i + j)

namespace EndianTraits

theorem prom_bit (sg : Bool) {N : Nat} (t : BitVec (8 * N)) {j : Nat} (h : j < 8 * N) : (prom sg t).getLsbD j = t.getLsbD j := by
  have : j < pw N := by unfold pw; omega
  rw [prom]
  split
  · rw [BitVec.getLsbD_signExtend, if_pos h]; simp [this]
  · rw [BitVec.getLsbD_setWidth]; simp [this]

theorem byte_bit (v : BitVec 8) {k j : Nat} (h : j < 32) : (v.setWidth 32 <<< (8 * k)).getLsbD j = (decide (8 * k ≤ j) && v.getLsbD (j - 8 * k)) := by
  rw [BitVec.getLsbD_shiftLeft, BitVec.getLsbD_setWidth]
  by_cases h1 : 8 * k ≤ j
  · simp [h, h1, show j - 8 * k < 32 by omega]
  · simp [h, h1]

theorem ff_bit (j : Nat) : (0xFF#8).getLsbD j = decide (j < 8) := by
  by_cases h : j < 8
  · rw [decide_eq_true h]
    match j, h with
    | 0, _ => rfl
    | 1, _ => rfl
    | 2, _ => rfl
    | 3, _ => rfl
    | 4, _ => rfl
    | 5, _ => rfl
    | 6, _ => rfl
    | 7, _ => rfl
  · rw [decide_eq_false h]
    exact BitVec.getLsbD_of_ge _ _ (by omega)

/-- the bits of an `int` after conversion to the type of the other operand -/
theorem ext_bit {N : Nat} (x : BitVec 32) {j : Nat} (h : j < 8 * N) : (x.signExtend (pw N)).getLsbD j = x.getLsbD (min j 31) := by
  have : j < pw N := by unfold pw; omega
  rw [BitVec.getLsbD_signExtend, decide_eq_true this, Bool.true_and]
  split
  · rw [Nat.min_eq_left (by omega)]
  · rw [BitVec.msb_eq_getLsbD_last, Nat.min_eq_right (by omega)]

theorem shlInt_eq (x : BitVec 32) {k : Nat} (h : k < 4) : shlInt x k = some (x <<< (8 * k)) := by rw [shlInt, if_pos (by omega)]

theorem shr_bit (sg : Bool) {N : Nat} (x : BitVec (pw N)) {k : Nat} (hk : k < N) :
    ∃ r, shr sg x k = some r ∧ ∀ j < 8, r.getLsbD j = x.getLsbD (8 * k + j) := by
  have hp : 8 * k + 8 ≤ pw N := by unfold pw; omega
  rw [shr, if_pos (by omega)]
  refine ⟨_, rfl, fun j hj => ?_⟩
  split
  · rw [BitVec.getLsbD_sshiftRight, if_pos (by omega), decide_eq_false (by omega)]; rfl
  · rw [BitVec.getLsbD_ushiftRight]

theorem set_bit (sg : Bool) {N : Nat} (t : BitVec (8 * N)) {k : Nat} (hk : k < 4) (v : BitVec 8) :
    ∃ u, setLittle sg t k v = some u ∧ ∀ p < 8 * N, u.getLsbD p =
      (t.getLsbD p && !(decide (8 * k ≤ min p 31) && decide (min p 31 - 8 * k < 8)) || (decide (8 * k ≤ min p 31) && v.getLsbD (min p 31 - 8 * k))) := by
  rw [setLittle, shlInt_eq _ hk, shlInt_eq _ hk]
  refine ⟨_, rfl, fun p hp => ?_⟩
  have hm : min p 31 < 32 := by omega
  rw [BitVec.getLsbD_setWidth, decide_eq_true hp, Bool.true_and, BitVec.getLsbD_or, prom_bit sg _ hp, BitVec.getLsbD_setWidth, decide_eq_true hp,
    Bool.true_and, BitVec.getLsbD_and, prom_bit sg _ hp, ext_bit _ hp, ext_bit _ hp, BitVec.getLsbD_not, decide_eq_true hm, Bool.true_and,
    byte_bit v hm, show (255 : BitVec 32) = (0xFF#8).setWidth 32 from rfl, byte_bit _ hm, ff_bit]

end EndianTraits

/-- `little_endian_traits::get_byte` yields byte `k`. *Partial*: for `k < 4`, which is enough for types of up to four bytes. -/
theorem C84_get_little_partial (sg : Bool) (N : Nat) (t : BitVec (8 * N)) (k : Nat) (hk : k < N) (h4 : k < 4) :
    ∃ b, getLittle sg t k = some b ∧ IsByte t k b := by
  obtain ⟨r, hr, hb⟩ := shr_bit sg (prom sg t &&& ((255 : BitVec 32) <<< (8 * k)).signExtend _) hk
  refine ⟨r.setWidth 8, ?_, fun j hj => ?_⟩
  · rw [getLittle, shlInt_eq _ h4]
    simp only [Option.bind_eq_bind, Option.bind_some]
    rw [hr]
    rfl
  · rw [BitVec.getLsbD_setWidth, decide_eq_true hj, Bool.true_and, hb j hj, BitVec.getLsbD_and, prom_bit sg _ (by omega), ext_bit _ (by omega),
      Nat.min_eq_left (by omega), show (255 : BitVec 32) = (0xFF#8).setWidth 32 from rfl, byte_bit _ (by omega), ff_bit, decide_eq_true (by omega), decide_eq_true (by omega),
      Bool.and_true, Bool.and_true]

example : getLittle true (N := 4) 0x81020304#32 3 = some 0x81 ∧ getLittle false (N := 2) 0xABCD#16 0 = some 0xCD := by decide

/-- `big_endian_traits::get_byte` (and `endian_traits`, which is big endian) yields byte `N - 1 - i`. *Partial*: it is one of the
lower four bytes. -/
theorem C84_get_big_partial (sg : Bool) (N : Nat) (hN : N < 2 ^ 64) (t : BitVec (8 * N)) (i : Nat) (hi : i < N) (h4 : N - 1 - i < 4) :
    ∃ b, getBig sg t i = some b ∧ IsByte t (N - 1 - i) b := by
  have e : revIx N i = N - 1 - i := by unfold revIx; omega
  rw [getBig, e]
  exact C84_get_little_partial sg N t _ (by omega) h4

example : getBig true (N := 4) 0x81020304#32 0 = some 0x81 ∧ getBig false (N := 2) 0xABCD#16 0 = some 0xAB := by decide

/-- Otherwise `UCHAR_MAX << 8 * k` is undefined: four of the eight bytes of a type of 64 bits cannot be accessed. -/
theorem C84_get_refuted (sg : Bool) (N : Nat) (hN : N < 2 ^ 64) (t : BitVec (8 * N)) (v : BitVec 8) (k : Nat) (hk : k < N) (h4 : 4 ≤ k) :
    getLittle sg t k = none ∧ getBig sg t (N - 1 - k) = none ∧ setLittle sg t k v = none ∧ setBig sg t (N - 1 - k) v = none := by
  have e : revIx N (N - 1 - k) = k := by unfold revIx; omega
  have h : ∀ x, shlInt x k = none := fun x => by rw [shlInt, if_neg (by omega)]
  rw [getBig, setBig, e]
  refine ⟨?_, ?_, ?_, ?_⟩ <;> simp only [getLittle, setLittle, h] <;> rfl

/-- `little_endian_traits::set_byte` replaces byte `k`. *Partial*: for `k < 4` in types of up to four bytes, for `k < 3` in others. -/
theorem C84_set_little_partial (sg : Bool) (N : Nat) (t : BitVec (8 * N)) (k : Nat) (hk : k < N) (h4 : k < 3 ∨ N ≤ 4) (v : BitVec 8) :
    ∃ u, setLittle sg t k v = some u ∧ IsWith t k v u := by
  obtain ⟨u, hu, hb⟩ := set_bit sg t (k := k) (by omega) v
  refine ⟨u, hu, fun i hi j hj => ?_⟩
  rw [hb _ (by omega)]
  by_cases h : i = k
  · subst h
    rw [if_pos rfl, Nat.min_eq_left (by omega), decide_eq_true (by omega), decide_eq_true (by omega), Nat.add_sub_cancel_left]
    simp
  · rw [if_neg h]
    by_cases h1 : 8 * k ≤ min (8 * i + j) 31
    · have h2 : 8 ≤ min (8 * i + j) 31 - 8 * k := by omega
      rw [decide_eq_true h1, decide_eq_false (by omega), BitVec.getLsbD_of_ge _ _ h2]
      simp
    · rw [decide_eq_false h1]
      simp

example : setLittle true (N := 4) 0x01020304#32 3 0x81 = some 0x81020304#32 ∧ setLittle false (N := 8) 0x0102030405060708#64 1 0xFF = some 0x010203040506FF08#64 := by decide

theorem C84_set_big_partial (sg : Bool) (N : Nat) (hN : N < 2 ^ 64) (t : BitVec (8 * N)) (i : Nat) (hi : i < N) (h4 : N - 1 - i < 3 ∨ N ≤ 4) (v : BitVec 8) :
    ∃ u, setBig sg t i v = some u ∧ IsWith t (N - 1 - i) v u := by
  have e : revIx N i = N - 1 - i := by unfold revIx; omega
  rw [setBig, e]
  exact C84_set_little_partial sg N t _ (by omega) h4 v

/-- In wider types, setting byte 3 overwrites all higher bytes with the sign of the new byte. -/
theorem C84_set_refuted (sg : Bool) (N : Nat) (t : BitVec (8 * N)) (v : BitVec 8) (hN : 3 < N) :
    ∃ u, setLittle sg t 3 v = some u ∧ ∀ p, 32 ≤ p → p < 8 * N → u.getLsbD p = v.msb := by
  obtain ⟨u, hu, hb⟩ := set_bit sg t (k := 3) (by omega) v
  refine ⟨u, hu, fun p h1 h2 => ?_⟩
  rw [hb p h2, Nat.min_eq_right (by omega), BitVec.msb_eq_getLsbD_last]
  simp

example : setLittle false (N := 8) 0x0102030405060708#64 3 0x09 = some 0x0000000009060708#64 ∧
    setLittle false (N := 8) 0x0102030405060708#64 3 0x80 = some 0xFFFFFFFF80060708#64 := by decide

/-- types of one byte -/
theorem C84_one_byte (t v : BitVec 8) (i : Nat) : IsByte (N := 1) t 0 (get1 t i) ∧ IsWith (N := 1) t 0 v (set1 t i v) := by
  constructor
  · intro j _
    simp [get1]
  · intro i hi j _
    obtain rfl : i = 0 := by omega
    simp [set1]

end Sprout

import Verif.Proofs.SumXor

/-! # C113: the byte sums -/

namespace Sprout
open Spec SumXor

/-- The full claim: `sum_basic<Bits>` is the sum of the bytes modulo `2^Bits`, however the message is divided into calls. -/
def SumFull : Prop :=
  ∀ (L : Nat) (n : Nat), (L = 32 ∨ L = 64) → 0 < n → n % 8 = 0 → ∀ (init : Nat) (cs : List Call) (msg : List Nat), Message cs msg →
    sumOf L n init cs = some ((init + msg.sum) % 2 ^ n)

/-- `sum_basic<8>`, `<16>`, `<32>` and `<64>` are the sums modulo `2^Bits`. Missing: the other widths, see `C113_sum_false`. -/
theorem C113_sum_partial (L n : Nat) (hL : L = 32 ∨ L = 64) (hn : n = 8 ∨ n = 16 ∨ n = 32 ∨ n = 64) (init : Nat) (cs : List Call)
    (msg : List Nat) (h : Message cs msg) : sumOf L n init cs = some ((init + msg.sum) % 2 ^ n) := by
  have hle : n ≤ 64 := by omega
  have h8 : (n : Int) % 8 = 0 := by omega
  have ht : ∃ t, StaticInt.uintT L n = some t ∧ (t.cint L).max = 2 ^ n - 1 := by
    rcases hL with rfl | rfl <;> rcases hn with rfl | rfl | rfl | rfl <;> exact ⟨_, rfl, rfl⟩
  obtain ⟨t, ht, hm⟩ := ht
  simp only [sumOf, if_pos h8, processAll_eq add h, checksum, ht, Option.bind_eq_bind, Option.bind_some, hm, max_toNat]
  rw [Nat.and_two_pow_sub_one_eq_mod, fold_add n hle]

example : sumOf 64 8 0 [.byte 200, bytes [1, 100, 2, 3] 1 2] = some 46 :=
  C113_sum_partial 64 8 (by decide) (by decide) 0 _ [200, 100, 2] ⟨[[200], [100, 2]], by
    refine .cons rfl (.cons ?_ .nil); rfl, rfl⟩

/-- `sum_basic<24>` keeps 32 bits, because its value type has 32: starting from the sum `2^24` the empty message has the checksum `2^24`,
not 0. -/
theorem C113_sum_false : ¬ SumFull := by
  intro h
  have := h 64 24 (by decide) (by decide) (by decide) (2 ^ 24) [] [] ⟨[], .nil, rfl⟩
  revert this
  decide +kernel

/-- Above 64 bits `uint_t` names `signed char`, and `sum_basic<72>` keeps seven bits. -/
theorem C113_sum_wide (L n : Nat) (hL : L = 32 ∨ L = 64) (hn : 64 < n) (h8 : n % 8 = 0) (init : Nat) (cs : List Call) (msg : List Nat)
    (h : Message cs msg) : sumOf L n init cs = some ((init + msg.sum) % 2 ^ 7) := by
  have h8 : (n : Int) % 8 = 0 := by omega
  have ht : StaticInt.uintT L n = some .schar := by
    have e : ∀ k : Int, k ≤ 64 → ((n : Int) ≤ k) = False := fun k hk => by simp; omega
    rcases hL with rfl | rfl <;>
      simp [StaticInt.uintT, StaticInt.digits, StaticInt.Ty.cint, StaticInt.b2n, e, StaticInt.leastHelper]
  simp only [sumOf, if_pos h8, processAll_eq add h, checksum, ht, Option.bind_eq_bind, Option.bind_some]
  have hm : (StaticInt.Ty.schar.cint L).max = 2 ^ 7 - 1 := rfl
  rw [hm, max_toNat, Nat.and_two_pow_sub_one_eq_mod, fold_add 7 (by omega)]

example : sumOf 64 72 0 [range [100, 100]] = some 72 :=
  C113_sum_wide 64 72 (by decide) (by decide) (by decide) 0 _ [100, 100] ⟨[[100, 100]], .cons rfl .nil, rfl⟩

/-- `xor8` is the exclusive or of the bytes and the low byte of the initial value. -/
theorem C113_xor (init : Nat) (cs : List Call) (msg : List Nat) (h : Message cs msg) (hb : ∀ b ∈ msg, b < 256) :
    xorOf init cs = some ((init % 256) ^^^ msg.foldr (fun a b => a ^^^ b) 0) := by
  simp only [xorOf, processAll_eq (fun a b => a ^^^ b) h, Option.bind_eq_bind, Option.bind_some]
  have h2 : msg.foldr (fun a b => a ^^^ b) 0 < 2 ^ 8 := by
    clear h
    induction msg with
    | nil => simp
    | cons b bs ih =>
      rw [List.foldr_cons]
      exact Nat.xor_lt_two_pow (hb b (by simp)) (ih fun c hc => hb c (by simp [hc]))
  rw [fold_xor, show (0xFF : Nat) = 2 ^ 8 - 1 from rfl, Nat.and_two_pow_sub_one_eq_mod, show (256 : Nat) = 2 ^ 8 from rfl,
    Nat.xor_mod_two_pow, Nat.mod_eq_of_lt h2]

example : xorOf 0 [range [0x31, 0x32, 0x33], .byte 0xF0] = some 0xC0 :=
  C113_xor 0 _ [0x31, 0x32, 0x33, 0xF0] ⟨[[0x31, 0x32, 0x33], [0xF0]], .cons rfl (.cons rfl .nil), rfl⟩ (by decide)

/-- Two ways to divide the same message give the same checksum. -/
theorem C113_split (L : Nat) (n : Int) (init : Nat) (cs ds : List Call) (msg : List Nat) (hc : Message cs msg) (hd : Message ds msg) :
    sumOf L n init cs = sumOf L n init ds ∧ xorOf init cs = xorOf init ds := by
  simp only [sumOf, xorOf, processAll_eq _ hc, processAll_eq _ hd, and_self]

example : sumOf 64 16 0 [range [255, 255]] = sumOf 64 16 0 [.byte 255, .blockIn [255, 7] 0 1] :=
  (C113_split 64 16 0 _ _ [255, 255] ⟨[[255, 255]], .cons rfl .nil, rfl⟩
    ⟨[[255], [255]], .cons rfl (.cons rfl .nil), rfl⟩).1

end Sprout

import Verif.Proofs.Endian

/-!
# C71 `hton` stores the most significant byte first and `ntoh` undoes it

Full statement: for every unsigned type and byte order, the memory image of `hton(x)` on that machine is the big endian
image of `x`, and `ntoh(hton(x)) = x`.

False for types of one byte on little endian and PDP machines (`C71_one_byte_false`). Missing in the partial theorems: one
byte (and, on PDP machines, odd sizes).
-/

namespace Sprout
open Endian Spec

variable {N : Nat}

/-- the memory image of a number on a machine of byte order `o` -/
def memory (o : Order) (v : BitVec (8 * N)) : List Nat :=
  match o with
  | .big => bigEndian v
  | .little => littleEndian v
  | .pdp => pdpEndian v

/-- sizes for which the code works -/
def SizeOk (o : Order) (N : Nat) : Prop :=
  match o with
  | .big => True
  | .little => 2 ≤ N ∧ N ≤ 256
  | .pdp => N % 2 = 0 ∧ N < 256

/-- `hton` is network byte order: the stored bytes are the bytes of the number, most significant first -/
theorem C71_hton_partial (o : Order) (hN : SizeOk o N) (v : BitVec (8 * N)) :
    ∃ w, hton o v = some w ∧ memory o w = bigEndian v := by
  cases o with
  | big => exact ⟨v, rfl, rfl⟩
  | little =>
    obtain ⟨w, hw, ew⟩ := reverse_spec hN.1 hN.2 v
    refine ⟨w, hw, ?_⟩
    apply List.map_congr_left
    intro k hk
    rw [← bv_toNat, ← bv_toNat, ew k (List.mem_range.1 hk)]
  | pdp =>
    obtain ⟨w, hw, ew⟩ := reverseWords_spec v hN.2 hN.1
    refine ⟨w, hw, ?_⟩
    have := hN.1
    apply List.map_congr_left
    intro k hk
    have hk := List.mem_range.1 hk
    rw [← bv_toNat, ← bv_toNat, ← bv_toNat]
    by_cases h : k % 2 = 0
    · rw [if_pos h, ew _ (by omega), if_pos (by omega)]
      congr 2; omega
    · rw [if_neg h, ew _ (by omega), if_neg (by omega)]
      congr 2; omega

/-- `ntoh` reads network byte order: if the stored bytes of `w` are those of `v`, most significant first, it returns `v` -/
theorem C71_ntoh_partial (o : Order) (hN : SizeOk o N) (v w : BitVec (8 * N)) (h : memory o w = bigEndian v) :
    ntoh o w = some v := by
  cases o with
  | big =>
    refine congrArg some (bv_ext ?_)
    intro k hk
    have := List.map_inj_left.1 h (N - 1 - k) (List.mem_range.2 (by omega))
    apply BitVec.eq_of_toNat_eq
    rw [bv_toNat, bv_toNat]
    have e : N - 1 - (N - 1 - k) = k := by omega
    rwa [e] at this
  | little =>
    obtain ⟨u, hu, eu⟩ := reverse_spec hN.1 hN.2 w
    show reverse w = some v
    rw [hu]
    refine congrArg some (bv_ext ?_)
    intro k hk
    rw [eu k hk]
    have := List.map_inj_left.1 h (N - 1 - k) (List.mem_range.2 (by omega))
    apply BitVec.eq_of_toNat_eq
    rw [bv_toNat, bv_toNat]
    have e : N - 1 - (N - 1 - k) = k := by omega
    rwa [e] at this
  | pdp =>
    obtain ⟨u, hu, eu⟩ := reverseWords_spec w hN.2 hN.1
    show reverseWords w = some v
    rw [hu]
    refine congrArg some (bv_ext ?_)
    intro k hk
    rw [eu k hk]
    have h2 := hN.1
    have := List.map_inj_left.1 h (N - 1 - k) (List.mem_range.2 (by omega))
    apply BitVec.eq_of_toNat_eq
    have e : N - 1 - (N - 1 - k) = k := by omega
    rw [e] at this
    by_cases hk2 : k % 2 = 0
    · rw [if_pos hk2, bv_toNat, bv_toNat]
      rw [if_neg (by omega)] at this
      rw [← this]; congr 1; omega
    · rw [if_neg hk2, bv_toNat, bv_toNat]
      rw [if_pos (by omega)] at this
      rw [← this]; congr 1; omega

/-- hence `ntoh` undoes `hton` -/
theorem C71_round_trip_partial (o : Order) (hN : SizeOk o N) (v : BitVec (8 * N)) : (hton o v).bind (ntoh o) = some v := by
  obtain ⟨w, hw, e⟩ := C71_hton_partial o hN v
  rw [hw, Option.bind_some]
  exact C71_ntoh_partial o hN v w e

/-- `htonl(0x01020304)`: what the theorems say about it -/
example : littleEndian (N := 4) 0x04030201#32 = [1, 2, 3, 4] ∧ bigEndian (N := 4) 0x01020304#32 = [1, 2, 3, 4] ∧
    pdpEndian (N := 4) 0x02010403#32 = [1, 2, 3, 4] ∧ SizeOk .little 4 ∧ SizeOk .pdp 4 := by
  refine ⟨by decide, by decide, by decide, ?_, ?_⟩ <;> simp [SizeOk]
example : ntoh (N := 4) .little 0x04030201#32 = some 0x01020304#32 :=
  C71_ntoh_partial (N := 4) .little ⟨by omega, by omega⟩ 0x01020304#32 0x04030201#32 (by simp only [memory]; decide)

/-- for a one-byte type the counter `n2` wraps around to 255 and the next step shifts by 2040 bits, for every argument -/
theorem C71_one_byte_false (v : BitVec (8 * 1)) : hton .little v = none ∧ hton .pdp v = none := by
  obtain ⟨w, hw, _⟩ := bv_swap (N := 1) (v := v) (n1 := 0) (n2 := 0) (by omega) (by omega)
  have hs : ∀ (x : BitVec (8 * 1)) (n1 : Nat), swap x n1 255 = none := by
    intro x n1
    simp only [swap, copy]
    have hr : ∀ b, replaceAt x b 255 = none := by
      intro b; simp [replaceAt, maskAt, lshiftBy]
    cases h : byteAt x n1 with
    | none => rfl
    | some b => simp only [Option.bind_eq_bind, Option.bind_some, hr]; rfl
  refine ⟨?_, ?_⟩
  · show reverseImpl v 0 ((1 - 1) % 256) = none
    rw [reverseImpl, if_neg (by omega)]
    simp only [Nat.sub_self, Nat.zero_mod, hw, Option.bind_eq_bind, Option.bind_some]
    rw [reverseImpl, if_neg (by omega)]
    simp [hs]
  · show reverseWordsImpl v (1 % 256) = none
    rw [reverseWordsImpl, if_neg (by omega)]
    simp [hs]

end Sprout

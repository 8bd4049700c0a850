import Verif.Proofs.Md5

/-!
# C45: MD5 equals RFC 1321

The specification (`Spec/Md5`) is a transcription of RFC 1321, which defines the digest of a message of *bits* of any length.
-/

namespace Sprout
open Spec MD5

/-- the padding: one bit, then zeros up to 448 modulo 512, then 64 bits of length -/
theorem C45_padding (m : List Bool) : (pad m).length % 512 = 0 ∧ m.length + 65 ≤ (pad m).length ∧ (pad m).length < m.length + 65 + 512 := by
  have hb : ∀ b, (bitsOf b).length = 8 := fun b => by simp [bitsOf]
  have hl : (lenBits m.length).length = 64 := by
    unfold lenBits
    rw [List.length_flatten, List.map_map]
    simp [Function.comp_def, hb]
  have : (pad m).length = m.length + 1 + (959 - m.length % 512) % 512 + 64 := by
    simp only [pad, List.length_append, List.length_replicate, hl, List.length_singleton]
  omega

/-- `make_md5` -/
theorem C45_make_md5 (m : List (BitVec 8)) : Md5.makeMd5 m = some (digestBytes m) := by
  obtain ⟨s, h1, h2⟩ := Md5.inv_init.bytes m
  unfold Md5.makeMd5
  rw [h1]
  exact Md5.checksum_eq h2

/-- one call of a processing function; the names with `14` are the loops of C++14 -/
inductive Md5Call
  | bit (b : Bool)
  | bits (b : BitVec 8) (n : Nat)
  | byte (b : BitVec 8)
  | bytes (bs : List (BitVec 8))
  | bit14 (b : Bool)
  | bits14 (b : BitVec 8) (n : Nat)
  | byte14 (b : BitVec 8)

/-- its effect in the model -/
def Md5Call.run : Md5Call → Md5 → Option Md5
  | .bit b, s => Md5.cProcessBit s b
  | .bits b n, s => Md5.processBitsImpl s b n
  | .byte b, s => Md5.cProcessByte s b
  | .bytes bs, s => Md5.cProcessBytes s bs
  | .bit14 b, s => Md5.processBit s b
  | .bits14 b n, s => Md5.processBits s b n
  | .byte14 b, s => Md5.processByte s b

/-- the bits it hands over: `process_bits(b, n)` gives the `n` low-order bits, the highest of them first -/
def Md5Call.data : Md5Call → List Bool
  | .bit b | .bit14 b => [b]
  | .bits b n | .bits14 b n => (List.range n).map fun i => b.getLsbD (n - 1 - i)
  | .byte b | .byte14 b => bitsOf b
  | .bytes bs => (bs.map bitsOf).flatten

/-- shifting a promoted byte by 32 or more is undefined -/
def Md5Call.Ok : Md5Call → Prop
  | .bits _ n | .bits14 _ n => n ≤ 32
  | _ => True

theorem md5Calls_inv (calls : List Md5Call) (ok : ∀ c ∈ calls, c.Ok) : ∀ {s : Md5} {m : List Bool}, Md5.Inv s m →
    ∃ s', calls.foldlM (fun s c => c.run s) s = some s' ∧ Md5.Inv s' (m ++ (calls.map Md5Call.data).flatten) := by
  induction calls with
  | nil => intro s m h; exact ⟨s, rfl, by simpa using h⟩
  | cons c cs ih =>
    intro s m h
    have hc := ok c (by simp)
    have : ∃ s', c.run s = some s' ∧ Md5.Inv s' (m ++ c.data) := by
      cases c with
      | bit b => exact h.bit b
      | bits b n =>
        rw [Md5Call.run, Md5.processBitsImpl_eq _ _ hc]
        exact h.feed (m := m) _
      | byte b => exact h.byte b
      | bytes bs => exact h.bytes bs
      | bit14 b =>
        rw [Md5Call.run, Md5.processBit_eq]
        exact h.bit b
      | bits14 b n =>
        rw [Md5Call.run, Md5.processBits_eq, Md5.processBitsImpl_eq _ _ hc]
        exact h.feed (m := m) _
      | byte14 b =>
        rw [Md5Call.run, Md5.processByte, Md5.processBits_eq, Md5.processBitsImpl_eq _ _ (by omega)]
        exact h.feed (m := m) _
    obtain ⟨s1, h1, h2⟩ := this
    obtain ⟨s2, h3, h4⟩ := ih (fun c hc => ok c (by simp [hc])) h2
    refine ⟨s2, ?_, by simpa using h4⟩
    rw [List.foldlM_cons, h1]
    exact h3

/-- any sequence of calls, of bits and bytes mixed and not aligned, gives the digest of the concatenation -/
theorem C45_chunks (calls : List Md5Call) (ok : ∀ c ∈ calls, c.Ok) :
    (do let s ← calls.foldlM (fun s c => c.run s) Md5.init
        Md5.checksum s) = some (digest (calls.map Md5Call.data).flatten) := by
  obtain ⟨s, h1, h2⟩ := md5Calls_inv calls ok Md5.inv_init
  rw [h1]
  exact Md5.checksum_eq h2

/-- `process_bits` with more than 32 bits is undefined -/
theorem C45_bits_undefined (s : Md5) (b : BitVec 8) (n : Nat) (h : 32 < n) : Md5.processBitsImpl s b n = none := by
  match n, h with
  | n + 1, h =>
    unfold Md5.processBitsImpl Md5.bitOf
    rw [if_neg (by omega)]
    rfl

/-! non-vacuity, and a check of the specification: the test suite of RFC 1321, A.5 -/

/-- the padded message "abc" is one block -/
theorem md5_abc_pad : pad (([0x61#8, 0x62#8, 0x63#8].map bitsOf).flatten) =
    (([0x61#8, 0x62#8, 0x63#8, 0x80#8] ++ List.replicate 52 0#8 ++ [0x18#8] ++ List.replicate 7 0#8).map bitsOf).flatten := by decide +kernel

example : Md5.makeMd5 [0x61#8, 0x62#8, 0x63#8] = some [0x90, 0x01, 0x50, 0x98, 0x3c, 0xd2, 0x4f, 0xb0, 0xd6, 0x96, 0x3f, 0x7d, 0x28, 0xe1, 0x7f, 0x72] := by
  rw [C45_make_md5, digestBytes, digest, md5_abc_pad, Md5.absorb_block _ (by decide +kernel)]
  decide +kernel

/-- five single bits and a byte across a byte boundary -/
example : (do let s ← [Md5Call.bits 0x1F 5, .byte14 0xAA, .bits14 1 3].foldlM (fun s c => c.run s) Md5.init
              Md5.checksum s) = Md5.makeMd5 [0xFD#8, 0x51#8] := by
  rw [C45_chunks _ (by intro c hc; simp at hc; rcases hc with h | h | h <;> subst h <;> simp [Md5Call.Ok]), C45_make_md5]
  exact congrArg (fun m => some (digest m)) (by decide)

end Sprout

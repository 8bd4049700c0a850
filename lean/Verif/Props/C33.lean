import Verif.Proofs.Sha1c

/-!
# C33: SHA-1

The digest of every byte sequence is that of FIPS 180-4, however the message is cut into pieces and whichever of the
processing functions handles each piece. Refuted for the variant of the code used with Clang, where a piece that does not fit into the
current 64-byte block throws.
-/

namespace Sprout
open Spec Spec.SHA1

/-- the padding is the standard's: the least number of zero bytes that leaves room for the length at the end of a block -/
theorem C33_padding (n : Nat) :
    (n + 1 + zeros n) % 64 = 56 ∧ ∀ z, (n + 1 + z) % 64 = 56 → zeros n ≤ z := by
  unfold zeros
  exact ⟨by omega, fun z h => by omega⟩

/-- `make_sha1` of every byte sequence -/
theorem C33_make_sha1 (m : List (BitVec 8)) : Sha1.makeSha1 m = some (digest m) := by
  obtain ⟨s, h1, h2⟩ := Sha1.cProcessBytes_inv (s := Sha1.init) ⟨Sha1.init_rep, rfl⟩ m
  rw [Sha1.makeSha1, h1]
  exact Sha1.checksum_eq h2

/-- one call of a processing function -/
inductive Sha1Call
  | byte (b : BitVec 8)
  | bytes (bs : List (BitVec 8))
  | byte14 (b : BitVec 8)
  | bytes14 (bs : List (BitVec 8))

/-- its effect in the model -/
def Sha1Call.run : Sha1Call → Sha1 → Option Sha1
  | .byte b, s => Sha1.cProcessByte s b
  | .bytes bs, s => Sha1.cProcessBytes s bs
  | .byte14 b, s => Sha1.processByte14 s b
  | .bytes14 bs, s => Sha1.processBytes14 s bs

/-- the bytes it hands over -/
def Sha1Call.data : Sha1Call → List (BitVec 8)
  | .byte b | .byte14 b => [b]
  | .bytes bs | .bytes14 bs => bs

theorem sha1Calls_inv (calls : List Sha1Call) : ∀ {s : Sha1} {m : List (BitVec 8)}, Sha1.Inv s m →
    ∃ s', calls.foldlM (fun s c => c.run s) s = some s' ∧ Sha1.Inv s' (m ++ (calls.map Sha1Call.data).flatten) := by
  induction calls with
  | nil => intro s m h; exact ⟨s, rfl, by simpa using h⟩
  | cons c cs ih =>
    intro s m h
    have : ∃ s', c.run s = some s' ∧ Sha1.Inv s' (m ++ c.data) := by
      cases c with
      | byte b => exact Sha1.cProcessByte_inv h b
      | bytes bs => exact Sha1.cProcessBytes_inv h bs
      | byte14 b =>
        rw [Sha1Call.run, Sha1.processByte14_eq h.1.len]
        exact Sha1.cProcessByte_inv h b
      | bytes14 bs => exact Sha1.processBytes14_inv bs h
    obtain ⟨s1, h1, h2⟩ := this
    obtain ⟨s2, h3, h4⟩ := ih h2
    refine ⟨s2, ?_, by simpa using h4⟩
    rw [List.foldlM_cons, h1]
    exact h3

/-- any sequence of calls, starting with a new object, gives the digest of the concatenation -/
theorem C33_chunks (calls : List Sha1Call) :
    (do let s ← calls.foldlM (fun s c => c.run s) Sha1.init
        Sha1.checksum s) = some (digest (calls.map Sha1Call.data).flatten) := by
  obtain ⟨s, h1, h2⟩ := sha1Calls_inv calls (s := Sha1.init) ⟨Sha1.init_rep, rfl⟩
  rw [h1]
  exact Sha1.checksum_eq h2

/-- the same after `reset()` of a used object -/
theorem C33_reset (before calls : List Sha1Call) :
    (do let s ← before.foldlM (fun s c => c.run s) Sha1.init
        let s ← calls.foldlM (fun s c => c.run s) (Sha1.reset s)
        Sha1.checksum s) = some (digest (calls.map Sha1Call.data).flatten) := by
  obtain ⟨s, h1, h2⟩ := sha1Calls_inv before (s := Sha1.init) ⟨Sha1.init_rep, rfl⟩
  obtain ⟨s', h3, h4⟩ := sha1Calls_inv calls (s := Sha1.reset s) ⟨Sha1.reset_rep h2.1.len, rfl⟩
  rw [h1, Sha1.obind, h3]
  exact Sha1.checksum_eq h4

/-- Clang: a piece that fits into the current block is processed correctly (the template depth suffices), any other throws -/
theorem C33_clang_partial {s : Sha1} {m : List (BitVec 8)} (h : Sha1.Inv s m) (bytes : List (BitVec 8)) :
    (m.length % 64 + bytes.length ≤ 64 → ∃ s', Sha1.Workaround.cProcessBytes s bytes = some (.ret s') ∧
      Sha1.checksum s' = some (digest (m ++ bytes))) ∧
    (64 < m.length % 64 + bytes.length → Sha1.Workaround.cProcessBytes s bytes = some (.throw .runtimeError)) := by
  obtain ⟨h1, h2⟩ := Sha1.Workaround.processBlockImpl_eq bytes 16 s m [] h rfl (by have := h.1.lt; simp; omega)
  rw [← h.1.idx]
  refine ⟨fun hh => ?_, fun hh => h2 (by simpa using hh)⟩
  obtain ⟨s', e1, e2⟩ := h1 (by simpa using hh)
  exact ⟨s', e1, by rw [Sha1.checksum_eq e2]; simp⟩

/-- Clang: the digest of a message of 65 bytes is not computed -/
theorem C33_clang_false :
    ¬ ∀ m : List (BitVec 8), ∃ s, Sha1.Workaround.cProcessBytes Sha1.init m = some (.ret s) ∧
      Sha1.checksum s = some (digest m) := by
  intro h
  obtain ⟨s, h1, -⟩ := h (List.replicate 65 0#8)
  rw [(C33_clang_partial (s := Sha1.init) (m := []) ⟨Sha1.init_rep, rfl⟩ _).2 (by simp)] at h1
  cases h1

/-! non-vacuity, and a check of the specification: the examples of FIPS 180 -/

/-- "abc" -/
example : compress H0 ([0x61#8, 0x62#8, 0x63#8, 0x80#8] ++ List.replicate 59 0#8 ++ [0x18#8]) =
    ⟨0xa9993e36#32, 0x4706816a#32, 0xba3e2571#32, 0x7850c26c#32, 0x9cd0d89d#32⟩ := by decide +kernel

example : digest [0x61#8, 0x62#8, 0x63#8] = [0xa9#8, 0x99#8, 0x3e#8, 0x36#8, 0x47#8, 0x06#8, 0x81#8, 0x6a#8, 0xba#8, 0x3e#8,
    0x25#8, 0x71#8, 0x78#8, 0x50#8, 0xc2#8, 0x6c#8, 0x9c#8, 0xd0#8, 0xd8#8, 0x9d#8] := by
  have hp : pad [0x61#8, 0x62#8, 0x63#8] = ([0x61#8, 0x62#8, 0x63#8, 0x80#8] ++ List.replicate 59 0#8 ++ [0x18#8]) ++ [] := by
    decide +kernel
  rw [digest, hp, Sha1.absorb_block (by decide), Sha1.absorb_short (by decide)]
  decide +kernel

end Sprout

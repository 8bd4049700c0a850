import Verif.Proofs.Sha1

/-! # sha1: buffering, padding, chunks -/

namespace Sprout.Sha1
open Spec Spec.SHA1

theorem absorb_short {H : H5} {m : List (BitVec 8)} (h : m.length < 64) : absorb H m = H := by
  rw [absorb, if_pos h]

theorem absorb_block {H : H5} {b m : List (BitVec 8)} (h : b.length = 64) :
    absorb H (b ++ m) = absorb (compress H b) m := by
  rw [absorb, if_neg (by simp; omega), List.take_left' h, List.drop_left' h]

theorem absorb_append (n : Nat) : ∀ (H : H5) (a b : List (BitVec 8)), a.length = 64 * n →
    absorb H (a ++ b) = absorb (absorb H a) b := by
  induction n with
  | zero =>
    intro H a b h
    obtain rfl : a = [] := List.length_eq_zero_iff.1 (by omega)
    rw [absorb_short (m := []) (by simp), List.nil_append]
  | succ n ih =>
    intro H a b h
    obtain ⟨x, y, rfl, hx⟩ : ∃ x y, a = x ++ y ∧ x.length = 64 :=
      ⟨a.take 64, a.drop 64, (List.take_append_drop _ _).symm, by simp; omega⟩
    rw [List.append_assoc, absorb_block hx, absorb_block hx, ih _ _ _ (by simp at h; omega)]

/-- the state after the bytes `m`: complete blocks are in the hash, the rest at the beginning of the buffer -/
def Rep (s : Sha1) (m : List (BitVec 8)) : Prop :=
  ∃ a r n, m = a ++ r ∧ a.length = 64 * n ∧ r.length = s.idx ∧ s.idx < 64 ∧ s.h = absorb H0 a ∧ s.block.length = 64 ∧
    s.block.take s.idx = r

theorem Rep.idx {s : Sha1} {m : List (BitVec 8)} (h : Rep s m) : s.idx = m.length % 64 := by
  obtain ⟨a, r, n, h1, h2, h3, h4, -⟩ := h
  rw [h1, List.length_append]; omega

theorem Rep.len {s : Sha1} {m : List (BitVec 8)} (h : Rep s m) : s.block.length = 64 := by
  obtain ⟨a, r, n, h1, h2, h3, h4, h5, h6, h7⟩ := h
  exact h6

theorem Rep.lt {s : Sha1} {m : List (BitVec 8)} (h : Rep s m) : s.idx < 64 := by
  obtain ⟨a, r, n, h1, h2, h3, h4, h5, h6, h7⟩ := h
  exact h4

/-- handing over a buffer whose first `k` bytes continue the message -/
theorem process_rep {s : Sha1} {m : List (BitVec 8)} (h : Rep s m) {block : List (BitVec 8)} {xs : List (BitVec 8)}
    {k : Nat} {bits : BitVec 64} (hk : k = s.idx + xs.length) (hk64 : k ≤ 64) (hl : block.length = 64)
    (hb : block.take k = s.block.take s.idx ++ xs) :
    ∃ s', process s.h block k bits = some s' ∧ Rep s' (m ++ xs) ∧ s'.bits = bits := by
  obtain ⟨a, r, n, h1, h2, h3, h4, h5, h6, h7⟩ := h
  rw [process]
  by_cases hk' : k = 64
  · rw [if_neg (by simpa using hk'), cProcessBlock_eq hl]
    refine ⟨_, rfl, ⟨m ++ xs, [], n + 1, by simp, ?_, rfl, by simp, ?_, hl, rfl⟩, rfl⟩
    · rw [h1, List.length_append, List.length_append]; omega
    · have : block = r ++ xs := by
        rw [← h7, ← hb, hk', List.take_of_length_le (by omega)]
      rw [h1, List.append_assoc, absorb_append n _ _ _ h2, ← this, ← List.append_nil block,
        absorb_block hl, absorb_short (m := []) (by simp), List.append_nil, h5]
  · rw [if_pos hk']
    refine ⟨_, rfl, ⟨a, r ++ xs, n, by rw [h1, List.append_assoc], h2, by simp; omega, by simp only; omega, h5, hl, ?_⟩, rfl⟩
    simp only
    rw [hb, h7]

theorem put_take {block xs : List (BitVec 8)} {i : Nat} (h : i + xs.length ≤ block.length) :
    (put block i xs).take (i + xs.length) = block.take i ++ xs ∧ (put block i xs).length = block.length := by
  have e : xs.take (block.length - i) = xs := List.take_of_length_le (by omega)
  rw [put, e]
  constructor
  · exact List.take_left' (by simp; omega)
  · simp; omega

theorem process_put {s : Sha1} {m : List (BitVec 8)} (h : Rep s m) {xs : List (BitVec 8)}
    {bits : BitVec 64} (hk64 : s.idx + xs.length ≤ 64) :
    ∃ s', process s.h (put s.block s.idx xs) (s.idx + xs.length) bits = some s' ∧ Rep s' (m ++ xs) ∧ s'.bits = bits := by
  have hp := put_take (block := s.block) (xs := xs) (i := s.idx) (by rw [h.len]; exact hk64)
  exact process_rep h rfl hk64 (by rw [hp.2, h.len]) hp.1

theorem set_take {block : List (BitVec 8)} {i : Nat} {x : BitVec 8} (h : i < block.length) :
    (block.set i x).take (i + 1) = block.take i ++ [x] := by
  rw [List.set_eq_take_append_cons_drop, if_pos h, show block.take i ++ x :: block.drop (i + 1) =
    (block.take i ++ [x]) ++ block.drop (i + 1) by simp]
  exact List.take_left' (by simp; omega)

theorem init_rep : Rep init [] := ⟨[], [], 0, rfl, rfl, rfl, by decide, by rw [absorb_short (by simp)]; rfl, rfl, rfl⟩

theorem reset_rep {s : Sha1} (h : s.block.length = 64) : Rep (reset s) [] :=
  ⟨[], [], 0, rfl, rfl, rfl, by simp [reset], by rw [absorb_short (by simp)]; rfl, h, rfl⟩

/-- state and bit count -/
def Inv (s : Sha1) (m : List (BitVec 8)) : Prop := Rep s m ∧ s.bits = BitVec.ofNat 64 (8 * m.length)

theorem bits_add {x : BitVec 64} {n k j : Nat} (h : x = BitVec.ofNat 64 (8 * n)) (hk : j = n + k) :
    x + BitVec.ofNat 64 (k * 8) = BitVec.ofNat 64 (8 * j) := by
  rw [h, ← BitVec.ofNat_add]; congr 1; omega

theorem cProcessByte_inv {s : Sha1} {m : List (BitVec 8)} (h : Inv s m) (b : BitVec 8) :
    ∃ s', cProcessByte s b = some s' ∧ Inv s' (m ++ [b]) := by
  have hlt : s.idx < s.block.length := by rw [h.1.len]; exact h.1.lt
  obtain ⟨s', h1, h2, h3⟩ := process_rep h.1 (block := s.block.set s.idx b) (xs := [b]) (k := s.idx + 1)
    (bits := s.bits + 8) rfl (by have := h.1.lt; omega) (by simp [h.1.len]) (set_take hlt)
  refine ⟨s', by rw [cProcessByte, wr_eq hlt, obind, h1], h2, ?_⟩
  rw [h3]
  exact bits_add (k := 1) h.2 (by simp)

/-- the accumulated arguments are still to be processed -/
theorem processBlockImpl_inv (n : Nat) : ∀ (s : Sha1) (m bytes args : List (BitVec 8)),
    bytes.length * 2 + (if args.length + s.idx = 64 then 1 else 0) = n → Inv s m → s.idx + args.length ≤ 64 →
    ∃ s', processBlockImpl s bytes args = some s' ∧ Inv s' (m ++ args ++ bytes) := by
  induction n using Nat.strongRecOn with
  | ind n ih =>
    intro s m bytes args hn h hle
    obtain ⟨s1, p1, p2, p3⟩ := process_put h.1 (xs := args) (bits := s.bits + BitVec.ofNat 64 (args.length * 8)) hle
    have hinv : Inv s1 (m ++ args) := ⟨p2, by rw [p3]; exact bits_add h.2 (by simp)⟩
    rw [processBlockImpl.eq_def]
    by_cases h64 : args.length = 64
    · have hi : s.idx = 0 := by omega
      have hput : put s.block s.idx args = args := by
        rw [put, hi, h.1.len, h64]
        simp only [List.take_zero, List.nil_append]
        rw [List.take_of_length_le (by omega), List.drop_of_length_le (by rw [h.1.len]; omega), List.append_nil]
      rw [hput, hi, h64] at p1
      have p1' : process s.h args 64 (s.bits + 512) = some s1 := p1
      rw [if_pos h64]
      cases bytes with
      | nil => exact ⟨s1, p1', by simpa using hinv⟩
      | cons b bs =>
        simp only
        rw [p1', obind]
        have hi1 : s1.idx = 0 := by rw [p2.idx, List.length_append]; have := h.1.idx; omega
        rw [if_pos (by omega)] at hn
        have := ih (2 * (bs.length + 1)) (by simp at hn; omega) s1 (m ++ args) (b :: bs) []
          (by simp [hi1]; omega) hinv (by simp [hi1])
        simpa using this
    · rw [if_neg h64]
      cases bytes with
      | nil => exact ⟨s1, p1, by simpa using hinv⟩
      | cons b bs =>
        simp only
        by_cases hi : s.idx + args.length = 64
        · rw [if_pos hi, p1, obind]
          have hi1 : s1.idx = 0 := by rw [p2.idx, List.length_append]; have := h.1.idx; omega
          rw [if_pos (by omega)] at hn
          have := ih (2 * (bs.length + 1)) (by simp at hn; omega) s1 (m ++ args) (b :: bs) []
            (by simp [hi1]; omega) hinv (by simp [hi1])
          simpa using this
        · rw [if_neg hi]
          rw [if_neg (by omega)] at hn
          obtain ⟨s', q1, q2⟩ := ih _ (by simp at hn ⊢; split <;> omega) s m bs (args ++ [b]) rfl h (by simp; omega)
          exact ⟨s', q1, by simpa using q2⟩

theorem cProcessBytes_inv {s : Sha1} {m : List (BitVec 8)} (h : Inv s m) (bytes : List (BitVec 8)) :
    ∃ s', cProcessBytes s bytes = some s' ∧ Inv s' (m ++ bytes) := by
  obtain ⟨s', h1, h2⟩ := processBlockImpl_inv _ s m bytes [] rfl h (by have := h.1.lt; simp; omega)
  exact ⟨s', h1, by simpa using h2⟩

/-! C++14 -/

theorem processByte14_eq {s : Sha1} (hl : s.block.length = 64) (b : BitVec 8) : processByte14 s b = cProcessByte s b := by
  rw [processByte14, processByteImpl14, cProcessByte]
  by_cases hlt : s.idx < s.block.length
  · rw [wr_eq hlt, obind, obind, process]
    by_cases hi : s.idx + 1 = 64
    · rw [if_pos hi, if_neg (by simpa using hi), processBlock14_eq (by simpa using hl), cProcessBlock_eq (by simpa using hl)]
      rfl
    · rw [if_neg hi, if_pos hi]; rfl
  · rw [wr, if_neg hlt]; rfl

theorem processBytes14_inv (bytes : List (BitVec 8)) : ∀ {s : Sha1} {m : List (BitVec 8)}, Inv s m →
    ∃ s', processBytes14 s bytes = some s' ∧ Inv s' (m ++ bytes) := by
  induction bytes with
  | nil => intro s m h; exact ⟨s, rfl, by simpa using h⟩
  | cons b bs ih =>
    intro s m h
    obtain ⟨s1, h1, h2⟩ := cProcessByte_inv h b
    obtain ⟨s2, h3, h4⟩ := ih h2
    refine ⟨s2, ?_, by simpa using h4⟩
    rw [processBytes14, processByte14_eq h.1.len, h1, obind, h3]

/-! the digest -/

theorem byteAt_eq {w : Nat} (x : BitVec w) (k : Nat) : byteAt x k = x.extractLsb' k 8 := by
  apply BitVec.eq_of_getLsbD_eq
  intro i hi
  rw [byteAt, BitVec.getLsbD_extractLsb', BitVec.getLsbD_setWidth, BitVec.getLsbD_and, BitVec.getLsbD_ushiftRight]
  have : (0xFF : BitVec w).getLsbD i = decide (i < w) := by
    rw [show (0xFF : BitVec w) = BitVec.ofNat w 255 from rfl, BitVec.getLsbD_ofNat]
    have : Nat.testBit 255 i = true := by
      rw [show 255 = 2 ^ 8 - 1 from rfl, Nat.testBit_two_pow_sub_one]; simp [hi]
    simp [this]
  rw [this]
  by_cases hw : i < w
  · simp [hi, hw]
  · simp [hi, hw, BitVec.getLsbD_of_ge x (k + i) (by omega)]

theorem lowByte_eq {w : Nat} (x : BitVec w) : (x &&& 0xFF).setWidth 8 = x.extractLsb' 0 8 := by
  rw [← byteAt_eq, byteAt, BitVec.ushiftRight_zero]

theorem byte_ofNat (n k : Nat) (hk : k + 8 ≤ 64) :
    (BitVec.ofNat 64 n).extractLsb' k 8 = BitVec.ofNat 8 (n / 2 ^ k) := by
  apply BitVec.eq_of_getLsbD_eq
  intro i hi
  rw [BitVec.getLsbD_extractLsb', BitVec.getLsbD_ofNat, BitVec.getLsbD_ofNat, Nat.testBit_div_two_pow]
  simp [hi, show k + i < 64 by omega, Nat.add_comm]

theorem be64_eq (n : Nat) :
    [byteAt (BitVec.ofNat 64 n) 56, byteAt (BitVec.ofNat 64 n) 48, byteAt (BitVec.ofNat 64 n) 40,
      byteAt (BitVec.ofNat 64 n) 32, byteAt (BitVec.ofNat 64 n) 24, byteAt (BitVec.ofNat 64 n) 16,
      byteAt (BitVec.ofNat 64 n) 8, (BitVec.ofNat 64 n &&& 0xFF).setWidth 8] = be64 n := by
  simp only [byteAt_eq, lowByte_eq]
  rw [byte_ofNat _ _ (by decide), byte_ofNat _ _ (by decide), byte_ofNat _ _ (by decide), byte_ofNat _ _ (by decide),
    byte_ofNat _ _ (by decide), byte_ofNat _ _ (by decide), byte_ofNat _ _ (by decide), byte_ofNat _ _ (by decide)]
  rfl

theorem wordBytes_eq (x : BitVec 32) : wordBytes x = be32 x := by
  simp only [wordBytes, byteAt_eq, lowByte_eq, be32]

theorem zeros_eq {n j : Nat} (h : j = (n + 1) % 64) : zeros n = if j ≤ 56 then 56 - j else 120 - j := by
  unfold zeros; split <;> omega

theorem pad_length (m : List (BitVec 8)) : (pad m).length % 64 = 0 := by
  simp only [pad, be64, zeros, List.length_append, List.length_replicate, List.length_map, List.length_range,
    List.length_singleton]
  omega

theorem Rep.full {s : Sha1} {m : List (BitVec 8)} (h : Rep s m) (hm : m.length % 64 = 0) : s.h = absorb H0 m := by
  have h0 := h.idx
  obtain ⟨a, r, n, h1, h2, h3, h4, h5, -⟩ := h
  obtain rfl : r = [] := List.length_eq_zero_iff.1 (by omega)
  rw [h1, List.append_nil, h5]

theorem checksum_eq {s : Sha1} {m : List (BitVec 8)} (h : Inv s m) : checksum s = some (digest m) := by
  have hlt : s.idx < s.block.length := by rw [h.1.len]; exact h.1.lt
  -- the one bit
  obtain ⟨s1, a1, a2, a3⟩ := process_rep h.1 (block := s.block.set s.idx 0x80#8) (xs := [0x80#8]) (k := s.idx + 1)
    (bits := s.bits) rfl (by have := h.1.lt; omega) (by simp [h.1.len]) (set_take hlt)
  have e1 : processOne s = some s1 := by rw [processOne, wr_eq hlt, obind, a1]
  have hidx : s1.idx = (m.length + 1) % 64 := by rw [a2.idx]; simp
  -- padding
  have pad_ok : ∃ s2, processPadding s1 = some s2 ∧
      Rep s2 (m ++ [0x80#8] ++ List.replicate (zeros m.length) 0#8) ∧ s2.bits = s.bits ∧ s2.idx = 56 := by
    have fin : ∀ s2, Rep s2 (m ++ [0x80#8] ++ List.replicate (zeros m.length) 0#8) → s2.idx = 56 := by
      intro s2 hr
      rw [hr.idx]; simp [zeros]; omega
    have hz := zeros_eq hidx
    rw [processPadding]
    by_cases c1 : s1.idx = 56
    · rw [if_pos c1]
      rw [c1] at hz
      have : Rep s1 (m ++ [0x80#8] ++ List.replicate (zeros m.length) 0#8) := by rw [hz]; simpa using a2
      exact ⟨s1, rfl, this, a3, c1⟩
    · rw [if_neg c1]
      by_cases c2 : s1.idx > 56
      · rw [if_pos c2]
        have hlt1 := a2.lt
        obtain ⟨s2, b1, b2, b3⟩ := process_put a2 (xs := List.replicate (64 - s1.idx) 0#8) (bits := s1.bits) (by simp; omega)
        rw [List.length_replicate, show s1.idx + (64 - s1.idx) = 64 by omega] at b1
        rw [b1, obind, processPaddingAfter]
        have hi2 : s2.idx = 0 := by rw [b2.idx]; simp; omega
        obtain ⟨s3, c1, c2, c3⟩ := process_rep b2 (block := List.replicate 64 0#8) (xs := List.replicate 56 0#8) (k := 56)
          (bits := s2.bits) (by simp [hi2]) (by decide) (by simp) (by rw [hi2]; rfl)
        have hr : Rep s3 (m ++ [0x80#8] ++ List.replicate (zeros m.length) 0#8) := by
          rw [hz, if_neg (by omega), show 120 - s1.idx = (64 - s1.idx) + 56 by omega, ← List.replicate_append_replicate]
          simpa using c2
        exact ⟨s3, c1, hr, by rw [c3, b3, a3], fin _ hr⟩
      · rw [if_neg c2]
        obtain ⟨s2, b1, b2, b3⟩ := process_put a2 (xs := List.replicate (56 - s1.idx) 0#8) (bits := s1.bits) (by simp; omega)
        rw [List.length_replicate, show s1.idx + (56 - s1.idx) = 56 by omega] at b1
        have hr : Rep s2 (m ++ [0x80#8] ++ List.replicate (zeros m.length) 0#8) := by
          rw [hz, if_pos (by omega)]; exact b2
        exact ⟨s2, b1, hr, by rw [b3, a3], fin _ hr⟩
  obtain ⟨s2, e2, r2, t2, i2⟩ := pad_ok
  -- the length
  obtain ⟨s3, d1, d2, d3⟩ := process_put r2 (xs := be64 (8 * m.length)) (bits := s2.bits) (by rw [i2]; simp [be64])
  have e3 : processLength s2 = some s3 := by
    rw [processLength, t2, h.2, be64_eq, ← h.2, ← t2]; exact d1
  have hH := Rep.full d2 (pad_length m)
  rw [checksum, e1, obind, e2, obind, e3, obind]
  simp only [makeValue, wordBytes_eq, digest, hH, pad]

end Sprout.Sha1

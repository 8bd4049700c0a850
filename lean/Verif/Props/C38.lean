import Verif.Model.Uuid
import Verif.Proofs.Sha1c
import Verif.Proofs.Md5

/-!
# C38: version and variant of generated uuids

Stated on the bits: bits 7 and 6 of byte 8 are `10`, the four high bits of byte 6 are the version number, every other bit is
that of the digest or of the generator's four numbers, most significant byte first.
-/

namespace Sprout
open Spec Uuid

/-- `u` is `v` with the version number `n` and the RFC 4122 variant written into it -/
def Stamped (n : BitVec 4) (v u : List (BitVec 8)) : Prop :=
  u.length = 16 ∧
  ∀ i (hi : i < 16) (hv : i < v.length) (hu : i < u.length), ∀ j, j < 8 → u[i].getLsbD j =
    if i = 6 ∧ 4 ≤ j then n.getLsbD (j - 4) else if i = 8 ∧ j = 7 then true else if i = 8 ∧ j = 6 then false else v[i].getLsbD j

theorem mask6 : ∀ (x : BitVec 8) (j : Nat), j < 8 →
    (x &&& 0x5F ||| 0x50).getLsbD j = (if 4 ≤ j then (5 : BitVec 4).getLsbD (j - 4) else x.getLsbD j) ∧
    (x &&& 0x3F ||| 0x30).getLsbD j = (if 4 ≤ j then (3 : BitVec 4).getLsbD (j - 4) else x.getLsbD j) ∧
    (x &&& 0x4F ||| 0x40).getLsbD j = (if 4 ≤ j then (4 : BitVec 4).getLsbD (j - 4) else x.getLsbD j) ∧
    (x &&& 0xBF ||| 0x80).getLsbD j = (if j = 7 then true else if j = 6 then false else x.getLsbD j) := by decide +kernel

theorem list16 (v : List (BitVec 8)) (h : 16 ≤ v.length) : ∃ a0 a1 a2 a3 a4 a5 a6 a7 a8 a9 a10 a11 a12 a13 a14 a15 t,
    v = a0 :: a1 :: a2 :: a3 :: a4 :: a5 :: a6 :: a7 :: a8 :: a9 :: a10 :: a11 :: a12 :: a13 :: a14 :: a15 :: t := by
  match v, h with
  | a0 :: a1 :: a2 :: a3 :: a4 :: a5 :: a6 :: a7 :: a8 :: a9 :: a10 :: a11 :: a12 :: a13 :: a14 :: a15 :: t, _ =>
    exact ⟨a0, a1, a2, a3, a4, a5, a6, a7, a8, a9, a10, a11, a12, a13, a14, a15, t, rfl⟩

theorem stamped_of (n : BitVec 4) (x6 x8 a0 a1 a2 a3 a4 a5 a6 a7 a8 a9 a10 a11 a12 a13 a14 a15 : BitVec 8) (t : List (BitVec 8))
    (h6 : ∀ j, j < 8 → x6.getLsbD j = if 4 ≤ j then n.getLsbD (j - 4) else a6.getLsbD j)
    (h8 : ∀ j, j < 8 → x8.getLsbD j = if j = 7 then true else if j = 6 then false else a8.getLsbD j) :
    Stamped n (a0 :: a1 :: a2 :: a3 :: a4 :: a5 :: a6 :: a7 :: a8 :: a9 :: a10 :: a11 :: a12 :: a13 :: a14 :: a15 :: t)
      [a0, a1, a2, a3, a4, a5, x6, a7, x8, a9, a10, a11, a12, a13, a14, a15] := by
  refine ⟨rfl, fun i hi _ _ j hj => ?_⟩
  match i, hi with
  | 0, _ => rfl
  | 1, _ => rfl
  | 2, _ => rfl
  | 3, _ => rfl
  | 4, _ => rfl
  | 5, _ => rfl
  | 6, _ => simpa using h6 j hj
  | 7, _ => rfl
  | 8, _ => simpa using h8 j hj
  | 9, _ => rfl
  | 10, _ => rfl
  | 11, _ => rfl
  | 12, _ => rfl
  | 13, _ => rfl
  | 14, _ => rfl
  | 15, _ => rfl
  | n + 16, h => exact absurd h (by omega)

/-- SHA-1 name generator: version 5, from the first 16 bytes of any digest -/
theorem C38_sha1_bits (v : List (BitVec 8)) (h : 16 ≤ v.length) : ∃ u, sha1ToUuid v = some u ∧ Stamped 5 v u := by
  obtain ⟨a0, a1, a2, a3, a4, a5, a6, a7, a8, a9, a10, a11, a12, a13, a14, a15, t, rfl⟩ := list16 v h
  refine ⟨[a0, a1, a2, a3, a4, a5, a6 &&& 0x5F ||| 0x50, a7, a8 &&& 0xBF ||| 0x80, a9, a10, a11, a12, a13, a14, a15], ?_, ?_⟩
  · unfold sha1ToUuid digestToUuid; simp
  · exact stamped_of _ _ _ _ _ _ _ _ _ _ _ _ _ _ _ _ _ _ _ _ (fun j hj => (mask6 a6 j hj).1) (fun j hj => (mask6 a8 j hj).2.2.2)

/-- MD5 name generator: version 3 -/
theorem C38_md5_bits (v : List (BitVec 8)) (h : 16 ≤ v.length) : ∃ u, md5ToUuid v = some u ∧ Stamped 3 v u := by
  obtain ⟨a0, a1, a2, a3, a4, a5, a6, a7, a8, a9, a10, a11, a12, a13, a14, a15, t, rfl⟩ := list16 v h
  refine ⟨[a0, a1, a2, a3, a4, a5, a6 &&& 0x3F ||| 0x30, a7, a8 &&& 0xBF ||| 0x80, a9, a10, a11, a12, a13, a14, a15], ?_, ?_⟩
  · unfold md5ToUuid digestToUuid; simp
  · exact stamped_of _ _ _ _ _ _ _ _ _ _ _ _ _ _ _ _ _ _ _ _ (fun j hj => (mask6 a6 j hj).2.1) (fun j hj => (mask6 a8 j hj).2.2.2)

/-- the bytes of a 32-bit number, most significant first -/
def bytesOf (x : BitVec 32) : List (BitVec 8) := [x.extractLsb' 24 8, x.extractLsb' 16 8, x.extractLsb' 8 8, x.extractLsb' 0 8]

/-- random generator: version 4, from four 32-bit numbers -/
theorem C38_random_bits (v0 v1 v2 v3 : BitVec 32) :
    Stamped 4 (bytesOf v0 ++ bytesOf v1 ++ bytesOf v2 ++ bytesOf v3) (randomToUuid v0 v1 v2 v3) := by
  have byte : ∀ (x : BitVec 32) (k : Nat), ((x >>> k) &&& 0xFF).setWidth 8 = x.extractLsb' k 8 := by
    intro x k
    ext i hi
    have : (0xFF : BitVec 32).getLsbD i = true := by
      have : ∀ i, i < 8 → (0xFF : BitVec 32).getLsbD i = true := by decide
      exact this i hi
    rw [← BitVec.getLsbD_eq_getElem, ← BitVec.getLsbD_eq_getElem, BitVec.getLsbD_setWidth, BitVec.getLsbD_and, this, BitVec.getLsbD_extractLsb']
    simp [hi]
  have m4 : ∀ (x : BitVec 32) (k : Nat), (((x >>> k) &&& 0x4F) ||| 0x40).setWidth 8 = (x.extractLsb' k 8 &&& 0x4F ||| 0x40) := by
    intro x k
    ext i hi
    have : ∀ i, i < 8 → (0x4F : BitVec 32).getLsbD i = (0x4F : BitVec 8).getLsbD i ∧ (0x40 : BitVec 32).getLsbD i = (0x40 : BitVec 8).getLsbD i := by decide
    have := this i hi
    simp [← BitVec.getLsbD_eq_getElem, BitVec.getLsbD_extractLsb', this, hi, show i < 32 by omega]
  have m8 : ∀ (x : BitVec 32) (k : Nat), (((x >>> k) &&& 0xBF) ||| 0x80).setWidth 8 = (x.extractLsb' k 8 &&& 0xBF ||| 0x80) := by
    intro x k
    ext i hi
    have : ∀ i, i < 8 → (0xBF : BitVec 32).getLsbD i = (0xBF : BitVec 8).getLsbD i ∧ (0x80 : BitVec 32).getLsbD i = (0x80 : BitVec 8).getLsbD i := by decide
    have := this i hi
    simp [← BitVec.getLsbD_eq_getElem, BitVec.getLsbD_extractLsb', this, hi, show i < 32 by omega]
  unfold randomToUuid
  simp only [byte, m4, m8]
  exact stamped_of 4 _ _ _ _ _ _ _ _ (v1.extractLsb' 8 8) _ (v2.extractLsb' 24 8) _ _ _ _ _ _ _ []
    (fun j hj => (mask6 _ j hj).2.2.1) (fun j hj => (mask6 _ j hj).2.2.2)

/-- what `variant()` and `version()` report on stamped bytes -/
theorem C38_report (n : BitVec 4) (v u : List (BitVec 8)) (hv : 16 ≤ v.length) (h : Stamped n v u) :
    variant u = some .rfc4122 ∧
    version u = some (if n = 1 then .timeBased else if n = 2 then .dceSecurity else if n = 3 then .nameMd5
      else if n = 4 then .random else if n = 5 then .nameSha1 else .unknown) := by
  obtain ⟨hl, hb⟩ := h
  have k8 : ∀ x : BitVec 8, x.getLsbD 7 = true → x.getLsbD 6 = false → ¬ (x &&& 0x80 = 0x00) ∧ x &&& 0xC0 = 0x80 := by decide +kernel
  have k6 : ∀ (x : BitVec 8) (n : BitVec 4), (∀ j, j < 4 → x.getLsbD (j + 4) = n.getLsbD j) → x &&& (0xF0 : BitVec 8) = (n.setWidth 8 <<< (4 : Nat) : BitVec 8) := by
    intro x n h
    ext i hi
    have hf : ∀ i, i < 8 → (0xF0 : BitVec 8).getLsbD i = decide (4 ≤ i) := by decide
    rw [← BitVec.getLsbD_eq_getElem, ← BitVec.getLsbD_eq_getElem, BitVec.getLsbD_and, hf i hi]
    by_cases h4 : 4 ≤ i
    · have := h (i - 4) (by omega)
      rw [show i - 4 + 4 = i by omega] at this
      rw [this]; simp [h4, hi, show ¬ i < 4 by omega]
    · simp [h4, show i < 4 by omega]
  constructor
  · have h7 := hb 8 (by omega) (by omega) (by omega) 7 (by omega)
    have h6 := hb 8 (by omega) (by omega) (by omega) 6 (by omega)
    have := k8 u[8] (by simpa using h7) (by simpa using h6)
    unfold variant
    rw [List.getElem?_eq_getElem (by omega)]
    simp only [Option.bind_eq_bind, Option.bind_some]
    rw [if_neg this.1, if_pos this.2]
  · have := k6 u[6] n (fun j hj => by
      have := hb 6 (by omega) (by omega) (by omega) (j + 4) (by omega)
      simpa using this)
    unfold version
    rw [List.getElem?_eq_getElem (by omega)]
    simp only [Option.bind_eq_bind, Option.bind_some, this]
    have fin : ∀ n : BitVec 4, (some (if n.setWidth 8 <<< (4 : Nat) = 0x10 then .timeBased else if n.setWidth 8 <<< (4 : Nat) = 0x20 then .dceSecurity
        else if n.setWidth 8 <<< (4 : Nat) = 0x30 then .nameMd5 else if n.setWidth 8 <<< (4 : Nat) = 0x40 then .random
        else if n.setWidth 8 <<< (4 : Nat) = 0x50 then .nameSha1 else .unknown) : Option Version)
        = some (if n = 1 then .timeBased else if n = 2 then .dceSecurity else if n = 3 then .nameMd5
      else if n = 4 then .random else if n = 5 then .nameSha1 else .unknown) := by decide +kernel
    exact fin n

/-- `make_uuid5`: the FIPS 180-4 digest of namespace and name, stamped as version 5 -/
theorem C38_make_uuid5 (ns name : List (BitVec 8)) : ∃ u, makeUuid5 ns name = some u ∧ Stamped 5 (SHA1.digest (ns ++ name)) u ∧
    variant u = some .rfc4122 ∧ version u = some .nameSha1 := by
  obtain ⟨s, h1, h2⟩ := Sha1.cProcessBytes_inv (s := Sha1.init) ⟨Sha1.init_rep, rfl⟩ ns
  obtain ⟨s', h3, h4⟩ := Sha1.cProcessBytes_inv h2 name
  have h5 := Sha1.checksum_eq h4
  have hd : 16 ≤ (SHA1.digest (ns ++ name)).length := by
    simp [SHA1.digest, SHA1.be32]
  obtain ⟨u, h6, h7⟩ := C38_sha1_bits _ hd
  refine ⟨u, ?_, h7, ?_⟩
  · unfold makeUuid5
    simp only [h1, Option.bind_eq_bind, Option.bind_some, h3, h5]
    simpa using h6
  · exact C38_report 5 _ u hd h7

/-- `make_uuid3`, given the MD5 digest -/
theorem C38_md5_report (v : List (BitVec 8)) (h : v.length = 16) : ∃ u, md5ToUuid v = some u ∧ Stamped 3 v u ∧
    variant u = some .rfc4122 ∧ version u = some .nameMd5 := by
  obtain ⟨u, h1, h2⟩ := C38_md5_bits v (by omega)
  exact ⟨u, h1, h2, C38_report 3 _ u (by omega) h2⟩

/-- `make_uuid3`: the RFC 1321 digest of namespace and name, stamped as version 3 -/
theorem C38_make_uuid3 (ns name : List (BitVec 8)) : ∃ u, makeUuid3 ns name = some u ∧ Stamped 3 (MD5.digestBytes (ns ++ name)) u ∧
    variant u = some .rfc4122 ∧ version u = some .nameMd5 := by
  obtain ⟨s, h1, h2⟩ := Md5.inv_init.bytes ns
  obtain ⟨s', h3, h4⟩ := h2.bytes name
  have h5 := Md5.checksum_eq h4
  have hd : (MD5.digestBytes (ns ++ name)).length = 16 := by
    simp [MD5.digestBytes, MD5.digest, MD5.le32]
  obtain ⟨u, h6, h7⟩ := C38_md5_report _ hd
  refine ⟨u, ?_, h7⟩
  unfold makeUuid3
  simp only [h1, Option.bind_eq_bind, Option.bind_some, h3, h5]
  rw [← h6, MD5.digestBytes]
  simp

/-- on Clang a name of more than 48 bytes in a namespace throws -/
theorem C38_make_uuid5_clang_false : ¬ ∀ ns name : List (BitVec 8), ns.length = 16 →
    ∃ u, makeUuid5Clang ns name = some (.ret u) ∧ version u = some .nameSha1 := by
  intro h
  obtain ⟨u, h1, -⟩ := h (List.replicate 16 0) (List.replicate 49 0) (by simp)
  obtain ⟨f1, -⟩ := Sha1.Workaround.processBlockImpl_eq (List.replicate 16 0) 16 Sha1.init [] [] ⟨Sha1.init_rep, rfl⟩ rfl (by decide)
  obtain ⟨s, e1, e2⟩ := f1 (by decide)
  unfold makeUuid5Clang at h1
  have e1' : Sha1.Workaround.cProcessBytes Sha1.init (List.replicate 16 0) = some (.ret s) := e1
  rw [e1'] at h1
  simp only [Option.bind_eq_bind, Option.bind_some] at h1
  have hi := e2.1.idx
  obtain ⟨-, f2⟩ := Sha1.Workaround.processBlockImpl_eq (List.replicate 49 0) 16 s _ [] e2 rfl (by have := e2.1.lt; simp; omega)
  have e3 : Sha1.Workaround.cProcessBytes s (List.replicate 49 0) = some (.throw .runtimeError) := f2 (by simp [hi])
  rw [e3] at h1
  cases h1

/-- random uuids -/
theorem C38_random_report (v0 v1 v2 v3 : BitVec 32) :
    variant (randomToUuid v0 v1 v2 v3) = some .rfc4122 ∧ version (randomToUuid v0 v1 v2 v3) = some .random :=
  C38_report 4 _ _ (by simp [bytesOf]) (C38_random_bits v0 v1 v2 v3)

example : randomToUuid 0xFFFFFFFF 0xFFFFFFFF 0 0xFFFFFFFF
    = [0xFF, 0xFF, 0xFF, 0xFF, 0xFF, 0xFF, 0x4F, 0xFF, 0x80, 0, 0, 0, 0xFF, 0xFF, 0xFF, 0xFF] := by decide
example : variant (List.replicate 16 0) = some .ncs := by decide

end Sprout

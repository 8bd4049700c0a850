import Verif.Model.Sha1

/-!
# SHA-1 after FIPS 180-4

Section numbers refer to FIPS 180-4. Only the record of the five words (`H5`) is shared with the model.
-/

namespace Sprout.Spec.SHA1

/-- 4.1.1 -/
def Ch (x y z : BitVec 32) : BitVec 32 := (x &&& y) ^^^ (~~~x &&& z)
/-- 4.1.1 -/
def Parity (x y z : BitVec 32) : BitVec 32 := x ^^^ y ^^^ z
/-- 4.1.1 -/
def Maj (x y z : BitVec 32) : BitVec 32 := (x &&& y) ^^^ (x &&& z) ^^^ (y &&& z)
/-- 4.1.1 -/
def f (t : Nat) : BitVec 32 → BitVec 32 → BitVec 32 → BitVec 32 :=
  if t ≤ 19 then Ch else if t ≤ 39 then Parity else if t ≤ 59 then Maj else Parity
/-- 4.2.1 -/
def K (t : Nat) : BitVec 32 :=
  if t ≤ 19 then 0x5a827999#32 else if t ≤ 39 then 0x6ed9eba1#32 else if t ≤ 59 then 0x8f1bbcdc#32 else 0xca62c1d6#32

/-- 5.3.1 -/
def H0 : H5 := ⟨0x67452301#32, 0xefcdab89#32, 0x98badcfe#32, 0x10325476#32, 0xc3d2e1f0#32⟩

/-- 3.1: bytes are parsed into words with the most significant byte first; `M_t` of a 64-byte block -/
def M (block : List (BitVec 8)) (t : Nat) : BitVec 32 :=
  block.getD (4 * t) 0#8 ++ block.getD (4 * t + 1) 0#8 ++ block.getD (4 * t + 2) 0#8 ++ block.getD (4 * t + 3) 0#8

/-- 6.1.2 step 1: the next word of the message schedule -/
def nextW (W : List (BitVec 32)) : BitVec 32 :=
  let t := W.length
  (W.getD (t - 3) 0 ^^^ W.getD (t - 8) 0 ^^^ W.getD (t - 14) 0 ^^^ W.getD (t - 16) 0).rotateLeft 1

/-- `n` further words -/
def extend (W : List (BitVec 32)) : Nat → List (BitVec 32)
  | 0 => W
  | n + 1 => extend W n ++ [nextW (extend W n)]

/-- 6.1.2 step 1 -/
def schedule (block : List (BitVec 8)) : List (BitVec 32) := extend ((List.range 16).map (M block)) 64

/-- 6.1.2 step 3 -/
def step (W : List (BitVec 32)) (v : H5) (t : Nat) : H5 :=
  let T := v.a.rotateLeft 5 + f t v.b v.c v.d + v.e + K t + W.getD t 0
  ⟨T, v.a, v.b.rotateLeft 30, v.c, v.d⟩

/-- 6.1.2: the hash after a block -/
def compress (H : H5) (block : List (BitVec 8)) : H5 :=
  let v := (List.range 80).foldl (step (schedule block)) H
  ⟨v.a + H.a, v.b + H.b, v.c + H.c, v.d + H.d, v.e + H.e⟩

/-- the blocks of a padded message one after another -/
def absorb (H : H5) (m : List (BitVec 8)) : H5 :=
  if m.length < 64 then H else absorb (compress H (m.take 64)) (m.drop 64)
termination_by m.length
decreasing_by simp [List.length_drop]; omega

/-- 5.1.1, in bytes: a one bit, as few zeros as possible, the length in bits as a 64-bit number -/
def zeros (len : Nat) : Nat := (119 - len % 64) % 64

/-- a number as eight bytes, most significant first -/
def be64 (n : Nat) : List (BitVec 8) := (List.range 8).map fun i => BitVec.ofNat 8 (n / 256 ^ (7 - i))

/-- 5.1.1 -/
def pad (m : List (BitVec 8)) : List (BitVec 8) :=
  m ++ [0x80#8] ++ List.replicate (zeros m.length) 0#8 ++ be64 (8 * m.length)

/-- the bytes of a word, most significant first -/
def be32 (x : BitVec 32) : List (BitVec 8) :=
  [x.extractLsb' 24 8, x.extractLsb' 16 8, x.extractLsb' 8 8, x.extractLsb' 0 8]

/-- 6.1.2: the message digest of a message of less than `2^61` bytes -/
def digest (m : List (BitVec 8)) : List (BitVec 8) :=
  let H := absorb H0 (pad m)
  be32 H.a ++ be32 H.b ++ be32 H.c ++ be32 H.d ++ be32 H.e

end Sprout.Spec.SHA1

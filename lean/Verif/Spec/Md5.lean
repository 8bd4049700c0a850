import Verif.Model.Md5

/-!
# MD5 after RFC 1321

Section numbers refer to RFC 1321. Only the record of the four words (`K4`) is shared with the model. A message is a sequence of bits.
-/

namespace Sprout.Spec.MD5

abbrev W := BitVec 32

/-- 2: eight bits are a byte, high-order bit first -/
def byteOf (m : List Bool) : BitVec 8 := BitVec.ofNat 8 (m.foldl (fun n b => 2 * n + b.toNat) 0)

/-- 2: four bytes are a word, low-order byte first; word `t` of a block of 512 bits -/
def X (m : List Bool) (t : Nat) : W :=
  let byte i := byteOf ((m.drop (32 * t + 8 * i)).take 8)
  byte 3 ++ byte 2 ++ byte 1 ++ byte 0

/-- 3.4 -/
def F (x y z : W) : W := (x &&& y) ||| (~~~x &&& z)
def G (x y z : W) : W := (x &&& z) ||| (y &&& ~~~z)
def H (x y z : W) : W := x ^^^ y ^^^ z
def I (x y z : W) : W := y ^^^ (x ||| ~~~z)

/-- 3.4: the integer part of 4294967296 times abs(sin(i)), i = 1 … 64 (the values of the appendix of the RFC) -/
def T : List W := [
  0xd76aa478, 0xe8c7b756, 0x242070db, 0xc1bdceee, 0xf57c0faf, 0x4787c62a, 0xa8304613, 0xfd469501,
  0x698098d8, 0x8b44f7af, 0xffff5bb1, 0x895cd7be, 0x6b901122, 0xfd987193, 0xa679438e, 0x49b40821,
  0xf61e2562, 0xc040b340, 0x265e5a51, 0xe9b6c7aa, 0xd62f105d, 0x02441453, 0xd8a1e681, 0xe7d3fbc8,
  0x21e1cde6, 0xc33707d6, 0xf4d50d87, 0x455a14ed, 0xa9e3e905, 0xfcefa3f8, 0x676f02d9, 0x8d2a4c8a,
  0xfffa3942, 0x8771f681, 0x6d9d6122, 0xfde5380c, 0xa4beea44, 0x4bdecfa9, 0xf6bb4b60, 0xbebfbc70,
  0x289b7ec6, 0xeaa127fa, 0xd4ef3085, 0x04881d05, 0xd9d4d039, 0xe6db99e5, 0x1fa27cf8, 0xc4ac5665,
  0xf4292244, 0x432aff97, 0xab9423a7, 0xfc93a039, 0x655b59c3, 0x8f0ccc92, 0xffeff47d, 0x85845dd1,
  0x6fa87e4f, 0xfe2ce6e0, 0xa3014314, 0x4e0811a1, 0xf7537e82, 0xbd3af235, 0x2ad7d2bb, 0xeb86d391]

/-- the function of step `i` (from 0) -/
def fn (i : Nat) : W → W → W → W := if i < 16 then F else if i < 32 then G else if i < 48 then H else I
/-- the word of the block used in step `i` -/
def idx (i : Nat) : Nat :=
  if i < 16 then i else if i < 32 then (5 * i + 1) % 16 else if i < 48 then (3 * i + 5) % 16 else 7 * i % 16
/-- the rotation of step `i` -/
def rot (i : Nat) : Nat :=
  ((if i < 16 then [7, 12, 17, 22] else if i < 32 then [5, 9, 14, 20] else if i < 48 then [4, 11, 16, 23] else [6, 10, 15, 21]) : List Nat).getD (i % 4) 0

/-- 3.4: `a = b + ((a + f(b,c,d) + X[k] + T[i]) <<< s)`, then the four registers change their roles -/
def step (x : Nat → W) (v : K4) (i : Nat) : K4 :=
  ⟨v.d, v.b + (v.a + fn i v.b v.c v.d + x (idx i) + T.getD i 0).rotateLeft (rot i), v.b, v.c⟩

/-- 3.4: the registers after a block -/
def compress (h : K4) (m : List Bool) : K4 :=
  let v := (List.range 64).foldl (step (X m)) h
  ⟨h.a + v.a, h.b + v.b, h.c + v.c, h.d + v.d⟩

/-- 3.3 -/
def H0 : K4 := ⟨0x67452301#32, 0xefcdab89#32, 0x98badcfe#32, 0x10325476#32⟩

/-- the blocks of a padded message one after another -/
def absorb (h : K4) (m : List Bool) : K4 :=
  if m.length < 512 then h else absorb (compress h (m.take 512)) (m.drop 512)
termination_by m.length
decreasing_by simp [List.length_drop]; omega

/-- the bits of a byte, high-order bit first -/
def bitsOf (b : BitVec 8) : List Bool := (List.range 8).map fun i => b.getLsbD (7 - i)

/-- 3.2: the length modulo `2^64` as two words, low-order word first, low-order byte first -/
def lenBits (n : Nat) : List Bool := ((List.range 8).map fun i => bitsOf (BitVec.ofNat 8 (n / 256 ^ i))).flatten

/-- 3.1: a one bit, zeros until the length is congruent to 448 modulo 512; 3.2: the length -/
def pad (m : List Bool) : List Bool :=
  m ++ [true] ++ List.replicate ((959 - m.length % 512) % 512) false ++ lenBits m.length

/-- 3.5: the bytes of a word, low-order byte first -/
def le32 (x : W) : List (BitVec 8) := [x.extractLsb' 0 8, x.extractLsb' 8 8, x.extractLsb' 16 8, x.extractLsb' 24 8]

/-- the message digest of a message of bits -/
def digest (m : List Bool) : List (BitVec 8) :=
  let h := absorb H0 (pad m)
  le32 h.a ++ le32 h.b ++ le32 h.c ++ le32 h.d

/-- the digest of bytes -/
def digestBytes (m : List (BitVec 8)) : List (BitVec 8) := digest (m.map bitsOf).flatten

end Sprout.Spec.MD5

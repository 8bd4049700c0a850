import Verif.Basic
import Verif.Model.Bits

/-!
# md5

`sprout/checksum/md5.hpp`. Simplifications: a pair of input iterators wrapped in `bytes_iterator` is the list of the bytes it delivers; `std::size_t`
is unbounded (all values are small). `bit_count_` is a 64-bit number. Not modelled because they are ill-formed when instantiated: the non-const
`process_block_impl` (lines 364-369, `++first` on a const reference) and `make_md5` for wide strings (lines 505-517, `char_traits<char>::length` of a
wide string).
-/

namespace Sprout

/-- `sprout::array<std::uint32_t, 4>` -/
structure K4 where
  a : BitVec 32
  b : BitVec 32
  c : BitVec 32
  d : BitVec 32
  deriving DecidableEq, Repr

/-- the members (md5.hpp 233-235) -/
structure Md5 where
  k : K4
  block : List (BitVec 32)
  bits : BitVec 64
  deriving DecidableEq, Repr

namespace Md5

abbrev W := BitVec 32

/-- `func_f` (md5.hpp 31-34) -/
def funcF (x y z : W) : W := (x &&& y) ||| (~~~x &&& z)
/-- `func_g` (md5.hpp 35-38) -/
def funcG (x y z : W) : W := (x &&& z) ||| (y &&& ~~~z)
/-- `func_h` (md5.hpp 39-42) -/
def funcH (x y z : W) : W := x ^^^ y ^^^ z
/-- `func_i` (md5.hpp 43-46) -/
def funcI (x y z : W) : W := y ^^^ (x ||| ~~~z)

/-- `round1_op` … `round4_op` (md5.hpp 48-75) for the function `f` -/
def roundOp (f : W → W → W → W) (a b c d x t : W) (s : Nat) : Option W := do
  let r ← rotl (a + f b c d + x + t) (s : Int)
  some (b + r)

/-- `x[xis[i]], ts[i], ss[i]` (md5.hpp 86-89) -/
def args (x : List W) (xis : List Nat) (ts : List W) (ss : List Nat) (i : Nat) : Option (W × W × Nat) := do
  let xi ← rd xis i
  let w ← rd x xi
  let t ← rd ts i
  let s ← rd ss i
  some (w, t, s)

/-- `round_x_impl` (md5.hpp 77-91) -/
def roundXImpl (f : W → W → W → W) (x : List W) (xis : List Nat) (ts : List W) (ss : List Nat) (a b c d : W) (i : Nat) : Option K4 :=
  if i = 16 then some ⟨a, b, c, d⟩
  else do
    let p ← args x xis ts ss i
    if i % 4 = 0 then (do
      let r ← roundOp f a b c d p.1 p.2.1 p.2.2
      roundXImpl f x xis ts ss r b c d (i + 1))
    else if i % 4 = 1 then (do
      let r ← roundOp f d a b c p.1 p.2.1 p.2.2
      roundXImpl f x xis ts ss a b c r (i + 1))
    else if i % 4 = 2 then (do
      let r ← roundOp f c d a b p.1 p.2.1 p.2.2
      roundXImpl f x xis ts ss a b r d (i + 1))
    else do
      let r ← roundOp f b c d a p.1 p.2.1 p.2.2
      roundXImpl f x xis ts ss a r c d (i + 1)
partial_fixpoint

/-- the tables (md5.hpp 135-170) -/
def xis1 : List Nat := [0, 1, 2, 3, 4, 5, 6, 7, 8, 9, 10, 11, 12, 13, 14, 15]
def xis2 : List Nat := [1, 6, 11, 0, 5, 10, 15, 4, 9, 14, 3, 8, 13, 2, 7, 12]
def xis3 : List Nat := [5, 8, 11, 14, 1, 4, 7, 10, 13, 0, 3, 6, 9, 12, 15, 2]
def xis4 : List Nat := [0, 7, 14, 5, 12, 3, 10, 1, 8, 15, 6, 13, 4, 11, 2, 9]
def ts1 : List W := [0xD76AA478, 0xE8C7B756, 0x242070DB, 0xC1BDCEEE, 0xF57C0FAF, 0x4787C62A, 0xA8304613, 0xFD469501,
  0x698098D8, 0x8B44F7AF, 0xFFFF5BB1, 0x895CD7BE, 0x6B901122, 0xFD987193, 0xA679438E, 0x49B40821]
def ts2 : List W := [0xF61E2562, 0xC040B340, 0x265E5A51, 0xE9B6C7AA, 0xD62F105D, 0x02441453, 0xD8A1E681, 0xE7D3FBC8,
  0x21E1CDE6, 0xC33707D6, 0xF4D50D87, 0x455A14ED, 0xA9E3E905, 0xFCEFA3F8, 0x676F02D9, 0x8D2A4C8A]
def ts3 : List W := [0xFFFA3942, 0x8771F681, 0x6D9D6122, 0xFDE5380C, 0xA4BEEA44, 0x4BDECFA9, 0xF6BB4B60, 0xBEBFBC70,
  0x289B7EC6, 0xEAA127FA, 0xD4EF3085, 0x04881D05, 0xD9D4D039, 0xE6DB99E5, 0x1FA27CF8, 0xC4AC5665]
def ts4 : List W := [0xF4292244, 0x432AFF97, 0xAB9423A7, 0xFC93A039, 0x655B59C3, 0x8F0CCC92, 0xFFEFF47D, 0x85845DD1,
  0x6FA87E4F, 0xFE2CE6E0, 0xA3014314, 0x4E0811A1, 0xF7537E82, 0xBD3AF235, 0x2AD7D2BB, 0xEB86D391]
def ss1 : List Nat := [7, 12, 17, 22, 7, 12, 17, 22, 7, 12, 17, 22, 7, 12, 17, 22]
def ss2 : List Nat := [5, 9, 14, 20, 5, 9, 14, 20, 5, 9, 14, 20, 5, 9, 14, 20]
def ss3 : List Nat := [4, 11, 16, 23, 4, 11, 16, 23, 4, 11, 16, 23, 4, 11, 16, 23]
def ss4 : List Nat := [6, 10, 15, 21, 6, 10, 15, 21, 6, 10, 15, 21, 6, 10, 15, 21]

/-- `round_x` (md5.hpp 92-100) -/
def roundX (f : W → W → W → W) (x : List W) (xis : List Nat) (ts : List W) (ss : List Nat) (k : K4) : Option K4 :=
  roundXImpl f x xis ts ss k.a k.b k.c k.d 0

/-- `round_all` (md5.hpp 173-222) -/
def roundAll (k : K4) (x : List W) : Option K4 := do
  let k ← roundX funcF x xis1 ts1 ss1 k
  let k ← roundX funcG x xis2 ts2 ss2 k
  let k ← roundX funcH x xis3 ts3 ss3 k
  roundX funcI x xis4 ts4 ss4 k

/-- `md5()` (md5.hpp 371-375), `reset` (376-383) -/
def init : Md5 := ⟨⟨0x67452301#32, 0xEFCDAB89#32, 0x98BADCFE#32, 0x10325476#32⟩, List.replicate 16 0#32, 0#64⟩

/-- `process_block_1`, `c_process_block()` (md5.hpp 264-275); the C++14 `process_block()` (356-363) does the same -/
def cProcessBlock (s : Md5) : Option Md5 := do
  let x ← roundAll s.k s.block
  some ⟨⟨s.k.a + x.a, s.k.b + x.b, s.k.c + x.c, s.k.d + x.d⟩, List.replicate 16 0#32, s.bits⟩

/-- `process` (md5.hpp 254-263) -/
def process (k : K4) (block : List W) (bits : BitVec 64) : Option Md5 :=
  if bits.toNat % (64 * 8) ≠ 0 then some ⟨k, block, bits⟩ else cProcessBlock ⟨k, block, bits⟩

/-- the position of bit `offset` in its word: `offset / 8 * 8 + (7 - offset % 8)` (md5.hpp 282) -/
def bitPos (offset : Nat) : Nat := offset / 8 * 8 + (7 - offset % 8)

/-- `static_cast<std::uint32_t>(bit) << …` -/
def bitAt (bit : Bool) (offset : Nat) : W := (BitVec.ofBool bit).setWidth 32 <<< bitPos offset

/-- `process_bit_impl` (md5.hpp 276-286) -/
def processBitImpl (s : Md5) (bit : Bool) (index offset : Nat) : Option Md5 := do
  let w ← rd s.block index
  let block ← wr s.block index (w ||| bitAt bit offset)
  process s.k block (s.bits + 1)

/-- `c_process_bit` (md5.hpp 406-412) -/
def cProcessBit (s : Md5) (bit : Bool) : Option Md5 :=
  processBitImpl s bit (s.bits.toNat % (64 * 8) / 32) (s.bits.toNat % 32)

/-- `((bits >> i) & 1) != 0`; the operand is promoted to `int`: shifting by 32 or more is undefined -/
def bitOf (bits : BitVec 8) (i : Nat) : Option Bool := if i < 32 then some (bits.getLsbD i) else none

/-- `process_bits_impl` (md5.hpp 287-291), `c_process_bits` (413-415) -/
def processBitsImpl (s : Md5) (bits : BitVec 8) : Nat → Option Md5
  | 0 => some s
  | i + 1 => do
    let b ← bitOf bits i
    let s ← cProcessBit s b
    processBitsImpl s bits i

/-- `process_byte_impl` (md5.hpp 292-310) -/
def processByteImpl (s : Md5) (byte : BitVec 8) (index offset : Nat) : Option Md5 := do
  let w ← rd s.block index
  let block ← wr s.block index (w
    ||| bitAt (byte.getLsbD 7) offset ||| bitAt (byte.getLsbD 6) (offset + 1) ||| bitAt (byte.getLsbD 5) (offset + 2)
    ||| bitAt (byte.getLsbD 4) (offset + 3) ||| bitAt (byte.getLsbD 3) (offset + 4) ||| bitAt (byte.getLsbD 2) (offset + 5)
    ||| bitAt (byte.getLsbD 1) (offset + 6) ||| bitAt (byte.getLsbD 0) (offset + 7))
  process s.k block (s.bits + 8)

/-- `c_process_byte` (md5.hpp 416-431) -/
def cProcessByte (s : Md5) (byte : BitVec 8) : Option Md5 :=
  if s.bits.toNat % 8 = 0 then processByteImpl s byte (s.bits.toNat % (64 * 8) / 32) (s.bits.toNat % 32)
  else do
    let s ← cProcessBit s (byte.getLsbD 7)
    let s ← cProcessBit s (byte.getLsbD 6)
    let s ← cProcessBit s (byte.getLsbD 5)
    let s ← cProcessBit s (byte.getLsbD 4)
    let s ← cProcessBit s (byte.getLsbD 3)
    let s ← cProcessBit s (byte.getLsbD 2)
    let s ← cProcessBit s (byte.getLsbD 1)
    cProcessBit s (byte.getLsbD 0)

/-- `process_block_impl` (md5.hpp 311-316), `c_process_block(first, last)`, `c_process_bytes`, `c_process_range` (432-446) -/
def cProcessBytes (s : Md5) : List (BitVec 8) → Option Md5
  | [] => some s
  | b :: bs => do
    let s ← cProcessByte s b
    cProcessBytes s bs

/-- `pad_size` (md5.hpp 317-319): 64-bit arithmetic -/
def padSize (s : Md5) : Nat := (511 + 448 - s.bits).toNat % 512

/-- `process_padding` (md5.hpp 320-324) -/
def processPadding (s : Md5) : Nat → Option Md5
  | 0 => some s
  | n + 1 => do
    let s ← cProcessBit s false
    processPadding s n

/-- `static_cast<std::uint8_t>((x >> k) & 0xFF)` -/
def byteAt {w : Nat} (x : BitVec w) (k : Nat) : BitVec 8 := ((x >>> k) &&& 0xFF).setWidth 8

/-- `process_length` (md5.hpp 325-335) -/
def processLength (s : Md5) (bits : BitVec 64) : Option Md5 :=
  cProcessBytes s [byteAt bits 0, byteAt bits 8, byteAt bits 16, byteAt bits 24, byteAt bits 32, byteAt bits 40, byteAt bits 48, byteAt bits 56]

/-- four bytes of `make_value` -/
def wordBytes (x : W) : List (BitVec 8) := [byteAt x 0, byteAt x 8, byteAt x 16, byteAt x 24]

/-- `make_value` (md5.hpp 336-355) -/
def makeValue (s : Md5) : List (BitVec 8) := wordBytes s.k.a ++ wordBytes s.k.b ++ wordBytes s.k.c ++ wordBytes s.k.d

/-- `checksum` (md5.hpp 480-485): padding and length are computed from the object itself -/
def checksum (s : Md5) : Option (List (BitVec 8)) := do
  let t ← cProcessBit s true
  let t ← processPadding t (padSize s)
  let t ← processLength t s.bits
  some (makeValue t)

/-- `make_md5` (md5.hpp 491-504) -/
def makeMd5 (bytes : List (BitVec 8)) : Option (List (BitVec 8)) := do
  let s ← cProcessBytes init bytes
  checksum s

/-! C++14 -/

/-- `process_bit` (md5.hpp 448-455) -/
def processBit (s : Md5) (bit : Bool) : Option Md5 := do
  let index := s.bits.toNat % (64 * 8) / 32
  let offset := s.bits.toNat % 32
  let w ← rd s.block index
  let block ← wr s.block index (w ||| bitAt bit offset)
  let s : Md5 := ⟨s.k, block, s.bits + 1⟩
  if s.bits.toNat % 512 = 0 then cProcessBlock s else some s

/-- `process_bits` (md5.hpp 456-460) -/
def processBits (s : Md5) (bits : BitVec 8) : Nat → Option Md5
  | 0 => some s
  | n + 1 => do
    let b ← bitOf bits n
    let s ← processBit s b
    processBits s bits n

/-- `process_byte` (md5.hpp 461-463) -/
def processByte (s : Md5) (byte : BitVec 8) : Option Md5 := processBits s byte 8

end Md5
end Sprout

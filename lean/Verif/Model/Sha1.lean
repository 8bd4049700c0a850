import Verif.Basic
import Verif.Model.Bits
import Verif.Model.Exn

/-!
# sha1

`sprout/checksum/sha1.hpp`. Lines 215-308 are compiled unless
`SPROUT_WORKAROUND_NOT_TERMINATE_RECURSIVE_CONSTEXPR_FUNCTION_TEMPLATE` is defined; lines 74-213 (namespace `Workaround`
below) if it is, which `config/compiler/clang.hpp` 63-65 does for Clang.

Simplifications: a pair of input iterators wrapped in `bytes_iterator` is the list of the bytes it delivers;
`block_[i * 4] << 24` (an `int`) is computed in 32 bits; `std::size_t` is unbounded (the index is at most 64).
`fixed::set`, `fixed::copy`/`fill` into a `sub` of the block (algorithm/fixed/copy.hpp 29-46) give the block with these
elements replaced.
-/

namespace Sprout

/-- `sprout::array<std::uint32_t, 5>` -/
structure H5 where
  a : BitVec 32
  b : BitVec 32
  c : BitVec 32
  d : BitVec 32
  e : BitVec 32
  deriving DecidableEq, Repr

/-- the members (sha1.hpp 45-48) -/
structure Sha1 where
  h : H5
  block : List (BitVec 8)
  idx : Nat
  bits : BitVec 64
  deriving DecidableEq, Repr

namespace Sha1

/-- `sha1()` (sha1.hpp 447-452) -/
def init : Sha1 :=
  ⟨⟨0x67452301#32, 0xEFCDAB89#32, 0x98BADCFE#32, 0x10325476#32, 0xC3D2E1F0#32⟩, List.replicate 64 0#8, 0, 0#64⟩

/-- `reset` (sha1.hpp 453-461): the block keeps its contents -/
def reset (s : Sha1) : Sha1 :=
  ⟨⟨0x67452301#32, 0xEFCDAB89#32, 0x98BADCFE#32, 0x10325476#32, 0xC3D2E1F0#32⟩, s.block, 0, 0#64⟩

/-- the word made of four bytes (sha1.hpp 63-66, 391-394) -/
def word (b0 b1 b2 b3 : BitVec 8) : BitVec 32 :=
  (b0.setWidth 32 <<< 24) ||| (b1.setWidth 32 <<< 16) ||| (b2.setWidth 32 <<< 8) ||| b3.setWidth 32

/-- `calc_w` (sha1.hpp 61-72) -/
def calcW (block : List (BitVec 8)) (i : Nat) : Option (BitVec 32) :=
  if i < 16 then do
    let b0 ← rd block (i * 4)
    let b1 ← rd block (i * 4 + 1)
    let b2 ← rd block (i * 4 + 2)
    let b3 ← rd block (i * 4 + 3)
    some (word b0 b1 b2 b3)
  else do
    let x3 ← calcW block (i - 3)
    let x8 ← calcW block (i - 8)
    let x14 ← calcW block (i - 14)
    let x16 ← calcW block (i - 16)
    rotl (x3 ^^^ x8 ^^^ x14 ^^^ x16) 1
partial_fixpoint

/-- the argument `f` (sha1.hpp 250-254, 407-419) -/
def fsel (i : Nat) (b c d : BitVec 32) : BitVec 32 :=
  if i < 20 then (b &&& c) ||| (~~~b &&& d)
  else if i < 40 then b ^^^ c ^^^ d
  else if i < 60 then (b &&& c) ||| (b &&& d) ||| (c &&& d)
  else b ^^^ c ^^^ d

/-- the argument `k` (sha1.hpp 255-258, 407-419) -/
def ksel (i : Nat) : BitVec 32 :=
  if i < 20 then 0x5A827999#32 else if i < 40 then 0x6ED9EBA1#32 else if i < 60 then 0x8F1BBCDC#32 else 0xCA62C1D6#32

/-- `process_block_1`, `process_block_2` (sha1.hpp 227-267) -/
def processBlock1 (s : Sha1) (v : H5) (i : Nat) : Option Sha1 :=
  if i < 80 then do
    let r5 ← rotl v.a 5
    let w ← calcW s.block i
    let r30 ← rotl v.b 30
    processBlock1 s ⟨r5 + fsel i v.b v.c v.d + v.e + ksel i + w, v.a, r30, v.c, v.d⟩ (i + 1)
  else some ⟨⟨s.h.a + v.a, s.h.b + v.b, s.h.c + v.c, s.h.d + v.d, s.h.e + v.e⟩, s.block, s.idx, s.bits⟩
partial_fixpoint

/-- `c_process_block()` (sha1.hpp 271-273) -/
def cProcessBlock (s : Sha1) : Option Sha1 := processBlock1 s s.h 0

/-- `process` (sha1.hpp 215-226) -/
def process (h : H5) (block : List (BitVec 8)) (idx : Nat) (bits : BitVec 64) : Option Sha1 :=
  if idx ≠ 64 then some ⟨h, block, idx, bits⟩ else cProcessBlock ⟨h, block, 0, bits⟩

/-- `range::fixed::copy(xs, sub(block, i))`, `fixed::set`: replace the elements from position `i` on -/
def put (block : List (BitVec 8)) (i : Nat) (xs : List (BitVec 8)) : List (BitVec 8) :=
  block.take i ++ xs.take (block.length - i) ++ block.drop (i + xs.length)

/-- `process_block_impl(first, last, args...)` (sha1.hpp 274-308) -/
def processBlockImpl (s : Sha1) (bytes args : List (BitVec 8)) : Option Sha1 :=
  if args.length = 64 then
    match bytes with
    | [] => process s.h args 64 (s.bits + 512)
    | b :: bs => do
      let s' ← process s.h args 64 (s.bits + 512)
      processBlockImpl s' (b :: bs) []
  else
    match bytes with
    | [] => process s.h (put s.block s.idx args) (s.idx + args.length) (s.bits + BitVec.ofNat 64 (args.length * 8))
    | b :: bs =>
      if s.idx + args.length = 64 then do
        let s' ← process s.h (put s.block s.idx args) (s.idx + args.length) (s.bits + BitVec.ofNat 64 (args.length * 8))
        processBlockImpl s' (b :: bs) []
      else processBlockImpl s bs (args ++ [b])
partial_fixpoint

/-- `c_process_block(first, last)`, `c_process_range`, `c_process_bytes` (sha1.hpp 486-500) -/
def cProcessBytes (s : Sha1) (bytes : List (BitVec 8)) : Option Sha1 := processBlockImpl s bytes []

/-- `c_process_byte` (sha1.hpp 478-485) -/
def cProcessByte (s : Sha1) (byte : BitVec 8) : Option Sha1 := do
  let block ← wr s.block s.idx byte
  process s.h block (s.idx + 1) (s.bits + 8)

/-- `process_one` (sha1.hpp 310-317) -/
def processOne (s : Sha1) : Option Sha1 := do
  let block ← wr s.block s.idx 0x80#8
  process s.h block (s.idx + 1) s.bits

/-- `process_padding_after` (sha1.hpp 318-326) -/
def processPaddingAfter (s : Sha1) : Option Sha1 := process s.h (List.replicate 64 0#8) 56 s.bits

/-- `process_padding` (sha1.hpp 327-343) -/
def processPadding (s : Sha1) : Option Sha1 :=
  if s.idx = 56 then some s
  else if s.idx > 56 then do
    let s' ← process s.h (put s.block s.idx (List.replicate (64 - s.idx) 0#8)) 64 s.bits
    processPaddingAfter s'
  else process s.h (put s.block s.idx (List.replicate (56 - s.idx) 0#8)) 56 s.bits

/-- `static_cast<std::uint8_t>((x >> k) & 0xFF)` -/
def byteAt {w : Nat} (x : BitVec w) (k : Nat) : BitVec 8 := ((x >>> k) &&& 0xFF).setWidth 8

/-- `process_length` (sha1.hpp 344-363) -/
def processLength (s : Sha1) : Option Sha1 :=
  process s.h
    (put s.block s.idx [byteAt s.bits 56, byteAt s.bits 48, byteAt s.bits 40, byteAt s.bits 32,
      byteAt s.bits 24, byteAt s.bits 16, byteAt s.bits 8, (s.bits &&& 0xFF).setWidth 8])
    (s.idx + 8) s.bits

/-- four bytes of `make_value` -/
def wordBytes (x : BitVec 32) : List (BitVec 8) := [byteAt x 24, byteAt x 16, byteAt x 8, (x &&& 0xFF).setWidth 8]

/-- `make_value` (sha1.hpp 364-387) -/
def makeValue (s : Sha1) : List (BitVec 8) :=
  wordBytes s.h.a ++ wordBytes s.h.b ++ wordBytes s.h.c ++ wordBytes s.h.d ++ wordBytes s.h.e

/-- `checksum` (sha1.hpp 522-527) -/
def checksum (s : Sha1) : Option (List (BitVec 8)) := do
  let s ← processOne s
  let s ← processPadding s
  let s ← processLength s
  some (makeValue s)

/-- `make_sha1` (sha1.hpp 533-546) -/
def makeSha1 (bytes : List (BitVec 8)) : Option (List (BitVec 8)) := do
  let s ← cProcessBytes init bytes
  checksum s

/-! C++14 -/

/-- the first loop of `process_block` (sha1.hpp 390-395) -/
def loopW1 (block : List (BitVec 8)) (w : List (BitVec 32)) (i : Nat) : Option (List (BitVec 32)) :=
  if i < 16 then do
    let b0 ← rd block (i * 4 + 0)
    let w ← wr w i (b0.setWidth 32 <<< 24)
    let b1 ← rd block (i * 4 + 1)
    let w ← wr w i ((← rd w i) ||| (b1.setWidth 32 <<< 16))
    let b2 ← rd block (i * 4 + 2)
    let w ← wr w i ((← rd w i) ||| (b2.setWidth 32 <<< 8))
    let b3 ← rd block (i * 4 + 3)
    let w ← wr w i ((← rd w i) ||| b3.setWidth 32)
    loopW1 block w (i + 1)
  else some w
partial_fixpoint

/-- the second loop (sha1.hpp 396-398) -/
def loopW2 (w : List (BitVec 32)) (i : Nat) : Option (List (BitVec 32)) :=
  if i < 80 then do
    let x3 ← rd w (i - 3)
    let x8 ← rd w (i - 8)
    let x14 ← rd w (i - 14)
    let x16 ← rd w (i - 16)
    let r ← rotl (x3 ^^^ x8 ^^^ x14 ^^^ x16) 1
    let w ← wr w i r
    loopW2 w (i + 1)
  else some w
partial_fixpoint

/-- the third loop (sha1.hpp 404-426) -/
def loopR (w : List (BitVec 32)) (v : H5) (i : Nat) : Option H5 :=
  if i < 80 then do
    let r5 ← rotl v.a 5
    let x ← rd w i
    let temp := r5 + fsel i v.b v.c v.d + v.e + ksel i + x
    let r30 ← rotl v.b 30
    loopR w ⟨temp, v.a, r30, v.c, v.d⟩ (i + 1)
  else some v
partial_fixpoint

/-- `process_block()` (sha1.hpp 388-432) -/
def processBlock14 (s : Sha1) : Option Sha1 := do
  let w ← loopW1 s.block (List.replicate 80 0#32) 0
  let w ← loopW2 w 16
  let v ← loopR w s.h 0
  some ⟨⟨s.h.a + v.a, s.h.b + v.b, s.h.c + v.c, s.h.d + v.d, s.h.e + v.e⟩, s.block, s.idx, s.bits⟩

/-- `process_byte_impl` (sha1.hpp 433-439) -/
def processByteImpl14 (s : Sha1) (byte : BitVec 8) : Option Sha1 := do
  let block ← wr s.block s.idx byte
  let idx := s.idx + 1
  if idx = 64 then processBlock14 ⟨s.h, block, 0, s.bits⟩ else some ⟨s.h, block, idx, s.bits⟩

/-- `process_byte` (sha1.hpp 502-505) -/
def processByte14 (s : Sha1) (byte : BitVec 8) : Option Sha1 := do
  let s ← processByteImpl14 s byte
  some ⟨s.h, s.block, s.idx, s.bits + 8⟩

/-- `process_block(first, last)`, `process_bytes`, `process_range` (sha1.hpp 440-445, 506-520) -/
def processBytes14 (s : Sha1) : List (BitVec 8) → Option Sha1
  | [] => some s
  | b :: bs => do
    let s ← processByte14 s b
    processBytes14 s bs

/-! the variant with a template recursion depth `D`, for Clang -/

namespace Workaround

/-- `SPROUT_RECURSIVE_FUNCTION_TEMPLATE_INSTANTIATION_LIMIT` (workaround/recursive_function_template.hpp 22-27), Clang 3.3
or later -/
def limit : Nat := 256

/-- `process_block_1<D>`, `process_block_2<D>` (sha1.hpp 97-155): with `D` at least `limit - 1` the overload that throws is
chosen -/
def processBlock1 (D : Nat) (s : Sha1) (v : H5) (i : Nat) : Option (Ret Sha1) :=
  if D ≥ limit - 1 then some (.throw .runtimeError)
  else if i < 80 then
    if D + 1 ≥ limit - 1 then some (.throw .runtimeError) else do
    let r5 ← rotl v.a 5
    let w ← calcW s.block i
    let r30 ← rotl v.b 30
    processBlock1 (D + 1 + 1) s ⟨r5 + fsel i v.b v.c v.d + v.e + ksel i + w, v.a, r30, v.c, v.d⟩ (i + 1)
  else some (.ret ⟨⟨s.h.a + v.a, s.h.b + v.b, s.h.c + v.c, s.h.d + v.d, s.h.e + v.e⟩, s.block, s.idx, s.bits⟩)
partial_fixpoint

/-- `process_block<D>` (sha1.hpp 156-163) -/
def processBlock (D : Nat) (s : Sha1) : Option (Ret Sha1) :=
  if D ≥ limit - 1 then some (.throw .runtimeError) else processBlock1 (D + 1) s s.h 0

/-- `process<D>` (sha1.hpp 74-96) -/
def process (D : Nat) (h : H5) (block : List (BitVec 8)) (idx : Nat) (bits : BitVec 64) : Option (Ret Sha1) :=
  if D ≥ limit - 1 then some (.throw .runtimeError)
  else if idx ≠ 64 then some (.ret ⟨h, block, idx, bits⟩) else processBlock (D + 1) ⟨h, block, 0, bits⟩

/-- `process_block_impl<D>` (sha1.hpp 164-213): the calls that would process further blocks are commented out -/
def processBlockImpl (D : Nat) (s : Sha1) (bytes args : List (BitVec 8)) : Option (Ret Sha1) :=
  if D ≥ limit - 1 then some (.throw .runtimeError)
  else if args.length = 64 then
    match bytes with
    | [] => process (D + 1) s.h args 64 (s.bits + 512)
    | _ :: _ => some (.throw .runtimeError)
  else
    match bytes with
    | [] => process (D + 1) s.h (put s.block s.idx args) (s.idx + args.length)
        (s.bits + BitVec.ofNat 64 (args.length * 8))
    | b :: bs =>
      if s.idx + args.length = 64 then some (.throw .runtimeError)
      else processBlockImpl (D + 1) s bs (args ++ [b])
partial_fixpoint

/-- `c_process_block(first, last)` -/
def cProcessBytes (s : Sha1) (bytes : List (BitVec 8)) : Option (Ret Sha1) := processBlockImpl 16 s bytes []

end Workaround
end Sha1
end Sprout

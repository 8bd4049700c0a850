import Verif.Basic

/-!
# `sprout::net::hton`, `ntoh`

sprout/net/endian.hpp 19-195. `T` is an unsigned type of `N` bytes, its values are bit vectors of width `8 * N`.
`uint_fast8_t` is an 8-bit type: the byte numbers `n` are natural numbers below 256 and wrap around.
Operands narrower than `int` are promoted to 32 bits before a shift, so a shift by `k` bits is undefined unless
`k < max (8 * N) 32`.
-/

namespace Sprout.Endian

variable {N : Nat}

/-- `lshift_by` (lines 26-30) -/
def lshiftBy (val : BitVec (8 * N)) (n : Nat) : Option (BitVec (8 * N)) :=
  if n * 8 < max (8 * N) 32 then some (val <<< (n * 8)) else none

/-- `rshift_by` (lines 36-40) -/
def rshiftBy (val : BitVec (8 * N)) (n : Nat) : Option (BitVec (8 * N)) :=
  if n * 8 < max (8 * N) 32 then some (val >>> (n * 8)) else none

/-- `mask_at` (lines 46-50) -/
def maskAt (N n : Nat) : Option (BitVec (8 * N)) := lshiftBy (BitVec.ofNat _ 0xFF) n

/-- `byte_at` (lines 56-62) -/
def byteAt (val : BitVec (8 * N)) (n : Nat) : Option (BitVec 8) := do
  let m ← maskAt N n
  let r ← rshiftBy (val &&& m) n
  some (r.setWidth 8)

/-- `replace_at` (lines 68-72) -/
def replaceAt (val : BitVec (8 * N)) (b : BitVec 8) (n : Nat) : Option (BitVec (8 * N)) := do
  let m ← maskAt N n
  let s ← lshiftBy (b.setWidth (8 * N)) n
  some ((val &&& ~~~m) ||| s)

/-- `copy` (lines 78-82) -/
def copy (val : BitVec (8 * N)) (src dst : Nat) : Option (BitVec (8 * N)) := do
  let b ← byteAt val src
  replaceAt val b dst

/-- `swap` (lines 88-92) -/
def swap (val : BitVec (8 * N)) (n1 n2 : Nat) : Option (BitVec (8 * N)) := do
  let c ← copy val n1 n2
  let b ← byteAt val n2
  replaceAt c b n1

/-- `reverse_impl` (lines 98-102) -/
def reverseImpl (val : BitVec (8 * N)) (n1 n2 : Nat) : Option (BitVec (8 * N)) :=
  if n1 > n2 then some val
  else do
    let v ← swap val n1 n2
    reverseImpl v ((n1 + 1) % 256) ((n2 + 255) % 256)
partial_fixpoint

/-- `reverse` (lines 108-112) -/
def reverse (val : BitVec (8 * N)) : Option (BitVec (8 * N)) := reverseImpl val 0 ((N - 1) % 256)

/-- `reverse_words_impl` (lines 118-122) -/
def reverseWordsImpl (val : BitVec (8 * N)) (n : Nat) : Option (BitVec (8 * N)) :=
  if n = 0 then some val
  else do
    let v ← swap val ((n + 255) % 256) ((n + 254) % 256)
    reverseWordsImpl v ((n + 254) % 256)
partial_fixpoint

/-- `reverse_words` (lines 128-132) -/
def reverseWords (val : BitVec (8 * N)) : Option (BitVec (8 * N)) := reverseWordsImpl val (N % 256)

/-- the byte order of the machine -/
inductive Order
  | big
  | little
  | pdp

/-- `hton` (lines 138-150); `htonl`, `htons` (lines 171-181) are the instances `N = 4`, `N = 2` -/
def hton (o : Order) (host : BitVec (8 * N)) : Option (BitVec (8 * N)) :=
  match o with
  | .big => some host
  | .little => reverse host
  | .pdp => reverseWords host

/-- `ntoh` (lines 155-167), with `net` for the undeclared name `host` on line 163; `ntohl`, `ntohs` (lines 185-195) -/
def ntoh (o : Order) (net : BitVec (8 * N)) : Option (BitVec (8 * N)) :=
  match o with
  | .big => some net
  | .little => reverse net
  | .pdp => reverseWords net

end Sprout.Endian

/-!
# Byte orders

How an `N`-byte number lies in memory.
-/

namespace Sprout.Spec

/-- byte number `k` of `v`, the least significant one first -/
def byte {N : Nat} (v : BitVec (8 * N)) (k : Nat) : Nat := v.toNat / 256 ^ k % 256

/-- memory image of `v`, least significant byte first -/
def littleEndian {N : Nat} (v : BitVec (8 * N)) : List Nat := (List.range N).map (byte v)

/-- memory image of `v`, most significant byte first -/
def bigEndian {N : Nat} (v : BitVec (8 * N)) : List Nat := (List.range N).map fun i => byte v (N - 1 - i)

/-- memory image of `v` on a PDP-11: 16-bit words, the most significant first, each stored least significant byte first -/
def pdpEndian {N : Nat} (v : BitVec (8 * N)) : List Nat :=
  (List.range N).map fun i => if i % 2 = 0 then byte v (N - 2 - i) else byte v (N - i)

end Sprout.Spec

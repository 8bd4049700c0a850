import Verif.Model.NumIo
import Verif.Model.StringClass
import Verif.Model.Bitset
import Verif.Model.Uuid

/-!
# Stream operators of strings, bitsets and uuids

sprout/string/io.hpp, sprout/bitset/io.hpp, sprout/uuid/io.hpp, on the streams of `Model/NumIo`. The stream buffer is the list of characters
left: `sgetc` sees the first, `sbumpc` takes it, `sputbackc` puts it back and succeeds. Exceptions are not enabled. `skipws` is set.
-/

namespace Sprout
namespace Io
open Opt (IStream)
open Str (BStr)

/-- the constructor of `sentry` ([istream::sentry]): whether it is true, and the stream -/
def sentry (s : IStream) : Bool × IStream :=
  if !s.good then (false, { s with fail := true })
  else
    match s.rest.dropWhile isSpace with
    | [] => (false, ⟨[], true, true⟩)
    | c :: t => (true, ⟨c :: t, false, false⟩)

/-- `lhs.setstate(state)` -/
def setState (s : IStream) (fail eof : Bool) : IStream := ⟨s.rest, s.fail || fail, s.eof || eof⟩

/-! ### basic_string -/

/-- the loop (string/io.hpp 42-52): the characters left, `rhs`, `current`, `eofbit` of `state`; the last argument is `remain` -/
def strLoop (t : List Nat) (e : List Int) (current : Nat) : Nat → Option (List Nat × List Int × Nat × Bool)
  | 0 => some (t, e, current, false)
  | n + 1 =>
    match t with
    | [] => some ([], e, current, true)
    | c :: t =>
      if isSpace c then some (c :: t, e, current, false)
      else do
        let e ← wr e current (c : Int)
        strLoop t e (current + 1) n

/-- `remain` (string/io.hpp 37-40) -/
def strRemain (width : Nat) (x : BStr) : Nat := if 0 < width ∧ width < x.maxSize then width else x.maxSize

/-- `lhs.setstate(state); rhs.resize(current); return lhs;` (string/io.hpp 57-63) -/
def strEnd (s : IStream) (current : Nat) (eof : Bool) (x : BStr) : Option (Ret (IStream × BStr)) := do
  match ← BStr.resize x current 0 with
  | .ret y => some (.ret (setState s (decide (current = 0)) eof, y))
  | .throw e => some (.throw e)

/-- `operator>>` (string/io.hpp 22-64); `changed` is `current ≠ 0` -/
def rStr (width : Nat) (s : IStream) (rhs : BStr) : Option (Ret (IStream × BStr)) :=
  let k := sentry s
  if k.1 then do
    let l ← strLoop k.2.rest rhs.elems 0 (strRemain width rhs)
    strEnd ⟨l.1, k.2.fail, k.2.eof⟩ l.2.2.1 l.2.2.2 ⟨l.2.1, rhs.len⟩
  else strEnd k.2 0 false rhs

/-- `operator<<` (string/io.hpp 65-69) with `width() == 0`: the characters before the first null character -/
def wStr (x : BStr) : List Nat := (x.elems.takeWhile (· ≠ 0)).map Int.toNat

/-! ### bitset -/

/-- the loop (bitset/io.hpp 35-52): the characters left, `tmp`, `eofbit` of `state`; the last argument is `i`. A character that is neither
digit is put back, and the loop goes on -/
def bitLoop (t : List Nat) (tmp : List Nat) : Nat → List Nat × List Nat × Bool
  | 0 => (t, tmp, false)
  | i + 1 =>
    match t with
    | [] => ([], tmp, true)
    | c :: t' =>
      if c = 48 then bitLoop t' (tmp ++ [48]) i
      else if c = 49 then bitLoop t' (tmp ++ [49]) i
      else bitLoop (c :: t') tmp i

/-- bitset/io.hpp 57-66: `state` reaches the stream in the second branch only -/
def bitEnd (B N : Nat) (s : IStream) (tmp : List Nat) (eof : Bool) (rhs : List (BitVec B)) : Option (Ret (IStream × List (BitVec B))) :=
  if tmp = [] ∧ N ≠ 0 then some (.ret (s, rhs))
  else do
    match ← Bitset.ofString B N tmp 0 N 48 49 with
    | .ret ws => some (.ret (setState s false eof, ws))
    | .throw e => some (.throw e)

/-- `operator>>` (bitset/io.hpp 20-67); `copy_from_string` is the constructor from a string with `position = 0` -/
def rBits (B N : Nat) (s : IStream) (rhs : List (BitVec B)) : Option (Ret (IStream × List (BitVec B))) :=
  let k := sentry s
  if k.1 then
    let l := bitLoop k.2.rest [] N
    bitEnd B N ⟨l.1, k.2.fail, k.2.eof⟩ l.2.1 l.2.2 rhs
  else bitEnd B N k.2 [] false rhs

/-- `operator<<` (bitset/io.hpp 68-75) with `width() == 0` -/
def wBits (B N : Nat) (ws : List (BitVec B)) : Option (List Nat) := Bitset.toStr N ws 48 49

/-! ### uuid -/

/-- `ctype.toupper` -/
def upper (c : Nat) : Nat := if 97 ≤ c ∧ c ≤ 122 then c - 32 else c

/-- `xdigits` (uuid/io.hpp 38-42): "0123456789ABCDEF" -/
def xdigits : List Nat := [48, 49, 50, 51, 52, 53, 54, 55, 56, 57, 65, 66, 67, 68, 69, 70]

/-- one digit (uuid/io.hpp 46-53, 54-60): its value, `none` if it is no digit; the variable `c`; the stream. The value of `c` before the
first extraction is indeterminate (44) -/
def uuidDigit (s : IStream) (c : Option Nat) : Option (Option Nat × Nat × IStream) := do
  let g := getCh s
  let c ← g.1.or c
  some (xdigits.idxOf? (upper c), upper c, g.2)

/-- `i == 3 || i == 5 || i == 7 || i == 9` -/
def dashAfter (i : Nat) : Bool := i == 3 || i == 5 || i == 7 || i == 9

/-- the loop (uuid/io.hpp 45-73): the stream and `data`; the first argument is `16 - i` -/
def uuidLoop : Nat → Nat → IStream → Option Nat → List (BitVec 8) → Option (IStream × List (BitVec 8))
  | 0, _, s, _, data => some (s, data)
  | k + 1, i, s, c, data =>
    if s.fail then some (s, data)
    else do
      let d ← uuidDigit s c
      match d.1 with
      | none => some (setFail d.2.2, data)
      | some h => do
        let e ← uuidDigit d.2.2 (some d.2.1)
        match e.1 with
        | none => some (setFail e.2.2, data)
        | some l =>
          let data := data ++ [BitVec.ofNat 8 h <<< 4 ||| BitVec.ofNat 8 l]
          if !e.2.2.fail && dashAfter i then
            let g := getCh e.2.2
            let c := g.1.getD e.2.1
            if c ≠ 45 then some (setFail g.2, data)
            else uuidLoop k (i + 1) g.2 (some c) data
          else uuidLoop k (i + 1) e.2.2 (some e.2.1) data

/-- `operator>>` (uuid/io.hpp 29-79) -/
def rUuid (s : IStream) (rhs : List (BitVec 8)) : Option (IStream × List (BitVec 8)) :=
  let k := sentry s
  if k.1 then do
    let l ← uuidLoop 16 0 k.2 none []
    some (l.1, if !l.1.fail then l.2 else rhs)
  else some (k.2, rhs)

/-- `adjustfield`; no flag is set in a new stream -/
inductive Adj
  | none | left | right | internal
  deriving DecidableEq

/-- flags, width and fill character of an output stream -/
structure Fmt where
  adj : Adj
  showbase : Bool
  uppercase : Bool
  width : Nat
  fill : Nat

def xdigit (up : Bool) (n : Nat) : Nat := if n < 10 then 48 + n else if up then 55 + n else 87 + n

/-- the digits of `%x` -/
def hexMin (up : Bool) (n : Nat) : List Nat := if n < 16 then [xdigit up n] else [xdigit up (n / 16), xdigit up (n % 16)]

/-- `lhs << static_cast<unsigned>(b)` with `hex`, `width() == 2` and fill `0` ([facet.num.put.virtuals]) for a byte -/
def wByte (f : Fmt) (b : BitVec 8) : List Nat :=
  let pre : List Nat := if f.showbase ∧ b ≠ 0 then [48, if f.uppercase then 88 else 120] else []
  let ds := hexMin f.uppercase b.toNat
  let pad := List.replicate (2 - (pre.length + ds.length)) 48
  match f.adj with
  | .left => pre ++ ds ++ pad
  | .internal => pre ++ pad ++ ds
  | _ => pad ++ pre ++ ds

/-- the loop (uuid/io.hpp 101-108) -/
def wUuidLoop (f : Fmt) (i : Nat) : List (BitVec 8) → List Nat
  | [] => []
  | b :: u => wByte f b ++ (if dashAfter i then [45] else []) ++ wUuidLoop f (i + 1) u

/-- `operator<<` (uuid/io.hpp 83-117) on a good stream -/
def wUuid (f : Fmt) (u : List (BitVec 8)) : List Nat :=
  (if f.adj = .right ∨ f.adj = .internal then List.replicate (f.width - 36) f.fill else []) ++ wUuidLoop f 0 u ++
  (if f.adj = .left then List.replicate (f.width - 36) f.fill else [])

end Io
end Sprout

import Verif.Model.Ook

/-!
# The language misa to brainfuck: `sprout/brainfuck/misa.hpp`

The grammar of `to_brainfuck`, evaluated as in `Verif/Model/Ook.lean`. Simplification: characters are bytes from 0 to 255 (`char` may be signed; the
source and the literals have the same type).
-/

namespace Sprout.Misa

/-- the literals and their replacements in the order of misa.hpp 40-55. The literal `"\x81\5B"` (41) has the characters 0x81, 5 (an octal escape) and
`'B'`. -/
def table : List (List Int × Int) := [
  ([62], 62), ([0x81, 0xA8], 62), ([0x81, 0x60], 62), ([0x81, 5, 0x42], 62),
  ([60], 60), ([0x81, 0xA9], 60), ([0x81, 0x9A], 60), ([0x81, 0x99], 60),
  ([43], 43), ([0x82, 0xA0], 43), ([0x82, 0x9F], 43), ([0x82, 0xA8], 43), ([0x82, 0xA7], 43),
  ([45], 45), ([0x82, 0xC1], 45), ([0x83, 0x62], 45),
  ([46], 46), ([0x81, 0x49], 46),
  ([44], 44), ([0x81, 0x48], 44),
  ([91], 91), ([0x81, 0x75], 91), ([0x81, 0x77], 91),
  ([93], 93), ([0x81, 0x76], 93), ([0x81, 0x78], 93)]

/-- the alternatives (40-57; weed/context/parse_context/operator/bitwise_or.hpp 52-90: the first success); the last is any character, which becomes a
blank -/
def alt (s : List Int) : List (List Int × Int) → Option (Int × List Int)
  | [] => match s with
    | [] => none
    | _ :: r => some (32, r)
  | (t, v) :: l => match Ook.lit t s with
    | some r => some (v, r)
    | none => alt s l

/-- `*lim<N>(…)` (39), see `Ook.star` -/
def star (N : Nat) (s : List Int) (acc : List Int) : Option (List Int) :=
  match alt s table with
  | none => some acc
  | some (v, r) => star N r (if acc.length < N then acc ++ [v] else acc)
partial_fixpoint

/-- `to_brainfuck` (33-62), see `Ook.toBrainfuckC` -/
def toBrainfuck (s result : List Int) : Option (List Int × Bool) := do
  let a ← star result.length s []
  some (a ++ result.drop a.length, true)

end Sprout.Misa

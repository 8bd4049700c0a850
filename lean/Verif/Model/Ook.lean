import Verif.Model.Ascii
import Verif.Basic

/-!
# Ook! to brainfuck: `sprout/brainfuck/ook.hpp`

The grammar of `to_brainfuck` evaluated by the parser library `sprout/weed`. A parser takes the rest of the input and gives the rest after a success;
`none` of the inner functions is failure. The element type is a character type.
-/

namespace Sprout.Ook

/-- a string literal, `lit_str_p::operator()` (weed/parser/string/string.hpp 54-66) -/
def lit (t s : List Int) : Option (List Int) :=
  if t.length ≤ s.length ∧ s.take t.length = t then some (s.drop t.length) else none

/-- `*space_` without limit (weed/context/parse_context/operator/dereference.hpp, `call_inf`; weed/parser/char/char_class.hpp 41-53): always succeeds -/
def spaces : List Int → List Int
  | [] => []
  | c :: s => if Ascii.isspace c then spaces s else c :: s

/-- `"Ook" a >> *space_ >> "Ook" b` (weed/context/parse_context/operator/shift_left.hpp 49-93) -/
def pair (t1 t2 s : List Int) : Option (List Int) := do
  let r ← lit t1 s
  lit t2 (spaces r)

/-- `Ook` and a punctuation mark -/
def tok (a : Int) : List Int := [79, 111, 111, 107, a]

/-- the eight pairs in the order of ook.hpp 40-55 (`.` 46, `?` 63, `!` 33) -/
def pairs : List (Int × Int) := [(46, 63), (63, 46), (46, 46), (33, 33), (33, 46), (46, 33), (33, 63), (63, 33)]

/-- the alternatives (weed/context/parse_context/operator/bitwise_or.hpp 52-90: the first success; weed/parser/directive/replace.hpp 48-58: the
attribute is replaced) of ook.hpp 40-57; `codes` are the eight replacements -/
def alt (s : List Int) : List ((Int × Int) × Int) → Option (Int × List Int)
  | [] => match s with
    | [] => none
    | _ :: r => some (32, r)
  | ((a, b), v) :: t => match pair (tok a) (tok b) s with
    | some r => some (v, r)
    | none => alt s t

/-- `*lim<N>(…)` (dereference.hpp; `limited::discard` is the default of weed/parser/lim.hpp 53): at most `N` attributes are kept -/
def star (codes : List Int) (N : Nat) (s : List Int) (acc : List Int) : Option (List Int) :=
  match alt s (pairs.zip codes) with
  | none => some acc
  | some (v, r) => star codes N r (if acc.length < N then acc ++ [v] else acc)
partial_fixpoint

/-- `to_brainfuck` (ook.hpp 33-62) with `parsed_to_brainfuck` (detail/convert.hpp 19-32): the repetition succeeds always; the attribute is a string of
the parsed characters, which replace the first elements of `result` -/
def toBrainfuckC (codes : List Int) (s result : List Int) : Option (List Int × Bool) := do
  let a ← star codes result.length s []
  some (a ++ result.drop a.length, true)

/-- the code: every pair is replaced by `'>'` -/
def toBrainfuck (s result : List Int) : Option (List Int × Bool) := toBrainfuckC [62, 62, 62, 62, 62, 62, 62, 62] s result

/-- with the replacements of the language -/
def toBrainfuckFixed (s result : List Int) : Option (List Int × Bool) := toBrainfuckC [62, 60, 43, 45, 46, 44, 91, 93] s result

end Sprout.Ook

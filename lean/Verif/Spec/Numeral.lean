import Verif.Spec.Ctype

/-! # Numerals, and the conversions of ISO C 7.22.1 on null-terminated strings -/

namespace Sprout.Spec

/-- the number written with the digits `ds` (most significant first) in base `b`, continuing from `a` -/
def evalFrom (b a : Nat) (ds : List Nat) : Nat := ds.foldl (fun a d => a * b + d) a

/-- `ds` is the numeral of `n` in base `b`: no leading zeros -/
def IsNumeral (b n : Nat) (ds : List Nat) : Prop :=
  ds ≠ [] ∧ (∀ d ∈ ds, d < b) ∧ evalFrom b 0 ds = n ∧ (ds.head? = some 0 → ds = [0])

/-- the character for a digit below 36, lower case -/
def digitChar (d : Nat) : Int := if d < 10 then 0x30 + (d : Int) else 0x61 + ((d : Int) - 10)

/-- a minus sign for negative numbers -/
def signChars (x : Int) : List Int := if x < 0 then [0x2D] else []

/-- the value of a character as a digit -/
def digitVal (c : Int) : Option Nat :=
  if 0x30 ≤ c ∧ c ≤ 0x39 then some (c - 0x30).toNat
  else if 0x61 ≤ c ∧ c ≤ 0x7A then some (c - 0x61 + 10).toNat
  else if 0x41 ≤ c ∧ c ≤ 0x5A then some (c - 0x41 + 10).toNat
  else none

/-- the longest prefix of base `b` digits -/
def digitsOf (b : Nat) : List Int → List Nat
  | [] => []
  | c :: cs => match digitVal c with
    | some d => if d < b then d :: digitsOf b cs else []
    | none => []

/-- without leading white space -/
def skipSpace (s : List Int) : List Int := s.dropWhile fun c => decide (Ctype.space c)

/-- an optional sign: whether it is a minus, and the rest -/
def splitSign : List Int → Bool × List Int
  | 0x2D :: s => (true, s)
  | 0x2B :: s => (false, s)
  | s => (false, s)

/-- the base and the digits of the subject sequence of `strtol(s, nullptr, b)` after the sign -/
def splitBase (b : Nat) : List Int → Nat × List Int
  | 0x30 :: x :: s =>
    if (b = 0 ∨ b = 16) ∧ (x = 0x78 ∨ x = 0x58) ∧ digitsOf 16 s ≠ [] then (16, s)
    else if b = 0 then (8, 0x30 :: x :: s) else (b, 0x30 :: x :: s)
  | s => if b = 0 then (if s.head? = some 0x30 then 8 else 10, s) else (b, s)

/-- the nearest value of the interval -/
def clampTo (lo hi x : Int) : Int := if x < lo then lo else if hi < x then hi else x

def signed (neg : Bool) (n : Nat) : Int := if neg then -(n : Int) else n

/-- `atoi` with saturation -/
def parseDec (lo hi : Int) (s : List Int) : Int :=
  let (neg, s) := splitSign (skipSpace s)
  clampTo lo hi (signed neg (evalFrom 10 0 (digitsOf 10 s)))

/-- `strtol(s, nullptr, b)` -/
def strtol (lo hi : Int) (b : Nat) (s : List Int) : Int :=
  let (neg, s) := splitSign (skipSpace s)
  let (b, s) := splitBase b s
  clampTo lo hi (signed neg (evalFrom b 0 (digitsOf b s)))

end Sprout.Spec

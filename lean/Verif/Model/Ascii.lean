import Verif.Basic

/-!
# Character classification for ASCII (sprout/ctype/ascii.hpp)

A character is the value of its code unit (`Int`: `char` may be signed).
-/

namespace Sprout.Ascii

/-! the class bits (lines 24-34) -/

def alpha : Nat := 1 <<< 0
def blank : Nat := 1 <<< 1
def cntrl : Nat := 1 <<< 2
def digit : Nat := 1 <<< 3
def graph : Nat := 1 <<< 4
def lower : Nat := 1 <<< 5
def print : Nat := 1 <<< 6
def punct : Nat := 1 <<< 7
def space : Nat := 1 <<< 8
def upper : Nat := 1 <<< 9
def xdigit : Nat := 1 <<< 10
/-- line 35 -/
def tableSize : Nat := 0x80

/-- `table` (lines 36-165) -/
def table : List Nat := [
  cntrl,  -- 0x00
  cntrl,  -- 0x01
  cntrl,  -- 0x02
  cntrl,  -- 0x03
  cntrl,  -- 0x04
  cntrl,  -- 0x05
  cntrl,  -- 0x06
  cntrl,  -- 0x07
  cntrl,  -- 0x08
  blank ||| cntrl ||| space,  -- 0x09
  cntrl ||| space,  -- 0x0A
  cntrl ||| space,  -- 0x0B
  cntrl ||| space,  -- 0x0C
  cntrl ||| space,  -- 0x0D
  cntrl,  -- 0x0E
  cntrl,  -- 0x0F
  cntrl,  -- 0x10
  cntrl,  -- 0x11
  cntrl,  -- 0x12
  cntrl,  -- 0x13
  cntrl,  -- 0x14
  cntrl,  -- 0x15
  cntrl,  -- 0x16
  cntrl,  -- 0x17
  cntrl,  -- 0x18
  cntrl,  -- 0x19
  cntrl,  -- 0x1A
  cntrl,  -- 0x1B
  cntrl,  -- 0x1C
  cntrl,  -- 0x1D
  cntrl,  -- 0x1E
  cntrl,  -- 0x1F
  blank ||| print ||| space,  -- 0x20
  graph ||| print ||| punct,  -- 0x21
  graph ||| print ||| punct,  -- 0x22
  graph ||| print ||| punct,  -- 0x23
  graph ||| print ||| punct,  -- 0x24
  graph ||| print ||| punct,  -- 0x25
  graph ||| print ||| punct,  -- 0x26
  graph ||| print ||| punct,  -- 0x27
  graph ||| print ||| punct,  -- 0x28
  graph ||| print ||| punct,  -- 0x29
  graph ||| print ||| punct,  -- 0x2A
  graph ||| print ||| punct,  -- 0x2B
  graph ||| print ||| punct,  -- 0x2C
  graph ||| print ||| punct,  -- 0x2D
  graph ||| print ||| punct,  -- 0x2E
  graph ||| print ||| punct,  -- 0x2F
  digit ||| graph ||| print ||| xdigit,  -- 0x30
  digit ||| graph ||| print ||| xdigit,  -- 0x31
  digit ||| graph ||| print ||| xdigit,  -- 0x32
  digit ||| graph ||| print ||| xdigit,  -- 0x33
  digit ||| graph ||| print ||| xdigit,  -- 0x34
  digit ||| graph ||| print ||| xdigit,  -- 0x35
  digit ||| graph ||| print ||| xdigit,  -- 0x36
  digit ||| graph ||| print ||| xdigit,  -- 0x37
  digit ||| graph ||| print ||| xdigit,  -- 0x38
  digit ||| graph ||| print ||| xdigit,  -- 0x39
  graph ||| print ||| punct,  -- 0x3A
  graph ||| print ||| punct,  -- 0x3B
  graph ||| print ||| punct,  -- 0x3C
  graph ||| print ||| punct,  -- 0x3D
  graph ||| print ||| punct,  -- 0x3E
  graph ||| print ||| punct,  -- 0x3F
  graph ||| print ||| punct,  -- 0x40
  alpha ||| graph ||| print ||| upper ||| xdigit,  -- 0x41
  alpha ||| graph ||| print ||| upper ||| xdigit,  -- 0x42
  alpha ||| graph ||| print ||| upper ||| xdigit,  -- 0x43
  alpha ||| graph ||| print ||| upper ||| xdigit,  -- 0x44
  alpha ||| graph ||| print ||| upper ||| xdigit,  -- 0x45
  alpha ||| graph ||| print ||| upper ||| xdigit,  -- 0x46
  alpha ||| graph ||| print ||| upper,  -- 0x47
  alpha ||| graph ||| print ||| upper,  -- 0x48
  alpha ||| graph ||| print ||| upper,  -- 0x49
  alpha ||| graph ||| print ||| upper,  -- 0x4A
  alpha ||| graph ||| print ||| upper,  -- 0x4B
  alpha ||| graph ||| print ||| upper,  -- 0x4C
  alpha ||| graph ||| print ||| upper,  -- 0x4D
  alpha ||| graph ||| print ||| upper,  -- 0x4E
  alpha ||| graph ||| print ||| upper,  -- 0x4F
  alpha ||| graph ||| print ||| upper,  -- 0x50
  alpha ||| graph ||| print ||| upper,  -- 0x51
  alpha ||| graph ||| print ||| upper,  -- 0x52
  alpha ||| graph ||| print ||| upper,  -- 0x53
  alpha ||| graph ||| print ||| upper,  -- 0x54
  alpha ||| graph ||| print ||| upper,  -- 0x55
  alpha ||| graph ||| print ||| upper,  -- 0x56
  alpha ||| graph ||| print ||| upper,  -- 0x57
  alpha ||| graph ||| print ||| upper,  -- 0x58
  alpha ||| graph ||| print ||| upper,  -- 0x59
  alpha ||| graph ||| print ||| upper,  -- 0x5A
  graph ||| print ||| punct,  -- 0x5B
  graph ||| print ||| punct,  -- 0x5C
  graph ||| print ||| punct,  -- 0x5D
  graph ||| print ||| punct,  -- 0x5E
  graph ||| print ||| punct,  -- 0x5F
  graph ||| print ||| punct,  -- 0x60
  alpha ||| graph ||| lower ||| print ||| xdigit,  -- 0x61
  alpha ||| graph ||| lower ||| print ||| xdigit,  -- 0x62
  alpha ||| graph ||| lower ||| print ||| xdigit,  -- 0x63
  alpha ||| graph ||| lower ||| print ||| xdigit,  -- 0x64
  alpha ||| graph ||| lower ||| print ||| xdigit,  -- 0x65
  alpha ||| graph ||| lower ||| print ||| xdigit,  -- 0x66
  alpha ||| graph ||| lower ||| print,  -- 0x67
  alpha ||| graph ||| lower ||| print,  -- 0x68
  alpha ||| graph ||| lower ||| print,  -- 0x69
  alpha ||| graph ||| lower ||| print,  -- 0x6A
  alpha ||| graph ||| lower ||| print,  -- 0x6B
  alpha ||| graph ||| lower ||| print,  -- 0x6C
  alpha ||| graph ||| lower ||| print,  -- 0x6D
  alpha ||| graph ||| lower ||| print,  -- 0x6E
  alpha ||| graph ||| lower ||| print,  -- 0x6F
  alpha ||| graph ||| lower ||| print,  -- 0x70
  alpha ||| graph ||| lower ||| print,  -- 0x71
  alpha ||| graph ||| lower ||| print,  -- 0x72
  alpha ||| graph ||| lower ||| print,  -- 0x73
  alpha ||| graph ||| lower ||| print,  -- 0x74
  alpha ||| graph ||| lower ||| print,  -- 0x75
  alpha ||| graph ||| lower ||| print,  -- 0x76
  alpha ||| graph ||| lower ||| print,  -- 0x77
  alpha ||| graph ||| lower ||| print,  -- 0x78
  alpha ||| graph ||| lower ||| print,  -- 0x79
  alpha ||| graph ||| lower ||| print,  -- 0x7A
  graph ||| print ||| punct,  -- 0x7B
  graph ||| print ||| punct,  -- 0x7C
  graph ||| print ||| punct,  -- 0x7D
  graph ||| print ||| punct,  -- 0x7E
  cntrl  -- 0x7F
  ]

/-- `static_cast<std::size_t>(c)` -/
def toSize (c : Int) : Nat := (c % 2 ^ 64).toNat

/-- `get_value` (lines 166-171; the versions for the other character types, 172-190, read the same) -/
def getValue (c : Int) : Nat := if toSize c < tableSize then table.getD (toSize c) 0 else 0

/-- lines 195-198 -/
def isalnum (c : Int) : Bool := getValue c &&& (alpha ||| digit) != 0
/-- lines 199-202 -/
def isalpha (c : Int) : Bool := getValue c &&& alpha != 0
/-- lines 203-206 -/
def isblank (c : Int) : Bool := getValue c &&& blank != 0
/-- lines 207-210 -/
def iscntrl (c : Int) : Bool := getValue c &&& cntrl != 0
/-- lines 211-214 -/
def isdigit (c : Int) : Bool := getValue c &&& digit != 0
/-- lines 215-218 -/
def isgraph (c : Int) : Bool := getValue c &&& graph != 0
/-- lines 219-222 -/
def islower (c : Int) : Bool := getValue c &&& lower != 0
/-- lines 223-226 -/
def isprint (c : Int) : Bool := getValue c &&& print != 0
/-- lines 227-230 -/
def ispunct (c : Int) : Bool := getValue c &&& punct != 0
/-- lines 231-234 -/
def isspace (c : Int) : Bool := getValue c &&& space != 0
/-- lines 235-238 -/
def isupper (c : Int) : Bool := getValue c &&& upper != 0
/-- lines 239-242 -/
def isxdigit (c : Int) : Bool := getValue c &&& xdigit != 0
/-- lines 243-246 -/
def tolower (c : Int) : Int := if getValue c &&& upper != 0 then c + (0x61 - 0x41) else c
/-- lines 247-250 -/
def toupper (c : Int) : Int := if getValue c &&& lower != 0 then c - (0x61 - 0x41) else c

/-- the values of `std::ctype_base`'s masks, which are up to the implementation (sprout/ctype/mask.hpp 20-37) -/
structure Masks where
  alnum : Nat
  alpha : Nat
  blank : Nat
  cntrl : Nat
  digit : Nat
  graph : Nat
  lower : Nat
  print : Nat
  punct : Nat
  space : Nat
  upper : Nat
  xdigit : Nat

/-- lines 251-266; `m | M.alnum && x` is `(m | M.alnum) && x` -/
def isclassified (M : Masks) (m : Nat) (c : Int) : Bool :=
  ((m ||| M.alnum != 0) && (getValue c &&& (alpha ||| digit) != 0)) ||
  ((m ||| M.alpha != 0) && (getValue c &&& alpha != 0)) ||
  ((m ||| M.blank != 0) && (getValue c &&& blank != 0)) ||
  ((m ||| M.cntrl != 0) && (getValue c &&& cntrl != 0)) ||
  ((m ||| M.digit != 0) && (getValue c &&& digit != 0)) ||
  ((m ||| M.graph != 0) && (getValue c &&& graph != 0)) ||
  ((m ||| M.lower != 0) && (getValue c &&& lower != 0)) ||
  ((m ||| M.print != 0) && (getValue c &&& print != 0)) ||
  ((m ||| M.punct != 0) && (getValue c &&& punct != 0)) ||
  ((m ||| M.space != 0) && (getValue c &&& space != 0)) ||
  ((m ||| M.upper != 0) && (getValue c &&& upper != 0)) ||
  ((m ||| M.xdigit != 0) && (getValue c &&& xdigit != 0))

end Sprout.Ascii

import Verif.Spec.Ctype
import Verif.Spec.Numeral

/-!
# Parsing expression grammars

Ford's parsing expressions over a text of code units, with their usual big-step semantics: `Parses s p i o` says that `p`, tried
at position `i` of `s`, fails (`o = none`) or succeeds and stops at `j` (`o = some j`). An expression that loops has no outcome.
-/

namespace Sprout.Spec

inductive Peg
  /-- one character with a property -/
  | one (P : Int → Prop)
  /-- any recogniser on the remaining text: `some k` consumes `k` characters -/
  | prim (f : List Int → Option Nat)
  /-- a string -/
  | str (t : List Int)
  | eps
  /-- the end of the text -/
  | eoi
  /-- ordered choice -/
  | alt (p q : Peg)
  | seq (p q : Peg)
  /-- greedy repetition -/
  | star (p : Peg)
  | opt (p : Peg)
  /-- predicates: consume nothing -/
  | not (p : Peg)
  | and (p : Peg)

namespace Peg

inductive Parses (s : List Int) : Peg → Nat → Option Nat → Prop
  | one_ok {P i c} : s[i]? = some c → P c → Parses s (.one P) i (some (i + 1))
  | one_fail {P i} : (∀ c, s[i]? = some c → ¬ P c) → Parses s (.one P) i none
  | prim_ok {f i k} : f (s.drop i) = some k → Parses s (.prim f) i (some (i + k))
  | prim_fail {f i} : f (s.drop i) = none → Parses s (.prim f) i none
  | str_ok {t i} : t <+: s.drop i → Parses s (.str t) i (some (i + t.length))
  | str_fail {t i} : ¬ t <+: s.drop i → Parses s (.str t) i none
  | eps {i} : Parses s .eps i (some i)
  | eoi_ok {i} : s.drop i = [] → Parses s .eoi i (some i)
  | eoi_fail {i} : s.drop i ≠ [] → Parses s .eoi i none
  | alt_left {p q i j} : Parses s p i (some j) → Parses s (.alt p q) i (some j)
  | alt_right {p q i o} : Parses s p i none → Parses s q i o → Parses s (.alt p q) i o
  | seq_ok {p q i j o} : Parses s p i (some j) → Parses s q j o → Parses s (.seq p q) i o
  | seq_fail {p q i} : Parses s p i none → Parses s (.seq p q) i none
  | star_stop {p i} : Parses s p i none → Parses s (.star p) i (some i)
  | star_step {p i j o} : Parses s p i (some j) → Parses s (.star p) j o → Parses s (.star p) i o
  | opt_ok {p i j} : Parses s p i (some j) → Parses s (.opt p) i (some j)
  | opt_none {p i} : Parses s p i none → Parses s (.opt p) i (some i)
  | not_ok {p i} : Parses s p i none → Parses s (.not p) i (some i)
  | not_fail {p i j} : Parses s p i (some j) → Parses s (.not p) i none
  | and_ok {p i j} : Parses s p i (some j) → Parses s (.and p) i (some i)
  | and_fail {p i} : Parses s p i none → Parses s (.and p) i none

/-! ## Derived expressions -/

def plus (p : Peg) : Peg := .seq p (.star p)

/-- `n` times -/
def pow (p : Peg) : Nat → Peg
  | 0 => .eps
  | n + 1 => .seq p (pow p n)

/-- at most `n` times, greedily -/
def upto (p : Peg) : Nat → Peg
  | 0 => .eps
  | n + 1 => .opt (.seq p (upto p n))

/-- `p`, provided that `q` does not match at the same place -/
def diff (p q : Peg) : Peg := .seq (.and p) (.seq (.not q) p)

/-- a list of `p` separated by `q` -/
def list (p q : Peg) : Peg := .seq p (.star (.seq q p))

/-- a list of at most `n + 1` elements -/
def listUpto (p q : Peg) (n : Nat) : Peg := .seq p (upto (.seq q p) n)

/-- a line end: `\r\n`, `\r` or `\n` -/
def eol : Peg := .alt (.str [0x0D, 0x0A]) (.one fun c => c = 0x0D ∨ c = 0x0A)

/-! ## Character sets: single characters and ranges `lo-hi` -/

inductive Item
  | single (c : Int)
  | range (lo hi : Int)

/-- the characters themselves are not `-`, and a range is not empty -/
def Item.Wf : Item → Prop
  | single c => c ≠ 0x2D
  | range lo hi => lo ≠ 0x2D ∧ hi ≠ 0x2D ∧ lo ≤ hi

def Item.render : Item → List Int
  | single c => [c]
  | range lo hi => [lo, 0x2D, hi]

def Item.Has (v : Int) : Item → Prop
  | single c => v = c
  | range lo hi => lo ≤ v ∧ v ≤ hi

/-- the string of a set -/
def renderSet (its : List Item) : List Int := its.flatMap Item.render

/-! ## Numerals -/

/-- between `mn` and `mx` digits of base `b`, as many as possible -/
def digits (b mn mx : Nat) (s : List Int) : Option Nat :=
  let k := min (digitsOf b s).length mx
  if mn ≤ k then some k else none

/-- the same after an optional sign -/
def signedDigits (b mn mx : Nat) : List Int → Option Nat
  | [] => none
  | c :: s => if c = 0x2B ∨ c = 0x2D then (digits b mn mx s).map (· + 1) else digits b mn mx (c :: s)

end Peg
end Sprout.Spec

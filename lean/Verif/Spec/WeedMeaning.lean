import Verif.Model.Weed
import Verif.Spec.Peg
import Verif.Spec.Ctype

/-!
# What weed expressions are meant to parse

The intended parsing expression of each expression of the domain-specific language (the reading of Boost.Spirit, on which
sprout/weed is modelled), and the conditions under which the code agrees.
-/

namespace Sprout.Spec
open Peg Weed

def clsProp : Cls → Int → Prop
  | .alnum => Ctype.alnum | .alpha => Ctype.alpha | .blank => Ctype.blank | .cntrl => Ctype.cntrl
  | .digit => Ctype.digit | .graph => Ctype.graph | .print => Ctype.print | .punct => Ctype.punct
  | .space => Ctype.space | .xdigit => Ctype.xdigit | .lower => Ctype.lower | .upper => Ctype.upper

/-- `v` belongs to the set written `t` -/
def InCharSet (t : List Int) (v : Int) : Prop :=
  ∃ its : List Item, (∀ it ∈ its, it.Wf) ∧ renderSet its = t ∧ ∃ it ∈ its, it.Has v

/-- any number of `p`; a stopover limit ends the repetition -/
def manyOf (p : Peg) : Option (Nat × Cat) → Peg
  | some (L, .stopover) => upto p L
  | _ => .star p

def someOf (p : Peg) : Option (Nat × Cat) → Peg
  | some (L, .stopover) => .seq p (upto p (L - 1))
  | _ => plus p

def listOf (p q : Peg) : Option (Nat × Cat) → Peg
  | some (L, .stopover) => listUpto p q (L - 1)
  | _ => list p q

/-- at least `c` times, at most `L` times -/
def repeatOf (p : Peg) (c : Nat) : Option Nat → Peg
  | none => .seq (pow p c) (.star p)
  | some L => .seq (pow p c) (upto p (L - c))

def meant : Expr → Peg
  | .ch c => .one (· = c)
  | .range f l => .one fun v => f ≤ v ∧ v ≤ l
  | .set t => .one (InCharSet t)
  | .any => .one fun _ => True
  | .cls k => .one (clsProp k)
  | .str t => .str t
  | .eps => .eps
  | .eol => Peg.eol
  | .eoi => .eoi
  | .uint P => .prim (digits P.radix (max 1 P.mn) P.mx)
  | .int P => .prim (signedDigits P.radix (max 1 P.mn) P.mx)
  | .alt a b => .alt (meant a) (meant b)
  | .seq a b => .seq (meant a) (meant b)
  | .diff a b => Peg.diff (meant a) (meant b)
  | .list a b => listOf (meant a) (meant b) a.limit
  | .star a => manyOf (meant a) a.limit
  | .plus a => someOf (meant a) a.limit
  | .opt a => .opt (meant a)
  | .not a => .not (meant a)
  | .and a => .and (meant a)
  | .wrap a => meant a
  | .lim _ _ a => meant a
  | .rep c a => if c = sizeMax then manyOf (meant a) a.limit else repeatOf (meant a) c (a.limit.map Prod.fst)

/-- parameters of a numeric parser: a standard type, a radix with a digit table, and room for two digits -/
structure NumWf (P : Num) : Prop where
  std : P.T.Std
  radix : P.radix = 2 ∨ P.radix = 8 ∨ P.radix = 10 ∨ P.radix = 16
  limit : 2 ≤ P.mx

/-- the text has no numeral of `P` after a minus sign whose value is the least one of a signed type of 32 or 64 bits -/
def NoLeast (s : List Int) (P : Num) : Prop :=
  ∀ i v k, s.drop i = 0x2D :: v → digits P.radix 1 P.mx v = some k → P.T.sg = true → 32 ≤ P.T.w →
    P.T.conv (evalFrom P.radix 0 ((digitsOf P.radix v).take k) : Nat) ≠ P.T.min

/-- limits that the repetition operators honour -/
def LimitOk (lim : Option (Nat × Cat)) : Prop := ∀ L cat, lim = some (L, cat) → 1 ≤ L ∧ (cat = .stopover → 2 ≤ L)

/-- conditions on an expression and a text -/
def Agrees (s : List Int) : Expr → Prop
  | .set t => ∃ its : List Item, (∀ it ∈ its, it.Wf) ∧ renderSet its = t
  | .cls _ => ∀ c ∈ s, -2 ^ 31 ≤ c ∧ c < 2 ^ 32
  | .uint P => NumWf P ∧ P.mn ≤ 1
  | .int P => NumWf P ∧ P.mn ≤ 1 ∧ NoLeast s P
  | .alt a b => Agrees s a ∧ Agrees s b
  | .seq a b => Agrees s a ∧ Agrees s b
  | .diff a b => Agrees s a ∧ Agrees s b
  -- nowhere a separator without an element after it
  | .list a b => Agrees s a ∧ Agrees s b ∧ LimitOk a.limit ∧
      ∀ j k, Parses s (meant b) j (some k) → ¬ Parses s (meant a) k none
  | .star a => Agrees s a ∧ LimitOk a.limit
  | .plus a => Agrees s a ∧ LimitOk a.limit
  | .opt a => Agrees s a
  | .not a => Agrees s a
  | .and a => Agrees s a
  | .wrap a => Agrees s a
  | .lim _ _ a => Agrees s a
  -- nowhere exactly `c` matches
  | .rep c a => Agrees s a ∧ c ≠ sizeMax ∧ (∀ L cat, a.limit = some (L, cat) → 2 ≤ L ∧ c ≤ L) ∧
      (c = 0 ∨ a.limit.map Prod.fst = some c ∨
        ∀ i e, Parses s (pow (meant a) c) i (some e) → ¬ Parses s (meant a) e none)
  | _ => True

end Sprout.Spec

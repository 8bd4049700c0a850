import Verif.Model.OptionalT
import Verif.Model.Rational
import Verif.Model.Engines
import Verif.Model.Lfsr

/-!
# Stream operators of numbers and of random number engines

sprout/complex/stream_operators.hpp, sprout/math/quaternion/stream_operators.hpp, sprout/rational/io.hpp,
sprout/utility/value_holder/io.hpp and the friend operators of the engines in sprout/random.

A stream (`Opt.IStream`) is the characters left, `fail` for `failbit` or `badbit`, and `eof`. Characters are code units of the
"C" locale; exceptions of the stream are not enabled. How a number is read and written is a parameter (`r`, `w`); decimal integers are an
instance. A reader returns `none` if it does not assign the variable ([istream.formatted]: no sentry); reading a variable that has
never been assigned is undefined.
-/

namespace Sprout
namespace Io
open Opt (IStream)

/-- white space of the "C" locale -/
def isSpace (c : Nat) : Bool := c == 32 || (9 ≤ c && c ≤ 13)

/-- `lhs >> ch` for a character ([istream.extractors]) with `skipws` -/
def getCh (s : IStream) : Option Nat × IStream :=
  if !s.good then (none, { s with fail := true })
  else
    match s.rest.dropWhile isSpace with
    | [] => (none, ⟨[], true, true⟩)
    | c :: t => (some c, ⟨t, false, false⟩)

/-- `lhs.putback(ch)` ([istream.unformatted]) for a character just read: `eofbit` is cleared first -/
def putback (s : IStream) (c : Nat) : IStream :=
  if s.fail then { s with eof := false } else ⟨c :: s.rest, false, false⟩

/-- `lhs >> std::ws` -/
def ws (s : IStream) : IStream :=
  if !s.good then { s with fail := true }
  else ⟨s.rest.dropWhile isSpace, false, decide (s.rest.dropWhile isSpace = [])⟩

/-- `lhs.setstate(failbit)` -/
def setFail (s : IStream) : IStream := { s with fail := true }

/-- reader of a number -/
abbrev Reader (T : Type) := IStream → Option T × IStream

/-! ### decimal integers -/

/-- decimal digits of a natural number, most significant first -/
def dec (n : Nat) : List Nat := if n < 10 then [48 + n] else dec (n / 10) ++ [48 + n % 10]
  termination_by n

/-- `lhs << z` for an integer -/
def wInt (z : Int) : List Nat := if z < 0 then 45 :: dec z.natAbs else dec z.natAbs

def isDigit (c : Nat) : Bool := 48 ≤ c && c ≤ 57

/-- the number denoted by digits -/
def ofDec (l : List Nat) : Nat := l.foldl (fun a c => 10 * a + (c - 48)) 0

/-- the digits at the front of `t`, and what is left -/
def readDigits (neg : Bool) (t : List Nat) : Option Int × IStream :=
  let ds := t.takeWhile isDigit
  let u := t.drop ds.length
  (some (if neg then -(ofDec ds : Int) else (ofDec ds : Int)), ⟨u, decide (ds = []), decide (u = [])⟩)

/-- `lhs >> z` for an integer ([istream.formatted], [facet.num.get], decimal, with sign); without a digit `0` is assigned and `failbit` set.
Values are unbounded here. The flag is `skipws`. -/
def rInt (skipws : Bool) : Reader Int := fun s =>
  if !s.good then (none, { s with fail := true })
  else
    match (if skipws then s.rest.dropWhile isSpace else s.rest) with
    | [] => (none, ⟨[], true, true⟩)
    | 45 :: t => readDigits true t
    | t => readDigits false t

/-! ### complex -/

/-- `operator<<` (complex/stream_operators.hpp 46-48) -/
def wComplex {T : Type} (w : T → List Nat) (z : T × T) : List Nat := [40] ++ w z.1 ++ [44] ++ w z.2 ++ [41]

/-- the end of `operator>>` from `im` on (complex/stream_operators.hpp 26-31): `re` and `ch` are the variables so far -/
def complexIm {T : Type} (r : Reader T) (s : IStream) (re : Option T) (ch : Nat) (rhs : T × T) : Option (IStream × (T × T)) :=
  let i := r s
  let c := getCh i.2
  if c.1.getD ch = 41 then do some (c.2, (← re, ← i.1)) else some (setFail c.2, rhs)

/-- `operator>>` (complex/stream_operators.hpp 19-43): `ch`, `re` and `im` have no initializer (20-21), `lhs >> re >> ch` leaves them as
they are when the stream is not good. `rhs = re` makes the imaginary part `z`, zero. Result: the stream and `rhs`. -/
def rComplex {T : Type} (r : Reader T) (z : T) (s : IStream) (rhs : T × T) : Option (IStream × (T × T)) := do
  let c := getCh s
  let ch ← c.1
  if ch = 40 then
    let re := r c.2
    let c' := getCh re.2
    let ch' := c'.1.getD ch
    if ch' = 44 then complexIm r c'.2 re.1 ch' rhs
    else if ch' = 41 then do some (c'.2, (← re.1, z))
    else some (setFail c'.2, rhs)
  else
    let re := r (putback c.2 ch)
    do some (re.2, (← re.1, z))

/-! ### quaternion -/

/-- `a + bi + cj + dk` -/
structure Q (T : Type) where
  a : T
  b : T
  c : T
  d : T
  deriving DecidableEq, Repr

/-- `operator<<` (math/quaternion/stream_operators.hpp 23-39); the text is written as one string -/
def wQ {T : Type} (w : T → List Nat) (q : Q T) : List Nat :=
  [40] ++ w q.a ++ [44] ++ w q.b ++ [44] ++ w q.c ++ [44] ++ w q.d ++ [41]

/-- `lhs >> ch; if (!lhs.good()) goto finish;`: the character, `none` = finish -/
def qCh (s : IStream) (k : Nat → IStream → Option (IStream × Q T)) (rhs : Q T) : Option (IStream × Q T) :=
  let c := getCh s
  if !c.2.good then some (c.2, rhs)
  else do k (← c.1) c.2

/-- `lhs >> a; if (!lhs.good()) goto finish;` for a component, which is initially `z` (quaternion 44-47) -/
def qNum (r : Reader T) (z : T) (s : IStream) (k : T → IStream → Option (IStream × Q T)) (rhs : Q T) : Option (IStream × Q T) :=
  let a := r s
  if !a.2.good then some (a.2, rhs) else k (a.1.getD z) a.2

/-- `lhs >> v; c = v.real(); d = v.imag(); if (!lhs.good()) goto finish;` (quaternion 48-49, 65-70, 79-84, 119-124) -/
def qComplex (r : Reader T) (z : T) (s : IStream) (k : T × T → IStream → Option (IStream × Q T)) (rhs : Q T) :
    Option (IStream × Q T) := do
  let u ← rComplex r z s (z, z)
  if !u.1.good then some (u.1, rhs) else k u.2 u.1

/-- quaternion 125-134 and 85-94: `)` after the second complex number -/
def qClose (q : Q T) (s : IStream) (rhs : Q T) : Option (IStream × Q T) :=
  qCh s (fun ch s => if ch = 41 then some (s, q) else some (setFail s, rhs)) rhs

/-- quaternion 161-174: from `d` on -/
def qD (r : Reader T) (z a b c : T) (s : IStream) (rhs : Q T) : Option (IStream × Q T) :=
  qNum r z s (fun d s => qClose ⟨a, b, c, d⟩ s rhs) rhs

/-- quaternion 149-177: from `c` on -/
def qC (r : Reader T) (z a b : T) (s : IStream) (rhs : Q T) : Option (IStream × Q T) :=
  qNum r z s (fun c s => qCh s (fun ch s =>
    if ch = 41 then some (s, ⟨a, b, c, z⟩)
    else if ch = 44 then qD r z a b c s rhs
    else some (setFail s, rhs)) rhs) rhs

/-- quaternion 112-181: after `(a,` -/
def qB (r : Reader T) (z a : T) (s : IStream) (rhs : Q T) : Option (IStream × Q T) :=
  qCh s (fun ch s =>
    if ch = 40 then qComplex r z (putback s ch) (fun v s => qClose ⟨a, z, v.1, v.2⟩ s rhs) rhs
    else qNum r z (putback s ch) (fun b s => qCh s (fun ch s =>
      if ch = 41 then some (s, ⟨a, b, z, z⟩)
      else if ch = 44 then qC r z a b s rhs
      else some (setFail s, rhs)) rhs) rhs) rhs

/-- quaternion 64-97: `((` -/
def qPair (r : Reader T) (z : T) (s : IStream) (rhs : Q T) : Option (IStream × Q T) :=
  qComplex r z s (fun u s => qCh s (fun ch s =>
    if ch = 41 then some (s, ⟨u.1, u.2, z, z⟩)
    else if ch = 44 then qComplex r z s (fun v s => qClose ⟨u.1, u.2, v.1, v.2⟩ s rhs) rhs
    else some (setFail s, rhs)) rhs) rhs

/-- quaternion 99-184: `(a` -/
def qA (r : Reader T) (z : T) (s : IStream) (rhs : Q T) : Option (IStream × Q T) :=
  qNum r z s (fun a s => qCh s (fun ch s =>
    if ch = 41 then some (s, ⟨a, z, z, z⟩)
    else if ch = 44 then qB r z a s rhs
    else some (setFail s, rhs)) rhs) rhs

/-- `operator>>` (quaternion 40-196); `z` is `T()`. Result: the stream and `rhs`. -/
def rQ (r : Reader T) (z : T) (s : IStream) (rhs : Q T) : Option (IStream × Q T) :=
  qCh s (fun ch s =>
    if ch = 40 then qCh s (fun ch s =>
      if ch = 40 then qPair r z (putback s ch) rhs else qA r z (putback s ch) rhs) rhs
    else qNum r z (putback s ch) (fun a s => some (s, ⟨a, z, z, z⟩)) rhs) rhs

/-! ### rational -/

/-- `operator<<` (rational/io.hpp 42-46) -/
def wRat (x : Rational) : List Nat := wInt x.num ++ [47] ++ wInt x.den

/-- `if (c != '/') lhs.clear(badbit)` (rational/io.hpp 31-33) -/
def ratSlash (c : Option Nat × IStream) : IStream := if c.1 = some 47 then c.2 else ⟨c.2.rest, true, false⟩

/-- `if (lhs) rhs.assign(n, d); return lhs;` (rational/io.hpp 36-39, rational.hpp 107-111) -/
def ratAssign (n d : Int) (s : IStream) (rhs : Rational) : Option (Ret (IStream × Rational)) :=
  if s.fail then some (.ret (s, rhs))
  else do
    match ← Rational.mk2 n d with
    | .ret q => some (.ret (s, q))
    | .throw e => some (.throw e)

/-- `operator>>` (rational/io.hpp 22-40): `d` is read with `noskipws` (34); the flags are restored by the destructor of `saver` (28) -/
def rRat (s : IStream) (rhs : Rational) : Option (Ret (IStream × Rational)) :=
  let n := rInt true s
  let s := ratSlash n.2.get
  let d := rInt false s
  ratAssign (n.1.getD 0) (d.1.getD 1) d.2 rhs

/-! ### value_holder -/

/-- `operator<<` (utility/value_holder/io.hpp 42-53) of a holder, which is `none` only if the pointer of a reference holder is null -/
def wHolder {T : Type} (w : T → List Nat) : Option T → List Nat
  | none => [45, 45]
  | some v => 32 :: w v

/-- `operator>>` (utility/value_holder/io.hpp 21-38): `T x` has no initializer (30) -/
def rHolder {T : Type} (r : Reader T) (s : IStream) (rhs : T) : Option (IStream × T) :=
  if s.good then
    let d := s.get
    if d.1 = some 32 then
      let x := r d.2
      do some (x.2, ← x.1)
    else some (setFail d.2, rhs)
  else some (s, rhs)

/-! ### random number engines -/

/-- `lhs >> rhs`: the stream and the new value of `rhs` -/
abbrev EReader (G : Type) := IStream → G → IStream × G

/-- `linear_congruential_engine`, `inversive_congruential_engine` `operator>>` (random/linear_congruential.hpp 254-269,
random/inversive_congruential.hpp 141-156) -/
def rLcg (b p : Int) : EReader Int := fun s g =>
  let x := rInt true s
  if x.2.fail then (x.2, g)
  else
    match x.1 with
    | some v => if Lcg.staticMin b ≤ v ∧ v ≤ Lcg.staticMax p then (x.2, v) else (setFail x.2, g)
    | none => (x.2, g)

/-- `operator<<` of the same (random/linear_congruential.hpp 270-277, random/inversive_congruential.hpp 157-164) -/
def wLcg (g : Int) : List Nat := wInt g

/-- `lhs >> x` for a member: it keeps its value unless the extraction assigns it -/
def rMember : EReader Int := fun s g => let x := rInt true s; (x.2, x.1.getD g)

/-- `linear_feedback_shift_engine` `operator>>` (random/linear_feedback_shift.hpp 138-145) -/
def rLfsr : EReader Int := rMember

/-- `xor_combine_engine`, `additive_combine_engine` `operator>>` (random/xor_combine.hpp 133-140, random/additive_combine.hpp 148-155) -/
def rPair {G H : Type} (R1 : EReader G) (R2 : EReader H) : EReader (G × H) := fun s g =>
  let a := R1 s g.1
  let b := R2 (ws a.1) g.2
  (b.1, (a.2, b.2))

/-- `operator<<` of the same (random/xor_combine.hpp 141-148, random/additive_combine.hpp 156-163) -/
def wPair {G H : Type} (W1 : G → List Nat) (W2 : H → List Nat) (g : G × H) : List Nat := W1 g.1 ++ [32] ++ W2 g.2

/-- the loop `for (i = 0; i < k; ++i) lhs >> std::ws >> rhs.v_[i]` (random/shuffle_order.hpp 264-266) -/
def rTable : EReader (List Int) := fun s l =>
  match l with
  | [] => (s, [])
  | x :: l =>
    let a := rMember (ws s) x
    let b := rTable a.1 l
    (b.1, a.2 :: b.2)

/-- `shuffle_order_engine` `operator>>` (random/shuffle_order.hpp 257-269) -/
def rShuffle {σ : Type} (R : EReader σ) : EReader (ShuffleOrder.St σ) := fun s g =>
  let a := R s g.rng
  let v := rTable a.1 g.v
  let y := rMember (ws v.1) g.y
  (y.1, ⟨a.2, v.2, y.2⟩)

/-- `operator<<` (random/shuffle_order.hpp 270-282) -/
def wShuffle {σ : Type} (W : σ → List Nat) (g : ShuffleOrder.St σ) : List Nat :=
  W g.rng ++ (g.v.flatMap fun x => 32 :: wInt x) ++ 32 :: wInt g.y

end Io
end Sprout

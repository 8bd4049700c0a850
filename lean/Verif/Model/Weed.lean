import Verif.Model.Find
import Verif.Model.Ascii
import Verif.Model.IntStr
import Verif.Model.ConstMod

/-!
# The parser combinators of sprout/weed

The text is a block `s : List Int` of code units, parsed over the whole range `[0, s.length)`; an iterator is a position.
`sprout::weed::eval(expr, ctx)` is modelled by a function of the position `ctx.begin()`. `none` is undefined behaviour (a read
outside the block) or an evaluation that does not terminate. Of the attributes only those collected by a limited repetition
(`lim<N>(p)`) and the number of a numeric parser are modelled; `Unit` stands for an attribute that is not.

Paths in the comments are relative to sprout/weed; `operator/` stands for `context/parse_context/operator/`, `terminal/` for
`context/parse_context/terminal/`, `directive/` for `parser/directive/` and `numeric/` for `parser/numeric/`.
-/

namespace Sprout.Weed

/-- `eval_result` / `parser_result` (sprout/weed/eval_result.hpp, parser_result.hpp): `success()`, `current()`,
`ctx().begin()` and `attr()` -/
structure Res (A : Type) where
  ok : Bool
  cur : Nat
  ctx : Nat
  attr : A
  deriving DecidableEq, Repr

variable {A B : Type}

/-- the same result with another attribute -/
def Res.withAttr (r : Res A) (b : B) : Res B := ⟨r.ok, r.cur, r.ctx, b⟩

/-- a parser as a terminal expression: `result_type(res, context_type(ctx, res.current()))`
(context/parse_context/terminal/parser.hpp 58-79) -/
def term (ok : Bool) (cur : Nat) (a : A) : Option (Res A) := some ⟨ok, cur, cur, a⟩

/-! ## Terminals -/

/-- a parser of one character: `first != last && test(*first) ? (true, next(first)) : (false, first)`. It is `lit_char_p`
(parser/char/char.hpp 54-67), `char_p` (110-123), the raw character (terminal/char_type.hpp 48-64) with `*first == c`,
`char_range_p` (150-163) with `*first >= f && *first <= l`, `any_char_p` (220-232) with `true`, the character classes
(parser/char/char_class.hpp 41-53) and `char_set_p` (char.hpp 189-201) -/
def oneChar (s : List Int) (test : Int → Option Bool) (first : Nat) : Option (Res Unit) :=
  if first ≠ s.length then do
    let c ← rd s first
    let b ← test c
    if b then term true (first + 1) () else term false first ()
  else term false first ()

/-- the leaf test of `find_character_set` (detail/find_character_set.hpp 30-33, 69-72): `*it == '-' ?
*prev(it) <= v && *next(it) >= v : *it == v`, short-circuit; `m` is the block of the set's string with its terminator. Reading
before the beginning is undefined. -/
def setTest (m : List Int) (v : Int) (i : Nat) : Option Bool := do
  let x ← rd m i
  if x = 0x2D then
    if i = 0 then none else do
      let a ← rd m (i - 1)
      if a ≤ v then do
        let b ← rd m (i + 1)
        some (decide (v ≤ b))
      else some false
  else some (decide (x = v))

/-- `find_character_set` for random access iterators (find_character_set.hpp 22-58) -/
def findSetRa (m : List Int) (v : Int) (first last : Nat) : Option Nat :=
  findRa (fun i _ => setTest m v i) first last

/-- `find_character_set` for other iterators (find_character_set.hpp 60-108) -/
def findSetIn (m : List Int) (v : Int) (first last : Nat) : Option Nat :=
  findIn (setTest m v) first last

/-- the condition `find_character_set(begin(t_), end(t_), *first) != end(t_)` of `char_set_p` (char.hpp 197); the string `t`
is followed by its terminator in its buffer -/
def inSet (t : List Int) (v : Int) : Option Bool := do
  let r ← findSetRa (t ++ [0]) v 0 t.length
  some (r != t.length)

/-- `lit_str_p` (parser/string/string.hpp 53-66), `str_p` (125-138) and the raw string (terminal/string.hpp 51-67):
`distance(first, last) >= size(t) && equal(begin(t), end(t), first) ? (true, next(first, size(t))) : (false, first)` -/
def litStr (s t : List Int) (first : Nat) : Option (Res Unit) := do
  let b ← (if t.length ≤ s.length - first then equalRa t s (fun x y => x == y) 0 t.length first else some false)
  if b then term true (first + t.length) () else term false first ()

/-- `eps_p` (parser/auxiliary/eps.hpp 36-45): `(true, first)` -/
def eps (first : Nat) : Option (Res Unit) := term true first ()

/-- `eol_p` (parser/auxiliary/eol.hpp 38-59) -/
def eol (s : List Int) (first : Nat) : Option (Res Unit) :=
  if first ≠ s.length then do
    let c ← rd s first
    if c = 0x0D then
      if first + 1 ≠ s.length then do
        let d ← rd s (first + 1)
        if d = 0x0A then term true (first + 1 + 1) () else term true (first + 1) ()
      else term true (first + 1) ()
    else if c = 0x0A then term true (first + 1) () else term false first ()
  else term false first ()

/-- `eoi_p` (parser/auxiliary/eoi.hpp 36-45): `(first == last, first)` -/
def eoi (s : List Int) (first : Nat) : Option (Res Unit) := term (first == s.length) first ()

/-! ## Numeric parsers -/

/-- the digits and their values (detail/digits.hpp 23-29, bdigits.hpp, odigits.hpp, xdigits.hpp 23-29) -/
def digitTable : Nat → List Int × List Nat
  | 2 => ([0x30, 0x31], [0, 1])
  | 8 => ([0x30, 0x31, 0x32, 0x33, 0x34, 0x35, 0x36, 0x37], [0, 1, 2, 3, 4, 5, 6, 7])
  | 10 => ([0x30, 0x31, 0x32, 0x33, 0x34, 0x35, 0x36, 0x37, 0x38, 0x39], [0, 1, 2, 3, 4, 5, 6, 7, 8, 9])
  | 16 => ([0x30, 0x31, 0x32, 0x33, 0x34, 0x35, 0x36, 0x37, 0x38, 0x39,
      0x61, 0x62, 0x63, 0x64, 0x65, 0x66, 0x41, 0x42, 0x43, 0x44, 0x45, 0x46],
      [0, 1, 2, 3, 4, 5, 6, 7, 8, 9, 10, 11, 12, 13, 14, 15, 10, 11, 12, 13, 14, 15])
  | _ => ([], [])

/-- `from_ndigit<Radix>(c)` (detail/ndigits.hpp 23-58; digits.hpp 48-73): the position found by `sprout::find`, looked up in the
table of values if it is not past the end; `none` inside is `tuple(IntType(), false)` -/
def fromNdigit (radix : Nat) (c : Int) : Option (Option Nat) := do
  let i ← findValRa (digitTable radix).1 0 (digitTable radix).1.length c
  if i < (digitTable radix).1.length then (rd (digitTable radix).2 i).map some else some none

/-- `static_cast<T>(t * Radix + d)` (numeric/uint_p.hpp 82, 88, 113; int_p.hpp 83, 89, 114): `Radix` is a `std::size_t`, so the
arithmetic is modulo 2^64 -/
def numStep (T : CInt) (radix : Nat) (t : Int) (d : Nat) : Int :=
  T.conv (CInt.uint64.conv (CInt.uint64.conv t * radix + d))

/-- parameters of `uint_p` / `int_p<T, Radix, MinDigits, MaxDigits>` -/
structure Num where
  T : CInt
  radix : Nat
  mn : Nat
  mx : Nat

/-- `limit_digits` (uint_p.hpp 37-40): the smaller of `MaxDigits` and `integer_digits<T, Radix>::value` -/
def Num.limit (P : Num) : Nat :=
  let d := (IntStr.integerDigits P.T P.radix).getD 0
  if P.mx ≤ d then P.mx else d

/-- `call_0<N>` with `call_1<N + 1>` (uint_p.hpp 63-143, int_p.hpp 64-144). For `limit_digits < 2` the instantiations
`call_0<N>`, `call_1<N + 1>` never end and the program is ill-formed. -/
def numLoop (s : List Int) (P : Num) (temp : Nat) (first : Nat) (t : Int) (N n : Nat) : Option (Res Int) :=
  if first ≠ s.length then do
    let c ← rd s first
    let r ← fromNdigit P.radix c
    match r with
    | some d =>
      if N + 1 = P.limit then
        if n + 1 < P.mx then numLoop s P temp (first + 1) (numStep P.T P.radix t d) (N + 1 - 1) (n + 1)
        else term true (first + 1) (numStep P.T P.radix t d)
      else numLoop s P temp (first + 1) (numStep P.T P.radix t d) (N + 1) (n + 1)
    | none => if N + 1 < P.mn then term false temp 0 else term true first t
  else if N < P.mn then term false temp 0 else term true first t
partial_fixpoint

/-- `call_i` (uint_p.hpp 144-162, int_p.hpp 145-163) applied to `from_ndigit(*first)` -/
def numFirst (s : List Int) (P : Num) (first temp : Nat) : Option (Res Int) := do
  let c ← rd s first
  let r ← fromNdigit P.radix c
  match r with
  | some d => numLoop s P temp (first + 1) (P.T.conv d) 1 1
  | none => term false temp 0

/-- `uint_p::operator()` (uint_p.hpp 163-191) -/
def uintP (s : List Int) (P : Num) (first : Nat) : Option (Res Int) :=
  if first ≠ s.length then numFirst s P first first else term false first 0

/-- `make_result` (int_p.hpp 52-63): `success() && sign < 0 ? -attr : attr`; the negation is undefined when it overflows -/
def numSign (P : Num) (neg : Bool) (r : Res Int) : Option (Res Int) :=
  if r.ok && neg then do
    let v ← P.T.ar (-r.attr)
    some { r with attr := v }
  else some r

/-- `int_p::call` (int_p.hpp 164-184) -/
def intCall (s : List Int) (P : Num) (first temp : Nat) (neg : Bool) : Option (Res Int) :=
  if first ≠ s.length then do
    let r ← numFirst s P first temp
    numSign P neg r
  else term false temp 0

/-- `int_p::operator()` (int_p.hpp 185-214) -/
def intP (s : List Int) (P : Num) (first : Nat) : Option (Res Int) :=
  if first ≠ s.length then do
    let c ← rd s first
    if c = 0x2B then intCall s P (first + 1) first false
    else if c = 0x2D then intCall s P (first + 1) first true
    else intCall s P first first false
  else term false first 0

/-! ## Operators, as functions of the operands' evaluations -/

/-- `a | b` (operator/bitwise_or.hpp 52-100) -/
def altOp (f g : Nat → Option (Res Unit)) (ctx : Nat) : Option (Res Unit) := do
  let r ← f ctx
  if r.ok then some ⟨true, r.cur, r.cur, ()⟩
  else do
    let r2 ← g ctx
    if r2.ok then some ⟨true, r2.cur, r2.cur, ()⟩ else some ⟨false, ctx, ctx, ()⟩

/-- `a >> b` and `a << b` (operator/shift_left.hpp 50-99) -/
def seqOp (f g : Nat → Option (Res Unit)) (ctx : Nat) : Option (Res Unit) := do
  let r ← f ctx
  if r.ok then do
    let r2 ← g r.cur
    if r2.ok then some ⟨true, r2.cur, r2.cur, ()⟩ else some ⟨false, ctx, ctx, ()⟩
  else some ⟨false, ctx, ctx, ()⟩

/-- `a - b` (operator/minus.hpp 45-71) -/
def diffOp (f g : Nat → Option (Res Unit)) (ctx : Nat) : Option (Res Unit) := do
  let r ← f ctx
  let b ← (if r.ok then do
      let r2 ← g ctx
      some (!r2.ok)
    else some false)
  if b then some r else some ⟨false, ctx, ctx, ()⟩

/-- `-a` (operator/negate.hpp 48-68) -/
def optOp (f : Nat → Option (Res Unit)) (ctx : Nat) : Option (Res Unit) := do
  let r ← f ctx
  some ⟨true, r.cur, if r.ok then r.cur else ctx, ()⟩

/-- `!a` (operator/logical_not.hpp 44-53) -/
def notOp (f : Nat → Option (Res Unit)) (ctx : Nat) : Option (Res Unit) := do
  let r ← f ctx
  if !r.ok then some ⟨true, ctx, ctx, ()⟩ else some ⟨false, ctx, ctx, ()⟩

/-- `&a` (operator/address_of.hpp 44-53) -/
def andOp (f : Nat → Option (Res Unit)) (ctx : Nat) : Option (Res Unit) := do
  let r ← f ctx
  if r.ok then some ⟨true, ctx, ctx, ()⟩ else some ⟨false, ctx, ctx, ()⟩

/-- `omit[a]` (directive/omit.hpp 45-57, 66-72), `as_array[a]`, `as_tuple[a]`, `replace(v)[a]` (directive/as_array.hpp,
as_tuple.hpp, replace.hpp) and the attribute conversion `a ->* f` (operator/mem_ptr.hpp 50-83) -/
def wrapOp (f : Nat → Option (Res Unit)) (first : Nat) : Option (Res Unit) := do
  let r ← f first
  if r.ok then term true r.cur () else term false first ()

/-- `limit_p::operator()` (parser/lim.hpp 61-68): `eval(expr_, ctx).presult()` -/
def limOp (f : Nat → Option (Res Unit)) (ctx : Nat) : Option (Res Unit) := do
  let r ← f ctx
  term r.ok r.cur ()

/-- `limited::category` (sprout/weed/limited.hpp 18-25): what to do with elements beyond the limit -/
inductive Cat
  | discard | circular | stopover
  deriving DecidableEq, Repr

/-- `call_inf` of `*a` and `+a` (operator/dereference.hpp 161-172, unary_plus.hpp 161-172): `res` is the evaluation at `ctx` -/
def timesInf (f : Nat → Option (Res A)) (ctx : Nat) (res : Res A) : Option (Res (List A)) :=
  if res.ok then do
    let r ← f res.ctx
    timesInf f res.ctx r
  else some ⟨true, ctx, ctx, []⟩
partial_fixpoint

/-- `call` of `*a` and `+a` with `limit::value == L` (dereference.hpp 53-160, unary_plus.hpp 53-160): three overloads by the
number `attrs.length` of attributes so far (`sizeof...(Attrs) + 1`); no overload beyond the limit -/
def timesLim (f : Nat → Option (Res A)) (L : Nat) (cat : Cat) (ctx : Nat) (res : Res A) (attrs : List A) :
    Option (Res (List A)) :=
  if attrs.length = L then
    if res.ok then do
      let r ← f res.ctx
      if cat = .discard then timesLim f L cat res.ctx r attrs
      else timesLim f L cat res.ctx r (attrs.drop 1 ++ [res.attr])
    else some ⟨true, ctx, ctx, attrs⟩
  else if attrs.length + 1 = L then
    if res.ok then
      if cat ≠ .stopover then do
        let r ← f res.ctx
        timesLim f L cat res.ctx r (attrs ++ [res.attr])
      else some ⟨true, res.cur, res.ctx, attrs ++ [res.attr]⟩
    else some ⟨true, ctx, ctx, attrs⟩
  else if attrs.length + 1 < L then
    if res.ok then do
      let r ← f res.ctx
      timesLim f L cat res.ctx r (attrs ++ [res.attr])
    else some ⟨true, ctx, ctx, attrs⟩
  else none
partial_fixpoint

/-- `*a` (`least = false`, dereference.hpp 173-220) and `+a` (`least = true`, unary_plus.hpp 173-220); `lim` is the limit and the
category of the operand if it is a `limit_p` -/
def timesOp (least : Bool) (f : Nat → Option (Res A)) (lim : Option (Nat × Cat)) (ctx : Nat) : Option (Res (List A)) := do
  let res ← f ctx
  if res.ok then do
    let r ← f res.ctx
    match lim with
    | none => timesInf f res.ctx r
    | some (L, cat) => timesLim f L cat res.ctx r [res.attr]
  else some ⟨!least, ctx, ctx, []⟩

/-- `call_inf_1` and `call_inf` of `a % b` (operator/modulus.hpp 196-221): `res` is the evaluation of the separator at `ctx` -/
def listInf (f : Nat → Option (Res A)) (g : Nat → Option (Res B)) (ctx : Nat) (res : Res B) : Option (Res (List A)) :=
  if res.ok then do
    let r ← f res.ctx
    if r.ok then do
      let r2 ← g r.ctx
      listInf f g r.ctx r2
    else some ⟨true, res.ctx, res.ctx, []⟩
  else some ⟨true, ctx, ctx, []⟩
partial_fixpoint

/-- `call_1` and `call` of `a % b` with a limit (modulus.hpp 54-195) -/
def listLim (f : Nat → Option (Res A)) (g : Nat → Option (Res B)) (L : Nat) (cat : Cat) (ctx : Nat) (res : Res B)
    (attrs : List A) : Option (Res (List A)) :=
  if res.ok then do
    let r ← f res.ctx
    if attrs.length = L then
      if r.ok then do
        let r2 ← g r.ctx
        if cat = .discard then listLim f g L cat r.ctx r2 attrs
        else listLim f g L cat r.ctx r2 (attrs.drop 1 ++ [r.attr])
      else some ⟨true, res.ctx, res.ctx, attrs⟩
    else if attrs.length + 1 = L then
      if r.ok then
        if cat ≠ .stopover then do
          let r2 ← g r.ctx
          listLim f g L cat r.ctx r2 (attrs ++ [r.attr])
        else some ⟨true, r.cur, r.ctx, attrs ++ [r.attr]⟩
      else some ⟨true, res.ctx, res.ctx, attrs⟩
    else if attrs.length + 1 < L then
      if r.ok then do
        let r2 ← g r.ctx
        listLim f g L cat r.ctx r2 (attrs ++ [r.attr])
      else some ⟨true, res.ctx, res.ctx, attrs⟩
    else none
  else some ⟨true, ctx, ctx, attrs⟩
partial_fixpoint

/-- `a % b` (modulus.hpp 222-272) -/
def listOp (f : Nat → Option (Res A)) (g : Nat → Option (Res B)) (lim : Option (Nat × Cat)) (ctx : Nat) :
    Option (Res (List A)) := do
  let res ← f ctx
  if res.ok then do
    let r ← g res.ctx
    match lim with
    | none => listInf f g res.ctx r
    | some (L, cat) => listLim f g L cat res.ctx r [res.attr]
  else some ⟨false, ctx, ctx, []⟩

/-- `std::size_t(-1)` -/
def sizeMax : Nat := 2 ^ 64 - 1

/-- `call_inf` of `repeat(count)[a]` (directive/repeat.hpp 84-96). The counter `n` is a `std::size_t`; it does not wrap, since
each success is an evaluation at a further position or the loop does not end. -/
def repInf (f : Nat → Option (Res A)) (count : Nat) (first : Nat) (res : Res A) (n : Nat) : Option (Res (List A)) :=
  if res.ok then do
    let r ← f res.ctx
    repInf f count (if count ≤ n then res.cur else first) r (n + 1)
  else term (decide (count ≤ n) || count == sizeMax) first []
partial_fixpoint

/-- `call` of `repeat(count)[lim<L>(a)]` (repeat.hpp 48-83) -/
def repLim (f : Nat → Option (Res A)) (count L : Nat) (first : Nat) (res : Res A) (attrs : List A) : Option (Res (List A)) :=
  if attrs.length + 1 = L then
    if res.ok then term true res.cur (attrs ++ [res.attr])
    else if count ≤ attrs.length then term true first attrs else term false first []
  else
    if res.ok then do
      let r ← f res.ctx
      repLim f count L (if count ≤ attrs.length then res.cur else first) r (attrs ++ [res.attr])
    else if count ≤ attrs.length then term true first attrs else term false first []
partial_fixpoint

/-- `repeat(count)[a]` (repeat.hpp 97-149, 174-181); `repeat[a]` has `count = std::size_t(-1)` (170-173, 203-212) -/
def repOp (f : Nat → Option (Res A)) (count : Nat) (lim : Option Nat) (first : Nat) : Option (Res (List A)) := do
  let res ← f first
  match lim with
  | none =>
    if res.ok then do
      let r ← f res.ctx
      repInf f count (if count ≤ 0 then res.cur else first) r 1
    else term (decide (count ≤ 0) || count == sizeMax) first []
  | some L =>
    if res.ok then do
      let r ← f res.ctx
      repLim f count L (if count ≤ 0 then res.cur else first) r [res.attr]
    else term (decide (count ≤ 0)) first []

/-! ## Expressions -/

/-- the classes of parser/char/char_class.hpp 56-81 -/
inductive Cls
  | alnum | alpha | blank | cntrl | digit | graph | print | punct | space | xdigit | lower | upper
  deriving DecidableEq, Repr

/-- `sprout::ascii::is...` (char_class.hpp 70-81) -/
def Cls.test : Cls → Int → Bool
  | .alnum => Ascii.isalnum | .alpha => Ascii.isalpha | .blank => Ascii.isblank | .cntrl => Ascii.iscntrl
  | .digit => Ascii.isdigit | .graph => Ascii.isgraph | .print => Ascii.isprint | .punct => Ascii.ispunct
  | .space => Ascii.isspace | .xdigit => Ascii.isxdigit | .lower => Ascii.islower | .upper => Ascii.isupper

/-- an expression of the domain-specific language -/
inductive Expr
  | ch (c : Int) | range (f l : Int) | set (t : List Int) | any | cls (k : Cls) | str (t : List Int)
  | eps | eol | eoi | uint (P : Num) | int (P : Num)
  | alt (a b : Expr) | seq (a b : Expr) | diff (a b : Expr) | list (a b : Expr)
  | star (a : Expr) | plus (a : Expr) | opt (a : Expr) | not (a : Expr) | and (a : Expr)
  | wrap (a : Expr) | lim (n : Nat) (cat : Cat) (a : Expr) | rep (count : Nat) (a : Expr)

/-- `traits::limit_of` (traits/parser/limit_of.hpp 23-34, parser/lim.hpp 93-96) with the category: only a `limit_p` has a limit,
and `std::size_t(-1)` stands for none -/
def Expr.limit : Expr → Option (Nat × Cat)
  | .lim n cat _ => if n = sizeMax then none else some (n, cat)
  | _ => none

/-- forget the attribute -/
def noAttr (r : Option (Res A)) : Option (Res Unit) := r.map fun r => r.withAttr ()

/-- `sprout::weed::eval(expr, ctx)` (sprout/weed/eval.hpp; context/parse_context.hpp) -/
def eval (s : List Int) : Expr → Nat → Option (Res Unit)
  | .ch c => oneChar s fun x => some (x == c)
  | .range f l => oneChar s fun x => some (decide (f ≤ x) && decide (x ≤ l))
  | .set t => oneChar s (inSet t)
  | .any => oneChar s fun _ => some true
  | .cls k => oneChar s fun x => some (k.test x)
  | .str t => litStr s t
  | .eps => eps
  | .eol => eol s
  | .eoi => eoi s
  | .uint P => fun i => noAttr (uintP s P i)
  | .int P => fun i => noAttr (intP s P i)
  | .alt a b => altOp (eval s a) (eval s b)
  | .seq a b => seqOp (eval s a) (eval s b)
  | .diff a b => diffOp (eval s a) (eval s b)
  | .list a b => fun i => noAttr (listOp (eval s a) (eval s b) a.limit i)
  | .star a => fun i => noAttr (timesOp false (eval s a) a.limit i)
  | .plus a => fun i => noAttr (timesOp true (eval s a) a.limit i)
  | .opt a => optOp (eval s a)
  | .not a => notOp (eval s a)
  | .and a => andOp (eval s a)
  | .wrap a => wrapOp (eval s a)
  | .lim _ _ a => limOp (eval s a)
  | .rep count a => fun i => noAttr (repOp (eval s a) count (a.limit.map Prod.fst) i)

/-- `sprout::weed::parse(first, last, expr)` (sprout/weed/parse.hpp 23-36): whether it succeeds and where it stops -/
def parse (s : List Int) (e : Expr) : Option (Bool × Nat) := (eval s e 0).map fun r => (r.ok, r.cur)

end Sprout.Weed

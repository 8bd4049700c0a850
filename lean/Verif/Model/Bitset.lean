import Verif.Model.Exn
import Verif.Basic
import Verif.Model.Bits

/-!
# bitset

`sprout/bitset/bitset.hpp`, `bitwise.hpp`. `B` is the number of bits of `unsigned long` (64 on LP64, 32 on LLP64 and
ILP32), `unsigned long long` has 64 bits. A `base_bitset<M>` is its array `w_`, the list of its `M` words (the
specialisations for `M = 0` and `M = 1` hold nothing, respectively one word). `bitset<N>` derives from
`base_bitset<nwords B N>`.

Outcomes: `none` is undefined behaviour, `throw e` an exception. Word types are at least as wide as `int`, so no
promotion takes place. `fixed::transform/fill/set` (constructing a new array elementwise) are `zipWith`, `map`,
`replicate` and `set`.
-/

namespace Sprout

namespace Bitset

variable {B : Nat}

/-- number of words (bitset.hpp 932-939) -/
def nwords (B N : Nat) : Nat := N / B + if N % B = 0 then 0 else 1

/-- `w << s` on a word -/
def wshl (w : BitVec B) (s : Nat) : Option (BitVec B) := if s < B then some (w <<< s) else none
/-- `w >> s` on a word -/
def wshr (w : BitVec B) (s : Nat) : Option (BitVec B) := if s < B then some (w >>> s) else none

/-- `whichword` (bitset.hpp 86-89) -/
def whichword (B pos : Nat) : Nat := pos / B
/-- `whichbit` (bitset.hpp 94-97) -/
def whichbit (B pos : Nat) : Nat := pos % B
/-- `maskbit` (bitset.hpp 98-101) -/
def maskbit (B pos : Nat) : Option (BitVec B) := wshl 1 (whichbit B pos)

/-- `getword` (bitset.hpp 261-268, 550-557, 730-739): the specialisations ignore the position -/
def getword (ws : List (BitVec B)) (pos : Nat) : Option (BitVec B) :=
  match ws with
  | [] => some 0
  | [w] => some w
  | _ => rd ws (whichword B pos)

/-- `setword` (bitset.hpp 248-255, 537-544, 719-724) -/
def setword (ws : List (BitVec B)) (pos : Nat) (v : BitVec B) : Option (List (BitVec B)) :=
  match ws with
  | [] => some []
  | [_] => some [v]
  | _ => wr ws (whichword B pos) v

/-- `hiword()` (bitset.hpp 273-280, 562-569, 740-743) -/
def hiword (ws : List (BitVec B)) : Option (BitVec B) :=
  match ws with
  | [] => some 0
  | [w] => some w
  | _ => rd ws (ws.length - 1)

/-- `hiword(word)` (bitset.hpp 256-259, 545-548, 725-728) -/
def setHiword (ws : List (BitVec B)) (v : BitVec B) : Option (List (BitVec B)) :=
  match ws with
  | [] => some []
  | [_] => some [v]
  | _ => wr ws (ws.length - 1) v

/-- `sanitize<Extrabits>::do_sanitize_c` (bitset.hpp 835-860) -/
def sanitizeWord (extra : Nat) (v : BitVec B) : Option (BitVec B) :=
  if extra = 0 then some v else do
    let m ← wshl (~~~ (0 : BitVec B)) extra
    some (v &&& ~~~ m)

/-- `bitset<N>::do_sanitize` (bitset.hpp 997-1010), both versions -/
def sanitize (N : Nat) (ws : List (BitVec B)) : Option (List (BitVec B)) := do
  let h ← hiword ws
  let v ← sanitizeWord (N % B) h
  setHiword ws v

/-- a loop `for (i = 0; i < N; i++) w_[i] = op(w_[i], x.w_[i])` (bitset.hpp 282-287, 294-299, 306-311) -/
def wordLoop (op : BitVec B → BitVec B → BitVec B) (ws xs : List (BitVec B)) (i n : Nat) :
    Option (List (BitVec B)) :=
  if i < n then do
    let a ← rd ws i
    let b ← rd xs i
    let ws ← wr ws i (op a b)
    wordLoop op ws xs (i + 1) n
  else some ws
partial_fixpoint

/-- `operator&=`, `|=`, `^=` (bitset.hpp 1173-1187) -/
def opAssign (op : BitVec B → BitVec B → BitVec B) (ws xs : List (BitVec B)) : Option (List (BitVec B)) :=
  wordLoop op ws xs 0 ws.length

/-- `operator&`, `|`, `^` (bitwise.hpp 18-32; bitset.hpp 288-293, 300-305, 312-317) -/
def op2 (op : BitVec B → BitVec B → BitVec B) (ws xs : List (BitVec B)) : List (BitVec B) :=
  List.zipWith op ws xs

/-- the loop of the modifying `do_flip` (bitset.hpp 376-381) -/
def flipLoop (ws : List (BitVec B)) (i n : Nat) : Option (List (BitVec B)) :=
  if i < n then do
    let a ← rd ws i
    let ws ← wr ws i (~~~ a)
    flipLoop ws (i + 1) n
  else some ws
partial_fixpoint

/-- `flip()`, modifying (bitset.hpp 1253-1258) -/
def flipAll (N : Nat) (ws : List (BitVec B)) : Option (List (BitVec B)) := do
  let ws ← flipLoop ws 0 ws.length
  sanitize N ws

/-- `flip() const`, `operator~` (bitset.hpp 382-387, 1259-1262, 1276-1279) -/
def complement (N : Nat) (ws : List (BitVec B)) : Option (List (BitVec B)) :=
  sanitize N (ws.map (~~~ ·))

/-- `set()` (bitset.hpp 388-397, 1208-1217) -/
def setAll (N : Nat) (ws : List (BitVec B)) : Option (List (BitVec B)) :=
  sanitize N (ws.map (fun _ => ~~~ (0 : BitVec B)))

/-- `reset()` (bitset.hpp 398-405, 1231-1239) -/
def resetAll (ws : List (BitVec B)) : List (BitVec B) := ws.map (fun _ => 0)

/-- `set(position, val)` (bitset.hpp 1021-1035, 1218-1230) -/
def set (N : Nat) (ws : List (BitVec B)) (pos : Nat) (val : Bool) : Option (Ret (List (BitVec B))) :=
  if pos ≥ N then some (.throw .outOfRange) else do
    let w ← getword ws pos
    let m ← maskbit B pos
    let ws ← setword ws pos (if val then w ||| m else w &&& ~~~ m)
    some (.ret ws)

/-- `reset(position)` (bitset.hpp 1036-1044, 1240-1252) -/
def reset (N : Nat) (ws : List (BitVec B)) (pos : Nat) : Option (Ret (List (BitVec B))) :=
  if pos ≥ N then some (.throw .outOfRange) else do
    let w ← getword ws pos
    let m ← maskbit B pos
    let ws ← setword ws pos (w &&& ~~~ m)
    some (.ret ws)

/-- `flip(position)` (bitset.hpp 1045-1053, 1263-1275) -/
def flip (N : Nat) (ws : List (BitVec B)) (pos : Nat) : Option (Ret (List (BitVec B))) :=
  if pos ≥ N then some (.throw .outOfRange) else do
    let w ← getword ws pos
    let m ← maskbit B pos
    let ws ← setword ws pos (w ^^^ m)
    some (.ret ws)

/-- `unchecked_test`, `operator[] const` (bitset.hpp 1054-1057, 1286-1289) -/
def uncheckedTest (ws : List (BitVec B)) (pos : Nat) : Option Bool := do
  let w ← getword ws pos
  let m ← maskbit B pos
  some (w &&& m != 0)

/-- `test` (bitset.hpp 1357-1362) -/
def test (N : Nat) (ws : List (BitVec B)) (pos : Nat) : Option (Ret Bool) :=
  if pos ≥ N then some (.throw .outOfRange) else do
    let b ← uncheckedTest ws pos
    some (.ret b)

/-- assignment through `reference` (bitset.hpp 953-966, 1282-1285): `b[pos] = x` -/
def refAssign (ws : List (BitVec B)) (pos : Nat) (x : Bool) : Option (List (BitVec B)) := do
  let w ← getword ws pos
  let m ← maskbit B (whichbit B pos)
  setword ws pos (if x then w ||| m else w &&& ~~~ m)

/-- `operator==` (bitset.hpp 407-410, 636-639, 794-797, 1349-1352) -/
def eq (ws xs : List (BitVec B)) : Bool := decide (ws = xs)

/-! ### shifts -/

/-- word `i` of `do_left_shift_impl_1/2` (bitset.hpp 140-169) -/
def leftWord (ws : List (BitVec B)) (wshift offset i : Nat) : Option (BitVec B) :=
  if offset = 0 then
    if i ≥ wshift then rd ws (i - wshift) else some 0
  else if i > wshift then do
    let a ← rd ws (i - wshift)
    let a ← wshl a offset
    let b ← rd ws (i - wshift - 1)
    let b ← wshr b (B - offset)
    some (a ||| b)
  else if i = wshift then do
    let a ← rd ws 0
    wshl a offset
  else some 0

/-- `do_left_shift(shift) const` (bitset.hpp 170-182, 337-345, 599-602, 765-768) -/
def leftConst (ws : List (BitVec B)) (shift : Nat) : Option (List (BitVec B)) :=
  match ws with
  | [] => some []
  | [w] => (wshl w shift).map (fun v => [v])
  | _ => if shift ≠ 0 then (List.range ws.length).mapM (leftWord ws (shift / B) (shift % B)) else some ws

/-- `operator<<` (bitset.hpp 1375-1381) -/
def shl (N : Nat) (ws : List (BitVec B)) (pos : Nat) : Option (List (BitVec B)) :=
  if pos < N then do
    let ws ← leftConst ws pos
    sanitize N ws
  else some (resetAll ws)

/-- `for (n = N - 1; n >= wshift; --n) w_[n] = w_[n - wshift]` (bitset.hpp 324-326) -/
def leftLoop1 (ws : List (BitVec B)) (wshift n : Nat) : Option (List (BitVec B)) :=
  if n ≥ wshift then do
    let a ← rd ws (n - wshift)
    let ws ← wr ws n a
    leftLoop1 ws wshift (n - 1)
  else some ws
partial_fixpoint

/-- `for (n = N - 1; n > wshift; --n) ...` (bitset.hpp 328-331) -/
def leftLoop2 (ws : List (BitVec B)) (wshift offset n : Nat) : Option (List (BitVec B)) :=
  if n > wshift then do
    let a ← rd ws (n - wshift)
    let a ← wshl a offset
    let b ← rd ws (n - wshift - 1)
    let b ← wshr b (B - offset)
    let ws ← wr ws n (a ||| b)
    leftLoop2 ws wshift offset (n - 1)
  else some ws
partial_fixpoint

/-- `sprout::fill(w_ + i, w_ + n, 0)` -/
def zeroFill (ws : List (BitVec B)) (i n : Nat) : Option (List (BitVec B)) :=
  if i < n then do
    let ws ← wr ws i 0
    zeroFill ws (i + 1) n
  else some ws
partial_fixpoint

/-- the branch on `offset` of the modifying `do_left_shift` (bitset.hpp 323-333) -/
def leftBody (ws : List (BitVec B)) (wshift offset : Nat) : Option (List (BitVec B)) :=
  if offset = 0 then leftLoop1 ws wshift (ws.length - 1)
  else do
    let ws ← leftLoop2 ws wshift offset (ws.length - 1)
    let a ← rd ws 0
    let a ← wshl a offset
    wr ws wshift a

/-- the modifying `do_left_shift` (bitset.hpp 318-336, 595-598, 763-764) -/
def leftMut (ws : List (BitVec B)) (shift : Nat) : Option (List (BitVec B)) :=
  match ws with
  | [] => some []
  | [w] => (wshl w shift).map (fun v => [v])
  | _ =>
    if shift ≠ 0 then do
      let ws ← leftBody ws (shift / B) (shift % B)
      zeroFill ws 0 (shift / B)
    else some ws

/-- `operator<<=` (bitset.hpp 1188-1197) -/
def shlAssign (N : Nat) (ws : List (BitVec B)) (pos : Nat) : Option (List (BitVec B)) :=
  if pos < N then do
    let ws ← leftMut ws pos
    sanitize N ws
  else some (resetAll ws)

/-- word `i` of `do_right_shift_impl_1/2` (bitset.hpp 183-213) -/
def rightWord (ws : List (BitVec B)) (wshift offset limit i : Nat) : Option (BitVec B) :=
  if offset = 0 then
    if i ≤ limit then rd ws (i + wshift) else some 0
  else if i < limit then do
    let a ← rd ws (i + wshift)
    let a ← wshr a offset
    let b ← rd ws (i + wshift + 1)
    let b ← wshl b (B - offset)
    some (a ||| b)
  else if i = limit then do
    let a ← rd ws (ws.length - 1)
    wshr a offset
  else some 0

/-- `do_right_shift(shift) const` (bitset.hpp 214-226, 366-375, 607-610, 771-774) -/
def rightConst (ws : List (BitVec B)) (shift : Nat) : Option (List (BitVec B)) :=
  match ws with
  | [] => some []
  | [w] => (wshr w shift).map (fun v => [v])
  | _ =>
    if shift ≠ 0 then
      (List.range ws.length).mapM (rightWord ws (shift / B) (shift % B) (ws.length - shift / B - 1))
    else some ws

/-- `operator>>` (bitset.hpp 1382-1388) -/
def shr (N : Nat) (ws : List (BitVec B)) (pos : Nat) : Option (List (BitVec B)) :=
  if pos < N then do
    let ws ← rightConst ws pos
    sanitize N ws
  else some (resetAll ws)

/-- `for (n = 0; n <= limit; ++n) w_[n] = w_[n + wshift]` (bitset.hpp 353-355) -/
def rightLoop1 (ws : List (BitVec B)) (wshift limit n : Nat) : Option (List (BitVec B)) :=
  if n ≤ limit then do
    let a ← rd ws (n + wshift)
    let ws ← wr ws n a
    rightLoop1 ws wshift limit (n + 1)
  else some ws
partial_fixpoint

/-- `for (n = 0; n < limit; ++n) ...` (bitset.hpp 357-360) -/
def rightLoop2 (ws : List (BitVec B)) (wshift offset limit n : Nat) : Option (List (BitVec B)) :=
  if n < limit then do
    let a ← rd ws (n + wshift)
    let a ← wshr a offset
    let b ← rd ws (n + wshift + 1)
    let b ← wshl b (B - offset)
    let ws ← wr ws n (a ||| b)
    rightLoop2 ws wshift offset limit (n + 1)
  else some ws
partial_fixpoint

/-- the branch on `offset` of the modifying `do_right_shift` (bitset.hpp 352-362) -/
def rightBody (ws : List (BitVec B)) (wshift offset limit : Nat) : Option (List (BitVec B)) :=
  if offset = 0 then rightLoop1 ws wshift limit 0
  else do
    let ws ← rightLoop2 ws wshift offset limit 0
    let a ← rd ws (ws.length - 1)
    let a ← wshr a offset
    wr ws limit a

/-- the modifying `do_right_shift` (bitset.hpp 346-365, 603-606, 769-770) -/
def rightMut (ws : List (BitVec B)) (shift : Nat) : Option (List (BitVec B)) :=
  match ws with
  | [] => some []
  | [w] => (wshr w shift).map (fun v => [v])
  | _ =>
    if shift ≠ 0 then do
      let ws ← rightBody ws (shift / B) (shift % B) (ws.length - shift / B - 1)
      zeroFill ws (ws.length - shift / B - 1 + 1) ws.length
    else some ws

/-- `operator>>=` (bitset.hpp 1198-1207) -/
def shrAssign (N : Nat) (ws : List (BitVec B)) (pos : Nat) : Option (List (BitVec B)) :=
  if pos < N then do
    let ws ← rightMut ws pos
    sanitize N ws
  else some (resetAll ws)

/-! ### counting, scanning, conversions -/

/-- `count` (bitset.hpp 78-84, 422-425, 649-652, 807-810): `accumulate` of `lhs + popcount(rhs)` -/
def count (ws : List (BitVec B)) : Option Nat :=
  ws.foldlM (fun acc w => do let p ← popcount w; some (acc + p)) 0

/-- `any` (bitset.hpp 418-421, 645-648, 803-806) -/
def any (ws : List (BitVec B)) : Bool := ws.any (fun w => w != 0)

/-- `none` (bitset.hpp 1371-1374) -/
def isNone (ws : List (BitVec B)) : Bool := !any ws

/-- `all` (bitset.hpp 411-417, 640-644, 798-802, 1363-1366) -/
def all (N : Nat) (ws : List (BitVec B)) : Option Bool :=
  match ws with
  | [] => some true
  | _ =>
    if ws.dropLast.all (fun w => w == ~~~ (0 : BitVec B)) then do
      let h ← hiword ws
      let m ← wshr (~~~ (0 : BitVec B)) (ws.length * B - N)
      some (h == m)
    else some false

/-- `find_first_impl` (bitset.hpp 105-116) over the remaining words -/
def findFirstImpl (notFound : Nat) (ws : List (BitVec B)) (i : Nat) : Option Int :=
  match ws with
  | [] => some notFound
  | w :: rest =>
    if w ≠ 0 then do
      let c ← ctz w
      some ((i * B : Nat) + c)
    else findFirstImpl notFound rest (i + 1)

/-- `base_bitset::find_first` (bitset.hpp 450-453, 663-668, 821-824) -/
def findFirst (notFound : Nat) (ws : List (BitVec B)) : Option Int :=
  match ws with
  | [] => some 0
  | [w] => if w ≠ 0 then ctz w else some notFound
  | _ => findFirstImpl notFound ws 0

/-- `base_bitset::find_next` (bitset.hpp 117-139, 454-459, 669-674, 825-828). In the code the recursive call of
`find_next_impl_2` (line 126) lacks its last argument, so the member of a multi-word bitset does not compile; this is the
function with that argument, `i + 1`, supplied as in `find_first_impl`. -/
def findNext (notFound : Nat) (ws : List (BitVec B)) (prev : Nat) : Option Int :=
  match ws with
  | [] => some 0
  | [w] =>
    if prev + 1 ≥ B then some notFound else do
      let x ← wshr w (prev + 1)
      if x ≠ 0 then do
        let c ← ctz x
        some (c + (prev + 1 : Nat))
      else some notFound
  | _ =>
    if prev + 1 ≥ ws.length * B then some notFound else do
      let w ← rd ws (whichword B (prev + 1))
      let m ← wshl (~~~ (0 : BitVec B)) (whichbit B (prev + 1))
      if w &&& m ≠ 0 then do
        let c ← ctz (w &&& m)
        some ((whichword B (prev + 1) * B : Nat) + c)
      else findFirstImpl notFound (ws.drop (whichword B (prev + 1) + 1)) (whichword B (prev + 1) + 1)

/-- `to_ullong` (bitset.hpp 434-448, 658-661, 816-819); `unsigned long long` has 64 bits -/
def toUllong (ws : List (BitVec B)) : Option (Ret (BitVec 64)) :=
  match ws with
  | [] => some (.ret 0)
  | [w] => some (.ret (w.setWidth 64))
  | w0 :: w1 :: rest =>
    if (if 64 > B then rest else w1 :: rest).any (fun t => t != 0) then some (.throw .overflow)
    else if 64 > B then do
      let h ← wshl (w1.setWidth 64) B
      some (.ret (w0.setWidth 64 + h))
    else some (.ret (w0.setWidth 64))

/-- `to_ulong` (bitset.hpp 427-433, 654-657, 812-815) -/
def toUlong (ws : List (BitVec B)) : Ret (BitVec B) :=
  match ws with
  | [] => .ret 0
  | [w] => .ret w
  | w0 :: rest => if rest.any (fun t => t != 0) then .throw .overflow else .ret w0

/-- `sanitize_val` (bitset.hpp 862-877) -/
def sanitizeVal (N : Nat) (val : BitVec 64) : Option (BitVec 64) :=
  if N < 64 then do
    let m ← wshl (~~~ (0 : BitVec 64)) N
    some (val &&& ~~~ m)
  else some val

/-- `bitset(unsigned long long val)` (bitset.hpp 232-234, 522-524, 710, 1113-1115) -/
def ofUllong (B N : Nat) (val : BitVec 64) : Option (List (BitVec B)) := do
  let v ← sanitizeVal N val
  match nwords B N with
  | 0 => some []
  | 1 => some [v.setWidth B]
  | k + 2 => do
    let h ← wshr v B
    some (v.setWidth B :: h.setWidth B :: List.replicate k 0)

variable {χ : Type} [DecidableEq χ]

/-- one iteration of the loop of `copy_from_ptr` (bitset.hpp 1065-1071) -/
def stringStep (ws : List (BitVec B)) (c zero one : χ) (i : Nat) : Option (Ret (List (BitVec B))) :=
  if c = zero then some (.ret ws)
  else if c = one then do
    let w ← getword ws (i - 1)
    let m ← maskbit B (i - 1)
    let ws ← setword ws (i - 1) (w ||| m)
    some (.ret ws)
  else some (.throw .invalidArgument)

/-- the loop of `copy_from_ptr` (bitset.hpp 1064-1072) -/
def stringLoop (ws : List (BitVec B)) (s : List χ) (pos nbits : Nat) (zero one : χ) (i : Nat) :
    Option (Ret (List (BitVec B))) :=
  if i > 0 then do
    let c ← rd s (pos + nbits - i)
    let r ← stringStep ws c zero one i
    match r with
    | .ret ws => stringLoop ws s pos nbits zero one (i - 1)
    | .throw e => some (.throw e)
  else some (.ret ws)
partial_fixpoint

/-- `bitset(std::basic_string const& s, position, n, zero, one)` (bitset.hpp 1059-1073, 1116-1146) -/
def ofString (B N : Nat) (s : List χ) (position n : Nat) (zero one : χ) : Option (Ret (List (BitVec B))) :=
  if position > s.length then some (.throw .outOfRange)
  else
    let nbits := min N (min n (s.length - position))
    stringLoop (List.replicate (nwords B N) 0) s position nbits zero one nbits

/-- the loop of `copy_to_string` (bitset.hpp 1087-1091) -/
def toStringLoop (N : Nat) (ws : List (BitVec B)) (s : List χ) (one : χ) (i : Nat) : Option (List χ) :=
  if i > 0 then do
    let b ← uncheckedTest ws (i - 1)
    let s ← if b then wr s (N - i) one else some s
    toStringLoop N ws s one (i - 1)
  else some s
partial_fixpoint

/-- `to_string(zero, one)` (bitset.hpp 1083-1092, 1298-1311) -/
def toStr (N : Nat) (ws : List (BitVec B)) (zero one : χ) : Option (List χ) :=
  toStringLoop N ws (List.replicate N zero) one N

end Bitset
end Sprout

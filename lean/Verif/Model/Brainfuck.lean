import Verif.Model.ConstMod
import Verif.Model.Exn

/-!
# The brainfuck interpreter: `sprout/brainfuck/brainfuck.hpp`

Source, tape, input and output are lists of code units (`Int`). An iterator into the source is a position; reading outside the source and stepping
before its beginning is undefined (`none`). `std::size_t` has 64 bits. The element type of the source is `T` (it is also that of the tape), that of
the output is `To`. The functions are tail recursive; the recursion may diverge (`none`).
-/

namespace Sprout.BF

/-- `find_scope_end` (brainfuck.hpp 30-40) -/
def findScopeEnd (src : List Int) (i : Nat) (count : Nat) : Option Nat := do
  let c ← rd src i
  if c = 91 then findScopeEnd src (i + 1) (count + 1)
  else if c = 93 then
    (if count = 0 then some i else findScopeEnd src (i + 1) (count - 1))
  else findScopeEnd src (i + 1) count
partial_fixpoint

/-- `sprout::prev(first)`: before the beginning it is undefined -/
def prev (i : Nat) : Option Nat := if i = 0 then none else some (i - 1)

/-- `find_scope_start` (brainfuck.hpp 42-52); the step to `prev` is part of the recursive call -/
def findScopeStart (src : List Int) (i : Nat) (count : Nat) : Option Nat := do
  let c ← rd src i
  if c = 93 then (do
    let j ← prev i
    findScopeStart src j (count + 1))
  else if c = 91 then
    (if count = 0 then some i else do
      let j ← prev i
      findScopeStart src j (count - 1))
  else do
    let j ← prev i
    findScopeStart src j count
partial_fixpoint

/-- `detail::is_well_formed` (brainfuck.hpp 54-65) -/
def isWellFormedC (count : Nat) : List Int → Bool
  | [] => count == 0
  | c :: s => if c = 91 then isWellFormedC (count + 1) s
    else if c = 93 then count != 0 && isWellFormedC (count - 1) s
    else isWellFormedC count s

/-- `is_well_formed` (brainfuck.hpp 217-221) -/
def isWellFormed (s : List Int) : Bool := isWellFormedC 0 s

/-- the arguments of `exec_impl` (brainfuck.hpp 72-76) that change: `first`, the rest of the input, `buffer`, `out_buffer`, `pos`, `out_pos` -/
structure St where
  ip : Nat
  inp : List Int
  buf : List Int
  out : List Int
  pos : Nat
  opos : Nat
  deriving DecidableEq

/-- `buffer.at(pos)` (`sprout::array`): `std::out_of_range` outside -/
def at' (b : List Int) (i : Nat) : Ret Int := match b[i]? with
  | some v => .ret v
  | none => .throw .outOfRange

/-- `sprout::fixed::set(cont, pos, v)` (operation/fixed/set.hpp 32-71): a copy whose element at `next(begin, pos)` is replaced; forming an iterator
beyond the end is undefined; nothing is replaced at the end -/
def fset (b : List Int) (i : Nat) (v : Int) : Option (List Int) := if i ≤ b.length then some (b.set i v) else none

/-- `value_type(buffer.at(pos) + d)` stored at `pos` (brainfuck.hpp 99 and 104) -/
def bump (T : CInt) (s : St) (d : Int) : Option (Ret St) := match at' s.buf s.pos with
  | .throw e => some (.throw e)
  | .ret v => do
    let w ← T.ar (v + d)
    let b ← fset s.buf s.pos w
    some (.ret { s with ip := s.ip + 1, buf := b })

/-- one evaluation of the conditional of `exec_impl` (brainfuck.hpp 86-140), giving the arguments of the tail call. `sub` is the character that line
101 tests for; in the code it is `'+'` once more. -/
def step (sub : Int) (T To : CInt) (src : List Int) (s : St) : Option (Ret St) := do
  let c ← rd src s.ip
  if c = 62 then some (.ret { s with ip := s.ip + 1, pos := (s.pos + 1) % 2 ^ 64 })
  else if c = 60 then some (.ret { s with ip := s.ip + 1, pos := (s.pos + (2 ^ 64 - 1)) % 2 ^ 64 })
  else if c = 43 then bump T s 1
  else if c = sub then bump T s (-1)
  else if c = 46 then
    (if s.opos ≠ s.out.length then
      (match at' s.buf s.pos with
        | .throw e => some (.throw e)
        | .ret v => do
          let o ← fset s.out s.opos (To.conv v)
          some (.ret { s with ip := s.ip + 1, out := o, opos := s.opos + 1 }))
    else some (.throw .outOfRange))
  else if c = 44 then
    (match s.inp with
      | [] => some (.throw .outOfRange)
      | x :: r => do
        let b ← fset s.buf s.pos (T.conv x)
        some (.ret { s with ip := s.ip + 1, inp := r, buf := b }))
  else if c = 91 then
    (match at' s.buf s.pos with
      | .throw e => some (.throw e)
      | .ret v => if v = 0 then do
          let e ← findScopeEnd src (s.ip + 1) 0
          some (.ret { s with ip := e + 1 })
        else some (.ret { s with ip := s.ip + 1 }))
  else if c = 93 then
    (match at' s.buf s.pos with
      | .throw e => some (.throw e)
      | .ret v => if v ≠ 0 then do
          let j ← prev s.ip
          let e ← findScopeStart src j 0
          some (.ret { s with ip := e + 1 })
        else some (.ret { s with ip := s.ip + 1 }))
  else some (.ret { s with ip := s.ip + 1 })

/-- the result `sprout::fixed::copy(begin(out_buffer), next(begin(out_buffer), min(out_pos, size)), output)` (brainfuck.hpp 81-85;
algorithm/fixed/copy.hpp): the elements of `output`, the first ones replaced -/
def finish (output : List Int) (s : St) : List Int :=
  s.out.take (min s.opos s.out.length) ++ output.drop (min s.opos s.out.length)

/-- `exec_impl` (brainfuck.hpp 67-141) -/
def execImpl (sub : Int) (T To : CInt) (src output : List Int) (s : St) : Option (Ret (List Int)) :=
  if s.ip = src.length then some (.ret (finish output s))
  else do
    let r ← step sub T To src s
    match r with
    | .throw e => some (.throw e)
    | .ret s' => execImpl sub T To src output s'
partial_fixpoint

/-- `exec` (brainfuck.hpp 147-160): `sprout::array<…>{{}}` has zero elements -/
def execS (sub : Int) (T To : CInt) (N : Nat) (src output inp : List Int) : Option (Ret (List Int)) :=
  execImpl sub T To src output ⟨0, inp, List.replicate N 0, List.replicate output.length 0, 0, 0⟩

/-- the code: line 101 tests for `'+'` -/
def exec (T To : CInt) (N : Nat) (src output inp : List Int) : Option (Ret (List Int)) := execS 43 T To N src output inp

/-- the code with line 101 repaired: `'-'` -/
def execFixed (T To : CInt) (N : Nat) (src output inp : List Int) : Option (Ret (List Int)) := execS 45 T To N src output inp

end Sprout.BF

import Verif.Model.CInt

/-!
# The language brainfuck, independently of the interpreter

Programs are trees; brackets are matched by the tree structure. Cells are integers of type `T` with wrap-around; the tape has a fixed number of cells;
the output is limited to `M` characters.
-/

namespace Sprout.Spec.BF

/-- a program: characters other than brackets, and loops -/
inductive Prog
  | nil
  | op (c : Int) (h : c ≠ 91 ∧ c ≠ 93) (rest : Prog)
  | loop (body rest : Prog)

/-- the text of a program: `[` is 91, `]` is 93 -/
def text : Prog → List Int
  | .nil => []
  | .op c _ r => c :: text r
  | .loop b r => 91 :: (text b ++ 93 :: text r)

structure State where
  tape : List Int
  ptr : Int
  inp : List Int
  out : List Int

/-- outcome: final state; error (access outside of the tape, no input left, no room for output); undefined (signed overflow of a cell as wide as `int`;
reading input into a cell outside of the tape) -/
inductive Res
  | done (s : State)
  | error
  | undef

/-- the current cell -/
def cell (s : State) : Option Int := if 0 ≤ s.ptr then s.tape[s.ptr.toNat]? else none

/-- store into the current cell -/
def put (s : State) (x : Int) : State := { s with tape := s.tape.set s.ptr.toNat x }

/-- add to the current cell -/
def addCell (T : CInt) (s : State) (d : Int) : Res := match cell s with
  | none => .error
  | some v => if T.w < 32 ∨ T.sg = false ∨ T.Has (v + d) then .done (put s (T.conv (v + d))) else .undef

/-- the six simple instructions; all other characters are comments -/
def instr (T To : CInt) (M : Nat) (c : Int) (s : State) : Res :=
  if c = 62 /- > -/ then .done { s with ptr := s.ptr + 1 }
  else if c = 60 /- < -/ then .done { s with ptr := s.ptr - 1 }
  else if c = 43 /- + -/ then addCell T s 1
  else if c = 45 /- - -/ then addCell T s (-1)
  else if c = 46 /- . -/ then
    if s.out.length = M then .error else
      match cell s with
      | none => .error
      | some v => .done { s with out := s.out ++ [To.conv v] }
  else if c = 44 /- , -/ then
    match s.inp with
    | [] => .error
    | x :: r => match cell s with
      | none => .undef
      | some _ => .done (put { s with inp := r } (T.conv x))
  else .done s

/-- big-step semantics -/
inductive Exec (T To : CInt) (M : Nat) : Prog → State → Res → Prop
  | nil (s) : Exec T To M .nil s (.done s)
  | op {c h r s s' o} : instr T To M c s = .done s' → Exec T To M r s' o → Exec T To M (.op c h r) s o
  | opErr {c h r s} : instr T To M c s = .error → Exec T To M (.op c h r) s .error
  | opUndef {c h r s} : instr T To M c s = .undef → Exec T To M (.op c h r) s .undef
  | skip {b r s o} : cell s = some 0 → Exec T To M r s o → Exec T To M (.loop b r) s o
  | iter {b r s v s' o} : cell s = some v → v ≠ 0 → Exec T To M b s (.done s') → Exec T To M (.loop b r) s' o → Exec T To M (.loop b r) s o
  | iterErr {b r s v} : cell s = some v → v ≠ 0 → Exec T To M b s .error → Exec T To M (.loop b r) s .error
  | iterUndef {b r s v} : cell s = some v → v ≠ 0 → Exec T To M b s .undef → Exec T To M (.loop b r) s .undef
  | loopErr {b r s} : cell s = none → Exec T To M (.loop b r) s .error

/-- the characters of a program that are not brackets -/
def ops : Prog → List Int
  | .nil => []
  | .op c _ r => c :: ops r
  | .loop b r => ops b ++ ops r

/-- the initial state: a tape of `N` zeros -/
def start (N : Nat) (inp : List Int) : State := ⟨List.replicate N 0, 0, inp, []⟩

end Sprout.Spec.BF

/-!
# Compressed pairs (`sprout/compressed_pair.hpp`)

An object is its subobjects: the bases `T1` and `T2` and the members `first_` and `second_`. A version of `compressed_pair_impl` has some of them;
to initialise or name one that is absent makes the program ill-formed, and to read one that is indeterminate is undefined (both `none`).
Simplifications: a class derived from one of the other is not considered; `d1`, `d2` are the results of default-initialisation (`none`:
indeterminate).
-/

namespace Sprout.CompPair

variable {α β : Type}

/-- a subobject -/
inductive Cell (α : Type)
  | absent
  | indet
  | val (a : α)
  deriving DecidableEq

/-- the subobjects -/
structure St (α β : Type) where
  b1 : Cell α
  b2 : Cell β
  m1 : Cell α
  m2 : Cell β
  deriving DecidableEq

/-- `compressed_pair_switch` (19-44), from: the types are the same, the first is empty, the second is empty -/
def switch : Bool → Bool → Bool → Option Nat
  | false, false, false => some 0
  | false, true, false => some 1
  | false, false, true => some 2
  | false, true, true => some 3
  | true, true, true => some 4
  | true, false, false => some 5
  | _, _, _ => none

/-- default-initialisation -/
def dflt (d : Option α) : Cell α := match d with
  | some a => .val a
  | none => .indet

/-- the subobjects of each version (0: 59-61; 1: 101, 112-113; 2: 148, 159-160; 3: 196-197; 4: 239, 250-251; 5: 291-293), default-initialised -/
def layout (d1 : Option α) (d2 : Option β) : Nat → St α β
  | 0 => ⟨.absent, .absent, dflt d1, dflt d2⟩
  | 1 => ⟨dflt d1, .absent, .absent, dflt d2⟩
  | 2 => ⟨dflt d1, .absent, dflt d1, .absent⟩
  | 3 => ⟨dflt d1, dflt d2, .absent, .absent⟩
  | 4 => ⟨dflt d1, .absent, .absent, dflt d2⟩
  | _ => ⟨.absent, .absent, dflt d1, dflt d2⟩

/-- an initialiser `b(x)` -/
def put : Cell α → α → Option (Cell α)
  | .absent, _ => none
  | _, a => some (.val a)

/-- to read -/
def read : Cell α → Option α
  | .val a => some a
  | _ => none

/-- where each version keeps the first: in a base or in a member (0: 77-82; 1: 128-133; 2: 176-181; 3: 223-228; 4: 265-270; 5: 307-312) -/
def firstBase : Nat → Bool
  | 0 => false
  | 1 => true
  | 2 => false
  | 3 => true
  | 4 => true
  | _ => false

/-- where each version keeps the second (0: 83-88; 1: 134-139; 2: 182-187; 3: 229-234; 4: 271-276; 5: 313-318) -/
def secondBase : Nat → Bool
  | 0 => false
  | 1 => false
  | 2 => true
  | 3 => true
  | 4 => false
  | _ => false

/-- the initialiser of the first -/
def setFirst (v : Nat) (s : St α β) (x : α) : Option (St α β) :=
  if firstBase v then (put s.b1 x).map fun c => { s with b1 := c } else (put s.m1 x).map fun c => { s with m1 := c }

/-- the initialiser of the second -/
def setSecond (v : Nat) (s : St α β) (y : β) : Option (St α β) :=
  if secondBase v then (put s.b2 y).map fun c => { s with b2 := c } else (put s.m2 y).map fun c => { s with m2 := c }

/-- `first()` -/
def first (v : Nat) (s : St α β) : Option α := read (if firstBase v then s.b1 else s.m1)

/-- `second()` -/
def second (v : Nat) (s : St α β) : Option β := read (if secondBase v then s.b2 else s.m2)

/-- `compressed_pair_impl(x, y)` (67-70, 118-121, 166-169, 213-216, 257-260, 299-302) -/
def mk2 (d1 : Option α) (d2 : Option β) (v : Nat) (x : α) (y : β) : Option (St α β) := do
  let s ← setFirst v (layout d1 d2 v) x
  setSecond v s y

/-- `compressed_pair_impl(first_param_type x)` (71-73, 122-124, 170-172, 217-219; 261-264, 303-306, where the second is initialised, too, by the
conversion `c`) -/
def mk1 (d1 : Option α) (d2 : Option β) (c : α → β) (v : Nat) (x : α) : Option (St α β) := do
  let s ← setFirst v (layout d1 d2 v) x
  if v < 4 then some s else setSecond v s (c x)

/-- exchange of two members -/
def swapCell (a b : Cell α) : Option (Cell α × Cell α) :=
  match a, b with
  | .absent, _ => none
  | _, .absent => none
  | a, b => some (b, a)

/-- `swap` (0: 89-97; 1: 140-144; 2: 188-192; 3: 235; 4: 277; 5: 319-327): the empty ones are not exchanged -/
def swap (v : Nat) (s t : St α β) : Option (St α β × St α β) :=
  match v with
  | 1 => do
    let (c, d) ← swapCell s.m2 t.m2
    some ({ s with m2 := c }, { t with m2 := d })
  | 2 => do
    let (a, b) ← swapCell s.m1 t.m1
    some ({ s with m1 := a }, { t with m1 := b })
  | 3 => some (s, t)
  | 4 => some (s, t)
  | _ => do
    let (a, b) ← swapCell s.m1 t.m1
    let (c, d) ← swapCell s.m2 t.m2
    some ({ s with m1 := a, m2 := c }, { t with m1 := b, m2 := d })

end Sprout.CompPair

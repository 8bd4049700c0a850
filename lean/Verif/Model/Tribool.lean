/-!
# Three-valued logic (`sprout/logic/tribool/tribool.hpp`, `sprout/logic/tribool/io.hpp`, `sprout/logic/tribool/hash.hpp`)

The keyword `indeterminate` is a function; arguments of its type have no value.
-/

namespace Sprout

/-- `tribool::value_t`: tribool.hpp 36-40 -/
inductive Tribool
  | false_value
  | true_value
  | indeterminate_value
  deriving DecidableEq

namespace Tribool

/-- the default constructor: 44-46 -/
def default : Tribool := false_value

/-- `tribool(bool)`: 47-49 -/
def ofBool (b : Bool) : Tribool := if b then true_value else false_value

/-- `tribool(indeterminate)`: 50-52 -/
def ofKeyword : Tribool := indeterminate_value

/-- conversion to `bool` (through `safe_bool`): 53-55 -/
def toBool (x : Tribool) : Bool := decide (x = true_value)

/-- `indeterminate(x)`: 61-64, and what `SPROUT_TRIBOOL_THIRD_STATE` (192-196) defines -/
def indeterminate (x : Tribool) : Bool := decide (x = indeterminate_value)

/-- `!x`: 69-75 -/
def not (x : Tribool) : Tribool :=
  if x = false_value then ofBool true
  else if x = true_value then ofBool false
  else ofKeyword

/-- `lhs && rhs`: 80-86 -/
def and (lhs rhs : Tribool) : Tribool :=
  if (not lhs).toBool || (not rhs).toBool then ofBool false
  else if lhs.toBool && rhs.toBool then ofBool true
  else ofKeyword

/-- `lhs && rhs`, `rhs` a `bool`: 87-90 -/
def andBool (lhs : Tribool) (rhs : Bool) : Tribool := if rhs then lhs else ofBool false

/-- `lhs && rhs`, `lhs` a `bool`: 92-95 -/
def boolAnd (lhs : Bool) (rhs : Tribool) : Tribool := if lhs then rhs else ofBool false

/-- `indeterminate && lhs`: 97-100 -/
def keyAnd (lhs : Tribool) : Tribool := if (not lhs).toBool then ofBool false else ofKeyword

/-- `lhs && indeterminate`: 101-104 -/
def andKey (lhs : Tribool) : Tribool := if (not lhs).toBool then ofBool false else ofKeyword

/-- `lhs || rhs`: 109-115 -/
def or (lhs rhs : Tribool) : Tribool :=
  if (not lhs).toBool && (not rhs).toBool then ofBool false
  else if lhs.toBool || rhs.toBool then ofBool true
  else ofKeyword

/-- `lhs || rhs`, `rhs` a `bool`: 116-119 -/
def orBool (lhs : Tribool) (rhs : Bool) : Tribool := if rhs then ofBool true else lhs

/-- `lhs || rhs`, `lhs` a `bool`: 120-123 -/
def boolOr (lhs : Bool) (rhs : Tribool) : Tribool := if lhs then ofBool true else rhs

/-- `indeterminate || lhs`: 124-127 -/
def keyOr (lhs : Tribool) : Tribool := if lhs.toBool then ofBool true else ofKeyword

/-- `lhs || indeterminate`: 128-131 -/
def orKey (lhs : Tribool) : Tribool := if lhs.toBool then ofBool true else ofKeyword

/-- `lhs == rhs`: 136-142 -/
def eq (lhs rhs : Tribool) : Tribool :=
  if lhs.indeterminate || rhs.indeterminate then ofKeyword else or (and lhs rhs) (and (not lhs) (not rhs))

/-- `lhs == rhs`, `rhs` a `bool`: 143-146 -/
def eqBool (lhs : Tribool) (rhs : Bool) : Tribool := eq lhs (ofBool rhs)

/-- `lhs == rhs`, `lhs` a `bool`: 147-150 -/
def boolEq (lhs : Bool) (rhs : Tribool) : Tribool := eq (ofBool lhs) rhs

/-- `indeterminate == lhs`, `lhs == indeterminate`: 151-158 -/
def keyEq (lhs : Tribool) : Tribool := eq ofKeyword lhs

/-- `lhs != rhs`: 163-169 -/
def ne (lhs rhs : Tribool) : Tribool :=
  if lhs.indeterminate || rhs.indeterminate then ofKeyword else not (or (and lhs rhs) (and (not lhs) (not rhs)))

/-- `lhs != rhs`, `rhs` a `bool`: 170-173 -/
def neBool (lhs : Tribool) (rhs : Bool) : Tribool := ne lhs (ofBool rhs)

/-- `lhs != rhs`, `lhs` a `bool`: 174-177 -/
def boolNe (lhs : Bool) (rhs : Tribool) : Tribool := ne (ofBool lhs) rhs

/-- `indeterminate != lhs`, `lhs != indeterminate`: 178-185 -/
def keyNe (lhs : Tribool) : Tribool := ne ofKeyword lhs

/-- `hash_value`: hash.hpp 43-46; the keyword (23-37) has the value of `indeterminate_value` -/
def hash : Tribool → Nat
  | false_value => 0
  | true_value => 1
  | indeterminate_value => 2

/-! ### streams

The flag `boolalpha` and the names of the three values belong to the stream and its locale (io.hpp 105-114). White space which the sentry
skips is not part of the sequence of characters. Extraction and insertion of numbers are those of the standard library. -/

variable {χ : Type}

/-- the names `falsename`, `truename`, `othername` -/
structure Names (χ : Type) where
  falsename : List χ
  truename : List χ
  othername : List χ

/-- `operator<<` with `boolalpha`: io.hpp 66-89; `bool` is written as `truename` or `falsename` -/
def putAlpha (n : Names χ) (x : Tribool) : List χ :=
  if !x.indeterminate then (if x.toBool then n.truename else n.falsename) else n.othername

/-- `operator<<` without `boolalpha`: 69-70, 84 -/
def putNum (x : Tribool) : Nat := if !x.indeterminate then (if x.toBool then 1 else 0) else 2

/-- `operator>>` without `boolalpha`: 178-193, of the number read; none sets `failbit` and keeps the variable -/
def getNum (value : Int) : Option Tribool :=
  if value = 0 then some (ofBool false)
  else if value = 1 then some (ofBool true)
  else if value = 2 then some ofKeyword
  else none

/-- the variables of the loop -/
structure St where
  pos : Nat
  falsename_ok : Bool
  truename_ok : Bool
  othername_ok : Bool

variable [DecidableEq χ]

/-- one of the blocks 129-135, 136-142, 143-149: the flag, and whether the character is matched -/
def test (name : List χ) (pos : Nat) (ok : Bool) (c : χ) : Bool × Bool :=
  if ok && decide (pos < name.length) then
    (if name[pos]? = some c then (ok, true) else (false, false))
  else (ok, false)

/-- the body of the loop: 128-161 -/
def step (n : Names χ) (st : St) (c : χ) : St :=
  let f := test n.falsename st.pos st.falsename_ok c
  let t := test n.truename st.pos st.truename_ok c
  let o := test n.othername st.pos st.othername_ok c
  let pos := if f.2 || t.2 || o.2 then st.pos + 1 else st.pos
  { pos := pos
    falsename_ok := if pos > n.falsename.length then false else f.1
    truename_ok := if pos > n.truename.length then false else t.1
    othername_ok := if pos > n.othername.length then false else o.1 }

/-- the condition of the loop: 119-122 -/
def more (n : Names χ) (st : St) : Bool :=
  st.falsename_ok && decide (st.pos < n.falsename.length)
  || st.truename_ok && decide (st.pos < n.truename.length)
  || st.othername_ok && decide (st.pos < n.othername.length)

/-- the value chosen: 163-175; none sets `failbit` -/
def choose (st : St) : Option Tribool :=
  if st.pos = 0 then none
  else if st.falsename_ok then some (ofBool false)
  else if st.truename_ok then some (ofBool true)
  else if st.othername_ok then some ofKeyword
  else none

/-- the loop: 119-175; the value read (none if the stream has failed or ended) and the rest of the stream -/
def getLoop (n : Names χ) : List χ → St → Option Tribool × List χ
  | [], st => if more n st then (none, []) else (choose st, [])
  | c :: s, st => if more n st then getLoop n s (step n st c) else (choose st, c :: s)

/-- `operator>>` with `boolalpha`: 103-176 -/
def getAlpha (n : Names χ) (s : List χ) : Option Tribool × List χ := getLoop n s ⟨0, true, true, true⟩

end Tribool
end Sprout

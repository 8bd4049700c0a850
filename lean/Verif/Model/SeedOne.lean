import Verif.Model.SeedArray
import Verif.Model.ConstMod
import Verif.Model.StaticInt

/-!
# Seeding of engines (`sprout/random/detail/seed_impl.hpp`)

`IntType` is an unsigned type of `w` bits, 32 or 64. `gen n` stands for the `n` words that `generate` of the seed sequence
gives (C133). `none`: ill-formed, undefined behaviour or a failed assertion.
-/

namespace Sprout.SeedOne
open Mt (forLoop)
open SeedArray (Word)

def uty (w : Nat) : CInt := ⟨w, false⟩

/-- lines 26-33: `seed_log`. Both branches of the `conditional` are named before it chooses, and `static_log2<0>` has no
`value`: there is none for `m == 0` -/
def seedLog (w m : Nat) : Option Nat := do
  let l ← StaticInt.staticLog2 m
  some (if m = 0 then w else l)

/-- lines 34-40: `seed_k`; a negative shift is ill-formed -/
def seedK (w m log : Nat) : Option Nat :=
  if log = 0 then none
  else some ((log + (if (2 ^ w - 1 - (2 * 2 ^ (log - 1)) % 2 ^ w) &&& m ≠ 0 then 32 else 31)) / 32)

/-- `IntType(1) << 32 * j` (lines 48, 77, 91) -/
def shl32 (w j : Nat) : Option Int := if 32 * j < w then some (2 ^ (32 * j)) else none

/-- lines 75-79: one round -/
def body (w m : Nat) (a : List Word) (s : Int) (j : Nat) : Option Int := do
  let x ← rd a (j + 3)
  let digit ← CMod.apply (uty w) m ((uty w).conv x.toNat)
  let mult ← shl32 w j
  CMod.multAdd (uty w) m mult digit s

/-- lines 67-81: `seed_one_int(Sseq&)`; the array has `log / 32 + 4` elements, of which `k + 3` are generated -/
def seedOneInt (w m : Nat) (gen : Nat → Option (List Word)) : Option Int := do
  let log ← seedLog w m
  let k ← seedK w m log
  if k + 3 ≤ log / 32 + 4 then do
    let a ← gen (k + 3)
    forLoop 0 k (body w m a) 0
  else none

/-- A call `f<A₁, …, Aₑ>(args)` of a function template: the parameters after the explicit ones must occur in the types of the
function parameters, otherwise they cannot be deduced and the call is ill-formed. -/
def callable (params : List String) (explicit : Nat) (deducible : List String) : Bool :=
  (params.drop explicit).all fun p => p ∈ deducible

/-- the call in lines 62 and 45 of the template in line 42: `seed_one_int_impl<IntType, m, k>(arr, s, j)` -/
def oneIntCallable : Bool := callable ["IntType", "m", "log", "k", "Array"] 3 ["IntType", "Array"]

/-- the call in lines 106 and 88 of the template in line 83: `get_one_int_impl<IntType, m, k>(first, last, s, j)` -/
def getIntCallable : Bool := callable ["IntType", "m", "log", "k", "InputIterator"] 3 ["IntType", "InputIterator"]

/-- lines 42-56: `seed_one_int_impl` with the argument for `k` that is meant -/
def seedOneImpl (w m k : Nat) (a : List Word) (s : Int) (j : Nat) : Option Int :=
  if j < k then do
    let s ← body w m a s j
    seedOneImpl w m k a s (j + 1)
  else some s
  termination_by k - j

/-- lines 57-66 as meant: what `seed_one_int(Sseq const&)` would compute if its call were well-formed; `log / 32 + 4` words are
generated -/
def seedOneMeant (w m : Nat) (gen : Nat → Option (List Word)) : Option Int := do
  let log ← seedLog w m
  let k ← seedK w m log
  let a ← gen (log / 32 + 4)
  seedOneImpl w m k a 0 0

/-- lines 57-66: `seed_one_int(Sseq const&)` -/
def seedOneConst (w m : Nat) (gen : Nat → Option (List Word)) : Option Int :=
  if oneIntCallable then seedOneMeant w m gen else none

/-- lines 83-100: `get_one_int_impl`; `none` also for the exception of line 97 -/
def getOneImpl (w m k : Nat) (xs : List Word) (s : Int) (j : Nat) : Option Int :=
  if j < k then
    match xs with
    | [] => none
    | x :: xs => do
      let digit ← CMod.apply (uty w) m ((uty w).conv x.toNat)
      let mult ← shl32 w j
      let s ← CMod.multAdd (uty w) m mult digit s
      getOneImpl w m k xs s (j + 1)
  else some s
  termination_by k - j

/-- lines 101-110: `get_one_int(first, last)` -/
def getOneInt (w m : Nat) (xs : List Word) : Option Int :=
  if getIntCallable then do
    let log ← seedLog w m
    let k ← seedK w m log
    getOneImpl w m k xs 0 0
  else none

/-- `init_seed(Sseq&)` of `linear_congruential_engine` (linear_congruential.hpp 66-69) -/
def lcgSeed (w c m : Nat) (gen : Nat → Option (List Word)) : Option Int := do
  let s ← seedOneInt w m gen
  Lcg.initSeed (uty w) c m s

/-! ### Copies

The constructors of `linear_congruential_engine` (linear_congruential.hpp 167-178) that take an engine as their only argument. -/

inductive Ctor
  | copy
  | seq
  | seqConst
  deriving DecidableEq

/-- a constructor with one parameter, a reference -/
structure Cand where
  ctor : Ctor
  isTemplate : Bool
  isExplicit : Bool
  /-- a reference to const -/
  toConst : Bool

/-- `is_seed_seq<T>` (random/type_traits.hpp 21): whether `T` has a member type `result_type`, which every engine has -/
def isSeedSeqEngine : Bool := true

/-- lines 167, 171-172 and 175-176 of linear_congruential.hpp -/
def candidates : List Cand :=
  ⟨.copy, false, false, true⟩ :: if isSeedSeqEngine then [⟨.seq, true, true, false⟩, ⟨.seqConst, true, true, true⟩] else []

/-- the ranking of a candidate for an lvalue (`const`: of a const type): a reference that adds const is worse; between equals a
template is worse -/
def cost (const : Bool) (c : Cand) : Nat := (if c.toConst && !const then 2 else 0) + (if c.isTemplate then 1 else 0)

/-- overload resolution for `E e(x)` (`direct`) and `E e = x`; explicit constructors take part only in the former -/
def chosen (direct const : Bool) : Option Ctor :=
  let cs := candidates.filter fun c => direct || !c.isExplicit
  (cs.find? fun c => cs.all fun d => cost const c ≤ cost const d).map Cand.ctor

/-- the new engine's state; the other constructors call `generate` of their argument, which engines do not have -/
def copyState (direct const : Bool) (x : Int) : Option Int :=
  match chosen direct const with
  | some .copy => some x
  | _ => none

end Sprout.SeedOne

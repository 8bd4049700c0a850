/-!
# What counts as a generator

`sprout/generator/` (`generated_value`, `next_generator`, `next_value`), `sprout/iterator/iterator_traits.hpp`,
`sprout/iterator/type_traits/is_iterator.hpp`, `is_iterator_of.hpp`, `sprout/iterator/generator_iterator.hpp`,
`sprout/algorithm/fixed/generate.hpp`.

Simplifications: a call of a callable object does not fail (calls that fail are in `Verif/Model/RandIter.lean`); no overloads are
found by argument dependent lookup and no traits are specialised, so that the default of `generator_access_traits` and
`generator_generate_traits` is used. `none` is a call that is ill-formed or undefined.
-/

namespace Sprout.GenDispatch

variable {γ ρ : Type}

/-- how the template argument refers to the type of the object -/
inductive RefKind
  | plain | lvalue | rvalue
deriving DecidableEq

/-- the objects to which the functions are applied -/
inductive GObj (γ ρ : Type)
  /-- an object that is called without arguments and returns a pair of a value and such an object -/
  | call (g : γ)
  /-- a pair of a value and a generator -/
  | pair (r : ρ) (o : GObj γ ρ)
  /-- an iterator of class type with the five nested types, at a position of a sequence -/
  | iter (l : List ρ) (pos : Nat)
  /-- a pointer to an element of a sequence -/
  | ptr (l : List ρ) (pos : Nat)
  /-- a `generator_iterator` (generator_iterator.hpp 26-102) over a pair of a value and a generator -/
  | git (r : ρ) (o : GObj γ ρ) (index : Int)

/-- `sprout::iterator_traits` has the nested types (iterator_traits.hpp 19-47): the specialisation in 25-38 needs
`typename Iterator::difference_type`, which a reference has not, and the one in 44-47 matches pointers, not references to them -/
def hasTraits (k : RefKind) : GObj γ ρ → Bool
  | .iter .. => k == .plain
  | .ptr .. => k == .plain
  | .git .. => k == .plain
  | _ => false

/-- `is_input_iterator` (is_iterator_of.hpp 44-47 with 20-32, is_iterator.hpp 26-29); all iterators of the model are input iterators -/
def isInputIterator (k : RefKind) (o : GObj γ ρ) : Bool := hasTraits k o

/-- `*t` -/
def derefObj : GObj γ ρ → Option ρ
  | .iter l p => l[p]?
  | .ptr l p => l[p]?
  | .git r _ _ => some r
  | _ => none

/-- `sprout::next(t)` of a plain iterator -/
def nextObj : GObj γ ρ → Option (GObj γ ρ)
  | .iter l p => if p < l.length then some (.iter l (p + 1)) else none
  | .ptr l p => if p < l.length then some (.ptr l (p + 1)) else none
  | _ => none

/-- `t()`; for a `generator_iterator` it is `generator_iterator(next_generator(gen_)(), index_ - 1)` (generator_iterator.hpp 65-67),
and the difference may overflow -/
def callObj (step : γ → ρ × γ) : GObj γ ρ → Option (GObj γ ρ)
  | .call g => some (.pair (step g).1 (.call (step g).2))
  | .git _ o i =>
    match callObj step o with
    | some (.pair v o') => if -2 ^ 63 < i then some (.git v o' (i - 1)) else none
    | _ => none
  | _ => none

/-- `get_generated_value_impl` (generator/detail/generated_value.hpp 58-252): the member (generator_iterator.hpp 71-73), `*gen` for
input iterators, otherwise `get<0>` -/
def getGeneratedValue (k : RefKind) : GObj γ ρ → Option ρ
  | .git r _ _ => some r
  | o => if isInputIterator k o then derefObj o else
    match o with
    | .pair r _ => some r
    | _ => none

/-- `get_next_generator_impl` (generator/detail/next_generator.hpp 58-252): the member (generator_iterator.hpp 74-76), the object
itself for input iterators, otherwise `get<1>` -/
def getNextGenerator (step : γ → ρ × γ) (k : RefKind) : GObj γ ρ → Option (GObj γ ρ)
  | .git r o i => callObj step (.git r o i)
  | o => if isInputIterator k o then some o else
    match o with
    | .pair _ o' => some o'
    | _ => none

/-- `generate_next_value_impl` (generator/detail/next_value.hpp 75-287): `sprout::next` for input iterators, otherwise the call,
otherwise `next_value(next_generator(gen))`. `next_generator` of a pair is its second component. -/
def generateNextValue (step : γ → ρ × γ) (k : RefKind) : GObj γ ρ → Option (GObj γ ρ)
  | .call g => callObj step (.call g)
  | .git r o i => callObj step (.git r o i)
  | .pair _ o => generateNextValue step k o
  | .iter l p => if isInputIterator k (.iter (γ := γ) l p) then nextObj (.iter l p) else none
  | .ptr l p => if isInputIterator k (.ptr (γ := γ) l p) then nextObj (.ptr l p) else none

/-- `generators::generated_value` (generator/generated_value.hpp 34-40) of a variable: the template argument of the implementation
is always a reference (generator/detail/generated_value.hpp 257-263) -/
def generatedValue (o : GObj γ ρ) : Option ρ := getGeneratedValue .lvalue o

/-- `generators::next_generator` (generator/next_generator.hpp 34-40) of a variable -/
def nextGenerator (step : γ → ρ × γ) (o : GObj γ ρ) : Option (GObj γ ρ) := getNextGenerator step .lvalue o

/-- `generators::next_value` (generator/next_value.hpp 32-38) of a variable (generator/detail/next_value.hpp 291-297) -/
def nextValue (step : γ → ρ × γ) (o : GObj γ ρ) : Option (GObj γ ρ) := generateNextValue step .lvalue o

/-- `fixed::detail::generate_impl_1` (algorithm/fixed/generate.hpp 23-55) for a container whose size is its static size; `k` elements
follow the present one -/
def generate1 (step : γ → ρ × γ) : Nat → GObj γ ρ → Option (List ρ)
  | 0, next => (generatedValue next).map fun v => [v]
  | k + 1, next =>
    (generatedValue next).bind fun v =>
    (nextGenerator step next).bind fun g =>
    (callObj step g).bind fun n =>
    (generate1 step k n).map fun t => v :: t

/-- `fixed::generate` (algorithm/fixed/generate.hpp 56-94) into a container of `n` elements -/
def fixedGenerate (step : γ → ρ × γ) (n : Nat) (gen : GObj γ ρ) : Option (List ρ) :=
  match n with
  | 0 => some []
  | k + 1 => (callObj step gen).bind (generate1 step k)

end Sprout.GenDispatch

import Verif.Model.Hash
import Verif.Model.SeedOne

/-!
# Results of generators and iterators over them

`sprout/random/random_result.hpp`, `variate_generator.hpp`, `results.hpp`, `iterator.hpp`, `range.hpp`, `generate_array.hpp`,
`unique_seed.hpp`, `sprout/iterator/generator_iterator.hpp`, `sprout/generator/`.

A generator `γ` is what can be called without arguments: an engine, or an engine with a distribution. `call g` is the value and the
next generator, `none` if the call fails (asserts, throws, or is not a constant expression). A `random_result` is that pair.
-/

namespace Sprout.RandIter
open Mt (forLoop)

variable {γ ρ ε δ : Type}

/-- `random_result` (random_result.hpp 34-180 with a distribution, 181-312 without one) -/
structure RR (γ ρ : Type) where
  result : ρ
  gen : γ

/-- `operator()` (random_result.hpp 93-95, 230-232), `next_value` and `iterator_next` (326-332) -/
def RR.next (call : γ → Option (ρ × γ)) (r : RR γ ρ) : Option (RR γ ρ) := (call r.gen).map fun p => ⟨p.1, p.2⟩

/-- `swap` (random_result.hpp 147-155, 286-294) -/
def RR.swap (a b : RR γ ρ) : RR γ ρ × RR γ ρ := (⟨b.result, b.gen⟩, ⟨a.result, a.gen⟩)

/-- `operator++()` (random_result.hpp 170-174, 301-305): `temp.swap(*this)` -/
def RR.incr (call : γ → Option (ρ × γ)) (r : RR γ ρ) : Option (RR γ ρ) := do
  let temp ← r.next call
  some (temp.swap r).2

/-- `operator++(int)` (random_result.hpp 175-179, 306-311): the old value and the new object -/
def RR.postIncr (call : γ → Option (ρ × γ)) (r : RR γ ρ) : Option (RR γ ρ × RR γ ρ) := do
  let r' ← r.incr call
  some (r, r')

/-- `operator==` (random_result.hpp 156-160, 278-282) -/
def RR.eqv (eqR : ρ → ρ → Bool) (eqG : γ → γ → Bool) (a b : RR γ ρ) : Bool := eqR a.result b.result && eqG a.gen b.gen

/-- `variate_generator` (variate_generator.hpp 26-113) -/
structure VG (ε δ : Type) where
  engine : ε
  distribution : δ

/-- `variate_generator::call(g, false_type)` (variate_generator.hpp 52-54): for engines that are held by value or by reference to
const; `dist d e` is `distribution_(engine_)`: the value, the engine and the distribution afterwards -/
def VG.call (dist : δ → ε → Option (ρ × ε × δ)) (g : VG ε δ) : Option (ρ × VG ε δ) :=
  (dist g.distribution g.engine).map fun r => (r.1, ⟨r.2.1, r.2.2⟩)

/-- `operator==` (variate_generator.hpp 105-109) -/
def VG.eqv (eqE : ε → ε → Bool) (eqD : δ → δ → Bool) (a b : VG ε δ) : Bool := eqE a.engine b.engine && eqD a.distribution b.distribution

/-- the kinds of the parameters of a constructor and of the arguments -/
inductive Kind
  | result
  | engine
  | distribution
  deriving DecidableEq

/-- the constructor of `random_result` (random_result.hpp 86-92) -/
def rrParams : List Kind := [.result, .engine, .distribution]

/-- the arguments in `call(g, true_type)` (variate_generator.hpp 50) -/
def refArgs : List Kind := [.result, .distribution, .engine]

/-- `variate_generator::call(g, true_type)` (variate_generator.hpp 49-51): for a reference to a mutable engine. An engine is no
distribution: the arguments must be of the kinds of the parameters -/
def VG.callRef (dist : δ → ε → Option (ρ × ε × δ)) (g : VG ε δ) : Option (ρ × VG ε δ) :=
  if refArgs = rrParams then VG.call dist g else none

/-- `generator_iterator` (generator_iterator.hpp 24-102) over results -/
structure GI (γ ρ : Type) where
  gen : RR γ ρ
  index : Int

def ptrdiffMin : Int := -2 ^ 63
def ptrdiffMax : Int := 2 ^ 63 - 1

/-- `operator()` (generator_iterator.hpp 65-67), `next`, `next_generator`, `iterator_next` -/
def GI.next (call : γ → Option (ρ × γ)) (it : GI γ ρ) : Option (GI γ ρ) := do
  let r ← call it.gen.gen
  if it.index = ptrdiffMin then none else some ⟨⟨r.1, r.2⟩, it.index - 1⟩

/-- `operator*` (generator_iterator.hpp 86-88) -/
def GI.deref (it : GI γ ρ) : ρ := it.gen.result

/-- `operator++()` (generator_iterator.hpp 92-96) with `swap` (80-85) -/
def GI.incr (call : γ → Option (ρ × γ)) (it : GI γ ρ) : Option (GI γ ρ) := do
  let temp ← it.next call
  let g := temp.gen.swap it.gen
  some ⟨g.2, temp.index⟩

/-- `operator==` (generator_iterator.hpp 104-108), `operator<` (114-118), `operator-` (134-138; the difference may overflow) -/
def GI.eq (a b : GI γ ρ) : Bool := a.index == b.index
def GI.lt (a b : GI γ ρ) : Bool := b.index < a.index
def GI.sub (a b : GI γ ρ) : Option Int :=
  if ptrdiffMin ≤ b.index - a.index ∧ b.index - a.index ≤ ptrdiffMax then some (b.index - a.index) else none

/-- `begin(engine, count)` and `begin(engine, distribution, count)` (random/iterator.hpp 22-49): the first value is drawn at once -/
def begin (call : γ → Option (ρ × γ)) (g : γ) (count : Int) : Option (GI γ ρ) := do
  let r ← call g
  some ⟨⟨r.1, r.2⟩, if count ≥ 0 then count else ptrdiffMax⟩

/-- `end(engine)` and `end(engine, distribution)` (random/iterator.hpp 54-70): the default constructor (generator_iterator.hpp 47-49) -/
def endIt (r0 : RR γ ρ) : GI γ ρ := ⟨r0, 0⟩

/-- `for (; first != last; ++first)`: the elements that are seen and the iterator in the end -/
def traverse (call : γ → Option (ρ × γ)) (first last : GI γ ρ) : Option (List ρ × GI γ ρ) :=
  if first.eq last then some ([], first)
  else do
    let next ← first.incr call
    let r ← traverse call next last
    some (first.deref :: r.1, r.2)
partial_fixpoint

/-- `make_range(engine, distribution, count)` (random/range.hpp 23-38) -/
def makeRange (call : γ → Option (ρ × γ)) (r0 : RR γ ρ) (g : γ) (count : Int) : Option (GI γ ρ × GI γ ρ) := do
  let b ← begin call g count
  some (b, endIt r0)

/-- `make_range(engine, count)` (random/range.hpp 39-51): its result type (line 45) is made with the name `distribution`, which is none
of its parameters nor any other function -/
def makeRangeEngine (call : γ → Option (ρ × γ)) (r0 : RR γ ρ) (g : γ) (count : Int) : Option (GI γ ρ × GI γ ρ) :=
  if ["distribution", "engine"].all (· ∈ ["engine", "count"]) then makeRange call r0 g count else none

/-- `generate_array<N>(rng)` and `generate_array<N>(rng, dist)` for a mutable `rng` (generate_array.hpp 25-42): the array and the
generator afterwards; `z` is the value of an element of `result{{}}` -/
def generateArray (call : γ → Option (ρ × γ)) (z : ρ) (N : Nat) (g : γ) : Option (List ρ × γ) :=
  forLoop 0 N (fun s i => do
    let r ← call s.2
    let a ← wr s.1 i r.1
    some (a, r.2)) (List.replicate N z, g)

/-- `generate_array_impl` (generate_array.hpp 44-75): `args` are the values so far; there is no overload for more than `N` -/
def generateArrayImpl (call : γ → Option (ρ × γ)) (N : Nat) (rnd : ρ × γ) (args : List ρ) : Option (List ρ × γ) :=
  if args.length + 1 = N then some (args ++ [rnd.1], rnd.2)
  else if args.length + 1 < N then do
    let r ← call rnd.2
    generateArrayImpl call N r (args ++ [rnd.1])
  else none
  termination_by N - args.length

/-- `generate_array<N>(rng)` for a const `rng` (generate_array.hpp 79-86) -/
def generateArrayConst (call : γ → Option (ρ × γ)) (N : Nat) (g : γ) : Option (List ρ × γ) := do
  let r ← call g
  generateArrayImpl call N r []

/-- `make_seed_seq_impl` (unique_seed.hpp 28-46): `h` is `to_hash(v)`; the recursion does not end for `N` = 0 -/
def makeSeedSeqImpl (N h seed : Nat) (args : List Nat) : Option (List Nat) :=
  if args.length + 1 = N then some (args ++ [seed % 2 ^ 32])
  else if N < args.length + 1 then none
  else makeSeedSeqImpl N h (Hash.combine 64 seed h) (args ++ [seed % 2 ^ 32])
  termination_by N - args.length

/-- `make_seed_seq<N>(v)` (unique_seed.hpp 50-54) -/
def makeSeedSeq (N h : Nat) : Option (List Nat) := makeSeedSeqImpl N h h []

end Sprout.RandIter

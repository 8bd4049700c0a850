import Verif.Model.FixedSort
import Verif.Model.Shuffle
import Verif.Model.MinMax

/-!
# shuffle, random_swap, bogo_sort and bozo_sort that return containers

sprout/algorithm/fixed/shuffle.hpp, shuffle_result.hpp, random_swap.hpp, random_swap_result.hpp, bogo_sort.hpp,
bogo_sort_result.hpp, bozo_sort.hpp, bozo_sort_result.hpp, and bogo_sort.hpp, bozo_sort.hpp of cxx14. A generator with its
distribution is a `Gen` (Model/Shuffle): `gen s d` is a draw from `[0, d]` in state `s` and the state after it. A
`random_result` is the pair of the value and the state after it (random/random_result.hpp 75-100, random/results.hpp 18-40): `next(rnd)()`
is the next draw and `next(rnd).engine()` the state.
-/

namespace Sprout.FixedAlg

open ContOp

variable {α σ : Type} [Inhabited α]

/-- `make_shuffle_result_indexes_1` (shuffle_result.hpp 33-49), `make_shuffle_indexes_1` (shuffle.hpp 30-42, without the state) -/
def shuffleIndexes1 (gen : Gen σ) (n : Nat) (rnd : Nat × σ) (arr : Cont Nat) (i : Nat) : Option (Cont Nat × σ) :=
  if i + 1 < n then do
    let arr ← swapElement arr i rnd.1
    shuffleIndexes1 gen n (gen rnd.2 (n - 1)) arr (i + 1)
  else do
    let arr ← swapElement arr i rnd.1
    some (arr, rnd.2)
  termination_by n - i

/-- `make_shuffle_result_indexes` (shuffle_result.hpp 50-68), `make_shuffle_indexes` (shuffle.hpp 43-57): an array of `N`
positions, of which the first `n` count -/
def shuffleIndexes (gen : Gen σ) (N n : Nat) (s : σ) : Option (Cont Nat × σ) :=
  if n > 1 then shuffleIndexes1 gen n (gen s (n - 1)) (.array (List.range N)) 0
  else some (.array (List.replicate N 0), s)

/-- `shuffle_result` (shuffle_result.hpp 69-126); the size of `Ok` containers is not negative -/
def shuffleResult (gen : Gen σ) (c : Cont α) (s : σ) : Option (Cont α × σ) := do
  let r ← shuffleIndexes gen c.static c.size.toNat s
  let args ← pack c.static fun i =>
    if (i : Int) ≥ c.beginOff ∧ (i : Int) < c.beginOff + c.size then do
      let k ← internalAt r.1 (i - c.beginOff)
      beginAt c k
    else internalAt c i
  some (remake c c c.size args, r.2)

/-- `shuffle` (shuffle.hpp 58-112) -/
def shuffleTo (gen : Gen σ) (c : Cont α) (s : σ) : Option (Cont α) := do
  let r ← shuffleIndexes gen c.static c.size.toNat s
  let args ← pack c.static fun i =>
    if (i : Int) ≥ c.beginOff ∧ (i : Int) < c.beginOff + c.size then do
      let k ← internalAt r.1 (i - c.beginOff)
      beginAt c k
    else internalAt c i
  some (remake c c c.size args)

/-- `make_random_swap_result_indexes` (random_swap_result.hpp 31-63), `make_random_swap_indexes` (random_swap.hpp 27-51) -/
def randomSwapIndexes (gen : Gen σ) (n : Nat) (s : σ) : Nat × Nat × σ :=
  if n > 1 then ((gen s (n - 1)).1, gen (gen s (n - 1)).2 (n - 1)) else (0, 0, s)

/-- `random_swap_result` (random_swap_result.hpp 64-106) -/
def randomSwapResult (gen : Gen σ) (c : Cont α) (s : σ) : Option (Cont α × σ) :=
  let r := randomSwapIndexes gen c.size.toNat s
  if r.1 = r.2.1 then some (c, r.2.2)
  else do
    let d ← swapElement c r.1 r.2.1
    some (d, r.2.2)

/-- `random_swap` (random_swap.hpp 52-90) -/
def randomSwapTo (gen : Gen σ) (c : Cont α) (s : σ) : Option (Cont α) :=
  let r := randomSwapIndexes gen c.size.toNat s
  if r.1 = r.2.1 then some c else swapElement c r.1 r.2.1

/-- `is_sorted(begin(cont), end(cont), comp)` (is_sorted.hpp 42-58) -/
def sortedNow (comp : α → α → Bool) (c : Cont α) : Option Bool := do
  let xs ← elems c
  isSortedRa comp xs 0 xs.length

/-- `bogo_sort_result_impl_1` (bogo_sort_result.hpp 27-47) with `step = shuffle_result`, `bozo_sort_result_impl_1`
(bozo_sort_result.hpp 27-47) with `step = random_swap_result`: up to `n` attempts. With `n = 0` the recursion would not end. -/
def tryImpl1 (comp : α → α → Bool) (step : Cont α → σ → Option (Cont α × σ)) (cur : (Cont α × σ) × Bool) (n : Nat) :
    Option ((Cont α × σ) × Bool) :=
  if cur.2 then some cur
  else if n = 0 then none
  else if n = 1 then do
    if ← sortedNow comp cur.1.1 then some (cur.1, true)
    else do
      let r ← step cur.1.1 cur.1.2
      some (r, false)
  else do
    let cur ← tryImpl1 comp step cur (n / 2)
    tryImpl1 comp step cur (n - n / 2)
  termination_by n

/-- `bogo_sort_result_impl` (bogo_sort_result.hpp 48-64), `bozo_sort_result_impl` (bozo_sort_result.hpp 48-64). That the
`difference_type` overflows after more than `2 ^ 63` attempts is left out. -/
def tryImpl (comp : α → α → Bool) (step : Cont α → σ → Option (Cont α × σ)) (cur : (Cont α × σ) × Bool) (n : Nat) :
    Option ((Cont α × σ) × Bool) :=
  if cur.2 then some cur
  else do
    let cur ← tryImpl1 comp step cur n
    tryImpl comp step cur (n * 2)
partial_fixpoint

/-- `bogo_sort_result`, `bozo_sort_result` (bogo_sort_result.hpp 65-99, bozo_sort_result.hpp 65-99) -/
def trySort (comp : α → α → Bool) (step : Cont α → σ → Option (Cont α × σ)) (c : Cont α) (s : σ) : Option (Cont α × σ) := do
  if ← sortedNow comp c then some (c, s)
  else do
    let r ← step c s
    let r ← tryImpl comp step (r, false) 1
    some r.1

/-- `bogo_sort_result` (bogo_sort_result.hpp 65-99) -/
def bogoSortResult (comp : α → α → Bool) (gen : Gen σ) (c : Cont α) (s : σ) : Option (Cont α × σ) :=
  trySort comp (shuffleResult gen) c s

/-- `bozo_sort_result` (bozo_sort_result.hpp 65-99) -/
def bozoSortResult (comp : α → α → Bool) (gen : Gen σ) (c : Cont α) (s : σ) : Option (Cont α × σ) :=
  trySort comp (randomSwapResult gen) c s

/-- `bogo_sort` (bogo_sort.hpp 20-35) -/
def bogoSortTo (comp : α → α → Bool) (gen : Gen σ) (c : Cont α) (s : σ) : Option (Cont α) := (bogoSortResult comp gen c s).map (·.1)

/-- `bozo_sort` (bozo_sort.hpp 20-35) -/
def bozoSortTo (comp : α → α → Bool) (gen : Gen σ) (c : Cont α) (s : σ) : Option (Cont α) := (bozoSortResult comp gen c s).map (·.1)

/-! ## in place -/

/-- `bogo_sort` (cxx14/bogo_sort.hpp 20-34) with `step = shuffle`, `bozo_sort` (cxx14/bozo_sort.hpp 20-34) with
`step = random_swap` -/
def tryInPlace (comp : α → α → Bool) (step : List α → Nat → Nat → σ → Option (List α × σ)) (m : List α) (first last : Nat) (s : σ) :
    Option (List α × σ) := do
  if ← isSortedRa comp m first last then some (m, s)
  else do
    let r ← step m first last s
    tryInPlace comp step r.1 first last r.2
partial_fixpoint

end Sprout.FixedAlg

import Verif.Model.CInt

/-!
# Iterator operations: next, prev, advance, distance

An iterator type `It` that is not random access has the elementary steps `fwd` (`++it`, `sprout::next(it)`) and `bwd`
(`--it`, `sprout::prev(it)`), `none` being undefined behaviour. `difference_type` is `ptrdiff_t` with 64 bits. Functions found by
argument dependent lookup (`iterator_next` and so on) replace the ones modelled here; for random access iterators `it + n`,
`it - n`, `last - first` are used.
-/

namespace Sprout.IterOps
variable {It : Type}

/-- `next_impl_2` (iterator/next.hpp 66-75), `prev_impl_1` with `bwd` for `fwd` (iterator/prev.hpp 64-73) -/
def halfPos (fwd : It → Option It) (it : It) (n : Int) : Option It :=
  if n = 1 then fwd it else (halfPos fwd it (n.tdiv 2)) >>= fun it' => halfPos fwd it' (n - n.tdiv 2)
partial_fixpoint

/-- `next_impl_2_neg` (iterator/next.hpp 56-65), `prev_impl_1_neg` with `fwd` for `bwd` (iterator/prev.hpp 54-63) -/
def halfNeg (bwd : It → Option It) (it : It) (n : Int) : Option It :=
  if n = -1 then bwd it else (halfNeg bwd it (n.tdiv 2)) >>= fun it' => halfNeg bwd it' (n - n.tdiv 2)
partial_fixpoint

/-- `next(it, n)` for bidirectional iterators of literal type: `next_impl_1` (iterator/next.hpp 77-88) -/
def nextBi (fwd bwd : It → Option It) (it : It) (n : Int) : Option It :=
  if n = 0 then some it else if n > 0 then halfPos fwd it n else halfNeg bwd it n

/-- `next(it, n)` for input iterators of literal type: `next_impl_1` (iterator/next.hpp 89-100); a failing assertion is `none` -/
def nextIn (fwd : It → Option It) (it : It) (n : Int) : Option It :=
  if n < 0 then none else if n = 0 then some it else halfPos fwd it n

/-- `prev(it, n)` for iterators of literal type: `prev_impl` (iterator/prev.hpp 75-89) -/
def prevBi (fwd bwd : It → Option It) (it : It) (n : Int) : Option It :=
  if n = 0 then some it else if n > 0 then halfPos bwd it n else halfNeg fwd it n

/-- the loop `for (; 0 < n; --n) ++it` (iterator/advance.hpp 22-24, 30-32) -/
def advPos (fwd : It → Option It) (it : It) (n : Int) : Option It :=
  if 0 < n then (fwd it) >>= fun it' => advPos fwd it' (n - 1) else some it
partial_fixpoint

/-- the loop `for (; n < 0; ++n) --it` (iterator/advance.hpp 34-36) -/
def advNeg (bwd : It → Option It) (it : It) (n : Int) : Option It :=
  if n < 0 then (bwd it) >>= fun it' => advNeg bwd it' (n + 1) else some it
partial_fixpoint

/-- `advance` for bidirectional iterators (iterator/advance.hpp 26-38) -/
def advanceBi (fwd bwd : It → Option It) (it : It) (n : Int) : Option It := if n > 0 then advPos fwd it n else advNeg bwd it n

/-- `advance` for input iterators (iterator/advance.hpp 18-25) -/
def advanceIn (fwd : It → Option It) (it : It) (n : Int) : Option It := if n < 0 then none else advPos fwd it n

/-- `cxx14_prev` (iterator/prev.hpp 26-31): `advance(it, -n)` -/
def prevCxx14 (fwd bwd : It → Option It) (it : It) (n : Int) : Option It := (CInt.int64.arith (-n)) >>= fun m => advanceBi fwd bwd it m

/-- `cxx14_distance` (iterator/distance.hpp 31-39) -/
def distLoop [DecidableEq It] (fwd : It → Option It) (last : It) (first : It) (n : Int) : Option Int :=
  if first = last then some n
  else (CInt.int64.arith (n + 1)) >>= fun n' => (fwd first) >>= fun first' => distLoop fwd last first' n'
partial_fixpoint

/-- `iterator_distance_impl_1` (iterator/distance.hpp 56-74) -/
def distImpl1 [DecidableEq It] (fwd : It → Option It) (last : It) (cur : It × Int) (n : Int) : Option (It × Int) :=
  if cur.1 = last then some cur
  else if n = 1 then (fwd cur.1) >>= fun it => (CInt.int64.arith (cur.2 + 1)).map fun c => (it, c)
  else (distImpl1 fwd last cur (n.tdiv 2)) >>= fun cur' => distImpl1 fwd last cur' (n - n.tdiv 2)
partial_fixpoint

/-- `iterator_distance_impl` (iterator/distance.hpp 75-91) -/
def distImpl [DecidableEq It] (fwd : It → Option It) (last : It) (cur : It × Int) (n : Int) : Option (It × Int) :=
  if cur.1 = last then some cur
  else (distImpl1 fwd last cur n) >>= fun cur' => (CInt.int64.arith (n * 2)) >>= fun n' => distImpl fwd last cur' n'
partial_fixpoint

/-- `distance` for iterators of literal type without constant time distance (iterator/distance.hpp 92-101) -/
def distance [DecidableEq It] (fwd : It → Option It) (first last : It) : Option Int := (distImpl fwd last (first, 0) 1).map (·.2)

end Sprout.IterOps

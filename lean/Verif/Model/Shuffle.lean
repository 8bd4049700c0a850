import Verif.Model.Moves

/-!
# shuffle, random_swap, sample

`sprout/algorithm/cxx14/shuffle.hpp`, `random_swap.hpp`, `sample.hpp`. A generator together with the
distribution is a state machine: `gen s d` is the draw `dist(g, param_type(0, d))` in state `s` and the next
state. The contract of `uniform_int_distribution(0, d)` is a draw in the closed interval `[0, d]`.
-/

namespace Sprout
variable {α σ : Type}

/-- a distribution over a generator -/
abbrev Gen (σ : Type) := σ → Nat → Nat × σ

/-- the contract of `uniform_int_distribution` -/
def Gen.InRange (gen : Gen σ) : Prop := ∀ s d, (gen s d).1 ≤ d

/-- `if (i != 0) iter_swap(first, first + i)` (shuffle.hpp 32-34) -/
def shuffleSwap (m : List α) (first i : Nat) : Option (List α) :=
  if i ≠ 0 then swp m first (first + i) else some m

/-- the loop of `shuffle` (shuffle.hpp 30-35) -/
def shuffleLoop (gen : Gen σ) (m : List α) (first last d : Nat) (s : σ) : Option (List α × σ) :=
  if first < last then do
    let m ← shuffleSwap m first (gen s d).1
    shuffleLoop gen m (first + 1) last (d - 1) (gen s d).2
  else some (m, s)
partial_fixpoint

/-- `sprout::shuffle` (shuffle.hpp 21-37) -/
def shuffle (gen : Gen σ) (m : List α) (first last : Nat) (s : σ) : Option (List α × σ) :=
  if last - first > 1 then shuffleLoop gen m first (last - 1) (last - first - 1) s else some (m, s)

/-- `sprout::random_swap` (random_swap.hpp 21-35): both draws are from `[0, d]`, `d = last - first` -/
def randomSwap (gen : Gen σ) (m : List α) (first last : Nat) (s : σ) : Option (List α × σ) :=
  if last - first > 1 then do
    let (i, s) := gen s (last - first)
    let (j, s) := gen s (last - first)
    if i ≠ j then do
      let m ← swp m (first + i) (first + j)
      some (m, s)
    else some (m, s)
  else some (m, s)

/-- the filling loop (sample.hpp 32-34): result `(first, out block, sample_size)` -/
def sampleFill (pop : List α) (out : List α) (first last o n k : Nat) : Option (Nat × List α × Nat) :=
  if first ≠ last ∧ k ≠ n then do
    let x ← rd pop first
    let out ← wr out (o + k) x
    sampleFill pop out (first + 1) last o n (k + 1)
  else some (first, out, k)
partial_fixpoint

/-- `if (k < n) out[k] = *first` (sample.hpp 38-40) -/
def sampleReplace (pop : List α) (out : List α) (first o n k : Nat) : Option (List α) :=
  if k < n then do
    let x ← rd pop first
    wr out (o + k) x
  else some out

/-- the replacing loop (sample.hpp 35-41) -/
def sampleLoop (gen : Gen σ) (pop : List α) (out : List α) (first last o n size : Nat) (s : σ) : Option (List α × σ) :=
  if first = last then some (out, s)
  else do
    let out ← sampleReplace pop out first o n (gen s size).1
    sampleLoop gen pop out (first + 1) last o n (size + 1) (gen s size).2
partial_fixpoint

/-- `sample_impl`, reservoir sampling (sample.hpp 20-43): population in block `pop`, output in block `out` from `o` -/
def sampleReservoir (gen : Gen σ) (pop out : List α) (first last o n : Nat) (s : σ) : Option (List α × Nat × σ) := do
  let r ← sampleFill pop out first last o n 0
  let t ← sampleLoop gen pop r.2.1 r.1 last o n r.2.2 s
  some (t.1, o + r.2.2, t.2)

/-- the loop of selection sampling (sample.hpp 56-62); `u` is `unsampled_size` -/
def selectLoop (gen : Gen σ) (pop out : List α) (first o n u : Nat) (s : σ) : Option (List α × Nat × σ) :=
  if n = 0 then some (out, o, s)
  else if u = 0 then none
  else if (gen s (u - 1)).1 < n then do
    let x ← rd pop first
    let out ← wr out o x
    selectLoop gen pop out (first + 1) (o + 1) (n - 1) (u - 1) (gen s (u - 1)).2
  else selectLoop gen pop out (first + 1) o n (u - 1) (gen s (u - 1)).2
partial_fixpoint

/-- `sample_impl`, selection sampling (sample.hpp 44-64) -/
def sampleSelection (gen : Gen σ) (pop out : List α) (first last o n : Nat) (s : σ) : Option (List α × Nat × σ) :=
  selectLoop gen pop out first o (min n (last - first)) (last - first) s

end Sprout

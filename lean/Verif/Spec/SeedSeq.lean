import Mathlib.Logic.Function.Basic
import Mathlib.Data.List.OfFn

/-!
# `std::seed_seq::generate` as [rand.util.seedseq] describes it

Operations modulo 2³², indices modulo `n` (here: a function on the naturals that is read and changed at `k % n`).
-/

namespace Sprout.SeedSpec

abbrev U32 := BitVec 32

def T (x : U32) : U32 := x ^^^ (x >>> 27)

def t (n : ℕ) : ℕ :=
  if n ≥ 623 then 11 else if n ≥ 68 then 7 else if n ≥ 39 then 5 else if n ≥ 7 then 3 else (n - 1) / 2

def p (n : ℕ) : ℕ := (n - t n) / 2
def q (n : ℕ) : ℕ := p n + t n
def m (s n : ℕ) : ℕ := max (s + 1) n

/-- the `k`-th transformation, `k = 0, …, m - 1` -/
def first (v : List U32) (n : ℕ) (x : ℕ → U32) (k : ℕ) : ℕ → U32 :=
  let r1 := 1664525 * T (x (k % n) ^^^ x ((k + p n) % n) ^^^ x ((k + n - 1) % n))
  let r2 := r1 + if k = 0 then BitVec.ofNat 32 v.length
    else if k ≤ v.length then BitVec.ofNat 32 (k % n) + v.getD (k - 1) 0 else BitVec.ofNat 32 (k % n)
  let x := Function.update x ((k + p n) % n) (x ((k + p n) % n) + r1)
  let x := Function.update x ((k + q n) % n) (x ((k + q n) % n) + r2)
  Function.update x (k % n) r2

/-- the `k`-th transformation, `k = m, …, m + n - 1` -/
def second (n : ℕ) (x : ℕ → U32) (k : ℕ) : ℕ → U32 :=
  let r3 := 1566083941 * T (x (k % n) + x ((k + p n) % n) + x ((k + n - 1) % n))
  let r4 := r3 - BitVec.ofNat 32 (k % n)
  let x := Function.update x ((k + p n) % n) (x ((k + p n) % n) ^^^ r3)
  let x := Function.update x ((k + q n) % n) (x ((k + q n) % n) ^^^ r4)
  Function.update x (k % n) r4

/-- the `n` words generated from the seeds `v` -/
def generate (v : List U32) (n : ℕ) : List U32 :=
  let x := (List.range (m v.length n)).foldl (first v n) fun _ => 0x8b8b8b8b
  let x := (List.range' (m v.length n) n).foldl (second n) x
  (List.range n).map x

end Sprout.SeedSpec

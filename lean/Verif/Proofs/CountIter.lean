import Verif.Model.CountIter
import Verif.Proofs.RangeAdaptor
import Verif.Proofs.CInt

namespace Sprout.CountIter
open Adaptor RangeAdaptor Spec
variable {σ α : Type}

/-- `f, f + 1, …` -/
def iota (f : Int) (n : Nat) : List Int := (List.range n).map fun i : Nat => f + i

theorem iota_length (f : Int) (n : Nat) : (iota f n).length = n := by simp [iota]

theorem std64 : CInt.int64.Std := .inr (.inr (.inr rfl))

theorem int64_has {T : CInt} (hT : T.Std) (hne : T ≠ .uint64) {x : Int} (h : T.Has x) : CInt.int64.Has x := by
  obtain ⟨w, sg⟩ := T
  have hm : CInt.int64.min = -2 ^ 63 := by decide
  have hx : CInt.int64.max = 2 ^ 63 - 1 := by decide
  simp only [CInt.Has, hm, hx, CInt.min, CInt.max, CInt.Std] at *
  rcases hT with rfl | rfl | rfl | rfl <;> cases sg <;> simp at h hne ⊢ <;> try omega
  exact absurd rfl hne

theorem cnAdd_ok {T : CInt} (hT : T.Std) {v n : Int} (h : T.Has (v + n)) : cnAdd T v n = some (v + n) := by
  rw [cnAdd, cnWide]
  by_cases hu : T = .uint64
  · subst hu
    rw [if_pos rfl, CInt.arith_ok hT h, Option.map_some, CInt.conv_ok hT h]
  · rw [if_neg hu, CInt.arith_ok std64 (int64_has hT hu h), Option.map_some, CInt.conv_ok hT h]

theorem cnNext_ok {T : CInt} (hT : T.Std) {v : Int} (h : T.Has (v + 1)) : cnNext T v = some (v + 1) := by
  rw [cnNext, CInt.arith_ok hT h, Option.map_some, CInt.conv_ok hT h]

theorem cnDiff_ok {T : CInt} (hT : T.Std) {a b : Int} (hab : b ≤ a) (h : a - b ≤ T.max) (h' : a - b < 2 ^ 63) :
    cnDiff T a b = some (a - b) := by
  obtain ⟨h1, h2, -⟩ := hT.bounds
  have hm : CInt.int64.min = -2 ^ 63 := by decide
  have hx : CInt.int64.max = 2 ^ 63 - 1 := by decide
  rw [cnDiff, CInt.arith_ok hT ⟨by omega, h⟩, Option.map_some, CInt.conv_ok std64 ⟨by rw [hm]; omega, by rw [hx]; omega⟩]

/-- without the bound for differences -/
theorem cnRng_fwd {T : CInt} (hT : T.Std) {f : Int} {n : Nat} (hf : T.Has f) (hl : T.Has (f + n)) :
    FwdAt (cnRng T f (f + n)) (iota f n) (fun i => f + i) := by
  have hlen := iota_length f n
  have has : ∀ i : Nat, i ≤ n → T.Has (f + i) := by
    intro i hi
    unfold CInt.Has at *
    omega
  refine ⟨?_, ?_, ?_, ?_⟩
  · simp [cnRng]
  · intro i hi
    simp [cnRng, iota]
  · intro i hi
    simp only [cnRng]
    have := has (i + 1) (by omega)
    push_cast at this
    rw [cnNext_ok hT (by rw [add_assoc]; exact this)]
    congr 1
    push_cast
    omega
  · intro i hi
    simp only [cnRng, hlen]
    rw [beq_eq_decide]
    exact decide_eq_decide.2 (by omega)

theorem cnRng_at {T : CInt} (hT : T.Std) {f : Int} {n : Nat} (hf : T.Has f) (hl : T.Has (f + n)) (hd : (n : Int) ≤ T.max) (hd' : n < 2 ^ 63) :
    RaAt (cnRng T f (f + n)) (iota f n) (fun i => f + i) := by
  have hlen := iota_length f n
  have has : ∀ i : Nat, i ≤ n → T.Has (f + i) := by
    intro i hi
    unfold CInt.Has at *
    omega
  refine ⟨cnRng_fwd hT hf hl, ?_, ?_, ?_, ?_⟩
  · simp [cnRng, hlen]
  · intro i j hi hj
    simp only [cnRng]
    rw [beq_eq_decide]
    exact decide_eq_decide.2 (by omega)
  · intro i m k hi hk hn
    simp only [cnRng]
    have := has k (by omega)
    have e : f + (i : Int) + m = f + k := by omega
    rw [cnAdd_ok hT (by rw [e]; exact this), e]
  · intro i j hij hi
    simp only [cnRng]
    rw [cnDiff_ok hT (by omega) (by omega) (by omega)]
    congr 1
    omega

theorem int64_ok {x : Int} (h1 : -2 ^ 63 ≤ x) (h2 : x < 2 ^ 63) : CInt.int64.arith x = some x := Adaptor.int64_arith h1 h2

theorem valRng_at (v : α) (n : Nat) (hn : n < 2 ^ 63) : RaAt (valRng v n 0) (List.replicate n v) (fun i => (n : Int) - i) := by
  have hlen : (List.replicate n v).length = n := List.length_replicate
  refine ⟨⟨?_, ?_, ?_, ?_⟩, ?_, ?_, ?_, ?_⟩
  · simp [valRng]
  · intro i hi
    simp [valRng]
  · intro i hi
    simp only [valRng]
    rw [int64_ok (by omega) (by omega)]
    congr 1
    push_cast
    omega
  · intro i hi
    simp only [valRng]
    rw [beq_eq_decide]
    exact decide_eq_decide.2 (by omega)
  · simp [valRng]
  · intro i j hi hj
    simp only [valRng]
    rw [beq_eq_decide]
    exact decide_eq_decide.2 (by omega)
  · intro i m k hi hk hn
    simp only [valRng]
    rw [int64_ok (by omega) (by omega)]
    congr 1
    omega
  · intro i j hij hi
    simp only [valRng]
    rw [int64_ok (by omega) (by omega)]
    congr 1
    omega

end Sprout.CountIter

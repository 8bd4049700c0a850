import Verif.Model.Engines
import Verif.Proofs.UniformSmall

/-!
# C62: `shuffle_order_engine`

For every base engine (an arbitrary step function), every integer type and every table size: construction and `operator()` are those of the
standard ([rand.adapt.shuf]). Refuted: if the range of the base engine times `k` does not fit into 64 bits the index is not implemented, and if
`k` is larger than the number of values of the result type the index is truncated.
-/

namespace Sprout
open CInt UInt ShuffleOrder

/-- the transition in the standard: `j = floor(k * (Y - min) / (max - min + 1))`, then `Y = V_j`, then `V_j = e()`; the result is `Y` -/
def Spec.shuffleNext {σ : Type} (lo hi : Int) (k : Nat) (g : σ → Option (Int × σ)) (st : St σ) : Option (Int × St σ) :=
  let j := (k * (st.y - lo) / (hi - lo + 1)).toNat
  match g st.rng, st.v[j]? with
  | some (x, s), some y => some (y, ⟨s, st.v.set j x, y⟩)
  | _, _ => none

/-- a state of the engine: a table of `k` numbers of the base engine, and one more -/
structure Spec.ShuffleSt {σ : Type} (lo hi : Int) (k : Nat) (st : St σ) : Prop where
  len : st.v.length = k
  v : ∀ x ∈ st.v, lo ≤ x ∧ x ≤ hi
  y : lo ≤ st.y ∧ st.y ≤ hi

/-- the full statement -/
def C62_statement : Prop := ∀ (σ : Type) (E : Engine) (k : Nat) (g : σ → Option (Int × σ)) (st : St σ), E.T.Std → E.T.Has E.min → E.T.Has E.max →
  E.min ≤ E.max → 0 < k → k < 2 ^ 64 → Spec.ShuffleSt E.min E.max k st → next E k g st = Spec.shuffleNext E.min E.max k g st

/-- the index -/
theorem shuffle_index {T : CInt} (hT : T.Std) {B d : Int} (hB : B ≤ T.uns.max) {k : Nat} (hk : 0 < k) (hkw : (k : Int) ≤ 2 ^ T.w)
    (hc : k = 1 ∨ B < (2 ^ 64 - 1) / k) (hd : 0 ≤ d) (hdB : d ≤ B) :
    index T k B d = some (k * d / (B + 1)) ∧ 0 ≤ (k * d / (B + 1)) ∧ (k * d / (B + 1)) < k := by
  obtain ⟨c1, c2, c3, c4, c5, c6⟩ := (Uns.of hT).std.bounds
  have c5 := c5 rfl
  have cw : T.uns.w = T.w := rfl
  have n0 : 0 ≤ (k * d / (B + 1)) := Int.ediv_nonneg (by positivity) (by omega)
  have n1 : (k * d / (B + 1)) < k := by
    rw [Int.ediv_lt_iff_lt_mul (by omega)]
    nlinarith
  refine ⟨?_, n0, n1⟩
  have hconv : T.uns.conv (k * d / (B + 1)) = k * d / (B + 1) := conv_ok (Uns.of hT).std ((Uns.of hT).has n0 (by rw [cw] at c6; omega))
  unfold index
  split
  · rename_i h1
    subst h1
    congr 1
    rw [show ((1 : Nat) : Int) * d = d by omega, Int.ediv_eq_zero_of_lt hd (by omega)]
  · rename_i h1
    have hc := hc.resolve_left h1
    have hq := Int.ediv_mul_le ((2 : Int) ^ 64 - 1) (show (k : Int) ≠ 0 by omega)
    have hBk : (B + 1) * k ≤ 2 ^ 64 - 1 := by nlinarith
    have hdk : k * d < 2 ^ 64 := by nlinarith
    have hB1 : B + 1 < 2 ^ 64 := by nlinarith
    have e1 : k * d % 2 ^ 64 = k * d := Int.emod_eq_of_lt (by positivity) hdk
    split
    · rename_i h2
      have : T.uns.max / k ≤ T.uns.max := Int.ediv_le_self _ (by omega)
      rw [arith_ok (Uns.of hT).std ((Uns.of hT).has (by omega) (by omega))]
      simp only [Option.bind_eq_bind, Option.bind_some]
      rw [if_neg (by omega), e1, hconv]
    · rw [Int.emod_eq_of_lt (by omega) hB1, if_neg (by omega), Int.mul_comm d, e1, hconv]

/-- `operator()` is the transition of the standard, is defined whenever the base engine is, and the table stays a table of `k` numbers -/
theorem C62_next_partial {σ : Type} (E : Engine) (k : Nat) (g : σ → Option (Int × σ)) (st : St σ) (hT : E.T.Std) (h1 : E.T.Has E.min) (h2 : E.T.Has E.max)
    (hle : E.min ≤ E.max) (hk : 0 < k) (hkw : (k : Int) ≤ 2 ^ E.T.w) (hc : k = 1 ∨ E.max - E.min < (2 ^ 64 - 1) / k)
    (hst : Spec.ShuffleSt E.min E.max k st) :
    next E k g st = Spec.shuffleNext E.min E.max k g st ∧
    ∀ x s, g st.rng = some (x, s) → E.min ≤ x → x ≤ E.max →
      ∃ r st', next E k g st = some (r, st') ∧ E.min ≤ r ∧ r ≤ E.max ∧ Spec.ShuffleSt E.min E.max k st' ∧ st'.rng = s := by
  have hB : E.max - E.min ≤ E.T.uns.max := by
    obtain ⟨b1, b2, b3, b4, b5, b6⟩ := hT.bounds
    obtain ⟨c1, c2, c3, c4, c5, c6⟩ := (Uns.of hT).std.bounds
    have c5 := c5 rfl
    unfold CInt.Has at h1 h2
    simp only [CInt.uns] at c6 c5 ⊢
    omega
  have hy := hst.y
  obtain ⟨i1, i2, i3⟩ := shuffle_index hT hB hk hkw hc (d := st.y - E.min) (by omega) (by omega)
  have hj : ((k : Int) * (st.y - E.min) / (E.max - E.min + 1)).toNat < st.v.length := by rw [hst.len]; omega
  have hn : next E k g st = (g st.rng).bind fun p =>
      some (st.v[((k : Int) * (st.y - E.min) / (E.max - E.min + 1)).toNat],
        ⟨p.2, st.v.set ((k : Int) * (st.y - E.min) / (E.max - E.min + 1)).toNat p.1, st.v[((k : Int) * (st.y - E.min) / (E.max - E.min + 1)).toNat]⟩) := by
    rw [next, subtract_eq hT h2 h1 hle, subtract_eq hT (by unfold CInt.Has at *; omega) h1 hy.1]
    simp only [Option.bind_eq_bind, Option.bind_some]
    rw [i1]
    simp only [Option.bind_some]
    rw [rd_eq hj]
    simp only [Option.bind_some]
    cases g st.rng with
    | none => rfl
    | some p =>
      simp only [Option.bind_some]
      rw [wr_eq hj]
      rfl
  constructor
  · rw [hn, Spec.shuffleNext]
    rw [List.getElem?_eq_getElem hj]
    cases g st.rng with
    | none => rfl
    | some p => rfl
  · intro x s hg x0 x1
    rw [hn, hg]
    have hv := hst.v _ (List.getElem_mem hj)
    refine ⟨_, _, rfl, hv.1, hv.2, ⟨by simpa using hst.len, fun z hz => ?_, hv⟩, rfl⟩
    rcases List.mem_or_eq_of_mem_set hz with hz | rfl
    · exact hst.v z hz
    · exact ⟨x0, x1⟩

/-- construction: the table holds the first `k` numbers of the base engine, `Y` is the next -/
theorem C62_init {σ : Type} (g : σ → Option (Int × σ)) (k : Nat) (x : Nat → Int) (s : Nat → σ) (h : ∀ n, g (s n) = some (x n, s (n + 1))) :
    init g k (s 0) = some ⟨s (k + 1), (List.range k).map x, x k⟩ := by
  have key : ∀ n m, fill g n (s m) ((List.range m).map x) = some ⟨s (m + n + 1), (List.range (m + n)).map x, x (m + n)⟩ := by
    intro n
    induction n with
    | zero => intro m; simp [fill, h]
    | succ n ih =>
      intro m
      rw [fill, h m]
      simp only [Option.bind_eq_bind, Option.bind_some]
      have := ih (m + 1)
      rw [List.range_succ, List.map_append] at this
      rw [show m + (n + 1) = m + 1 + n by omega]
      exact this
  simpa [init] using key k 0

/-- the base engine of the examples: 8-bit numbers 37 n -/
def toyGen (s : Int) : Option (Int × Int) := some (s, (s + 37) % 256)

/-- a 64-bit base engine: not implemented -/
theorem C62_general_false : ¬ C62_statement := by
  intro h
  have := h Int ⟨.uint64, 0, 2 ^ 64 - 1⟩ 2 toyGen ⟨0, [1, 2], 3⟩ (by decide) (by decide) (by decide) (by decide) (by decide) (by decide)
    ⟨rfl, by decide, by decide⟩
  have h2 : (Spec.shuffleNext 0 (2 ^ 64 - 1) 2 toyGen ⟨0, [1, 2], 3⟩).map (·.1) = some 1 := by decide
  rw [← this] at h2
  revert h2
  decide

/-- a table of 512 numbers and an 8-bit engine: the numbers from 256 on are never used -/
theorem C62_narrow_false : ¬ C62_statement := by
  intro h
  have := h Int ⟨.uint8, 0, 255⟩ 512 toyGen ⟨0, List.replicate 256 0 ++ List.replicate 256 1, 128⟩ (by decide) (by decide) (by decide) (by decide) (by decide) (by decide)
    ⟨by rw [List.length_append, List.length_replicate, List.length_replicate], fun x hx => ?_, by decide⟩
  · have h2 : (Spec.shuffleNext 0 255 512 toyGen ⟨0, List.replicate 256 0 ++ List.replicate 256 1, 128⟩).map (·.1) = some 1 := by decide +kernel
    rw [← this] at h2
    revert h2
    decide +kernel
  · rcases List.mem_append.1 hx with hx | hx <;> rw [List.eq_of_mem_replicate hx] <;> decide

example : (init toyGen 4 1).bind (fun st => (next ⟨.uint8, 0, 255⟩ 4 toyGen st).map fun p => (p.1, p.2.v, p.2.y)) =
  some (75, [1, 38, 186, 112], 75) := by decide

example : Spec.ShuffleSt 0 255 4 (⟨186, [1, 38, 75, 112], 149⟩ : St Int) := ⟨rfl, by decide, by decide⟩

end Sprout

import Verif.Proofs.UniformInt4
import Mathlib.Data.Nat.Log
import Mathlib.Algebra.Order.BigOperators.Group.Finset

/-! # `uniform_int_distribution`: all branches together -/

namespace Sprout.UInt
open Finset Spec

/-- the sampler does what it should -/
structure Good (B R : Nat) (g : Samp) : Prop where
  le : ∀ l l' z, Below B l → g l = some (z, l') → z ≤ R ∧ Below B l'
  unif : ∀ n x y, x ≤ R → y ≤ R → cnt B n (hit g (isEnd x)) = cnt B n (hit g (isEnd y))
  reach : ∀ x, x ≤ R → ∃ l, Below B l ∧ g l = some (x, [])
  more : ∀ l, Below B l → g l = none → ∃ l', Below B l' ∧ ∃ z, g (l ++ l') = some (z, [])

theorem good_small (twice : Bool) {B R : Nat} (h : R ≤ B) : Good B R (smallR twice B R) where
  le := fun _ _ _ hl hg => ⟨(smallR_props hl hg).2.2, (smallR_props hl hg).2.1⟩
  unif := fun n _ _ hx hy => (unif_small twice h).eq n hx hy
  reach := fun _ hx => smallR_reach twice h hx
  more := fun _ _ hg => smallR_more hg

theorem loopR_le (twice : Bool) {B R k : Nat} (hk0 : 0 < k) : ∀ (n : Nat) (l l' : List Nat) (z : Nat), l.length = n → Below B l →
    loopR twice B R k l = some (z, l') → z ≤ R ∧ Below B l' := by
  intro n
  induction n using Nat.strongRecOn with
  | ind n ih =>
    intro l l' z hn hl h
    rw [loopR] at h
    simp only [Option.bind_eq_bind] at h
    obtain ⟨⟨y, l1⟩, h1, h⟩ := Option.bind_eq_some_iff.1 h
    obtain ⟨d1, d2, d3⟩ := digitsR_props hl h1
    split at h
    · rename_i hc; cases h; exact ⟨by omega, d2⟩
    · obtain ⟨⟨i, l2⟩, h2, h⟩ := Option.bind_eq_some_iff.1 h
      obtain ⟨s1, s2, s3⟩ := smallR_props d2 h2
      simp only at h
      split at h
      · rename_i hc; cases h; exact ⟨hc, s2⟩
      · exact ih l2.length (by omega) l2 l' z rfl s2 h

theorem good_loop (twice : Bool) {B R k : Nat} (hk0 : 0 < k) (hk1 : (B + 1) ^ k ≤ R + 1) (hk2 : R + 1 < (B + 1) ^ (k + 1)) :
    Good B R (loopR twice B R k) where
  le := fun l l' z hl hg => loopR_le twice hk0 _ l l' z rfl hl hg
  unif := loop_eq twice hk1 hk2 hk0
  reach := fun _ hx => loopR_reach twice hk2 hx
  more := fun l hl hg => loopR_more twice hk0 hk2 _ l rfl hl hg

/-- the parameters for which the distribution is right -/
structure DistOk (E : Engine) (T : CInt) (mn mx : Int) : Prop where
  eng : E.Ok
  std : T.Std
  hmn : T.Has mn
  hmx : T.Has mx
  le : mn ≤ mx
  add : mn < mx → mx - mn ≤ E.max - E.min → AddOk E.T.uns T mn
  pow : E.max - E.min < mx - mn → ∀ k : Nat, (E.max - E.min + 1) ^ k = mx - mn + 1 → mn = 0

theorem pow_cast {E : Engine} (h : E.Ok) (k R : Nat) : (E.B + 1) ^ k = R + 1 ↔ (E.max - E.min + 1) ^ k = (R : Int) + 1 := by
  rw [← h.B_eq]
  constructor
  · intro e; exact_mod_cast e
  · intro e; exact_mod_cast e

theorem gen_eq {E : Engine} {T : CInt} {mn mx : Int} (h : DistOk E T mn mx) (twice : Bool) :
    ∃ g, Good E.B (mx - mn).toNat g ∧ ∀ l, Below E.B l → gen twice E T mn mx (l.map E.num) = (g l).map (lift E mn) := by
  obtain ⟨R, hR⟩ : ∃ R : Nat, mx - mn = R := ⟨(mx - mn).toNat, by have := h.le; omega⟩
  rw [hR, Int.toNat_natCast]
  have hB := h.eng.B_eq
  have hB1 := h.eng.B_pos
  by_cases h0 : R = 0
  · refine ⟨_, good_small twice (show R ≤ E.B by omega), fun l hl => ?_⟩
    rw [gen.eq_def, subR h.std h.hmn h.hmx hR, h.eng.brange]
    simp only [Option.bind_eq_bind, Option.bind_some]
    rw [if_pos (by omega), smallR, if_pos h0]
    simp [lift]
  · by_cases hRB : R ≤ E.B
    · exact ⟨_, good_small twice hRB, fun l hl => gen_small h.eng h.std h.hmn h.hmx hR hRB (h.add (by omega) (by omega)) twice hl⟩
    · have hk1 : (E.B + 1) ^ Nat.log (E.B + 1) (R + 1) ≤ R + 1 := Nat.pow_log_le_self _ (by omega)
      have hk2 : R + 1 < (E.B + 1) ^ (Nat.log (E.B + 1) (R + 1) + 1) := Nat.lt_pow_succ_log_self (by omega) _
      have hk0 : 0 < Nat.log (E.B + 1) (R + 1) := Nat.log_pos (by omega) (by omega)
      refine ⟨_, good_loop twice hk0 hk1 hk2, fun l hl => ?_⟩
      rw [← gen2_eq h.eng h.std h.hmn h.hmx hR (by omega) hk1 hk2 (fun hc => h.pow (by omega) _ (by
        rw [hR]; exact (pow_cast h.eng _ _).1 hc)) twice _ l rfl hl, gen.eq_def, subR h.std h.hmn h.hmx hR, h.eng.brange]
      simp only [Option.bind_eq_bind, Option.bind_some]
      rw [if_neg (by omega), if_neg (by omega), if_pos (by omega)]

/-- numbers of the engine -/
theorem nums {E : Engine} (h : E.Ok) {l : List Int} (hl : ∀ v ∈ l, E.min ≤ v ∧ v ≤ E.max) : ∃ ds, Below E.B ds ∧ l = ds.map E.num := by
  have hB := h.B_eq
  refine ⟨l.map fun v => (v - E.min).toNat, ?_, ?_⟩
  · intro d hd
    obtain ⟨v, hv, rfl⟩ := List.mem_map.1 hd
    have := hl v hv
    omega
  · rw [List.map_map]
    conv_lhs => rw [← List.map_id l]
    apply List.map_congr_left
    intro v hv
    have := hl v hv
    simp only [id, Function.comp, Engine.num]
    omega

theorem nums_range {E : Engine} (h : E.Ok) {ds : List Nat} (hd : Below E.B ds) : ∀ v ∈ ds.map E.num, E.min ≤ v ∧ v ≤ E.max := by
  have hB := h.B_eq
  intro v hv
  obtain ⟨d, hd', rfl⟩ := List.mem_map.1 hv
  have := hd d hd'
  simp only [Engine.num]
  omega

theorem cnt_congr {B : Nat} : ∀ (n : Nat) {p q : List Nat → Bool}, (∀ l, Below B l → p l = q l) → cnt B n p = cnt B n q := by
  intro n
  induction n with
  | zero => intro p q h; simp only [cnt]; rw [h [] (below_nil B)]
  | succ n ih =>
    intro p q h
    simp only [cnt]
    refine sum_congr rfl fun d hd => ih fun l hl => h _ ?_
    intro x hx
    rcases List.mem_cons.1 hx with rfl | hx
    · have := mem_range.1 hd; omega
    · exact hl x hx

theorem cnt_pos {B : Nat} : ∀ (l : List Nat) {p : List Nat → Bool}, Below B l → p l = true → 0 < cnt B l.length p := by
  intro l
  induction l with
  | nil => intro p _ hp; simp [cnt, hp]
  | cons d l ih =>
    intro p hl hp
    obtain ⟨hd, hl⟩ := hl.cons
    rw [List.length_cons, cnt]
    exact Nat.lt_of_lt_of_le (ih (p := fun l => p (d :: l)) hl hp)
      (Finset.single_le_sum (f := fun d => cnt B l.length fun l => p (d :: l)) (fun _ _ => Nat.zero_le _) (mem_range.2 (by omega)))

theorem sum_map_range (f : Nat → Nat) (n : Nat) : ((List.range n).map f).sum = ∑ d ∈ range n, f d := by
  induction n with
  | zero => rfl
  | succ n ih => rw [List.range_succ, List.map_append, List.sum_append, ih, sum_range_succ]; simp

theorem countP_allSeqs {E : Engine} (h : E.Ok) : ∀ (n : Nat) (p : List Int → Bool),
    (allSeqs E.min E.max n).countP p = cnt E.B n fun ds => p (ds.map E.num) := by
  have hB := h.B_eq
  have hN : (E.max + 1 - E.min).toNat = E.B + 1 := by omega
  intro n
  induction n with
  | zero => intro p; simp [allSeqs, cnt]
  | succ n ih =>
    intro p
    simp only [allSeqs, cnt, hN]
    rw [List.countP_flatMap, sum_map_range]
    refine sum_congr rfl fun d _ => ?_
    simp only [Function.comp]
    rw [List.countP_map, ih]
    rfl

/-- the number of ways, counted with the reference sampler -/
theorem ways_eq {E : Engine} (h : E.Ok) {f : List Int → Option (Int × List Int)} {g : Samp} {mn : Int}
    (e : ∀ l, Below E.B l → f (l.map E.num) = (g l).map (lift E mn)) (n x : Nat) :
    ways f E.min E.max n (mn + x) = cnt E.B n (hit g (isEnd x)) := by
  rw [ways, countP_allSeqs h]
  refine cnt_congr n fun l hl => ?_
  rw [e l hl]
  unfold hit
  cases g l with
  | none => simp
  | some p =>
    obtain ⟨z, l'⟩ := p
    simp only [Option.map_some, lift, isEnd]
    cases l' with
    | nil => simp
    | cons _ _ => simp

theorem allSeqs_mem {lo hi : Int} : ∀ {n : Nat} {l : List Int}, l ∈ allSeqs lo hi n → ∀ v ∈ l, lo ≤ v ∧ v ≤ hi := by
  intro n
  induction n with
  | zero => intro l h; simp only [allSeqs, List.mem_singleton] at h; subst h; simp
  | succ n ih =>
    intro l h v hv
    simp only [allSeqs, List.mem_flatMap, List.mem_range, List.mem_map] at h
    obtain ⟨d, hd, l', hl', rfl⟩ := h
    rcases List.mem_cons.1 hv with rfl | hv
    · omega
    · exact ih hl' v hv

theorem ways_pos {f : List Int → Option (Int × List Int)} {lo hi : Int} {n : Nat} {r : Int} (h : 0 < ways f lo hi n r) :
    ∃ l, (∀ v ∈ l, lo ≤ v ∧ v ≤ hi) ∧ f l = some (r, []) := by
  obtain ⟨l, hl, hp⟩ := List.countP_pos_iff.1 h
  exact ⟨l, allSeqs_mem hl, by simpa using hp⟩

theorem gen_range {E : Engine} {T : CInt} {mn mx : Int} (h : DistOk E T mn mx) (twice : Bool) {l l' : List Int} {r : Int}
    (hl : ∀ v ∈ l, E.min ≤ v ∧ v ≤ E.max) (e : gen twice E T mn mx l = some (r, l')) : mn ≤ r ∧ r ≤ mx := by
  obtain ⟨ds, hd, rfl⟩ := nums h.eng hl
  obtain ⟨g, hg, he⟩ := gen_eq h twice
  rw [he ds hd] at e
  obtain ⟨⟨z, m⟩, e1, e2⟩ := Option.map_eq_some_iff.1 e
  have := (hg.le _ _ _ hd e1).1
  simp only [lift, Prod.mk.injEq] at e2
  have := h.le
  omega

theorem gen_more {E : Engine} {T : CInt} {mn mx : Int} (h : DistOk E T mn mx) (twice : Bool) {l : List Int}
    (hl : ∀ v ∈ l, E.min ≤ v ∧ v ≤ E.max) (e : gen twice E T mn mx l = none) :
    ∃ l', (∀ v ∈ l', E.min ≤ v ∧ v ≤ E.max) ∧ ∃ r, gen twice E T mn mx (l ++ l') = some (r, []) := by
  obtain ⟨ds, hd, rfl⟩ := nums h.eng hl
  obtain ⟨g, hg, he⟩ := gen_eq h twice
  rw [he ds hd] at e
  obtain ⟨m, hm, z, hz⟩ := hg.more ds hd (by simpa using e)
  refine ⟨m.map E.num, nums_range h.eng hm, mn + z, ?_⟩
  rw [← List.map_append, he _ (hd.append hm), hz]
  rfl

theorem gen_equi {E : Engine} {T : CInt} {mn mx : Int} (h : DistOk E T mn mx) (twice : Bool) :
    Equidistributed (gen twice E T mn mx) E.min E.max mn mx := by
  obtain ⟨g, hg, he⟩ := gen_eq h twice
  have nat : ∀ r, mn ≤ r → r ≤ mx → ∃ x : Nat, r = mn + x ∧ x ≤ (mx - mn).toNat := fun r h1 h2 => ⟨(r - mn).toNat, by omega, by omega⟩
  constructor
  · intro n r r' h1 h2 h3 h4
    obtain ⟨x, rfl, hx⟩ := nat r h1 h2
    obtain ⟨y, rfl, hy⟩ := nat r' h3 h4
    rw [ways_eq h.eng he, ways_eq h.eng he]
    exact hg.unif n x y hx hy
  · intro r h1 h2
    obtain ⟨x, rfl, hx⟩ := nat r h1 h2
    obtain ⟨l, hl, hx⟩ := hg.reach x hx
    refine ⟨l.length, ?_⟩
    rw [ways_eq h.eng he]
    exact cnt_pos l hl (by simp [hit, hx, isEnd])

/-- if the number of values is a power of that of the engine, the smallest value is not added -/
theorem gen_power {E : Engine} (h : E.Ok) {T : CInt} (hT : T.Std) {mn mx : Int} (hmn : T.Has mn) (hmx : T.Has mx) (hlt : E.max - E.min < mx - mn)
    {k : Nat} (hk : (E.max - E.min + 1) ^ k = mx - mn + 1) (twice : Bool) {l l' : List Int} {r : Int}
    (hl : ∀ v ∈ l, E.min ≤ v ∧ v ≤ E.max) (e : gen twice E T mn mx l = some (r, l')) : ∃ z, 0 ≤ z ∧ z ≤ mx - mn ∧ r = T.conv z := by
  have hB := h.B_eq
  have hB1 := h.B_pos
  obtain ⟨R, hR⟩ : ∃ R : Nat, mx - mn = R := ⟨(mx - mn).toNat, by omega⟩
  have hRm : (R : Int) ≤ T.uns.max := by
    obtain ⟨b1, b2, b3, b4, b5, b6⟩ := hT.bounds
    obtain ⟨c1, c2, c3, c4, c5, c6⟩ := (Uns.of hT).std.bounds
    have c5 := c5 rfl
    unfold CInt.Has at hmn hmx
    simp only [CInt.uns] at c6 c5 ⊢
    omega
  obtain ⟨ds, hd, rfl⟩ := nums h hl
  rw [hR] at hk
  have hk := (pow_cast h _ _).2 hk
  rw [gen.eq_def, subR hT hmn hmx hR, h.brange] at e
  simp only [Option.bind_eq_bind, Option.bind_some] at e
  rw [if_neg (by omega), if_neg (by omega), if_pos (by omega),
    gen2_exact h hT hRm (by omega) hk twice hd] at e
  obtain ⟨⟨z, m⟩, e1, e2⟩ := Option.map_eq_some_iff.1 e
  have hz := (digitsR_props hd e1).2.2
  simp only [Prod.mk.injEq] at e2
  exact ⟨z, by omega, by omega, e2.1.symm⟩

end Sprout.UInt

import Verif.Model.Flex

/-!
# C162: flexible conversions of tuples

Refuted: `recursive_flex` is not recursive, it reaches the elements and their elements only.
-/

namespace Sprout
open Flex

/-! ## the specification -/

mutual
/-- `FlexTo v t w`: the value of `t` in which, on all levels, elements of `v` without a place are left out and places without an element are zero -/
inductive FlexTo : Val → Ty → Val → Prop
  | num (n : Int) : FlexTo (.num n) .num (.num n)
  | tup {vs ts ws} : FlexAll vs ts ws → FlexTo (.tup vs) (.tup ts) (.tup ws)
/-- of the elements of a tuple -/
inductive FlexAll : List Val → List Ty → List Val → Prop
  | done (vs : List Val) : FlexAll vs [] []
  | zero {t ts w ws} : ZeroOf t w → FlexAll [] ts ws → FlexAll [] (t :: ts) (w :: ws)
  | cons {v vs t ts w ws} : FlexTo v t w → FlexAll vs ts ws → FlexAll (v :: vs) (t :: ts) (w :: ws)
/-- zero numbers on all levels -/
inductive ZeroOf : Ty → Val → Prop
  | num : ZeroOf .num (.num 0)
  | tup {ts ws} : FlexAll [] ts ws → ZeroOf (.tup ts) (.tup ws)
end

mutual
/-- `HasTy v t`: numbers are where numbers should be, and tuples have the right number of elements -/
def HasTy : Val → Ty → Prop
  | .num _, .num => True
  | .tup vs, .tup ts => HasTys vs ts
  | _, _ => False
def HasTys : List Val → List Ty → Prop
  | [], [] => True
  | v :: vs, t :: ts => HasTy v t ∧ HasTys vs ts
  | _, _ => False
end

mutual
/-- the number of levels of tuples -/
def levels : Ty → Nat
  | .num => 0
  | .tup l => levelsAll l + 1
def levelsAll : List Ty → Nat
  | [] => 0
  | t :: l => max (levels t) (levelsAll l)
end

/-- the full statement: the conversion succeeds whenever the specification has a result, with this result -/
def C162_statement (f : Val → Ty → Option Val) : Prop := ∀ v t w, FlexTo v t w ↔ f v t = some w

/-! ## proofs -/

mutual
private theorem dflt_zero : ∀ (t : Ty) (w : Val), ZeroOf t w ↔ w = dflt t
  | .num, w => by
    constructor
    · intro h; cases h; simp [dflt]
    · rintro rfl; exact .num
  | .tup l, w => by
    constructor
    · intro h
      cases h with
      | tup h => rw [(dflt_zeros l _).1 h, dflt]
    · rintro rfl
      rw [dflt]
      exact .tup ((dflt_zeros l _).2 rfl)
private theorem dflt_zeros : ∀ (l : List Ty) (ws : List Val), FlexAll [] l ws ↔ ws = dfltAll l
  | [], ws => by
    constructor
    · intro h; cases h; simp [dfltAll]
    · rintro rfl; exact .done []
  | t :: l, ws => by
    constructor
    · intro h
      cases h with
      | zero h1 h2 => rw [(dflt_zero t _).1 h1, (dflt_zeros l _).1 h2, dfltAll]
    · rintro rfl
      rw [dfltAll]
      exact .zero ((dflt_zero t _).2 rfl) ((dflt_zeros l _).2 rfl)
end

/-- a conversion of the elements that is right makes one of the tuples that is -/
private theorem flexible_spec (f : Val → Ty → Option Val) : ∀ (ts : List Ty) (vs ws : List Val),
    (∀ t ∈ ts, ∀ v w, FlexTo v t w ↔ f v t = some w) → (FlexAll vs ts ws ↔ flexible f vs ts = some ws)
  | [], vs, ws, _ => by
    constructor
    · intro h; cases h; cases vs <;> rfl
    · intro h
      have : ws = [] := by cases vs <;> simpa [flexible, eq_comm] using h
      subst this
      exact .done vs
  | t :: ts, [], ws, _ => by
    rw [dflt_zeros]
    simp [flexible, dfltAll, eq_comm]
  | t :: ts, v :: vs, ws, hf => by
    have ih := fun ws => flexible_spec f ts vs ws fun t ht => hf t (by simp [ht])
    have h1 := hf t (by simp) v
    constructor
    · intro h
      cases h with
      | cons a b => simp [flexible, (h1 _).1 a, (ih _).1 b]
    · intro h
      simp only [flexible, Option.bind_eq_bind] at h
      cases ha : f v t with
      | none => simp [ha] at h
      | some a =>
        cases hb : flexible f vs ts with
        | none => simp [ha, hb] at h
        | some l =>
          simp only [ha, hb, Option.bind_some, Option.some.injEq] at h
          subst h
          exact .cons ((h1 a).2 ha) ((ih l).2 hb)

private theorem flexTo_tup (vs : List Val) (ts : List Ty) (w : Val) (f : Val → Ty → Option Val)
    (h : ∀ t ∈ ts, ∀ v w, FlexTo v t w ↔ f v t = some w) : FlexTo (.tup vs) (.tup ts) w ↔ (flexible f vs ts).map Val.tup = some w := by
  constructor
  · intro g
    cases g with
    | tup g => rw [(flexible_spec f ts vs _ h).1 g]; rfl
  · intro g
    cases hb : flexible f vs ts with
    | none => simp [hb] at g
    | some l =>
      simp only [hb, Option.map_some, Option.some.injEq] at g
      subst g
      exact .tup ((flexible_spec f ts vs l h).2 hb)

private theorem levels_mem : ∀ (l : List Ty) (t : Ty), t ∈ l → levels t ≤ levelsAll l
  | [], t, h => by simp at h
  | a :: l, t, h => by
    rw [levelsAll]
    rcases List.mem_cons.1 h with rfl | h
    · exact Nat.le_max_left _ _
    · exact Nat.le_trans (levels_mem l t h) (Nat.le_max_right _ _)

private theorem flex_num (v w : Val) : FlexTo v .num w ↔ conv v .num = some w := by
  constructor
  · intro h; cases h; simp [conv]
  · intro h
    cases v with
    | num n =>
      simp only [conv, Option.some.injEq] at h
      subst h
      exact .num n
    | tup vs => simp [conv] at h

private theorem not_num_tup (n : Int) (ts : List Ty) (w : Val) : ¬ FlexTo (.num n) (.tup ts) w := by
  intro h; cases h

private theorem levels_zero (t : Ty) (h : levels t ≤ 0) : t = .num := by
  cases t with
  | num => rfl
  | tup l => simp [levels] at h

/-- `flex` converts to tuples of numbers. What is missing are tuples of tuples, see `C162_flex_levels`. -/
theorem C162_flex_partial (v : Val) (t : Ty) (w : Val) (h : levels t ≤ 1) : FlexTo v t w ↔ flex v t = some w := by
  cases t with
  | num => cases v <;> simpa [flex] using flex_num _ w
  | tup ts =>
    cases v with
    | num n => simp [flex, conv, not_num_tup]
    | tup vs =>
      rw [flex]
      refine flexTo_tup vs ts w conv fun t ht v w => ?_
      have := levels_mem ts t ht
      rw [levels] at h
      rw [levels_zero t (by omega)]
      exact flex_num v w

/-- `recursive_flex` converts to tuples of at most two levels. What is missing are more levels, see `C162_recursive_refuted`. -/
theorem C162_recursive_partial (v : Val) (t : Ty) (w : Val) (h : levels t ≤ 2) : FlexTo v t w ↔ recursiveFlex v t = some w := by
  cases t with
  | num => cases v <;> simpa [recursiveFlex] using flex_num _ w
  | tup ts =>
    cases v with
    | num n => simp [recursiveFlex, conv, not_num_tup]
    | tup vs =>
      rw [recursiveFlex]
      refine flexTo_tup vs ts w flex fun t ht v w => ?_
      have := levels_mem ts t ht
      rw [levels] at h
      exact C162_flex_partial v t w (by omega)

/-- on the third level tuples must have the same number of elements: `(((1)))` is not converted to a tuple with two numbers on the third level -/
theorem C162_recursive_refuted : recursiveFlex (.tup [.tup [.tup [.num 1]]]) (.tup [.tup [.tup [.num, .num]]]) = none ∧
    FlexTo (.tup [.tup [.tup [.num 1]]]) (.tup [.tup [.tup [.num, .num]]]) (.tup [.tup [.tup [.num 1, .num 0]]]) ∧
    ¬ C162_statement recursiveFlex := by
  have a : recursiveFlex (.tup [.tup [.tup [.num 1]]]) (.tup [.tup [.tup [.num, .num]]]) = none := by
    simp [recursiveFlex, flexible, flex, conv, convAll]
  have b : FlexTo (.tup [.tup [.tup [.num 1]]]) (.tup [.tup [.tup [.num, .num]]]) (.tup [.tup [.tup [.num 1, .num 0]]]) :=
    .tup (.cons (.tup (.cons (.tup (.cons (.num 1) (.zero .num (.done [])))) (.done []))) (.done []))
  refine ⟨a, b, fun h => ?_⟩
  have := (h _ _ _).1 b
  rw [a] at this
  cases this

/-- `flex` itself, as its name says, leaves the elements as they are -/
theorem C162_flex_levels : flex (.tup [.tup [.num 1]]) (.tup [.tup [.num, .num]]) = none := by
  simp [flex, flexible, conv, convAll]

mutual
private theorem conv_self : ∀ (v : Val) (t : Ty), HasTy v t → conv v t = some v
  | .num n, .num, _ => by simp [conv]
  | .tup vs, .tup ts, h => by
    rw [HasTy] at h
    simp [conv, convAll_self vs ts h]
  | .num _, .tup _, h => by simp [HasTy] at h
  | .tup _, .num, h => by simp [HasTy] at h
private theorem convAll_self : ∀ (vs : List Val) (ts : List Ty), HasTys vs ts → convAll vs ts = some vs
  | [], [], _ => by simp [convAll]
  | v :: vs, t :: ts, h => by
    rw [HasTys] at h
    simp [convAll, conv_self v t h.1, convAll_self vs ts h.2]
  | [], _ :: _, h => by simp [HasTys] at h
  | _ :: _, [], h => by simp [HasTys] at h
end

private theorem flexible_self (f : Val → Ty → Option Val) (hf : ∀ v t, HasTy v t → f v t = some v) :
    ∀ (vs : List Val) (ts : List Ty), HasTys vs ts → flexible f vs ts = some vs
  | [], [], _ => by simp [flexible]
  | v :: vs, t :: ts, h => by
    rw [HasTys] at h
    simp [flexible, hf v t h.1, flexible_self f hf vs ts h.2]
  | [], _ :: _, h => by simp [HasTys] at h
  | _ :: _, [], h => by simp [HasTys] at h

/-- values that have the type already are not changed, whatever the number of levels -/
theorem C162_same (v : Val) (t : Ty) (h : HasTy v t) : flex v t = some v ∧ recursiveFlex v t = some v := by
  have hf : ∀ v t, HasTy v t → flex v t = some v := by
    intro v t h
    cases v with
    | num n => cases t <;> simp_all [HasTy, flex, conv]
    | tup vs =>
      cases t with
      | num => simp [HasTy] at h
      | tup ts =>
        rw [HasTy] at h
        simp [flex, flexible_self conv conv_self vs ts h]
  refine ⟨hf v t h, ?_⟩
  cases v with
  | num n => cases t <;> simp_all [HasTy, recursiveFlex, conv]
  | tup vs =>
    cases t with
    | num => simp [HasTy] at h
    | tup ts =>
      rw [HasTy] at h
      simp [recursiveFlex, flexible_self flex hf vs ts h]

/-- not vacuous: two levels, one element too few on the first and one too many on the second -/
example : recursiveFlex (.tup [.tup [.num 1, .num 2]]) (.tup [.tup [.num], .num]) = some (.tup [.tup [.num 1], .num 0]) := by
  simp [recursiveFlex, flexible, flex, conv, dflt, dfltAll]

end Sprout

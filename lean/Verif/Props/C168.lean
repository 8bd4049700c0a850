import Verif.Model.Promote
import Mathlib.Data.List.Perm.Basic
import Mathlib.Tactic.Linarith

/-!
# C168: promotions of arithmetic types do not depend on the order
-/

namespace Sprout
open Promote

/-- a type of the language -/
def TyOk : Ty → Prop
  | .bool => True
  | .int r _ => r ≤ 4
  | .flt k => k ≤ 2

/-- a platform: integers of higher rank have at least as many bits -/
def PlatOk (P : Platform) : Prop := ∀ r s, r ≤ s → P.width r ≤ P.width s

/-- the greatest floating point type among the types -/
def IsTopFloat (l : List Ty) (k : Nat) : Prop := Ty.flt k ∈ l ∧ ∀ j, Ty.flt j ∈ l → j ≤ k

/-- the greatest rank of the integers among the types and `int` -/
def IsTopRank (l : List Ty) (r : Nat) : Prop :=
  (r = 2 ∨ ∃ u, Ty.int r u ∈ l) ∧ 2 ≤ r ∧ ∀ s u, Ty.int s u ∈ l → s ≤ r

/-- an unsigned type among the types has as many bits as rank `r` -/
def HasWideUnsigned (P : Platform) (l : List Ty) (r : Nat) : Prop := ∃ s, Ty.int s true ∈ l ∧ P.width s = P.width r

/-- the common type of the types: the greatest floating point type if there is one; otherwise an integer of the greatest rank, at least that of `int`,
which is unsigned iff an unsigned type among them has as many bits -/
def CommonType (P : Platform) (l : List Ty) (t : Ty) : Prop :=
  (∃ k, IsTopFloat l k ∧ t = .flt k) ∨
  ((∀ k, Ty.flt k ∉ l) ∧ ∃ r u, IsTopRank l r ∧ t = .int r u ∧ (u = true ↔ HasWideUnsigned P l r))

private theorem topFloat_unique {l : List Ty} {j k : Nat} (hj : IsTopFloat l j) (hk : IsTopFloat l k) : j = k :=
  Nat.le_antisymm (hk.2 _ hj.1) (hj.2 _ hk.1)

private theorem topRank_unique {l : List Ty} {r s : Nat} (hr : IsTopRank l r) (hs : IsTopRank l s) : r = s := by
  obtain ⟨h1, h2, h3⟩ := hr
  obtain ⟨g1, g2, g3⟩ := hs
  apply Nat.le_antisymm
  · rcases h1 with h | ⟨u, hu⟩
    · omega
    · exact g3 _ _ hu
  · rcases g1 with h | ⟨u, hu⟩
    · omega
    · exact h3 _ _ hu

/-- there is at most one common type -/
theorem C168_unique (P : Platform) (l : List Ty) (t t' : Ty) (h : CommonType P l t) (h' : CommonType P l t') : t = t' := by
  rcases h with ⟨k, hk, rfl⟩ | ⟨hn, r, u, hr, rfl, hu⟩ <;> rcases h' with ⟨k', hk', rfl⟩ | ⟨hn', r', u', hr', rfl, hu'⟩
  · rw [topFloat_unique hk hk']
  · exact absurd hk.1 (hn' _)
  · exact absurd hk'.1 (hn _)
  · obtain rfl := topRank_unique hr hr'
    have : (u = true ↔ u' = true) := hu.trans hu'.symm
    cases u <;> cases u' <;> simp_all

/-- a promoted type: a floating point type or an integer from `int` on -/
private def Prom : Ty → Prop
  | .bool => False
  | .int r _ => 2 ≤ r
  | .flt _ => True

private theorem promote_prom (P : Platform) (t : Ty) : Prom (promote P t) := by
  cases t with
  | bool => simp [promote, Prom]
  | flt k => simp [promote, Prom]
  | int r u =>
    simp only [promote]
    split
    · split <;> simp [Prom]
    · simp only [Prom]; omega

private theorem promote_id (P : Platform) (t : Ty) (h : Prom t) : promote P t = t := by
  cases t with
  | bool => exact h.elim
  | flt k => rfl
  | int r u => simp only [promote, if_neg (show ¬ r < 2 from by have : 2 ≤ r := h; omega)]

/-- the common type of one promoted type is itself -/
private theorem common_single (P : Platform) (hP : PlatOk P) (t : Ty) : CommonType P [t] (promote P t) := by
  cases t with
  | bool => exact .inr ⟨by simp, 2, false, ⟨.inl rfl, Nat.le_refl _, by simp⟩, rfl, by simp [HasWideUnsigned]⟩
  | flt k => exact .inl ⟨k, ⟨by simp, by simp⟩, rfl⟩
  | int r u =>
    refine .inr ⟨by simp, ?_⟩
    by_cases hr : r < 2
    · by_cases hu : u = true ∧ P.width r = P.width 2
      · refine ⟨2, true, ⟨.inl rfl, Nat.le_refl _, ?_⟩, by simp only [promote, if_pos hr, if_pos hu], by simp [HasWideUnsigned, hu.1, hu.2]⟩
        simp; omega
      · refine ⟨2, false, ⟨.inl rfl, Nat.le_refl _, ?_⟩, by simp only [promote, if_pos hr, if_neg hu], ?_⟩
        · simp; omega
        · simp only [Bool.false_eq_true, false_iff]
          rintro ⟨s, hs, hw⟩
          simp only [List.mem_singleton, Ty.int.injEq] at hs
          exact hu ⟨hs.2.symm, hs.1 ▸ hw⟩
    · refine ⟨r, u, ⟨.inr ⟨u, by simp⟩, by omega, by simp⟩, by simp only [promote, if_neg hr], ?_⟩
      constructor
      · rintro rfl; exact ⟨r, by simp, rfl⟩
      · rintro ⟨s, hs, hw⟩
        simp only [List.mem_singleton, Ty.int.injEq] at hs
        exact hs.2.symm

private theorem conv_int (P : Platform) (hP : PlatOk P) (r s : Nat) (a b : Bool) : usualConv P (.int r a) (.int s b) =
    .int (max r s) (decide ((a = true ∧ P.width r = P.width (max r s)) ∨ (b = true ∧ P.width s = P.width (max r s)))) := by
  cases a <;> cases b
  · simp [usualConv]
  · simp only [usualConv]
    split
    · rename_i h
      simp [Nat.max_eq_right h]
    · rename_i h
      have hw := hP s r (by omega)
      rw [Nat.max_eq_left (by omega : s ≤ r)]
      split
      · rename_i h2
        have : ¬ P.width s = P.width r := by omega
        simp [this]
      · rename_i h2
        have : P.width s = P.width r := by omega
        simp [this]
  · simp only [usualConv]
    split
    · rename_i h
      simp [Nat.max_eq_left h]
    · rename_i h
      have hw := hP r s (by omega)
      rw [Nat.max_eq_right (by omega : r ≤ s)]
      split
      · rename_i h2
        have : ¬ P.width r = P.width s := by omega
        simp [this]
      · rename_i h2
        have : P.width r = P.width s := by omega
        simp [this]
  · have : P.width r = P.width (max r s) ∨ P.width s = P.width (max r s) := by
      rcases Nat.le_total r s with h | h
      · right; rw [Nat.max_eq_right h]
      · left; rw [Nat.max_eq_left h]
    simp [usualConv, this]

/-- the conversion of the common types of two lists is that of both together -/
private theorem common_append (P : Platform) (hP : PlatOk P) (l m : List Ty) (t u : Ty) (ht : CommonType P l t) (hu : CommonType P m u) :
    CommonType P (l ++ m) (usualConv P t u) := by
  rcases ht with ⟨j, hj, rfl⟩ | ⟨hn, r, a, ⟨hr1, hr2, hr3⟩, rfl, ha⟩ <;> rcases hu with ⟨k, hk, rfl⟩ | ⟨hn', s, b, ⟨hs1, hs2, hs3⟩, rfl, hb⟩
  · refine .inl ⟨max j k, ⟨?_, ?_⟩, rfl⟩
    · rcases Nat.le_total j k with h | h
      · rw [Nat.max_eq_right h]; exact List.mem_append_right _ hk.1
      · rw [Nat.max_eq_left h]; exact List.mem_append_left _ hj.1
    · intro i hi
      rcases List.mem_append.mp hi with h | h
      · have := hj.2 _ h; omega
      · have := hk.2 _ h; omega
  · refine .inl ⟨j, ⟨List.mem_append_left _ hj.1, ?_⟩, by simp [usualConv]⟩
    intro i hi
    rcases List.mem_append.mp hi with h | h
    · exact hj.2 _ h
    · exact absurd h (hn' _)
  · refine .inl ⟨k, ⟨List.mem_append_right _ hk.1, ?_⟩, by simp [usualConv]⟩
    intro i hi
    rcases List.mem_append.mp hi with h | h
    · exact absurd h (hn _)
    · exact hk.2 _ h
  · refine .inr ⟨?_, ?_⟩
    · intro k hk
      rcases List.mem_append.mp hk with h | h
      · exact hn _ h
      · exact hn' _ h
    have htop : IsTopRank (l ++ m) (max r s) := by
      refine ⟨?_, by omega, ?_⟩
      · rcases Nat.le_total r s with h | h
        · rw [Nat.max_eq_right h]
          rcases hs1 with h | ⟨v, hv⟩
          · exact .inl h
          · exact .inr ⟨v, List.mem_append_right _ hv⟩
        · rw [Nat.max_eq_left h]
          rcases hr1 with h | ⟨v, hv⟩
          · exact .inl h
          · exact .inr ⟨v, List.mem_append_left _ hv⟩
      · intro i v hi
        rcases List.mem_append.mp hi with h | h
        · have := hr3 _ _ h; omega
        · have := hs3 _ _ h; omega
    -- an unsigned type as wide as the greatest rank is one of the list with a rank of the same width
    have hwide : HasWideUnsigned P (l ++ m) (max r s) ↔ (a = true ∧ P.width r = P.width (max r s)) ∨ (b = true ∧ P.width s = P.width (max r s)) := by
      constructor
      · rintro ⟨i, hi, hw⟩
        rcases List.mem_append.mp hi with h | h
        · have h1 := hP _ _ (hr3 _ _ h)
          have h2 := hP r (max r s) (by omega)
          exact .inl ⟨ha.mpr ⟨i, h, by omega⟩, by omega⟩
        · have h1 := hP _ _ (hs3 _ _ h)
          have h2 := hP s (max r s) (by omega)
          exact .inr ⟨hb.mpr ⟨i, h, by omega⟩, by omega⟩
      · rintro (⟨h, hw⟩ | ⟨h, hw⟩)
        · obtain ⟨i, hi, hw'⟩ := ha.mp h
          exact ⟨i, List.mem_append_left _ hi, by omega⟩
        · obtain ⟨i, hi, hw'⟩ := hb.mp h
          exact ⟨i, List.mem_append_right _ hi, by omega⟩
    exact ⟨max r s, _, htop, conv_int P hP r s a b, by rw [hwide]; simp only [decide_eq_true_iff]⟩

private theorem common_prom (P : Platform) (l : List Ty) (t : Ty) (h : CommonType P l t) : Prom t := by
  rcases h with ⟨k, -, rfl⟩ | ⟨-, r, u, hr, rfl, -⟩
  · trivial
  · exact hr.2.1

private theorem arith_common (P : Platform) (hP : PlatOk P) : ∀ (l m : List Ty) (t : Ty), CommonType P m t →
    ∃ t', arith P (t :: l) = some t' ∧ CommonType P (m ++ l) t'
  | [], m, t, h => ⟨t, by rw [arith], by simpa using h⟩
  | u :: l, m, t, h => by
    rw [arith]
    have h1 : CommonType P (m ++ [u]) (arith2 P t u) := by
      rw [arith2, promote_id P t (common_prom P m t h)]
      exact common_append P hP m [u] _ _ h (common_single P hP u)
    obtain ⟨t', h2, h3⟩ := arith_common P hP l (m ++ [u]) _ h1
    exact ⟨t', h2, by simpa using h3⟩

/-- `arithmetic_promote` of two types or more is their common type -/
theorem C168_arithmetic (P : Platform) (hP : PlatOk P) (t u : Ty) (l : List Ty) :
    ∃ t', arith P (t :: u :: l) = some t' ∧ CommonType P (t :: u :: l) t' := by
  rw [arith]
  have h : CommonType P [t, u] (arith2 P t u) := common_append P hP [t] [u] _ _ (common_single P hP t) (common_single P hP u)
  obtain ⟨t', h2, h3⟩ := arith_common P hP l [t, u] _ h
  exact ⟨t', h2, by simpa using h3⟩

private theorem common_perm (P : Platform) (l m : List Ty) (h : l.Perm m) (t : Ty) (ht : CommonType P l t) : CommonType P m t := by
  have hm : ∀ x, x ∈ l ↔ x ∈ m := fun x => h.mem_iff
  simpa only [CommonType, IsTopFloat, IsTopRank, HasWideUnsigned, hm] using ht

/-- it does not depend on the order of the types -/
theorem C168_arithmetic_order (P : Platform) (hP : PlatOk P) (l m : List Ty) (h : l.Perm m) : arith P l = arith P m := by
  match l, m, h with
  | [], m, h => rw [h.nil_eq]
  | [t], m, h => rw [List.perm_singleton.mp h.symm]
  | t :: u :: l, [], h => exact absurd h.eq_nil (by simp)
  | t :: u :: l, [v], h => have := h.length_eq; simp at this
  | t :: u :: l, v :: w :: m, h =>
    obtain ⟨a, h1, h2⟩ := C168_arithmetic P hP t u l
    obtain ⟨b, h3, h4⟩ := C168_arithmetic P hP v w m
    rw [h1, h3, C168_unique P _ a b (common_perm P _ _ h a h2) h4]

/-- the common type of floating point functions: `long double` if it is among the types, `float` if all types are, and `double` otherwise -/
def FloatType (l : List Ty) (t : Ty) : Prop :=
  (Ty.flt 2 ∈ l ∧ t = .flt 2) ∨ ((∀ x ∈ l, x = Ty.flt 0) ∧ t = .flt 0) ∨ (Ty.flt 2 ∉ l ∧ (∃ x ∈ l, x ≠ Ty.flt 0) ∧ t = .flt 1)

/-- `float_promote` is this type -/
theorem C168_float : ∀ (l : List Ty), l ≠ [] → (∀ x ∈ l, TyOk x) → ∃ t, float l = some t ∧ FloatType l t
  | [], h, _ => absurd rfl h
  | [t], _, hok => by
    refine ⟨float1 t, by rw [Promote.float], ?_⟩
    cases t with
    | bool => simp [FloatType, float1]
    | int r u => simp [FloatType, float1]
    | flt k =>
      have : k ≤ 2 := hok (.flt k) (by simp)
      obtain rfl | rfl | rfl : k = 0 ∨ k = 1 ∨ k = 2 := by omega
      all_goals simp [FloatType, float1]
  | t :: u :: l, _, hok => by
    rw [Promote.float]
    have hok' : ∀ x ∈ float2 t u :: l, TyOk x := by
      intro x hx
      rcases List.mem_cons.mp hx with rfl | hx
      · unfold float2
        split
        · simp [TyOk]
        · split <;> simp [TyOk]
      · exact hok x (by simp [hx])
    obtain ⟨w, h1, h2⟩ := C168_float (float2 t u :: l) (by simp) hok'
    refine ⟨w, h1, ?_⟩
    by_cases ha : t = .flt 2 ∨ u = .flt 2
    · have e : float2 t u = .flt 2 := by simp only [float2, if_pos ha]
      rw [e] at h2
      rcases h2 with h | h | h
      · exact .inl ⟨by rcases ha with rfl | rfl <;> simp, h.2⟩
      · have := h.1 (.flt 2) (by simp); simp at this
      · exact absurd h.1 (by simp)
    · by_cases hb : t = .flt 0 ∧ u = .flt 0
      · obtain ⟨rfl, rfl⟩ := hb
        have e : float2 (.flt 0) (.flt 0) = .flt 0 := by decide
        rw [e] at h2
        simpa [FloatType] using h2
      · have e : float2 t u = .flt 1 := by simp only [float2, if_neg ha, if_neg hb]
        rw [e] at h2
        rcases h2 with h | h | h
        · refine .inl ⟨?_, h.2⟩
          have := h.1
          simp at this
          simp [this]
        · have := h.1 (.flt 1) (by simp); simp at this
        · refine .inr (.inr ⟨?_, ?_, h.2.2⟩)
          · have := h.1
            simp only [List.mem_cons, not_or] at this ⊢
            exact ⟨fun e => ha (.inl e.symm), fun e => ha (.inr e.symm), this.2⟩
          · by_cases ht : t = .flt 0
            · exact ⟨u, by simp, fun e => hb ⟨ht, e⟩⟩
            · exact ⟨t, by simp, ht⟩
  termination_by l => l.length

/-- there is only one -/
theorem C168_float_unique (l : List Ty) (hl : l ≠ []) (t t' : Ty) (h : FloatType l t) (h' : FloatType l t') : t = t' := by
  obtain ⟨y, hy⟩ := List.exists_mem_of_ne_nil l hl
  have key : ∀ (x : Ty), x ∈ l → (∀ x ∈ l, x = Ty.flt 0) → x = .flt 0 := fun x hx h => h x hx
  rcases h with ⟨h1, rfl⟩ | ⟨h1, rfl⟩ | ⟨h1, ⟨x, hx, hx'⟩, rfl⟩ <;> rcases h' with ⟨g1, rfl⟩ | ⟨g1, rfl⟩ | ⟨g1, ⟨z, hz, hz'⟩, rfl⟩
  · rfl
  · exact absurd (key _ h1 g1) (by simp)
  · exact absurd h1 g1
  · exact absurd (key _ g1 h1) (by simp)
  · rfl
  · exact absurd (key _ hz h1) hz'
  · exact absurd g1 h1
  · exact absurd (key _ hx g1) hx'
  · rfl

/-- `float_compute` is `long double` if it is among the types and `double` otherwise -/
theorem C168_compute (l : List Ty) (hok : ∀ x ∈ l, TyOk x) :
    (Ty.flt 2 ∈ l → floatCompute l = some (.flt 2)) ∧ (Ty.flt 2 ∉ l → floatCompute l = some (.flt 1)) := by
  have hok' : ∀ x ∈ Ty.flt 1 :: l, TyOk x := by
    intro x hx
    rcases List.mem_cons.mp hx with rfl | hx
    · simp [TyOk]
    · exact hok x hx
  obtain ⟨t, h1, h2⟩ := C168_float (.flt 1 :: l) (by simp) hok'
  rw [floatCompute, h1]
  refine ⟨fun h => ?_, fun h => ?_⟩
  · rw [C168_float_unique _ (by simp) t (.flt 2) h2 (.inl ⟨by simp [h], rfl⟩)]
  · rw [C168_float_unique _ (by simp) t (.flt 1) h2 (.inr (.inr ⟨by simp [h], ⟨.flt 1, by simp⟩, rfl⟩))]

/-- one type alone is not promoted, in contrast to the same type twice -/
theorem C168_single (P : Platform) : arith P [.int 0 false] = some (.int 0 false) ∧ arith P [.int 0 false, .int 0 false] = some (.int 2 false) := by
  constructor <;> simp [arith, arith2, promote, usualConv]

/-- on a platform with `long` of 64 bits, `unsigned int` and `long` give `long`; with `long` of 32 bits, `unsigned long` -/
example : arith ⟨fun r => [8, 16, 32, 64, 64].getD r 0⟩ [.int 2 true, .int 3 false] = some (.int 3 false) ∧
    arith ⟨fun r => [8, 16, 32, 32, 64].getD r 0⟩ [.int 2 true, .int 3 false] = some (.int 3 true) := by
  constructor <;> simp [arith, arith2, promote, usualConv]

/-- a platform -/
example : PlatOk ⟨fun r => if r = 0 then 8 else if r = 1 then 16 else if r = 2 then 32 else 64⟩ := by
  intro r s h
  dsimp only
  split_ifs <;> omega

example : float [.flt 0, .int 2 false, .flt 0] = some (.flt 1) ∧ float [.flt 0, .flt 0] = some (.flt 0) := by
  constructor <;> simp [Promote.float, float2, float1]

end Sprout

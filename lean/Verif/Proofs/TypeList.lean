import Mathlib.Data.List.Basic
import Mathlib.Data.List.Induction
import Mathlib.Tactic.Linarith
import Verif.Model.TypeList
import Verif.Props.C116

namespace Sprout
namespace TypeList

variable {α β : Type}

/-- the elements with indexes in `[a, b)` -/
def seg (l : List α) (a b : Nat) : List α := (l.drop a).take (b - a)

theorem seg_length (l : List α) {a b : Nat} (h : b ≤ l.length) : (seg l a b).length = b - a := by
  simp [seg]; omega

theorem seg_all (l : List α) : seg l 0 l.length = l := by simp [seg]

theorem seg_single (l : List α) {a : Nat} (h : a < l.length) : seg l a (a + 1) = [l[a]] := by
  rw [seg, show a + 1 - a = 1 by omega, List.drop_eq_getElem_cons h]
  rfl

theorem seg_append (l : List α) {a m b : Nat} (h1 : a ≤ m) (h2 : m ≤ b) : seg l a b = seg l a m ++ seg l m b := by
  simp only [seg]
  rw [show b - a = (m - a) + (b - m) by omega, List.take_add, List.drop_drop, show a + (m - a) = m by omega]

theorem seg_ne_nil (l : List α) {a b : Nat} (h : b ≤ l.length) (hab : a < b) : seg l a b ≠ [] := by
  intro h0
  have := seg_length l (a := a) h
  rw [h0] at this
  simp at this
  omega

theorem pivotTree_hom {leaf : α → β} {op : β → β → β} {h : List α → β} (h1 : ∀ x, h [x] = leaf x)
    (h2 : ∀ u v, u ≠ [] → v ≠ [] → h (u ++ v) = op (h u) (h v)) (l : List α) : ∀ (n a b : Nat), b - a = n → a < b → b ≤ l.length →
    pivotTree leaf op l a b ((b - a) / 2) = some (h (seg l a b)) := by
  intro n
  induction n using Nat.strongRecOn with
  | ind n ih =>
    intro a b hn hab hb
    rw [pivotTree.eq_def]
    by_cases hp : (b - a) / 2 = 0
    · obtain rfl : b = a + 1 := by omega
      rw [if_pos hp, List.getElem?_eq_getElem (by omega), seg_single l (by omega), h1]
      rfl
    · rw [if_neg hp]
      have e1 := ih ((b - a) / 2) (by omega) a (a + (b - a) / 2) (by omega) (by omega) (by omega)
      have e2 := ih (b - (a + (b - a) / 2)) (by omega) (a + (b - a) / 2) b rfl (by omega) hb
      rw [show (a + (b - a) / 2 - a) / 2 = (b - a) / 2 / 2 by congr 1; omega] at e1
      rw [show b - (a + (b - a) / 2) = b - a - (b - a) / 2 by omega] at e2
      simp only [e1, e2, Option.bind_eq_bind, Option.bind_some]
      rw [seg_append l (a := a) (m := a + (b - a) / 2) (b := b) (by omega) (by omega),
        h2 _ _ (seg_ne_nil l (by omega) (by omega)) (seg_ne_nil l hb (by omega))]

theorem pivotTree_all {leaf : α → β} {op : β → β → β} {h : List α → β} (h1 : ∀ x, h [x] = leaf x)
    (h2 : ∀ u v, u ≠ [] → v ≠ [] → h (u ++ v) = op (h u) (h v)) (l : List α) (hl : l.length ≠ 0) :
    pivotTree leaf op l 0 l.length (l.length / 2) = some (h l) := by
  have := pivotTree_hom h1 h2 l l.length 0 l.length (by omega) (by omega) le_rfl
  rwa [seg_all, Nat.sub_zero] at this

theorem midTree_hom {leaf : α → β} {op : β → β → β} {h : List α → β} (h1 : ∀ x, h [x] = leaf x)
    (h2 : ∀ u v, u ≠ [] → v ≠ [] → h (u ++ v) = op (h u) (h v)) (l : List α) : ∀ (n a b : Nat), b - a = n → a < b → b ≤ l.length →
    midTree leaf op l a b = some (h (seg l a b)) := by
  intro n
  induction n using Nat.strongRecOn with
  | ind n ih =>
    intro a b hn hab hb
    rw [midTree.eq_def]
    by_cases hp : b - a = 1
    · obtain rfl : b = a + 1 := by omega
      rw [if_pos hp, List.getElem?_eq_getElem (by omega), seg_single l (by omega), h1]
      rfl
    · rw [if_neg hp]
      have e1 := ih ((a + b) / 2 - a) (by omega) a ((a + b) / 2) (by omega) (by omega) (by omega)
      have e2 := ih (b - (a + b) / 2) (by omega) ((a + b) / 2) b rfl (by omega) hb
      simp only [e1, e2, Option.bind_eq_bind, Option.bind_some]
      rw [seg_append l (a := a) (m := (a + b) / 2) (b := b) (by omega) (by omega),
        h2 _ _ (seg_ne_nil l (by omega) (by omega)) (seg_ne_nil l hb (by omega))]

theorem midTree_all {leaf : α → β} {op : β → β → β} {h : List α → β} (h1 : ∀ x, h [x] = leaf x)
    (h2 : ∀ u v, u ≠ [] → v ≠ [] → h (u ++ v) = op (h u) (h v)) (l : List α) (hl : l.length ≠ 0) :
    midTree leaf op l 0 l.length = some (h l) := by
  have := midTree_hom h1 h2 l l.length 0 l.length (by omega) (by omega) le_rfl
  rwa [seg_all] at this

theorem countImpl_eq (p : α → Bool) (l : List α) : ∀ (n a : Nat), 0 < n → a + n ≤ l.length →
    countImpl p l a n = some ((seg l a (a + n)).countP p) := by
  intro n
  induction n using Nat.strongRecOn with
  | ind n ih =>
    intro a hn hb
    rw [countImpl.eq_def]
    by_cases hp : n = 1
    · subst hp
      rw [if_pos rfl, List.getElem?_eq_getElem (by omega), seg_single l (by omega)]
      simp [List.countP_cons]
    · rw [if_neg hp]
      have e1 := ih (n / 2) (by omega) a (by omega) (by omega)
      have e2 := ih (n - n / 2) (by omega) (a + n / 2) (by omega) (by omega)
      simp only [e1, e2, Option.bind_eq_bind, Option.bind_some]
      rw [seg_append l (a := a) (m := a + n / 2) (b := a + n) (by omega) (by omega), List.countP_append,
        show a + n / 2 + (n - n / 2) = a + n by omega]

/-- what `one_of_impl` computes, up to two matches -/
theorem oneOfImpl_eq (p : α → Bool) (l : List α) : ∀ (n a b : Nat), b - a = n → a < b → b ≤ l.length →
    ∃ r, oneOfImpl p l a b ((b - a) / 2) = some r ∧ ((seg l a b).countP p ≤ 2 → r = decide ((seg l a b).countP p = 1)) := by
  intro n
  induction n using Nat.strongRecOn with
  | ind n ih =>
    intro a b hn hab hb
    rw [oneOfImpl.eq_def]
    by_cases hp : (b - a) / 2 = 0
    · obtain rfl : b = a + 1 := by omega
      rw [if_pos hp, List.getElem?_eq_getElem (by omega), seg_single l (by omega)]
      refine ⟨p l[a], rfl, fun _ => ?_⟩
      cases h : p l[a] <;> simp [List.countP_cons, h]
    · rw [if_neg hp]
      obtain ⟨u, e1, hu⟩ := ih ((b - a) / 2) (by omega) a (a + (b - a) / 2) (by omega) (by omega) (by omega)
      obtain ⟨v, e2, hv⟩ := ih (b - (a + (b - a) / 2)) (by omega) (a + (b - a) / 2) b rfl (by omega) hb
      have e3 := pivotTree_hom (leaf := fun x => !p x) (op := (· && ·)) (h := fun l => l.all fun x => !p x) (by simp) (by simp) l
        (b - (a + (b - a) / 2)) (a + (b - a) / 2) b rfl (by omega) hb
      rw [show (a + (b - a) / 2 - a) / 2 = (b - a) / 2 / 2 by congr 1; omega] at e1
      rw [show b - (a + (b - a) / 2) = b - a - (b - a) / 2 by omega] at e2 e3
      simp only [e1, e2, e3, Option.bind_eq_bind, Option.bind_some]
      refine ⟨_, rfl, fun hc => ?_⟩
      rw [seg_append l (a := a) (m := a + (b - a) / 2) (b := b) (by omega) (by omega), List.countP_append] at hc ⊢
      rw [hu (by omega), hv (by omega)]
      have e4 : ((seg l (a + (b - a) / 2) b).all fun x => !p x) = decide ((seg l (a + (b - a) / 2) b).countP p = 0) := by
        rw [Bool.eq_iff_iff]
        simp [List.countP_eq_zero]
      rw [e4]
      generalize (seg l a (a + (b - a) / 2)).countP p = x at *
      generalize (seg l (a + (b - a) / 2) b).countP p = y at *
      by_cases h1 : x = 1
      · subst h1
        simp
      · simp only [h1, decide_false, Bool.false_eq_true, if_false]
        rw [Bool.eq_iff_iff]
        simp
        omega

theorem tppOneOfImpl_eq (l : List Bool) : ∀ (n a b : Nat), b - a = n → a < b → b ≤ l.length →
    ∃ r, tppOneOfImpl l a b = some r ∧ ((seg l a b).countP id ≤ 2 → r = decide ((seg l a b).countP id = 1)) := by
  intro n
  induction n using Nat.strongRecOn with
  | ind n ih =>
    intro a b hn hab hb
    rw [tppOneOfImpl.eq_def]
    by_cases hp : b - a = 1
    · obtain rfl : b = a + 1 := by omega
      rw [if_pos hp, List.getElem?_eq_getElem (by omega), seg_single l (by omega)]
      refine ⟨l[a], rfl, fun _ => ?_⟩
      cases h : l[a] <;> simp [List.countP_cons]
    · rw [if_neg hp]
      obtain ⟨u, e1, hu⟩ := ih ((a + b) / 2 - a) (by omega) a ((a + b) / 2) (by omega) (by omega) (by omega)
      obtain ⟨v, e2, hv⟩ := ih (b - (a + b) / 2) (by omega) ((a + b) / 2) b rfl (by omega) hb
      have e3 := midTree_hom (leaf := (!·)) (op := (· && ·)) (h := fun l => l.all fun x => !x) (by simp) (by simp) l
        (b - (a + b) / 2) ((a + b) / 2) b rfl (by omega) hb
      simp only [e1, e2, e3, Option.bind_eq_bind, Option.bind_some]
      refine ⟨_, rfl, fun hc => ?_⟩
      rw [seg_append l (a := a) (m := (a + b) / 2) (b := b) (by omega) (by omega), List.countP_append] at hc ⊢
      rw [hu (by omega), hv (by omega)]
      have e4 : ((seg l ((a + b) / 2) b).all fun x => !x) = decide ((seg l ((a + b) / 2) b).countP id = 0) := by
        rw [Bool.eq_iff_iff]
        simp [List.countP_eq_zero]
      rw [e4]
      generalize (seg l a ((a + b) / 2)).countP id = x at *
      generalize (seg l ((a + b) / 2) b).countP id = y at *
      by_cases h1 : x = 1
      · subst h1
        simp
      · simp only [h1, decide_false, Bool.false_eq_true, if_false]
        rw [Bool.eq_iff_iff]
        simp
        omega

theorem findImpl_eq (p : α → Bool) (l : List α) : ∀ (n a b : Nat), b - a = n → a < b → b ≤ l.length →
    findImpl p l a b ((b - a) / 2) a = some (a + (seg l a b).findIdx p) := by
  intro n
  induction n using Nat.strongRecOn with
  | ind n ih =>
    intro a b hn hab hb
    rw [findImpl.eq_def, if_neg (by simp)]
    by_cases hp : (b - a) / 2 = 0
    · obtain rfl : b = a + 1 := by omega
      rw [if_pos hp, List.getElem?_eq_getElem (by omega), seg_single l (by omega)]
      cases h : p l[a] <;> simp [List.findIdx_cons, h]
    · rw [if_neg hp]
      have e1 := ih ((b - a) / 2) (by omega) a (a + (b - a) / 2) (by omega) (by omega) (by omega)
      have e2 := ih (b - (a + (b - a) / 2)) (by omega) (a + (b - a) / 2) b rfl (by omega) hb
      rw [show (a + (b - a) / 2 - a) / 2 = (b - a) / 2 / 2 by congr 1; omega] at e1
      rw [show b - (a + (b - a) / 2) = b - a - (b - a) / 2 by omega] at e2
      simp only [e1, Option.bind_eq_bind, Option.bind_some]
      have hlen := seg_length l (a := a) (b := a + (b - a) / 2) (by omega)
      rw [seg_append l (a := a) (m := a + (b - a) / 2) (b := b) (by omega) (by omega), List.findIdx_append]
      by_cases hf : (seg l a (a + (b - a) / 2)).findIdx p < (seg l a (a + (b - a) / 2)).length
      · rw [if_pos hf, findImpl.eq_def, if_pos (by omega)]
      · have := List.findIdx_le_length (p := p) (xs := seg l a (a + (b - a) / 2))
        have e : a + (seg l a (a + (b - a) / 2)).findIdx p = a + (b - a) / 2 := by omega
        rw [if_neg hf, e, e2, hlen]
        congr 1
        omega

theorem foldImpl_eq (op : β → α → β) (l : List α) : ∀ (n a b : Nat) (t : β), b - a = n → a < b → b ≤ l.length →
    foldImpl op l t a b ((b - a) / 2) = some ((seg l a b).foldl op t) := by
  intro n
  induction n using Nat.strongRecOn with
  | ind n ih =>
    intro a b t hn hab hb
    rw [foldImpl.eq_def]
    by_cases hp : (b - a) / 2 = 0
    · obtain rfl : b = a + 1 := by omega
      rw [if_pos hp, List.getElem?_eq_getElem (by omega), seg_single l (by omega)]
      rfl
    · rw [if_neg hp]
      have e1 := ih ((b - a) / 2) (by omega) a (a + (b - a) / 2) t (by omega) (by omega) (by omega)
      have e2 := ih (b - (a + (b - a) / 2)) (by omega) (a + (b - a) / 2) b ((seg l a (a + (b - a) / 2)).foldl op t) rfl (by omega) hb
      rw [show (a + (b - a) / 2 - a) / 2 = (b - a) / 2 / 2 by congr 1; omega] at e1
      rw [show b - (a + (b - a) / 2) = b - a - (b - a) / 2 by omega] at e2
      simp only [e1, e2, Option.bind_eq_bind, Option.bind_some]
      rw [seg_append l (a := a) (m := a + (b - a) / 2) (b := b) (by omega) (by omega), List.foldl_append]

theorem partialSumImpl_eq (op : α → α → α) (l : List α) : ∀ (n i : Nat) (t : α) (acc : List α), i + n = l.length →
    partialSumImpl op l i n t acc = some (acc ++ List.scanl op t (l.drop i))
  | 0, i, t, acc, h => by
    rw [partialSumImpl, List.drop_eq_nil_of_le (by omega)]
    simp
  | n + 1, i, t, acc, h => by
    rw [partialSumImpl, List.getElem?_eq_getElem (by omega)]
    simp only [Option.bind_eq_bind, Option.bind_some]
    rw [partialSumImpl_eq op l n (i + 1) _ _ (by omega), List.drop_eq_getElem_cons (i := i) (by omega), List.scanl_cons,
      List.append_assoc, List.singleton_append]

theorem mapM_range {γ : Type} {f : Nat → Option γ} {r : List γ} (h : ∀ (i : Nat), i < r.length → f i = r[i]?) :
    (List.range r.length).mapM f = some r := by
  induction r using List.reverseRecOn with
  | nil => rfl
  | append_singleton r x ih =>
    rw [List.length_append, List.length_singleton, List.range_succ, List.mapM_append, ih]
    · have := h r.length (by simp)
      simp at this
      simp [this]
    · intro i hi
      rw [h i (by simp; omega), List.getElem?_append_left hi]

theorem lowerImpl_eq (c : α → Bool) (l : List α) (hp : ∀ (i j : Nat) (hi : i < l.length) (hj : j < l.length), i ≤ j → c l[j] = true → c l[i] = true) :
    ∀ (n a b : Nat), b - a = n → a ≤ b → b ≤ l.length → ∃ r, lowerImpl c l a b = some r ∧ a ≤ r ∧ r ≤ b ∧
      (∀ (i : Nat) (hi : i < l.length), a ≤ i → i < r → c l[i] = true) ∧ (∀ (i : Nat) (hi : i < l.length), r ≤ i → i < b → c l[i] = false) := by
  intro n
  induction n using Nat.strongRecOn with
  | ind n ih =>
    intro a b hn hab hb
    rw [lowerImpl.eq_def]
    by_cases h0 : b - a = 0
    · rw [if_pos h0]
      exact ⟨b, rfl, hab, le_rfl, fun i _ _ _ => by omega, fun i _ _ _ => by omega⟩
    rw [if_neg h0]
    by_cases h1 : b - a = 1
    · rw [if_pos h1, List.getElem?_eq_getElem (by omega)]
      cases hc : c l[a]
      · refine ⟨a, by simp [hc], le_rfl, hab, fun i _ _ _ => by omega, fun i _ h2 h3 => ?_⟩
        have : i = a := by omega
        subst this; exact hc
      · refine ⟨b, by simp [hc], hab, le_rfl, fun i _ h2 h3 => ?_, fun i _ _ _ => by omega⟩
        have : i = a := by omega
        subst this; exact hc
    rw [if_neg h1, List.getElem?_eq_getElem (by omega)]
    simp only [Option.bind_eq_bind, Option.bind_some]
    cases hc : c (l[a + (b - a) / 2]'(by omega))
    · obtain ⟨r, e, g1, g2, g3, g4⟩ := ih ((b - a) / 2) (by omega) a (a + (b - a) / 2) (by omega) (by omega) (by omega)
      refine ⟨r, by simp [e], g1, by omega, g3, fun i hi h2 h3 => ?_⟩
      by_cases hlt : i < a + (b - a) / 2
      · exact g4 i hi h2 hlt
      · rw [Bool.eq_false_iff]
        intro hct
        rw [hp (a + (b - a) / 2) i (by omega) hi (by omega) hct] at hc
        exact absurd hc (by simp)
    · obtain ⟨r, e, g1, g2, g3, g4⟩ := ih (b - (a + (b - a) / 2)) (by omega) (a + (b - a) / 2) b rfl (by omega) hb
      refine ⟨r, by simp [e], by omega, g2, fun i hi h2 h3 => ?_, g4⟩
      by_cases hlt : a + (b - a) / 2 ≤ i
      · exact g3 i hi hlt h3
      · exact hp i (a + (b - a) / 2) hi (by omega) (by omega) hc

theorem tupleCat_eq {κ : Type} (e : κ) : ∀ (n : Nat) (ts : List (Tup κ α)) (h : ts.length = n) (h0 : ts ≠ []),
    tupleCat e ts = ⟨(ts.head h0).cls, (ts.map Tup.elems).flatten⟩ := by
  intro n
  induction n using Nat.strongRecOn with
  | ind n ih =>
    intro ts h h0
    have hl := List.length_pos_iff.2 h0
    rw [tupleCat.eq_def, if_neg (by omega)]
    by_cases h1 : ts.length = 1
    · rw [dif_pos h1]
      match ts, h1 with
      | [t], _ => simp
    · rw [dif_neg h1]
      have n1 : ts.take (ts.length / 2) ≠ [] := by
        intro hh
        rw [List.take_eq_nil_iff] at hh
        rcases hh with hh | hh
        · omega
        · exact h0 hh
      have n2 : ts.drop (ts.length / 2) ≠ [] := by
        intro hh
        rw [List.drop_eq_nil_iff] at hh
        omega
      rw [ih (ts.take (ts.length / 2)).length (by simp only [List.length_take]; omega) _ rfl n1,
        ih (ts.drop (ts.length / 2)).length (by simp only [List.length_drop]; omega) _ rfl n2]
      simp only [jointTypes, List.head_take, ← List.flatten_append, ← List.map_append, List.take_append_drop]

open IndexSeq IndexSeqSpec

theorem isRange_one {a n : Nat} {l : List Int} (h : IsRange a ((a + n : Nat) : Int) 1 l) : l = (List.range n).map fun k : Nat => ((a + k : Nat) : Int) := by
  have hlen : l.length = n := by
    have hf := h.full
    rw [Before, if_pos (by omega)] at hf
    by_contra hc
    have hgt : n < l.length := by push_cast at hf; omega
    have hx := h.elem n hgt
    have := h.inside _ (List.mem_of_getElem? hx)
    rw [Before, if_pos (by omega)] at this
    push_cast at this
    omega
  apply List.ext_getElem?
  intro k
  by_cases hk : k < n
  · rw [h.elem k (by omega)]
    simp [List.getElem?_range hk]
  · rw [List.getElem?_eq_none (by omega), List.getElem?_eq_none (by simp; omega)]

theorem indexRange_nat (a n : Nat) (h : ((a + n : Nat) : Int) ≤ CInt.int64.max) :
    indexRange a ((a + n : Nat) : Int) = some ((List.range n).map fun k : Nat => ((a + k : Nat) : Int)) := by
  have hm : CInt.int64.max = 2 ^ 63 - 1 := rfl
  have hm' : CInt.int64.min = -2 ^ 63 := rfl
  have hs : sgnT CInt.int64 = CInt.int64 := rfl
  have hpr : StaticInt.promT (sgnT CInt.int64) = CInt.int64 := rfl
  obtain ⟨l, e, hr⟩ := C116_ascending_partial (T := CInt.int64) (by decide) (a := a) (b := ((a + n : Nat) : Int)) (s := 1)
    (by unfold CInt.Has; omega) (by unfold CInt.Has; omega) (by decide) (by omega) (by omega) (by rw [hs]; omega) (by rw [hpr]; omega)
    (fun _ _ => by omega)
  rw [indexRange, defaultStep, if_pos (by omega), e, isRange_one hr]

theorem elements_map (l : List α) (a n : Nat) (h : a + n ≤ l.length) :
    elements l ((List.range n).map fun k : Nat => ((a + k : Nat) : Int)) = some (seg l a (a + n)) := by
  have hl := seg_length l (a := a) h
  rw [elements, List.mapM_map]
  have : n = (seg l a (a + n)).length := by omega
  conv_lhs => rw [this]
  apply mapM_range
  intro i hi
  change (if ((a + i : Nat) : Int) < 0 then none else l[((a + i : Nat) : Int).toNat]?) = _
  rw [if_neg (by omega), Int.toNat_natCast, seg, List.getElem?_take, if_pos (by omega), List.getElem?_drop]

theorem makeIndexTuple_nat (n : Nat) (h : (n : Int) ≤ CInt.int64.max) :
    makeIndexTuple n = some ((List.range n).map fun k : Nat => ((0 + k : Nat) : Int)) := by
  rw [C116_make_index_tuple n h]
  simp

end TypeList
end Sprout

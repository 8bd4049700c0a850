import Verif.Model.Adaptor
import Verif.Spec.Iter

/-! Lemmas on the iterator adaptors. -/

namespace Sprout.Adaptor
variable {α β γ : Type}

theorem padd_of {len p q : Nat} {n : Int} (h : (q : Int) = p + n) (hq : q ≤ len) : padd len p n = some q := by
  rw [padd, if_pos (by omega)]
  congr 1
  omega

theorem padd_none {len p : Nat} {n : Int} (h : (p : Int) + n < 0 ∨ (len : Int) < p + n) : padd len p n = none := by
  rw [padd, if_neg (by omega)]

theorem int64_min : CInt.int64.min = -2 ^ 63 := rfl
theorem int64_max : CInt.int64.max = 2 ^ 63 - 1 := rfl

theorem int64_arith {x : Int} (h1 : -2 ^ 63 ≤ x) (h2 : x < 2 ^ 63) : CInt.int64.arith x = some x := by
  rw [CInt.arith, if_neg (by decide), if_pos (show CInt.int64.sg = true from rfl), if_pos]
  exact ⟨by rw [int64_min]; exact h1, by rw [int64_max]; omega⟩

/-- `limited::plus`: no difference to `+` if the sum is in range -/
theorem limitedPlus_eq {a b : Int} (ha : -2 ^ 63 ≤ a) (ha' : a < 2 ^ 63) (hb : -2 ^ 63 ≤ b) (hb' : b < 2 ^ 63)
    (h1 : -2 ^ 63 ≤ a + b) (h2 : a + b < 2 ^ 63) : limitedPlus .int64 a b = some (a + b) := by
  have e1 : plusAbove .int64 a b = some false := by
    rw [plusAbove]
    split
    · rw [int64_arith (by rw [int64_max]; omega) (by rw [int64_max]; omega), Option.map_some, int64_max]
      simp only [Option.some.injEq, decide_eq_false_iff_not]
      omega
    · rfl
  have e2 : plusBelow .int64 a b = some false := by
    rw [plusBelow]
    split
    · rw [int64_arith (by rw [int64_min]; omega) (by rw [int64_min]; omega), Option.map_some, int64_min]
      simp only [Option.some.injEq, decide_eq_false_iff_not]
      omega
    · rfl
  rw [limitedPlus, e1, e2, Option.bind_some, if_neg (by decide), Option.bind_some, if_neg (by decide), int64_arith h1 h2]

theorem interleave_length : ∀ (xs ys : List α), (Spec.interleave xs ys).length = 2 * min xs.length ys.length := by
  intro xs
  induction xs with
  | nil => intro ys; simp [Spec.interleave]
  | cons x xs ih =>
    intro ys
    cases ys with
    | nil => simp [Spec.interleave]
    | cons y ys => simp only [Spec.interleave, List.length_cons, ih]; omega

theorem interleave_get : ∀ (xs ys : List α) (k : Nat) (h : k < (Spec.interleave xs ys).length) ,
    some (Spec.interleave xs ys)[k] = if k % 2 = 0 then xs[k / 2]? else ys[k / 2]? := by
  intro xs
  induction xs with
  | nil => intro ys k h; simp [Spec.interleave] at h
  | cons x xs ih =>
    intro ys k h
    cases ys with
    | nil => simp [Spec.interleave] at h
    | cons y ys =>
      simp only [Spec.interleave]
      match k with
      | 0 => simp
      | 1 => simp
      | k + 2 =>
        simp only [List.getElem_cons_succ]
        rw [ih ys k (by simpa [Spec.interleave] using h), show (k + 2) % 2 = k % 2 by omega, show (k + 2) / 2 = k / 2 + 1 by omega,
          List.getElem?_cons_succ, List.getElem?_cons_succ]

theorem everyNth_length (w : Nat) (hw : 0 < w) (xs : List α) : (Spec.everyNth w xs).length = (xs.length + w - 1) / w ∧
    ∀ k (h : k < (Spec.everyNth w xs).length), ∃ h' : k * w < xs.length, (Spec.everyNth w xs)[k] = xs[k * w] := by
  have hk : ∀ k < (xs.length + w - 1) / w, k * w < xs.length := by
    intro k h
    have h1 : (k + 1) * w ≤ (xs.length + w - 1) / w * w := Nat.mul_le_mul_right w h
    have h2 := Nat.div_mul_le_self (xs.length + w - 1) w
    rw [Nat.add_mul] at h1
    omega
  have e : Spec.everyNth w xs = (List.range ((xs.length + w - 1) / w)).pmap (fun k h => xs[k * w]'(hk k h)) (fun k h => List.mem_range.1 h) := by
    have g : ∀ (l : List Nat) (h : ∀ k ∈ l, k < (xs.length + w - 1) / w),
        l.filterMap (fun k => xs[k * w]?) = l.pmap (fun k h => xs[k * w]'(hk k h)) h := by
      intro l
      induction l with
      | nil => intro _; rfl
      | cons x l ih =>
        intro h
        rw [List.filterMap_cons_some (f := fun k => xs[k * w]?) (List.getElem?_eq_getElem (hk x (h x (by simp)))), ih (fun k hk' => h k (by simp [hk'])), List.pmap]
    exact g _ _
  constructor
  · rw [e]; simp
  · intro k h
    have h2 : k < (xs.length + w - 1) / w := by rw [e] at h; simpa using h
    refine ⟨hk k h2, ?_⟩
    simp only [e, List.getElem_pmap, List.getElem_range]

theorem flatMap_get (bytes : α → List β) (sz : Nat) (hb : ∀ x, (bytes x).length = sz) :
    ∀ (xs : List α) (k : Nat), k < sz * xs.length → (xs.flatMap bytes)[k]? = (xs[k / sz]?).bind (fun x => (bytes x)[k % sz]?) := by
  intro xs
  induction xs with
  | nil => intro k h; simp at h
  | cons x xs ih =>
    intro k h
    rw [List.length_cons, Nat.mul_add, Nat.mul_one] at h
    rw [List.flatMap_cons]
    by_cases hk : k < sz
    · rw [List.getElem?_append_left (by rw [hb]; exact hk), Nat.div_eq_of_lt hk, Nat.mod_eq_of_lt hk]; rfl
    · have hs : 0 < sz := by
        rcases Nat.eq_zero_or_pos sz with rfl | h'
        · simp at h
        · exact h'
      obtain ⟨j, rfl⟩ : ∃ j, k = j + sz := ⟨k - sz, by omega⟩
      rw [List.getElem?_append_right (by rw [hb]; omega), hb, Nat.add_sub_cancel, ih j (by omega), Nat.add_div_right _ hs, Nat.add_mod_right]; rfl

theorem flatMap_len (bytes : α → List β) (sz : Nat) (hb : ∀ x, (bytes x).length = sz) (xs : List α) : (xs.flatMap bytes).length = sz * xs.length := by
  induction xs with
  | nil => simp
  | cons x xs ih => rw [List.flatMap_cons, List.length_append, ih, hb, List.length_cons, Nat.mul_add, Nat.mul_one, Nat.add_comm]

theorem toU_of {x : Int} (h : 0 ≤ x) (h' : x < 2 ^ 63) : toU x = x := Int.emod_eq_of_lt h (by omega)

theorem toS_of {x : Int} (h : -2 ^ 63 ≤ x) (h' : x < 2 ^ 63) : toS x = x := by
  rw [toS, CInt.conv, int64_min, show (2 : Int) ^ CInt.int64.w = 2 ^ 64 from rfl]
  omega

end Sprout.Adaptor

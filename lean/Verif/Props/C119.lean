import Verif.Proofs.Valarray
import Verif.Props.C18
import Verif.Props.C68

/-!
# C119: valarray

Constructors, element access, transformations, `sum`, `min`, `max`, `resize` do what they should. `empty` is inverted
(`C119_empty_false`), `shift` keeps old elements instead of default values (`C119_shift_false`), the computed assignments of a value do
not compile (`C119_computed_value_false`), and `atan2`, `hypot`, `pow`, `log_a` of two valarrays read beyond the second one
(`C119_binary_functions_false`).
-/

namespace Sprout
open Valarray
variable {α β : Type}

/-- constructors: size, elements, `length_error` beyond the capacity -/
theorem C119_construct [Inhabited α] (N n : Nat) (x : α) (hN : N < 2 ^ 64) :
    (empty0 N : VA α).Ok ∧ (empty0 N : VA α).vis = [] ∧
    (n ≤ N → ∃ v : VA α, ofSize N n = .ret v ∧ v.Ok ∧ v.elems.length = N ∧ v.vis = List.replicate n default) ∧
    (n ≤ N → ∃ v, ofValue N x n = .ret v ∧ v.Ok ∧ v.elems.length = N ∧ v.vis = List.replicate n x) ∧
    (N < n → (ofSize N n : Ret (VA α)) = .throw .lengthError ∧ ofValue N x n = .throw .lengthError) := by
  refine ⟨⟨by simp [empty0], by simpa [empty0] using hN⟩, by simp [empty0, VA.vis], fun h => ?_, fun h => ?_, fun h => ?_⟩
  · refine ⟨⟨List.replicate N default, n⟩, by simp [ofSize, checkedSize, h, Valarray.Ret.then], ⟨by simpa using h, by simpa using hN⟩, by simp, ?_⟩
    simp [VA.vis, h]
  · refine ⟨⟨(List.range N).map fun i => if i < n then x else default, n⟩, by simp [ofValue, checkedSize, h, Valarray.Ret.then],
      ⟨by simpa using h, by simpa using hN⟩, by simp, ?_⟩
    simp only [VA.vis]
    apply List.ext_getElem (by simp [h])
    intro i h1 h2
    simp only [List.length_replicate] at h2
    simp [h2]
  · simp [ofSize, ofValue, checkedSize, Nat.not_le.2 h, Valarray.Ret.then]

/-- the constructors from a pointer or list with a size -/
theorem C119_construct_iter [Inhabited α] (N n : Nat) (l : List α) (hN : N < 2 ^ 64) (hn : n ≤ l.length) :
    (n ≤ N → ∃ v, ofIter N (fun i => l[i]?) n = some (.ret v) ∧ v.Ok ∧ v.elems.length = N ∧ v.vis = l.take n) ∧
    (N < n → ofIter N (fun i => l[i]?) n = some (.throw .lengthError)) := by
  constructor <;> intro h
  · have e : pack N (fun i => if i < n then l[i]? else some default) = some (l.take n ++ List.replicate (N - n) default) := by
      refine pack_list (by simp; omega) fun i hi => ?_
      by_cases h3 : i < n
      · rw [if_pos h3, List.getElem?_append_left (by simp; omega), List.getElem?_take_of_lt h3]
      · rw [if_neg h3, List.getElem?_append_right (by simp; omega), List.getElem?_replicate, if_pos (by simp; omega)]
    refine ⟨⟨l.take n ++ List.replicate (N - n) default, n⟩, ?_, ⟨by simp; omega, by simp; omega⟩, by simp; omega, ?_⟩
    · unfold ofIter
      rw [e]; simp [checkedSize, h, Valarray.Ret.then]
    · simp only [VA.vis]
      rw [List.take_append_of_le_length (by simp; omega), List.take_take, Nat.min_self]
  · have e : pack N (fun i => if i < n then l[i]? else some default) = some (l.take N) := by
      refine pack_list (by simp; omega) fun i hi => ?_
      rw [if_pos (by omega), List.getElem?_take_of_lt hi]
    unfold ofIter
    rw [e]; simp [checkedSize, Nat.not_le.2 h, Valarray.Ret.then]

example : ofIter 4 (fun i => [7, 8, 9][i]?) 2 = some (.ret ⟨[7, 8, 0, 0], 2⟩) := by decide

/-- `make_valarray`, `to_valarray` -/
theorem C119_make [Inhabited α] (N : Nat) (args : List α) (hN : N < 2 ^ 64) (h : args.length ≤ N) : Shows (make N args) N args := by
  have := raw_shows (n := args.length) (args := args) hN h (Nat.le_refl _)
  rwa [List.take_length] at this

/-- element access: `operator[]`, `at`, `front`, `back`, `nth`, iteration in both directions -/
theorem C119_access (v : VA α) (hv : v.Ok) :
    (∀ i, i < v.len → get v i = v.vis[i]?) ∧
    (∀ i, at' v i = match v.vis[i]? with
      | some x => some (.ret x)
      | none => some (.throw .outOfRange)) ∧
    (∀ i, nth v i = if i < v.vis.length then .ret i else .throw .outOfRange) ∧
    (v.vis ≠ [] → front v = v.vis.head? ∧ back v = v.vis.getLast?) ∧
    range v = some v.vis ∧ rrange v = some v.vis.reverse := by
  have hl := VA.vis_length hv
  refine ⟨fun i hi => vis_getElem? hi, fun i => ?_, fun i => by rw [nth, hl], fun h0 => ?_, range_eq hv, rrange_eq hv⟩
  · unfold at'
    by_cases hp : i < v.len
    · rw [if_pos hp, Valarray.get, vis_getElem? hp, List.getElem?_eq_getElem (by omega)]; rfl
    · rw [if_neg hp, List.getElem?_eq_none (by omega)]
  · have h3 := List.length_pos_iff.2 h0
    constructor
    · rw [front, vis_getElem? (by omega), List.head?_eq_getElem?]
    · have e : toSize ((v.len : Int) - 1) = v.len - 1 := by
        rw [show (v.len : Int) - 1 = ((v.len - 1 : Nat) : Int) by omega, toSize_nat (by have := hv.2; have := hv.1; omega)]
      rw [back, e, Valarray.get, vis_getElem? (by omega), List.getLast?_eq_getElem?, hl]

example : rrange ⟨[1, 2, 3, 0], 3⟩ = some [3, 2, 1] ∧ back ⟨[1, 2, 3, 0], 3⟩ = some 3 := by decide

/-- `empty()` tells whether there is an element: always the opposite of what it should -/
theorem C119_empty_false (v : VA α) (hv : v.Ok) : Valarray.empty v = !v.vis.isEmpty := by
  have hl := VA.vis_length hv
  unfold Valarray.empty
  rw [← hl]
  cases v.vis <;> simp

/-- `fill`, `assign`, and `operator=` of a value keep the size -/
theorem C119_fill (v : VA α) (x : α) (hv : v.Ok) : (fill v x).Ok ∧ (fill v x).vis = List.replicate v.vis.length x := by
  refine ⟨by simpa [fill, VA.Ok] using hv, ?_⟩
  simp [fill, VA.vis, ← List.map_take]

/-- `resize`: all elements are the given value -/
theorem C119_resize (v : VA α) (n : Nat) (x : α) (hv : v.Ok) :
    (n ≤ v.elems.length → ∃ w, Valarray.resize v n x = .ret w ∧ w.Ok ∧ w.vis = List.replicate n x) ∧
    (v.elems.length < n → Valarray.resize v n x = .throw .lengthError) := by
  constructor <;> intro h
  · refine ⟨⟨v.elems.map fun _ => x, n⟩, by simp [Valarray.resize, checkedSize, h, Valarray.Ret.then], ⟨by simpa using h, by simpa using hv.2⟩, ?_⟩
    simp [VA.vis, ← List.map_take, h]
  · simp [Valarray.resize, checkedSize, Nat.not_le.2 h, Valarray.Ret.then]

/-- `sum`, from the default value -/
theorem C119_sum [Inhabited α] (plus : α → α → α) (v : VA α) (hv : v.Ok) : Valarray.sum plus v = some (v.vis.foldl plus default) := by
  have := C68_accumulate plus default [] v.vis (v.elems.drop v.len)
  simp only [List.nil_append, List.length_nil, Nat.zero_add, VA.vis_length hv] at this
  rw [VA.vis, List.take_append_drop, ← VA.vis] at this
  exact this.1

/-- `min` and `max` of a nonempty valarray -/
theorem C119_min_max (lt : α → α → Bool) (hc : StrictWeak lt) (v : VA α) (hv : v.Ok) (h : v.vis ≠ []) :
    (∃ x, Valarray.min lt v = some x ∧ x ∈ v.vis ∧ ∀ y ∈ v.vis, lt y x = false) ∧
    (∃ x, Valarray.max lt v = some x ∧ x ∈ v.vis ∧ ∀ y ∈ v.vis, lt x y = false) := by
  obtain ⟨⟨k, e1, x, hx, a, -⟩, -⟩ := C18_min_element lt hc [] v.vis (v.elems.drop v.len) h
  obtain ⟨⟨l, e2, y, hy, b, -⟩, -⟩ := C18_max_element lt hc [] v.vis (v.elems.drop v.len) h
  simp only [List.nil_append, List.length_nil, Nat.zero_add, VA.vis_length hv] at e1 e2
  rw [VA.vis, List.take_append_drop] at e1 e2
  have hl := VA.vis_length hv
  refine ⟨⟨x, ?_, List.mem_of_getElem? hx, a⟩, ⟨y, ?_, List.mem_of_getElem? hy, b⟩⟩
  · rw [Valarray.min, e1]
    have := (List.getElem?_eq_some_iff.1 hx).1
    simp only [Option.bind_eq_bind, Option.bind_some]
    rw [vis_getElem? (by omega), hx]
  · rw [Valarray.max, e2]
    have := (List.getElem?_eq_some_iff.1 hy).1
    simp only [Option.bind_eq_bind, Option.bind_some]
    rw [vis_getElem? (by omega), hy]

/-- `cshift` by at most the size in either direction -/
theorem C119_cshift_partial [Inhabited α] (v : VA α) (hv : v.Ok) (i : Int) (h1 : -v.len ≤ i) (h2 : i ≤ v.len) :
    Shows (cshift v i) v.elems.length (cshifted v.vis i) := by
  have hl := VA.vis_length hv
  have hle := hv.1
  have zero : Shows (some v) v.elems.length v.vis := ⟨v, rfl, hv, rfl, hl.symm, rfl⟩
  have hself : Shows (some v) v.elems.length (cshifted v.vis 0) := by
    by_cases h0 : v.vis = []
    · have : cshifted v.vis 0 = v.vis := by rw [h0]; rfl
      rw [this]; exact zero
    · rw [cshifted_rotate _ _ h0]; simpa using zero
  unfold cshift
  rcases Int.lt_trichotomy i 0 with h | h | h
  · rw [if_neg (by omega), if_pos h, if_pos (by omega)]
    have h0 : v.vis ≠ [] := by intro h0; rw [h0] at hl; simp at hl; omega
    have := rotate_shows hv (m := (v.len + i).toNat) (by omega)
    rw [cshifted_rotate _ _ h0, hl]
    have e : (i % v.len).toNat = (v.len + i).toNat ∨ (i % v.len).toNat = 0 ∧ (v.len + i).toNat = 0 := by
      by_cases h3 : i = -v.len
      · subst h3; right; simp
      · left
        rw [show i = (v.len + i) + -1 * v.len by omega, Int.add_mul_emod_self_right, Int.emod_eq_of_lt (by omega) (by omega)]
        congr 1; omega
    rcases e with e | ⟨e, e'⟩
    · rw [e]; exact this
    · rw [e, e']; rw [e'] at this; exact this
  · subst h
    rw [if_neg (by omega), if_neg (by omega)]
    exact hself
  · rw [if_pos h, if_pos (by omega)]
    have h0 : v.vis ≠ [] := by intro h0; rw [h0] at hl; simp at hl; omega
    have := rotate_shows hv (m := i.toNat) (by omega)
    rw [cshifted_rotate _ _ h0, hl]
    by_cases h3 : i = v.len
    · subst h3
      simp only [Int.emod_self]
      simp only [Int.toNat_natCast] at this
      rw [List.drop_eq_nil_of_le (by omega), List.take_of_length_le (by omega)] at this
      simpa using this
    · rw [Int.emod_eq_of_lt (by omega) (by omega)]; exact this

example : cshifted [1, 2, 3, 4] (-1) = [4, 1, 2, 3] := by decide

/-- the standard defines `cshift` for every count; here the iterators leave the block: `{1, 2, 3}.cshift(4)` -/
theorem C119_cshift_false : cshift ⟨[1, 2, 3], 3⟩ 4 = (none : Option (VA Nat)) ∧ cshift ⟨[1, 2, 3], 3⟩ (-4) = (none : Option (VA Nat)) ∧
    cshifted [1, 2, 3] 4 = [2, 3, 1] := by decide

/-- what holds of `shift` by at most the size: the elements that stay are moved. Missing: the others should be default values -/
theorem C119_shift_partial [Inhabited α] (v : VA α) (hv : v.Ok) (i : Int) (h1 : -v.len ≤ i) (h2 : i ≤ v.len) :
    ∃ w, shift v i = some w ∧ w.Ok ∧ w.elems.length = v.elems.length ∧ w.len = v.len ∧
      ∀ k j : Nat, k < v.len → j < v.len → (j : Int) = k + i → w.vis[k]? = v.vis[j]? := by
  have hl := VA.vis_length hv
  rcases Int.lt_trichotomy i 0 with h | h | h
  · obtain ⟨n, rfl⟩ : ∃ n : Nat, i = -n := ⟨(-i).toNat, by omega⟩
    obtain ⟨w, e, a, b, c, d⟩ := shift_right hv (i := n) (by omega) (by omega)
    refine ⟨w, e, a, b, by rw [c]; simp [hl]; omega, fun k j hk hj hjk => ?_⟩
    rw [d, List.getElem?_append_right (by simp [hl]; omega), List.getElem?_take_of_lt (by simp [hl]; omega)]
    congr 1
    simp [hl]; omega
  · subst h
    refine ⟨v, by simp [shift], hv, rfl, rfl, fun k j hk hj hjk => ?_⟩
    congr 1; omega
  · obtain ⟨n, rfl⟩ : ∃ n : Nat, i = n := ⟨i.toNat, by omega⟩
    obtain ⟨w, e, a, b, c, d⟩ := shift_left hv (i := n) (by omega) (by omega)
    refine ⟨w, e, a, b, by rw [c]; simp [hl] <;> omega, fun k j hk hj hjk => ?_⟩
    rw [d, List.getElem?_append_left (by simp [hl]; omega), List.getElem?_drop]
    congr 1; omega

/-- the vacated places keep old elements: `{1, 2, 3}.shift(1)` is `{2, 3, 3}`, a shift by the size changes nothing, and one beyond it leaves the block -/
theorem C119_shift_false : shift ⟨[1, 2, 3], 3⟩ 1 = some ⟨[2, 3, 3], 3⟩ ∧ shifted [1, 2, 3] 1 = [2, 3, 0] ∧
    shift ⟨[1, 2, 3], 3⟩ (-1) = some ⟨[1, 1, 2], 3⟩ ∧ shifted [1, 2, 3] (-1) = [0, 1, 2] ∧
    shift ⟨[1, 2, 3], 3⟩ 3 = some ⟨[1, 2, 3], 3⟩ ∧ shifted [1, 2, 3] 3 = [0, 0, 0] ∧
    shift ⟨[1, 2, 3], 3⟩ 4 = (none : Option (VA Nat)) := by decide

/-- a shift by the size leaves every valarray as it is -/
theorem C119_shift_size_false [Inhabited α] (v : VA α) (hv : v.Ok) : Shows (shift v v.len) v.elems.length v.vis := by
  have hl := VA.vis_length hv
  by_cases h : v.len = 0
  · rw [h]
    exact ⟨v, by simp [shift], hv, rfl, by omega, rfl⟩
  · have := shift_left hv (i := v.len) (by omega) (Nat.le_refl _)
    rw [List.drop_eq_nil_of_le (by omega)] at this
    simpa using this

/-- the unary operators, `apply`, the operators with a value, the mathematical functions -/
theorem C119_transform [Inhabited α] (v : VA α) (hv : v.Ok) (f : α → α) : Shows (Valarray.transform f v) v.elems.length (v.vis.map f) :=
  transform_shows hv f

/-- the operators of two valarrays of the same size -/
theorem C119_transform2 [Inhabited α] (v w : VA α) (hv : v.Ok) (hw : w.Ok) (h : v.len = w.len) (f : α → α → α) :
    Shows (transform2 f v w) v.elems.length (List.zipWith f v.vis w.vis) := transform2_shows hv hw h f

/-- `operator!`, the comparison and logical operators, with a value or a valarray of the same size -/
theorem C119_transform_bool [Inhabited β] (v w : VA α) (hv : v.Ok) (hw : w.Ok) (h : v.len = w.len) (f : α → β) (g : α → α → β) :
    Shows (transformTo f v) v.elems.length (v.vis.map f) ∧ Shows (transformTo2 g v w) v.elems.length (List.zipWith g v.vis w.vis) := by
  constructor
  · refine packRa_shows hv.2 hv.1 (by simp [VA.vis_length hv]) ?_ ?_
    · intro i hi
      rw [if_pos (by simp [hi]), List.getElem?_map, ← vis_getElem? hi]
    · intro i hi h
      rw [if_neg (by simp; omega)]
      exact ⟨_, rfl⟩
  · refine packRa_shows hv.2 hv.1 (by simp [VA.vis_length hv, VA.vis_length hw, h]) ?_ ?_
    · intro i hi
      rw [if_pos (by simp [hi])]
      rw [vis_getElem? hi, vis_getElem? (show i < w.len by omega), List.getElem?_zipWith]
      rcases v.vis[i]? with _ | x <;> rcases w.vis[i]? with _ | y <;> rfl
    · intro i hi h
      rw [if_neg (by simp; omega)]
      exact ⟨_, rfl⟩

example : transform2 (· * ·) ⟨[1, 2, 3, 9], 3⟩ ⟨[4, 5, 6], 3⟩ = some ⟨[4, 10, 18, 0], 3⟩ := by decide

/-- `v *= x` and the other computed assignments of a value never compile -/
theorem C119_computed_value_false (op : α → α → α) (v : VA α) (x : α) : computedValue op v x = none := rfl

/-- `atan2`, `hypot`, `pow`, `log_a` of a nonempty valarray and a full one: the second range begins at its end -/
theorem C119_binary_functions_false [Inhabited α] (f : α → α → α) (v w : VA α) (hv : v.Ok) (hw : w.len = w.elems.length) (h : v.len ≠ 0) :
    transform2End f v w = none := by
  unfold transform2End packRa
  have : pack v.elems.length (fun j => if decide (j < v.len ∧ j < v.len) = true then (do
      let x ← v.elems[j]?
      let y ← w.elems[w.len + j]?
      some (f x y)) else v.elems[j]?) = none := by
    unfold pack
    obtain ⟨n, hn⟩ : ∃ n, v.elems.length = n + 1 := ⟨v.elems.length - 1, by have := hv.1; omega⟩
    rw [hn, List.range_succ_eq_map, List.mapM_cons]
    have : (if decide (0 < v.len ∧ 0 < v.len) = true then (do
      let x ← v.elems[0]?
      let y ← w.elems[w.len + 0]?
      some (f x y)) else v.elems[0]?) = none := by
      rw [if_pos (by simp; omega), List.getElem?_eq_none (l := w.elems) (by omega)]
      cases v.elems[0]? <;> rfl
    rw [this]; rfl
  rw [this]; rfl

end Sprout

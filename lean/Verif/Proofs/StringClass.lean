import Verif.Model.StringClass
import Verif.Spec.StringClass
import Verif.Proofs.StringSearch
import Verif.Proofs.Moves

/-! Lemmas for C74. -/

namespace Sprout.Str
open Spec (overwrite)
open Spec.Str BStr

theorem moveFrom_eq {ms : List Int} {s d : Nat} : ∀ (n : Nat) (m ds : List Int), ds.length = n → Seg ms s ds → d + n ≤ m.length →
    moveFrom m ms d s n = some (overwrite m d ds) := by
  intro n
  induction n with
  | zero =>
    intro m ds hn _ _
    rw [List.length_eq_zero_iff.1 hn, overwrite_nil]; rfl
  | succ n ih =>
    intro m ds hn hs hd
    have e : rd ms (s + n) = some (ds[n]'(by omega)) := by
      have := hs n (by omega)
      rw [List.getElem?_eq_getElem (l := ds) (by omega)] at this
      exact this
    have hw : wr m (d + n) (ds[n]'(by omega)) = some (m.set (d + n) (ds[n]'(by omega))) := by rw [wr, if_pos (by omega)]
    rw [moveFrom, e, Option.bind_eq_bind, Option.bind_some, hw, Option.bind_eq_bind, Option.bind_some,
      ih _ (ds.take n) (by simp; omega) (seg_take hs n) (by simp; omega)]
    refine congrArg some ?_
    apply List.ext_getElem?
    intro i
    rw [overwrite_getElem? (by simp; omega), overwrite_getElem? (by omega)]
    simp only [List.length_take, List.getElem?_set]
    by_cases h1 : i < d
    · rw [if_pos h1, if_pos h1, if_neg (by omega)]
    · rw [if_neg h1, if_neg h1]
      by_cases h2 : i < d + n
      · rw [if_pos (by omega), if_pos (by omega), List.getElem?_take_of_lt (by omega)]
      · rw [if_neg (by omega)]
        by_cases h3 : i = d + n
        · rw [if_pos h3.symm, if_pos (by omega), if_pos (by omega), h3, Nat.add_sub_cancel_left, List.getElem?_eq_getElem (by omega)]
        · rw [if_neg (by omega), if_neg (by omega)]

theorem fill_eq (v : Int) : ∀ (n d : Nat) (m : List Int), d + n ≤ m.length → fill m d n v = some (overwrite m d (List.replicate n v)) := by
  intro n
  induction n with
  | zero => intro d m _; rw [List.replicate_zero, overwrite_nil]; rfl
  | succ n ih =>
    intro d m hd
    rw [fill, wr, if_pos (by omega), Option.bind_eq_bind, Option.bind_some, ih (d + 1) _ (by simp; omega)]
    refine congrArg some ?_
    apply List.ext_getElem?
    intro i
    rw [overwrite_getElem? (by simp; omega), overwrite_getElem? (by simp; omega)]
    simp only [List.length_replicate, List.getElem?_set, List.getElem?_replicate]
    by_cases h1 : i < d
    · rw [if_pos (by omega), if_pos h1, if_neg (by omega)]
    · by_cases h2 : i = d
      · subst h2
        rw [if_pos (by omega), if_pos rfl, if_pos (by omega), if_neg (by omega), if_pos (by omega), if_pos (by omega)]
      · rw [if_neg (by omega), if_neg h1]
        by_cases h3 : i < d + 1 + n
        · rw [if_pos h3, if_pos (by omega), if_pos (by omega), if_pos (by omega)]
        · rw [if_neg h3, if_neg (by omega), if_neg (by omega)]

theorem storeLoop_eq : ∀ (ds m : List Int) (d : Nat), d + ds.length ≤ m.length →
    storeLoop m d ds = some (overwrite m d ds, d + ds.length) := by
  intro ds
  induction ds with
  | nil => intro m d _; rw [overwrite_nil]; rfl
  | cons c ds ih =>
    intro m d hd
    rw [List.length_cons] at hd
    rw [storeLoop, wr, if_pos (by omega), Option.bind_eq_bind, Option.bind_some, ih _ (d + 1) (by simp; omega), List.length_cons]
    refine congrArg some (Prod.ext ?_ (by simp only []; omega))
    apply List.ext_getElem?
    intro i
    rw [overwrite_getElem? (by simp; omega), overwrite_getElem? (by simp; omega)]
    simp only [List.length_cons, List.getElem?_set]
    by_cases h1 : i < d
    · rw [if_pos (by omega), if_pos h1, if_neg (by omega)]
    · by_cases h2 : i = d
      · subst h2
        rw [if_pos (by omega), if_pos rfl, if_pos (by omega), if_neg (by omega), if_pos (by omega), Nat.sub_self]
        rfl
      · rw [if_neg (by omega), if_neg h1]
        by_cases h3 : i < d + 1 + ds.length
        · have : i - d = (i - (d + 1)) + 1 := by omega
          rw [if_pos h3, if_pos (by omega), this, List.getElem?_cons_succ]
        · rw [if_neg h3, if_neg (by omega), if_neg (by omega)]

theorem storeLoopChecked_eq {N : Nat} : ∀ (ds m : List Int) (d : Nat), d ≤ N + 1 → m.length = N + 1 →
    storeLoopChecked N m d ds = if d + ds.length ≤ N + 1 then some (.ret (overwrite m d ds, d + ds.length))
      else some (.throw .lengthError) := by
  intro ds
  induction ds with
  | nil => intro m d h _; rw [overwrite_nil, if_pos (by simpa using h)]; rfl
  | cons c ds ih =>
    intro m d hd hm
    rw [storeLoopChecked]
    by_cases hc : d > N
    · rw [if_pos hc, if_neg (by simp; omega)]
    · rw [if_neg hc, wr, if_pos (by omega), Option.bind_eq_bind, Option.bind_some, ih _ (d + 1) (by omega) (by simp; omega)]
      by_cases h : d + 1 + ds.length ≤ N + 1
      · have e := storeLoop_eq (c :: ds) m d (by simp; omega)
        rw [storeLoop, wr, if_pos (by omega), Option.bind_eq_bind, Option.bind_some, storeLoop_eq ds _ (d + 1) (by simp; omega)] at e
        have e' := Option.some.inj e
        rw [if_pos h, if_pos (by simp; omega), e']
      · rw [if_neg h, if_neg (by simp; omega)]

/-- the state before `put_terminator(n)`: the new characters are in place, beyond the old and the new length there are nulls -/
theorem putTerminator_repr {N : Nat} {e ds : List Int} {len : Nat} (he : e.length = N + 1) (hl : len ≤ N) (hd : ds.length ≤ N)
    (hs : ∀ i, i < ds.length → e[i]? = ds[i]?) (hz : ∀ i, max ds.length len ≤ i → i ≤ N → e[i]? = some 0) :
    ∃ y, putTerminator ⟨e, len⟩ ds.length = some y ∧ Represents N y.elems y.len ds := by
  rw [putTerminator]
  by_cases h : ds.length < len
  · simp only [h, if_true]
    rw [fill_eq 0 _ _ _ (by omega), Option.bind_eq_bind, Option.bind_some]
    have hlen : ds.length + (List.replicate (len - ds.length) (0 : Int)).length ≤ e.length := by simp; omega
    refine ⟨_, rfl, ⟨by rw [overwrite_length hlen, he], rfl, hd, ?_, ?_⟩⟩
    · intro i hi
      rw [overwrite_getElem? hlen, if_pos hi, hs i hi]
    · intro i h1 h2
      rw [overwrite_getElem? hlen, if_neg (by omega)]
      simp only [List.length_replicate, List.getElem?_replicate]
      by_cases h3 : i < len
      · rw [if_pos (by omega), if_pos (by omega)]
      · rw [if_neg (by omega), hz i (by omega) h2]
  · simp only [h, if_false]
    exact ⟨_, rfl, ⟨he, rfl, hd, hs, fun i h1 h2 => hz i (by omega) h2⟩⟩

/-- overwriting a represented string at a position up to its length, then `put_terminator` -/
theorem finish_overwrite {N : Nat} {x : BStr} {cs ds : List Int} {d n : Nat} (hx : Represents N x.elems x.len cs) (hd : d ≤ cs.length)
    (hn : n = d + ds.length) (hN : n ≤ N) :
    ∃ y, finish x (some (overwrite x.elems d ds)) n = some (.ret y) ∧ Represents N y.elems y.len (cs.take d ++ ds) := by
  have hf := hx.fits
  have hsz := hx.size
  have hle : d + ds.length ≤ x.elems.length := by omega
  have hlen : (cs.take d ++ ds).length = n := by simp; omega
  obtain ⟨y, e, hy⟩ := putTerminator_repr (N := N) (e := overwrite x.elems d ds) (ds := cs.take d ++ ds) (len := x.len)
    (by rw [overwrite_length hle, hsz]) (by rw [hx.len]; exact hf) (by omega) (by
      intro i hi
      rw [overwrite_getElem? hle]
      by_cases h : i < d
      · rw [if_pos h, List.getElem?_append_left (by simp; omega), List.getElem?_take_of_lt h, hx.chars i (by omega)]
      · rw [if_neg h, if_pos (by omega), List.getElem?_append_right (by simp; omega)]
        congr 1; simp; omega) (by
      intro i h1 h2
      rw [hx.len] at h1
      rw [overwrite_getElem? hle, if_neg (by omega), if_neg (by omega), hx.nulls i (by omega) h2])
  rw [hlen] at e
  refine ⟨y, ?_, hy⟩
  rw [finish, Option.bind_eq_bind, Option.bind_some, e]; rfl

theorem maxSize_eq {N : Nat} {x : BStr} {cs : List Int} (hx : Represents N x.elems x.len cs) : maxSize x = N := by
  rw [maxSize, hx.size]; omega

theorem repr_seg {N : Nat} {x : BStr} {cs : List Int} (hx : Represents N x.elems x.len cs) : Seg x.elems 0 cs := by
  intro i hi; rw [Nat.zero_add]; exact hx.chars i hi

theorem wrap_eq {n : Nat} (h : n < 2 ^ 64) : wrap n = n := Nat.mod_eq_of_lt h

theorem mapM_range {f : Nat → Option Int} {g : Nat → Int} : ∀ (n : Nat), (∀ i, i < n → f i = some (g i)) →
    (List.range n).mapM f = some ((List.range n).map g) := by
  intro n h
  have : ∀ l : List Nat, (∀ i ∈ l, f i = some (g i)) → l.mapM f = some (l.map g) := by
    intro l
    induction l with
    | nil => intro _; rfl
    | cons a l ih =>
      intro hl
      rw [List.mapM_cons, hl a (by simp), ih (fun i hi => hl i (by simp [hi]))]
      rfl
  exact this _ (fun i hi => h i (List.mem_range.1 hi))

/-- an array of `N + 1` characters built by a constructor -/
theorem represents_map {N n : Nat} {g : Nat → Int} {cs : List Int} (hn : n = cs.length) (hN : n ≤ N)
    (h1 : ∀ i (h : i < cs.length), g i = cs[i]) (h2 : ∀ i, cs.length ≤ i → i ≤ N → g i = 0) :
    Represents N ((List.range (N + 1)).map g) n cs := by
  refine ⟨by simp, hn, by omega, ?_, ?_⟩
  · intro i hi
    rw [List.getElem?_map, List.getElem?_range (by omega), Option.map_some, h1 i hi, List.getElem?_eq_getElem hi]
  · intro i a b
    rw [List.getElem?_map, List.getElem?_range (by omega), Option.map_some, h2 i a b]

theorem build_eq {ms ds : List Int} {pos n k N : Nat} (hs : Seg ms pos ds) (hn : n = ds.length) (hk : n ≤ k) :
    build ms pos n k N = some ((List.range (N + 1)).map (fun i => (ds[i]?).getD 0)) := by
  rw [build]
  apply mapM_range
  intro i _
  rw [elem]
  by_cases h : i < n
  · rw [if_pos (by omega), if_pos h, rd, Nat.add_comm, hs i (by omega), List.getElem?_eq_getElem (by omega)]; rfl
  · rw [if_neg h, ite_self, List.getElem?_eq_none (by omega)]; rfl

theorem represents_build {N : Nat} {ds : List Int} (h : ds.length ≤ N) :
    Represents N ((List.range (N + 1)).map (fun i => (ds[i]?).getD 0)) ds.length ds := by
  apply represents_map rfl h
  · intro i hi; rw [List.getElem?_eq_getElem hi]; rfl
  · intro i hi _; rw [List.getElem?_eq_none hi]; rfl

end Sprout.Str

namespace Sprout.Str
open Spec (overwrite)
open Spec.Str BStr

theorem fill_none (v : Int) : ∀ (n d : Nat) (m : List Int), d ≤ m.length → m.length < d + n → fill m d n v = none := by
  intro n
  induction n with
  | zero => intro d m h1 h2; omega
  | succ n ih =>
    intro d m h1 h2
    rw [fill, wr]
    by_cases h : d < m.length
    · rw [if_pos h, Option.bind_eq_bind, Option.bind_some]
      exact ih (d + 1) _ (by simp; omega) (by simp; omega)
    · rw [if_neg h]; rfl

theorem swapRanges_eq : ∀ (n i : Nat) (a b : List Int), i + n ≤ a.length → i + n ≤ b.length →
    ∃ a' b', BStr.swapRanges a b i n = some (a', b') ∧ a'.length = a.length ∧ b'.length = b.length ∧
      (∀ j, a'[j]? = if i ≤ j ∧ j < i + n then b[j]? else a[j]?) ∧ (∀ j, b'[j]? = if i ≤ j ∧ j < i + n then a[j]? else b[j]?) := by
  intro n
  induction n with
  | zero =>
    intro i a b _ _
    refine ⟨a, b, rfl, rfl, rfl, ?_, ?_⟩ <;> intro j <;> rw [if_neg (by omega)]
  | succ n ih =>
    intro i a b ha hb
    have e1 : rd a i = some (a[i]'(by omega)) := List.getElem?_eq_getElem (by omega)
    have e2 : rd b i = some (b[i]'(by omega)) := List.getElem?_eq_getElem (by omega)
    obtain ⟨a', b', e, l1, l2, h1, h2⟩ := ih (i + 1) (a.set i (b[i]'(by omega))) (b.set i (a[i]'(by omega))) (by simp; omega) (by simp; omega)
    have w1 : wr a i (b[i]'(by omega)) = some (a.set i (b[i]'(by omega))) := by rw [wr, if_pos (by omega)]
    have w2 : wr b i (a[i]'(by omega)) = some (b.set i (a[i]'(by omega))) := by rw [wr, if_pos (by omega)]
    refine ⟨a', b', ?_, by simpa using l1, by simpa using l2, ?_, ?_⟩
    · simp only [BStr.swapRanges, e1, e2, w1, w2, Option.bind_eq_bind, Option.bind_some, e]
    · intro j
      rw [h1 j]
      simp only [List.getElem?_set]
      by_cases hj : i = j
      · subst hj
        rw [if_neg (by omega), if_pos rfl, if_pos (by omega), if_pos (by omega), List.getElem?_eq_getElem (by omega)]
      · rw [if_neg hj, if_neg hj]
        by_cases hc : i ≤ j ∧ j < i + (n + 1)
        · rw [if_pos hc, if_pos (by omega)]
        · rw [if_neg hc, if_neg (by omega)]
    · intro j
      rw [h2 j]
      simp only [List.getElem?_set]
      by_cases hj : i = j
      · subst hj
        rw [if_neg (by omega), if_pos rfl, if_pos (by omega), if_pos (by omega), List.getElem?_eq_getElem (by omega)]
      · rw [if_neg hj, if_neg hj]
        by_cases hc : i ≤ j ∧ j < i + (n + 1)
        · rw [if_pos hc, if_pos (by omega)]
        · rw [if_neg hc, if_neg (by omega)]

theorem moveSelf_eq {m xs : List Int} {s d n : Nat} (hn : xs.length = n) (hs : Seg m s xs) (hd : d + n ≤ s ∨ s ≤ d)
    (hr : d + n ≤ m.length) : moveSelf m d s n = some (overwrite m d xs) := by
  rw [moveSelf, copyBackward_spec n xs m s d hn hs hd hr]; rfl

/-- `N` characters given, the last value-initialised -/
theorem represents_map_snoc {N n : Nat} {g : Nat → Int} {cs : List Int} (hn : n = cs.length) (hN : n ≤ N)
    (h1 : ∀ i (h : i < cs.length), g i = cs[i]) (h2 : ∀ i, cs.length ≤ i → i < N → g i = 0) :
    Represents N ((List.range N).map g ++ [0]) n cs := by
  refine ⟨by simp, hn, by omega, ?_, ?_⟩
  · intro i hi
    rw [List.getElem?_append_left (by simp; omega), List.getElem?_map, List.getElem?_range (by omega), Option.map_some, h1 i hi,
      List.getElem?_eq_getElem hi]
  · intro i a b
    by_cases h : i < N
    · rw [List.getElem?_append_left (by simp; omega), List.getElem?_map, List.getElem?_range (by omega), Option.map_some, h2 i a h]
    · have : i = N := by omega
      subst this
      rw [List.getElem?_append_right (by simp)]; simp

theorem concatElem_eq {N1 N2 : Nat} {x y : BStr} {cs ds : List Int} (hx : Represents N1 x.elems x.len cs)
    (hy : Represents N2 y.elems y.len ds) (i : Nat) : concatElem x y (x.len + y.len) i = some (((cs ++ ds)[i]?).getD 0) := by
  rw [concatElem, hx.len, hy.len]
  by_cases h1 : i < cs.length
  · have : rd x.elems i = some cs[i] := by rw [rd, hx.chars i h1, List.getElem?_eq_getElem h1]
    rw [if_pos h1, this, Option.bind_eq_bind, Option.bind_some, List.getElem?_append_left h1,
      List.getElem?_eq_getElem h1]
    show some (if _ then _ else _) = _
    rw [if_pos (by omega)]; rfl
  · rw [if_neg h1]
    by_cases h2 : i < cs.length + ds.length
    · have : rd y.elems (i - cs.length) = some (ds[i - cs.length]'(by omega)) := by
        rw [rd, hy.chars _ (by omega), List.getElem?_eq_getElem (by omega)]
      rw [if_pos h2, this, Option.bind_eq_bind, Option.bind_some, List.getElem?_append_right (by omega),
        List.getElem?_eq_getElem (by omega)]
      show some (if _ then _ else _) = _
      rw [if_pos h2]; rfl
    · rw [if_neg h2, Option.bind_eq_bind, Option.bind_some, List.getElem?_eq_none (by simp; omega)]
      show some (if _ then _ else _) = _
      rw [if_neg h2]; rfl

/-- what `strlen` finds from a position of a represented string on -/
theorem isStr_suffix {N : Nat} {x : BStr} {cs : List Int} (hx : Represents N x.elems x.len cs) (pos : Nat) (hp : pos ≤ cs.length) :
    Cstr.IsStr x.elems pos ((cs.drop pos).takeWhile (fun c => c != 0)) := by
  refine ⟨?_, ?_⟩
  · have hall : Seg x.elems pos (cs.drop pos ++ [0]) := by
      intro i hi
      rw [List.length_append, List.length_drop, List.length_singleton] at hi
      by_cases h : i < cs.length - pos
      · rw [List.getElem?_append_left (by simpa using h), List.getElem?_drop, hx.chars _ (by omega)]
      · have : i = cs.length - pos := by omega
        have hf := hx.fits
        rw [List.getElem?_append_right (by simpa using (by omega)), hx.nulls _ (by omega) (by omega), List.length_drop, this]
        simp
    have key : ∀ l : List Int, ∃ t, l ++ [0] = (l.takeWhile (fun c => c != 0) ++ [0]) ++ t := by
      intro l
      induction l with
      | nil => exact ⟨[], rfl⟩
      | cons c l ih =>
        by_cases hc : c = 0
        · subst hc
          exact ⟨l ++ [0], by simp⟩
        · obtain ⟨t, ht⟩ := ih
          refine ⟨t, ?_⟩
          rw [List.takeWhile_cons, if_pos (by simpa using hc), List.cons_append, ht]
          rfl
    obtain ⟨t, ht⟩ := key (cs.drop pos)
    rw [ht] at hall
    intro i hi
    rw [hall i (by rw [List.length_append]; omega), List.getElem?_append_left hi]
  · intro h
    have key : ∀ l : List Int, ∀ c ∈ l.takeWhile (fun c => c != 0), c ≠ 0 := by
      intro l
      induction l with
      | nil => intro c hc; cases hc
      | cons a l ih =>
        intro c hc
        rw [List.takeWhile_cons] at hc
        by_cases ha : a = 0
        · simp [ha] at hc
        · rw [if_pos (by simpa using ha), List.mem_cons] at hc
          rcases hc with rfl | hc
          · exact ha
          · exact ih c hc
    exact key _ 0 h rfl

/-- `ofChecked`: the string if it fits, else `length_error` -/
theorem ofChecked_eq {N s : Nat} {ds ms : List Int} (hs : Seg ms s ds) :
    if ds.length ≤ N then ∃ y, BStr.ofChecked N ms s ds.length = some (.ret y) ∧ Represents N y.elems y.len ds
    else BStr.ofChecked N ms s ds.length = some (.throw .lengthError) := by
  rw [BStr.ofChecked]
  by_cases h : ds.length ≤ N
  · rw [if_pos h, build_eq hs rfl h, Option.bind_eq_bind, Option.bind_some, if_pos (by omega)]
    exact ⟨_, rfl, represents_build h⟩
  · have : BStr.build ms s ds.length N N = some ((List.range (N + 1)).map (fun i => if i < N then (ds[i]?).getD 0 else 0)) := by
      rw [BStr.build]
      apply mapM_range
      intro i _
      rw [BStr.elem]
      by_cases h : i < N
      · rw [if_pos h, if_pos (by omega), if_pos h, rd, Nat.add_comm, hs i (by omega), List.getElem?_eq_getElem (by omega)]; rfl
      · rw [if_neg h, if_neg h]
    rw [if_neg h, this, Option.bind_eq_bind, Option.bind_some, if_neg (by omega)]

/-- no null character: `strlen` reads past the end -/
theorem strlen_one {c : Int} (h : c ≠ 0) : Cstr.strlen [c] 0 = none := by
  have f0 : Cstr.finFlag [c] (fun _ => false) Prod.fst ((0, 0) : Nat × Nat) = some none := by
    simp [Cstr.finFlag, Cstr.atEnd, rd, h]
  have f1 : Cstr.finFlag [c] (fun _ => false) Prod.fst ((1, 1) : Nat × Nat) = none := by
    simp [Cstr.finFlag, Cstr.atEnd, rd]
  rw [Cstr.strlen, Cstr.sdbl, f0]
  simp only [Option.bind_eq_bind, Option.bind_some]
  rw [Cstr.sdbl1, f0]
  simp only [Option.bind_eq_bind, Option.bind_some, if_pos, Nat.zero_add]
  rw [Cstr.sdbl, f1]
  rfl

end Sprout.Str

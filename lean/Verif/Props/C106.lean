import Verif.Proofs.SubArray
import Verif.Props.C15

/-!
# C106: sub_array

Windows of arrays as sequences: access, windows of windows, writing, comparison.
-/

namespace Sprout

open SubArr Spec

variable {α : Type}

/-- size, access and iterators -/
theorem C106_access {s : SubArr α} (h : s.Ok) :
    s.size = s.vis.length ∧ (s.empty = true ↔ s.vis = []) ∧ (∀ i, i < s.vis.length → s.index i = s.vis[i]?) ∧
    (∀ i, s.at' i = some ((s.vis[i]?).elim (.throw .outOfRange) .ret)) ∧
    (s.vis ≠ [] → s.front = s.vis.head? ∧ s.back = s.vis.getLast?) ∧
    (∀ i, i < s.vis.length → ∃ p, s.nth i = .ret p ∧ get s.arr p = s.vis[i]? ∧ s.indexOf p = i) ∧
    (∀ i, s.vis.length ≤ i → s.nth i = .throw .outOfRange) ∧
    s.fromEnd = -(s.behind.length : ℤ) := by
  obtain ⟨h1, h2, h3⟩ := decomp h
  have hlen := congrArg List.length h1
  simp only [List.length_append] at hlen
  have hb := h.big
  have hm : s.size % 2 ^ 64 = s.size := Int.emod_eq_of_lt (by omega) (by omega)
  have hs : s.size = s.l - s.f := rfl
  refine ⟨h3.symm, ?_, fun i hi => index_eq h (by omega), fun i => ?_, fun hne => ?_, fun i hi => ?_, fun i hi => ?_, ?_⟩
  · rw [empty, beq_iff_eq, ← List.length_eq_zero_iff]
    omega
  · rw [at', hm]
    split_ifs with hi
    · rw [index_eq h hi, List.getElem?_eq_getElem (by omega)]
      rfl
    · rw [List.getElem?_eq_none (by omega)]
      rfl
  · have := List.length_pos_iff.2 hne
    constructor
    · have := index_eq h (i := 0) (by omega)
      simpa [front, List.head?_eq_getElem?] using this
    · have := index_eq h (i := s.vis.length - 1) (by omega)
      rw [back, List.getLast?_eq_getElem?, ← this]
      congr 1
      omega
  · refine ⟨s.f + i, ?_, index_eq h (by omega), ?_⟩
    · rw [nth, hm, if_pos (by omega)]; rfl
    · simp [indexOf, begin]
  · rw [nth, hm, if_neg (by omega)]
  · rw [fromEnd]
    omega

/-- windows of arrays -/
theorem C106_sub {A : List α} (hA : A.length < 2 ^ 64) {f l : ℕ} (hfl : f ≤ l) (hl : l ≤ A.length) :
    (subIt A f l).Shows ((A.take l).drop f) ∧ (subIt1 A f).Shows (A.drop f) ∧ (subWindow A f l).Shows ((A.take l).drop f) ∧
    (subWindow1 A f).Shows (A.drop f) ∧ (subOffset A f (-(A.length - l : ℕ))).Shows ((A.take l).drop f) := by
  have e := sub_shows hA (f := f) (l := A.length) (by omega) le_rfl
  rw [List.take_length] at e
  have e' := sub_shows hA hfl hl
  refine ⟨by simpa [subIt] using e', by simpa [subIt1, subIt] using e, e', e, ?_⟩
  rw [subOffset, show (A.length : ℤ) + -((A.length - l : ℕ) : ℤ) = l by omega]
  exact e'

/-- windows of windows: positions count from the begin of the window; iterators are positions in the array -/
theorem C106_sub_window {s : SubArr α} (h : s.Ok) {f l : ℕ} (hfl : f ≤ l) (hl : l ≤ s.vis.length) :
    (s.reSubIt (s.begin + f) (s.begin + l)).Shows ((s.vis.take l).drop f) ∧
    (s.cSubIt (s.begin + f) (s.begin + l)).Shows ((s.vis.take l).drop f) ∧
    (s.reWindow f l).Shows ((s.vis.take l).drop f) ∧ (s.cWindow f l).Shows ((s.vis.take l).drop f) ∧
    (s.reWindow1 f).Shows (s.vis.drop f) ∧ (s.cWindow1 f).Shows (s.vis.drop f) ∧
    (s.reOffset f (-(s.vis.length - l : ℕ))).Shows ((s.vis.take l).drop f) ∧
    (s.cOffset f (-(s.vis.length - l : ℕ))).Shows ((s.vis.take l).drop f) ∧
    (s.offset f (-(s.vis.length - l : ℕ))).Shows ((s.vis.take l).drop f) ∧
    (s.offsetMut f (-(s.vis.length - l : ℕ))).Shows ((s.vis.take l).drop f) := by
  obtain ⟨h1, h2, h3⟩ := decomp h
  have e := reWindow_shows h (f := f) (l := s.vis.length) (by omega) (by omega)
  rw [List.take_length] at e
  have e' := reWindow_shows h hfl (l := l) (by omega)
  have hs : s.size = s.l - s.f := rfl
  have t1 : s.f + (s.size + -((s.vis.length - l : ℕ) : ℤ)) = s.f + l := by omega
  have t2 : s.l + -((s.vis.length - l : ℕ) : ℤ) = s.f + l := by omega
  refine ⟨by simpa [reSubIt, begin] using e', by simpa [cSubIt, subIt, begin] using e', e', e', ?_, ?_, ?_, ?_, ?_, ?_⟩
  · rw [reWindow1, reWindow, ← h3]; exact e
  · rw [cWindow1, ← h3]; exact e
  · rw [reOffset, reWindow, t1]; exact e'
  · rw [cOffset, t2]; exact e'
  · rw [offset, t2]; exact e'
  · rw [offsetMut, t2]; exact e'

/-- the member functions `window(to_first, to_last)` count from the begin of the array -/
theorem C106_window {s : SubArr α} (h : s.Ok) {f l : ℕ} (hfl : f ≤ l) (hl : l ≤ s.arr.length) :
    (s.window f l).Shows ((s.arr.take l).drop f) ∧ (s.windowMut f l).Shows ((s.arr.take l).drop f) :=
  ⟨sub_shows h.big hfl hl, sub_shows h.big hfl hl⟩

/-- writing: the sequence changes as it should, and nothing else in the array is changed but the elements given up or taken -/
theorem C106_modify [Inhabited α] {s : SubArr α} (h : s.Ok) (x : α) :
    (∃ t, s.fill x = some t ∧ t.Shows (List.replicate s.vis.length x) ∧ t.before = s.before ∧ t.behind = s.behind) ∧
    (s.behind ≠ [] → ∃ t, s.pushBack x = some t ∧ t.Shows (s.vis ++ [x]) ∧ t.before = s.before ∧ t.behind = s.behind.tail) ∧
    (s.before ≠ [] → ∃ t, s.pushFront x = some t ∧ t.Shows (x :: s.vis) ∧ t.before = s.before.dropLast ∧ t.behind = s.behind) ∧
    (s.vis ≠ [] → ∃ t, s.popBack = some t ∧ t.Shows s.vis.dropLast ∧ t.before = s.before ∧ t.behind = default :: s.behind) ∧
    (s.vis ≠ [] → ∃ t, s.popFront = some t ∧ t.Shows s.vis.tail ∧ t.before = s.before ++ [default] ∧ t.behind = s.behind) ∧
    (s.vis ≠ [] → s.dropBack.Shows s.vis.dropLast ∧ s.dropBack.arr = s.arr) ∧
    (s.vis ≠ [] → s.dropFront.Shows s.vis.tail ∧ s.dropFront.arr = s.arr) := by
  obtain ⟨h1, h2, h3⟩ := decomp h
  have hlen := congrArg List.length h1
  simp only [List.length_append] at hlen
  have hb := h.big
  have hs : s.size = s.l - s.f := rfl
  have last : s.vis ≠ [] → ∃ W w, s.vis = W ++ [w] := fun hn => ⟨_, _, (List.dropLast_append_getLast hn).symm⟩
  have first : s.vis ≠ [] → ∃ w W, s.vis = w :: W := fun hn => List.exists_cons_of_ne_nil hn
  refine ⟨?_, fun hn => ?_, fun hn => ?_, fun hn => ?_, fun hn => ?_, fun hn => ?_, fun hn => ?_⟩
  · have := fillFrom_eq x s.vis s.before s.behind s.begin h2.symm
    rw [← h1] at this
    rw [fill, show s.size.toNat = s.vis.length by omega, this]
    refine ⟨_, rfl, shows_of rfl h2.symm ?_ ?_⟩
    · show s.l = _
      rw [List.length_replicate]; omega
    · simp only [List.length_append, List.length_replicate]; omega
  · obtain ⟨b, B, hB⟩ := List.exists_cons_of_ne_nil hn
    rw [hB] at h1 hlen ⊢
    rw [pushBack, h1, put_eq (by rw [List.length_append]; push_cast; omega)]
    refine ⟨_, rfl, ?_⟩
    have e : s.before ++ s.vis ++ x :: B = s.before ++ (s.vis ++ [x]) ++ B := by simp
    refine shows_of (A := s.before) (B := B) e h2.symm ?_ ?_
    · show s.l + 1 = _
      simp only [List.length_append, List.length_singleton]; omega
    · simp only [List.length_append, List.length_cons] at hlen ⊢; omega
  · obtain ⟨W, w, hW⟩ : ∃ W w, s.before = W ++ [w] := ⟨_, _, (List.dropLast_append_getLast hn).symm⟩
    rw [hW] at h1 hlen h2 ⊢
    have e0 : W ++ [w] ++ s.vis ++ s.behind = W ++ w :: (s.vis ++ s.behind) := by simp
    rw [List.length_append, List.length_singleton] at h2 hlen
    rw [pushFront, h1, e0, put_eq (by omega), List.dropLast_concat]
    refine ⟨_, rfl, ?_⟩
    have e : W ++ x :: (s.vis ++ s.behind) = W ++ (x :: s.vis) ++ s.behind := by simp
    refine shows_of (A := W) (B := s.behind) e ?_ ?_ ?_
    · show s.f - 1 = _; omega
    · show s.l = _
      simp only [List.length_cons]; omega
    · simp only [List.length_append, List.length_cons] at hlen ⊢; omega
  · obtain ⟨W, w, hW⟩ := last hn
    rw [hW] at h1 h3 hlen ⊢
    have e0 : s.before ++ (W ++ [w]) ++ s.behind = s.before ++ W ++ w :: s.behind := by simp
    rw [List.length_append, List.length_singleton] at h3 hlen
    rw [popBack, h1, e0, put_eq (by rw [List.length_append]; push_cast; omega), List.dropLast_concat]
    refine ⟨_, rfl, shows_of (A := s.before) (B := default :: s.behind) rfl h2.symm ?_ ?_⟩
    · show s.l - 1 = _; omega
    · simp only [List.length_append, List.length_cons]; omega
  · obtain ⟨w, W, hW⟩ := first hn
    rw [hW] at h1 h3 hlen ⊢
    have e0 : s.before ++ (w :: W) ++ s.behind = s.before ++ w :: (W ++ s.behind) := by simp
    rw [List.length_cons] at h3 hlen
    rw [popFront, h1, e0, put_eq h2.symm, List.tail_cons]
    refine ⟨_, rfl, ?_⟩
    have e : s.before ++ default :: (W ++ s.behind) = (s.before ++ [default]) ++ W ++ s.behind := by simp
    refine shows_of (A := s.before ++ [default]) (B := s.behind) e ?_ ?_ ?_
    · show s.f + 1 = _
      simp only [List.length_append, List.length_singleton]; omega
    · show s.l = _
      simp only [List.length_append, List.length_singleton]; omega
    · simp only [List.length_append, List.length_cons]; omega
  · obtain ⟨W, w, hW⟩ := last hn
    rw [hW] at h1 h3 ⊢
    rw [List.length_append, List.length_singleton] at h3
    rw [List.dropLast_concat]
    refine ⟨(shows_of (s := s.dropBack) (A := s.before) (B := w :: s.behind) ?_ h2.symm ?_ hb).1, rfl⟩
    · show s.arr = _
      rw [h1]; simp
    · show s.l - 1 = _; omega
  · obtain ⟨w, W, hW⟩ := first hn
    rw [hW] at h1 h3 ⊢
    rw [List.length_cons] at h3
    rw [List.tail_cons]
    refine ⟨(shows_of (s := s.dropFront) (A := s.before ++ [w]) (B := s.behind) ?_ ?_ ?_ hb).1, rfl⟩
    · show s.arr = _
      rw [h1]; simp
    · show s.f + 1 = _
      simp only [List.length_append, List.length_singleton]; omega
    · show s.l = _
      simp only [List.length_append, List.length_singleton]; omega

/-- the order operators are those of the dictionary order, for windows of any length -/
theorem C106_order (c : α → α → Bool) {s t : SubArr α} (hs : s.Ok) (ht : t.Ok) :
    ∃ b g, SubArr.lt c s t = some b ∧ SubArr.gt c s t = some g ∧ SubArr.le c s t = some (!g) ∧ SubArr.ge c s t = some (!b) ∧
      (b = true ↔ LexLt c s.vis t.vis) ∧ (g = true ↔ LexLt c t.vis s.vis) := by
  have key : ∀ {s t : SubArr α}, s.Ok → t.Ok → ∃ b, SubArr.lt c s t = some b ∧ (b = true ↔ LexLt c s.vis t.vis) := by
    intro s t hs ht
    obtain ⟨h1, h2, h3⟩ := decomp hs
    obtain ⟨i1, i2, i3⟩ := decomp ht
    obtain ⟨b, hb, -, hb'⟩ := C19_lexicographical_compare c s.before s.vis s.behind t.before t.vis t.behind
    have e1 : s.size = s.l - s.f := rfl
    have e2 : t.size = t.l - t.f := rfl
    refine ⟨b, ?_, hb'⟩
    rw [← h1, ← i1] at hb
    rw [SubArr.lt, ← hb]
    congr 1 <;> omega
  obtain ⟨b, hb, hb'⟩ := key hs ht
  obtain ⟨g, hg, hg'⟩ := key ht hs
  exact ⟨b, g, hb, hg, by rw [SubArr.le, hg]; rfl, by rw [SubArr.ge, hb]; rfl, hb', hg'⟩

/-- equality of windows of the same length; what is missing: windows of different lengths, for which `==` is wrong -/
theorem C106_equal_partial (e : α → α → Bool) (he : ∀ x y, e x y = true ↔ x = y) {s t : SubArr α} (hs : s.Ok) (ht : t.Ok)
    (hl : s.vis.length = t.vis.length) :
    ∃ b, SubArr.eq e s t = some b ∧ SubArr.ne e s t = some (!b) ∧ (b = true ↔ s.vis = t.vis) := by
  obtain ⟨h1, h2, h3⟩ := decomp hs
  obtain ⟨i1, i2, i3⟩ := decomp ht
  have e1 : s.size = s.l - s.f := rfl
  have key := (C15_equal e s.before s.vis s.behind t.before t.vis t.behind (by omega)).1
  rw [← h1, ← i1] at key
  have key' : SubArr.eq e s t = some ((List.zipWith e s.vis t.vis).all id) := by
    rw [SubArr.eq, ← key]
    congr 1 <;> omega
  refine ⟨_, key', by rw [SubArr.ne, key']; rfl, ?_⟩
  generalize s.vis = a at hl
  generalize t.vis = b at hl
  clear h1 h2 h3 i1 i2 i3 key key' e1
  induction a generalizing b with
  | nil => cases b <;> simp_all
  | cons x a ih =>
    cases b with
    | nil => simp at hl
    | cons y b =>
      have := ih b (by simpa using hl)
      simp only [List.zipWith_cons_cons, List.all_cons, id_eq, Bool.and_eq_true, he, List.cons.injEq]
      rw [← this]

/-- a window that is a proper prefix of another is equal to it -/
theorem C106_equal_refuted : SubArr.eq (· == ·) ⟨[1, 2, 3], 0, 1⟩ ⟨[1, 2, 3], 0, 2⟩ = some true ∧
    (⟨[1, 2, 3], 0, 1⟩ : SubArr ℕ).vis = [1] ∧ (⟨[1, 2, 3], 0, 2⟩ : SubArr ℕ).vis = [1, 2] := by
  have := (C15_equal (fun x y : ℕ => x == y) [] [1] [2, 3] [] [1, 2] [3] (by decide)).1
  exact ⟨this, rfl, rfl⟩

/-- comparing with a shorter window at the end of its array reads past the array -/
theorem C106_equal_undefined_refuted : SubArr.eq (· == ·) ⟨[1, 2, 3], 0, 2⟩ ⟨[4, 5, 1], 2, 3⟩ = none := by
  show equalRa [1, 2, 3] [4, 5, 1] (fun x y : ℕ => x == y) 0 2 2 = none
  rw [equalRa, if_neg (by decide), halveAll, if_neg (by decide), halveAll, if_pos (by decide)]
  show (if (true : Bool) then halveAll _ 1 2 0 else some false) = none
  rw [if_pos rfl, halveAll, if_pos rfl]
  rfl

/-- `window(2)` on a mutable window of all six elements shows two elements, on a constant one the four that are left -/
theorem C106_window_refuted :
    (windowMut1 ⟨[0, 1, 2, 3, 4, 5], 0, 6⟩ 2).vis = [2, 3] ∧ (window1 ⟨[0, 1, 2, 3, 4, 5], 0, 6⟩ 2).vis = [2, 3, 4, 5] := ⟨rfl, rfl⟩

/-! ## non-vacuity -/

example : (⟨[0, 1, 2, 3, 4, 5], 1, 5⟩ : SubArr ℕ).Ok := ⟨by decide, by decide, by decide, by decide⟩
example : (⟨[0, 1, 2, 3, 4, 5], 1, 5⟩ : SubArr ℕ).vis = [1, 2, 3, 4] := rfl
example : (reWindow ⟨[0, 1, 2, 3, 4, 5], 1, 5⟩ 1 3).vis = [2, 3] := rfl
example : (pushBack ⟨[0, 1, 2, 3, 4, 5], 1, 4⟩ 9).map SubArr.vis = some [1, 2, 3, 9] := rfl
example : (fill ⟨[0, 1, 2, 3, 4, 5], 1, 4⟩ 9).map SubArr.arr = some [0, 9, 9, 9, 4, 5] := rfl
example : (at' ⟨[0, 1, 2, 3, 4, 5], 1, 4⟩ 3) = some (.throw .outOfRange) := rfl

end Sprout

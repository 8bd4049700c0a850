import Verif.Proofs.ContOp

/-!
# C105: container operations

The sequences shown by the results of the operations of `sprout::fixed` and `sprout::fit`, for arrays, strings, and
windows (`sub_array`) of arrays.
-/

namespace Sprout

open ContOp

variable {α : Type} [Inhabited α]

/-- insert, push_back and push_front, and their repeated forms -/
theorem C105_insert {c : Cont α} (h : c.Ok) {p : ℕ} (hp : (p : ℤ) ≤ c.size) (N : ℕ) (v : α) (vs : List α) :
    Gives (insert c (c.beginOff + p) v vs) (c.static + (1 + vs.length)) (splice c.vis p (v :: vs)) ∧
    Gives (insertIdx c p v vs) (c.static + (1 + vs.length)) (splice c.vis p (v :: vs)) ∧
    Gives (pushBack c v vs) (c.static + (1 + vs.length)) (c.vis ++ v :: vs) ∧
    Gives (pushFront c v vs) (c.static + (1 + vs.length)) (v :: vs ++ c.vis) ∧
    Gives (insertN N c (c.beginOff + p) v vs) (c.static + (1 + vs.length) * N) (splice c.vis p (List.replicate N (v :: vs)).flatten) ∧
    Gives (insertNIdx N c p v vs) (c.static + (1 + vs.length) * N) (splice c.vis p (List.replicate N (v :: vs)).flatten) ∧
    Gives (pushBackN N c v vs) (c.static + (1 + vs.length) * N) (c.vis ++ (List.replicate N (v :: vs)).flatten) ∧
    Gives (pushFrontN N c v vs) (c.static + (1 + vs.length) * N) ((List.replicate N (v :: vs)).flatten ++ c.vis) := by
  obtain ⟨X, Z, h1, h2, h3, h4, -⟩ := parts h
  have e0 : c.beginOff = c.beginOff + (0 : ℕ) := by simp
  have e1 : c.endOff = c.beginOff + (c.vis.length : ℕ) := by omega
  have s0 : ∀ ws : List α, splice c.vis 0 ws = ws ++ c.vis := fun ws => by simp [splice]
  have s1 : ∀ ws : List α, splice c.vis c.vis.length ws = c.vis ++ ws := fun ws => by simp [splice]
  refine ⟨(insertImpl_made h hp v vs).gives', (insertImpl_made h hp v vs).gives', ?_, ?_, (insertNImpl_made h hp N v vs).gives',
    (insertNImpl_made h hp N v vs).gives', ?_, ?_⟩
  · rw [pushBack, e1, ← s1]; exact (insertImpl_made h (by omega) v vs).gives'
  · rw [pushFront, e0, ← s0]; exact (insertImpl_made h (by omega) v vs).gives'
  · rw [pushBackN, e1, ← s1]; exact (insertNImpl_made h (by omega) N v vs).gives'
  · rw [pushFrontN, e0, ← s0]; exact (insertNImpl_made h (by omega) N v vs).gives'

/-- append and its forms. The result has room for all that the other container can hold; only an array shows the unused
room, as default values at its end. -/
theorem C105_append {c input : Cont α} (h : c.Ok) (hi : input.Ok) {p : ℕ} (hp : (p : ℤ) ≤ c.size) {T : List α}
    (hT : T = tailOf c (List.replicate (input.static - input.size.toNat) default)) :
    Gives (append c (c.beginOff + p) input) (c.static + input.static) (splice c.vis p input.vis ++ T) ∧
    Gives (appendIdx c p input) (c.static + input.static) (splice c.vis p input.vis ++ T) ∧
    Gives (appendBack c input) (c.static + input.static) (c.vis ++ input.vis ++ T) ∧
    Gives (appendFront c input) (c.static + input.static) (input.vis ++ c.vis ++ T) := by
  subst hT
  obtain ⟨X, Z, h1, h2, h3, h4, -⟩ := parts h
  have e0 : c.beginOff = c.beginOff + (0 : ℕ) := by simp
  have e1 : c.endOff = c.beginOff + (c.vis.length : ℕ) := by omega
  have s0 : ∀ ws : List α, splice c.vis 0 ws = ws ++ c.vis := fun ws => by simp [splice]
  have s1 : ∀ ws : List α, splice c.vis c.vis.length ws = c.vis ++ ws := fun ws => by simp [splice]
  refine ⟨(append_made h hi hp).gives, (append_made h hi hp).gives, ?_, ?_⟩
  · rw [appendBack, e1, ← s1]; exact (append_made h hi (by omega)).gives
  · rw [appendFront, e0, ← s0]; exact (append_made h hi (by omega)).gives

/-- erase, pop_back and pop_front, and their repeated forms -/
theorem C105_erase {c : Cont α} (h : c.Ok) {p : ℕ} (hp : (p : ℤ) < c.size) {q N : ℕ} (hq : (q : ℤ) + N ≤ c.size) :
    Gives (erase c (c.beginOff + p)) (c.static - 1) (cut c.vis p 1) ∧
    Gives (eraseIdx c p) (c.static - 1) (cut c.vis p 1) ∧
    Gives (popBack c) (c.static - 1) c.vis.dropLast ∧
    Gives (popFront c) (c.static - 1) c.vis.tail ∧
    Gives (eraseN N c (c.beginOff + q)) (c.static - N) (cut c.vis q N) ∧
    Gives (eraseNIdx N c q) (c.static - N) (cut c.vis q N) ∧
    Gives (popBackN N c) (c.static - N) (c.vis.take (c.vis.length - N)) ∧
    Gives (popFrontN N c) (c.static - N) (c.vis.drop N) := by
  obtain ⟨X, Z, h1, h2, h3, h4, -⟩ := parts h
  have e0 : c.beginOff = c.beginOff + (0 : ℕ) := by simp
  have e1 : c.endOff - 1 = c.beginOff + (c.vis.length - 1 : ℕ) := by omega
  have e2 : c.endOff - N = c.beginOff + (c.vis.length - N : ℕ) := by omega
  have t1 : c.vis.dropLast = cut c.vis (c.vis.length - 1) 1 := by
    rw [List.dropLast_eq_take, cut, List.drop_of_length_le (by omega), List.append_nil]
  have t2 : c.vis.take (c.vis.length - N) = cut c.vis (c.vis.length - N) N := by
    rw [cut, List.drop_of_length_le (by omega), List.append_nil]
  have t3 : ∀ n, c.vis.drop n = cut c.vis 0 n := fun n => by simp [cut]
  refine ⟨(eraseImpl_made h (by omega)).gives', (eraseImpl_made h (by omega)).gives', ?_, ?_, (eraseNImpl_made h hq).gives',
    (eraseNImpl_made h hq).gives', ?_, ?_⟩
  · rw [popBack, e1, t1]; exact (eraseImpl_made h (by omega)).gives'
  · rw [popFront, e0, ← List.drop_one, t3]; exact (eraseImpl_made h (by omega)).gives'
  · rw [popBackN, e2, t2]; exact (eraseNImpl_made h (by omega)).gives'
  · rw [popFrontN, e0, t3]; exact (eraseNImpl_made h (by omega)).gives'

/-- set -/
theorem C105_set {c : Cont α} (h : c.Ok) {p : ℕ} (hp : (p : ℤ) < c.size) (v : α) :
    Gives (set c (c.beginOff + p) v) c.static (c.vis.set p v) ∧ Gives (setIdx c p v) c.static (c.vis.set p v) :=
  ⟨(set_made h hp v).gives', (set_made h hp v).gives'⟩

/-- realign, realign_to, resize and resize_backward; strings end at the first zero of the sequence (`upTo`) -/
theorem C105_resize [DecidableEq α] {c : Cont α} (h : c.Ok) {shape : Cont α} (hs : shape.Ok) (N : ℕ) (v : α) :
    Gives (realign c v) c.static (upTo c (fitTo c.vis c.static v)) ∧
    Gives (realignTo N shape c v) N (upTo shape (fitTo c.vis N v)) ∧
    Gives (resize N c v) N (upTo c (fitTo c.vis N v)) ∧
    Gives (resizeBackward N c v) N (upTo c (fitToBack c.vis N v)) := by
  have l1 : ∀ N, (fitTo c.vis N v).length = N := fun N => by simp [fitTo]; omega
  have l2 : ∀ N, (fitToBack c.vis N v).length = N := fun N => by simp [fitToBack]; omega
  have m1 := fun (sh : Cont α) (hsh : sh.Ok) (n : ℕ) => make_gives hsh.kind (fitTo c.vis n v)
  have m2 := make_gives h.kind (fitToBack c.vis N v)
  simp only [l1] at m1
  rw [l2] at m2
  refine ⟨?_, ?_, ?_, ?_⟩
  · rw [realign, resize_gives h h.kind]; exact m1 _ h _
  · rw [realignTo, resize_gives h hs.kind]; exact m1 _ hs _
  · rw [resize, resize_gives h h.kind]; exact m1 _ h _
  · rw [resizeBackward_gives h]; exact m2

/-- the fit operations but erase_n: windows of exactly the wanted elements -/
theorem C105_fit {c input : Cont α} (h : c.Ok) (hi : input.Ok) {p : ℕ} (hp : (p : ℤ) ≤ c.size) (N : ℕ) (v : α) (vs : List α) :
    Shows (fitInsert c (c.beginOff + p) v vs) (splice c.vis p (v :: vs)) ∧
    Shows (fitPushBack c v vs) (c.vis ++ v :: vs) ∧
    Shows (fitPushFront c v vs) (v :: vs ++ c.vis) ∧
    Shows (fitInsertN N c (c.beginOff + p) v vs) (splice c.vis p (List.replicate N (v :: vs)).flatten) ∧
    Shows (fitPushBackN N c v vs) (c.vis ++ (List.replicate N (v :: vs)).flatten) ∧
    Shows (fitPushFrontN N c v vs) ((List.replicate N (v :: vs)).flatten ++ c.vis) ∧
    Shows (fitAppend c (c.beginOff + p) input) (splice c.vis p input.vis) ∧
    Shows (fitAppendBack c input) (c.vis ++ input.vis) ∧
    Shows (fitAppendFront c input) (input.vis ++ c.vis) ∧
    ((p : ℤ) < c.size → Shows (fitErase c (c.beginOff + p)) (cut c.vis p 1) ∧ Shows (fitPopBack c) c.vis.dropLast ∧
      Shows (fitPopFront c) c.vis.tail ∧ Shows (fitSet c (c.beginOff + p) v) (c.vis.set p v)) ∧
    ((N : ℤ) ≤ c.size → Shows (fitPopBackN N c) (c.vis.take (c.vis.length - N)) ∧ Shows (fitPopFrontN N c) (c.vis.drop N)) := by
  obtain ⟨X, Z, h1, h2, h3, h4, -⟩ := parts h
  have e0 : c.beginOff = c.beginOff + (0 : ℕ) := by simp
  have e1 : c.endOff = c.beginOff + (c.vis.length : ℕ) := by omega
  have s0 : ∀ ws : List α, splice c.vis 0 ws = ws ++ c.vis := fun ws => by simp [splice]
  have s1 : ∀ ws : List α, splice c.vis c.vis.length ws = c.vis ++ ws := fun ws => by simp [splice]
  refine ⟨(insertImpl_made h hp v vs).shows, ?_, ?_, (insertNImpl_made h hp N v vs).shows, ?_, ?_, (append_made h hi hp).shows, ?_, ?_,
    fun hp' => ⟨(eraseImpl_made h (by omega)).shows, ?_, ?_, (set_made h hp' v).shows⟩, fun hN => ⟨?_, ?_⟩⟩
  · have := (insertImpl_made h (p := c.vis.length) (by omega) v vs).shows
    rwa [← e1, s1] at this
  · have := (insertImpl_made h (p := 0) (by omega) v vs).shows
    rwa [← e0, s0] at this
  · have := (insertNImpl_made h (p := c.vis.length) (by omega) N v vs).shows
    rwa [← e1, s1] at this
  · have := (insertNImpl_made h (p := 0) (by omega) N v vs).shows
    rwa [← e0, s0] at this
  · have := (append_made h hi (p := c.vis.length) (by omega)).shows
    rwa [← e1, s1] at this
  · have := (append_made h hi (p := 0) (by omega)).shows
    rwa [← e0, s0] at this
  · have := (eraseImpl_made h (p := c.vis.length - 1) (by omega)).shows
    rwa [show c.beginOff + ((c.vis.length - 1 : ℕ) : ℤ) = c.endOff - 1 by omega, cut, List.drop_of_length_le (by omega), List.append_nil,
      ← List.dropLast_eq_take] at this
  · have := (eraseImpl_made h (p := 0) (by omega)).shows
    rwa [← e0, cut, List.take_zero, List.nil_append, Nat.zero_add, List.drop_one] at this
  · have := (eraseNImpl_made h (p := c.vis.length - N) (N := N) (by omega)).shows
    rwa [show c.beginOff + ((c.vis.length - N : ℕ) : ℤ) = c.endOff - N by omega, cut, List.drop_of_length_le (by omega), List.append_nil] at this
  · have := (eraseNImpl_made h (p := 0) (N := N) (by omega)).shows
    rwa [← e0, cut, List.take_zero, List.nil_append, Nat.zero_add] at this

/-- the fit forms of realign and resize, for results that are no strings; what is missing: strings, and realign_to a
smaller container, for which it is refuted below -/
theorem C105_fit_resize_partial [DecidableEq α] {c : Cont α} (h : c.Ok) (hc : ∀ e n, c ≠ .string e n) {shape : Cont α} (hs : shape.Ok)
    (hk : ∀ e n, shape ≠ .string e n) (N : ℕ) (v : α) :
    Shows (fitRealign c v) c.vis ∧
    (c.size ≤ N → Shows (fitRealignTo N shape c v) c.vis) ∧
    Shows (fitResize N c v) (fitTo c.vis N v) ∧
    Shows (fitResizeBackward N c v) (fitToBack c.vis N v) := by
  obtain ⟨X, Z, h1, h2, h3, h4, -⟩ := parts h
  have l1 : ∀ N, (fitTo c.vis N v).length = N := fun N => by simp [fitTo]; omega
  have l2 : ∀ N, (fitToBack c.vis N v).length = N := fun N => by simp [fitToBack]; omega
  have key : ∀ n : ℕ, c.size ≤ n → (fitTo c.vis n v).take c.vis.length = c.vis := fun n hn => by
    rw [fitTo, List.take_of_length_le (l := c.vis) (by omega), List.take_left]
  have hl : c.size ≤ c.static := by
    have := congrArg List.length h1
    simp only [List.length_take, List.length_append] at this
    omega
  refine ⟨?_, fun hl => ?_, ?_, ?_⟩
  · have := fitMake h.kind hc (fitTo c.vis c.static v) (n := c.vis.length) (by rw [l1]; omega)
    rw [key _ hl] at this
    rw [fitRealign, realign, resize_gives h h.kind, ← h3]
    exact this
  · have := fitMake hs.kind hk (fitTo c.vis N v) (n := c.vis.length) (by rw [l1]; omega)
    rw [key _ hl] at this
    rw [fitRealignTo, realignTo, resize_gives h hs.kind, ← h3]
    exact this
  · have := fitMake h.kind hc (fitTo c.vis N v) (n := N) (by rw [l1])
    rw [List.take_of_length_le (by rw [l1])] at this
    rw [fitResize, resize, resize_gives h h.kind]
    exact this
  · have := fitMake h.kind hc (fitToBack c.vis N v) (n := N) (by rw [l2])
    rw [List.take_of_length_le (by rw [l2])] at this
    rw [fitResizeBackward, resizeBackward_gives h]
    exact this

/-- `fit::erase_n<2>` of five elements ends with a window of four elements, of which only three exist -/
theorem C105_fit_erase_n_refuted :
    fitEraseN 2 (.array [1, 2, 3, 4, 5]) 1 = some (.sub (.array [1, 4, 5]) 0 4) ∧ ¬ (Cont.sub (.array [1, 4, 5]) 0 4).InBounds := by
  refine ⟨rfl, fun h => ?_⟩
  have := h.2.2.2
  simp [Cont.endOff, Cont.block, Cont.beginOff] at this

/-- `fit::realign_to` a smaller array ends with a window of elements that do not exist -/
theorem C105_fit_realign_to_refuted :
    fitRealignTo 2 (.array [0, 0]) (.array [1, 2, 3]) 9 = some (.sub (.array [1, 2]) 0 3) ∧ ¬ (Cont.sub (.array [1, 2]) 0 3).InBounds := by
  refine ⟨rfl, fun h => ?_⟩
  have := h.2.2.2
  simp [Cont.endOff, Cont.block, Cont.beginOff] at this

/-- push_back to the window "el" of "hello" gives "el" and a zero: the string inside is cut to the length of the window -/
theorem C105_window_of_string_refuted :
    (pushBack (.sub (.string [104, 101, 108, 108, 111, 0] 5) 1 3) 120 []).map Cont.vis = some [101, 108, 0] ∧
    (Cont.sub (.string [104, 101, 108, 108, 111, 0] 5) 1 3).vis = [101, 108] := ⟨rfl, rfl⟩

/-- setting the first element of a window of a window: the offset is applied twice -/
theorem C105_window_of_window_refuted :
    (setIdx (.sub (.sub (.array [0, 1, 2, 3, 4, 5]) 1 6) 1 4) 0 9).map Cont.vis = some [4, 5] ∧
    (Cont.sub (.sub (.array [0, 1, 2, 3, 4, 5]) 1 6) 1 4).vis = [2, 3, 4] := ⟨rfl, rfl⟩

/-- resizing a string with a zero inside loses what follows the zero -/
theorem C105_resize_string_refuted :
    (resize 4 (.string [1, 0, 2, 0] 3) 7).map Cont.vis = some [1] ∧ (Cont.string [1, 0, 2, 0] 3).vis = [1, 0, 2] := ⟨rfl, rfl⟩

/-! ## non-vacuity -/

example : (insertIdx (.sub (.array [0, 1, 2, 3, 4]) 1 4) 1 8 [9]).map Cont.vis = some [1, 8, 9, 2, 3] := rfl
example : (insertIdx (.string [104, 105, 0, 0] 2) 1 97 []).map Cont.vis = some [104, 97, 105] := rfl
example : (insertNIdx 2 (.array [1, 2]) 1 8 [9]).map Cont.vis = some [1, 8, 9, 8, 9, 2] := rfl
example : (appendBack (.array [1, 2]) (.string [3, 4, 0, 0] 2)).map Cont.vis = some [1, 2, 3, 4, 0] := rfl
example : (fitAppendBack (.array [1, 2]) (.string [3, 4, 0, 0] 2)).map Cont.vis = some [1, 2, 3, 4] := rfl
example : (popBackN 2 (.sub (.array [0, 1, 2, 3, 4]) 1 4)).map Cont.vis = some [1] := rfl
example : (resizeBackward 4 (.sub (.array [0, 1, 2, 3, 4]) 1 4) 7).map Cont.vis = some [7, 1, 2, 3] := rfl
example : Gives (setIdx (.sub (.array [0, 1, 2, 3, 4]) 1 4) 2 9) 5 [1, 2, 9] :=
  (C105_set (c := .sub (.array [0, 1, 2, 3, 4]) 1 4) ⟨by decide, by decide, by decide⟩ (p := 2) (by decide) 9).2

end Sprout

import Mathlib.Algebra.Order.Ring.Int
import Verif.Spec.SubArray
import Verif.Props.C19

/-! # Windows of arrays -/

namespace Sprout.SubArr

variable {α : Type}

theorem decomp {s : SubArr α} (h : s.Ok) : s.arr = s.before ++ s.vis ++ s.behind ∧ (s.before.length : ℤ) = s.f ∧
    (s.vis.length : ℤ) = s.size := by
  obtain ⟨h1, h2, h3, -⟩ := h
  refine ⟨?_, ?_, ?_⟩
  · conv_lhs => rw [← List.take_append_drop s.l.toNat s.arr, ← List.take_append_drop s.f.toNat (s.arr.take s.l.toNat)]
    rw [List.take_take, min_eq_left (by omega), before, vis, behind]
  · rw [before, List.length_take]
    omega
  · rw [vis, List.length_drop, List.length_take, size]
    omega

/-- a window from its parts -/
theorem shows_of {s : SubArr α} {A W B : List α} (h : s.arr = A ++ W ++ B) (hf : s.f = A.length) (hl : s.l = A.length + W.length)
    (hb : s.arr.length < 2 ^ 64) : s.Shows W ∧ s.before = A ∧ s.behind = B := by
  have hlen := congrArg List.length h
  simp only [List.length_append] at hlen
  refine ⟨⟨⟨by omega, by omega, by omega, hb⟩, ?_⟩, ?_, ?_⟩
  · rw [vis, h, hl, hf, show ((A.length : ℤ) + W.length).toNat = (A ++ W).length by simp; omega, List.take_left, Int.toNat_natCast, List.drop_left]
  · rw [before, h, hf, Int.toNat_natCast, List.append_assoc, List.take_left]
  · rw [behind, h, hl, show ((A.length : ℤ) + W.length).toNat = (A ++ W).length by simp; omega, List.drop_left]

theorem index_eq {s : SubArr α} (h : s.Ok) {i : ℕ} (hi : (i : ℤ) < s.size) : get s.arr (s.f + i) = s.vis[i]? := by
  obtain ⟨h1, h2, h3⟩ := decomp h
  rw [get, if_pos (by omega), show (s.f + i).toNat = s.before.length + i by omega, h1, List.append_assoc,
    List.getElem?_append_right (by omega), Nat.add_sub_cancel_left, List.getElem?_append_left (by omega)]

theorem put_eq {A B : List α} {x y : α} {i : ℤ} (hi : i = A.length) : put (A ++ y :: B) i x = some (A ++ x :: B) := by
  subst hi
  rw [put, if_pos (by simp), Int.toNat_natCast, List.set_append_right _ _ (by omega), Nat.sub_self, List.set_cons_zero]

theorem fillFrom_eq (x : α) : ∀ (W A B : List α) (i : ℤ), i = A.length →
    fillFrom x W.length i (A ++ W ++ B) = some (A ++ List.replicate W.length x ++ B)
  | [], A, B, i, hi => by simp [fillFrom]
  | w :: W, A, B, i, hi => by
    rw [List.length_cons, fillFrom, List.append_assoc, List.cons_append, put_eq hi]
    simp only [Option.bind_eq_bind, Option.bind_some]
    have := fillFrom_eq x W (A ++ [x]) B (i + 1) (by simp [hi])
    rw [show A ++ x :: (W ++ B) = A ++ [x] ++ W ++ B by simp, this, List.replicate_succ]
    simp

theorem sub_shows {A : List α} (hb : A.length < 2 ^ 64) {f l : ℕ} (hfl : f ≤ l) (hl : l ≤ A.length) : Shows (⟨A, f, l⟩ : SubArr α) ((A.take l).drop f) :=
  ⟨⟨by simp, by simpa using hfl, by simpa using hl, hb⟩, rfl⟩

theorem reWindow_shows {s : SubArr α} (h : s.Ok) {f l : ℕ} (hfl : f ≤ l) (hl : (l : ℤ) ≤ s.size) :
    Shows (⟨s.arr, s.f + f, s.f + l⟩ : SubArr α) ((s.vis.take l).drop f) := by
  obtain ⟨h1, h2, h3⟩ := decomp h
  have e : s.vis = (s.vis.take l).take f ++ (s.vis.take l).drop f ++ s.vis.drop l := by
    rw [List.take_append_drop, List.take_append_drop]
  have a1 : ((s.vis.take l).take f).length = f := by simp only [List.length_take]; omega
  have a2 : ((s.vis.take l).drop f).length = l - f := by simp only [List.length_take, List.length_drop]; omega
  refine (shows_of (s := ⟨s.arr, s.f + f, s.f + l⟩) (A := s.before ++ (s.vis.take l).take f) (B := s.vis.drop l ++ s.behind) ?_ ?_ ?_ (by exact h.big)).1
  · show s.arr = _
    conv_lhs => rw [h1, e]
    simp only [List.append_assoc]
  · show s.f + f = _
    rw [List.length_append, a1]
    push_cast
    omega
  · show s.f + l = _
    rw [List.length_append, a1, a2]
    omega

end Sprout.SubArr

import Verif.Proofs.Merge2

/-!
# C07: merge and inplace_merge are stable merges

`Spec.StableSorted comp (xs ++ ys) zs`: `zs` is sorted and every class of equivalent elements is, as a
sequence, that of `xs` followed by that of `ys`. By `C07_unique` there is exactly one such list.
-/

namespace Sprout
open Spec
variable {α : Type}

theorem C07_unique (comp : α → α → Bool) (hc : StrictWeak comp) (src zs zs' : List α)
    (h : StableSorted comp src zs) (h' : StableSorted comp src zs') : zs = zs' ∧ zs.Perm src :=
  ⟨h.unique hc h', StableSorted.perm hc h.2⟩

/-- The inputs are at `a` and `b`, the output at `d` and disjoint from both. -/
theorem C07_merge (comp : α → α → Bool) (hc : StrictWeak comp) (m xs ys : List α) (a b d : Nat) (hx : Stored m a xs) (hy : Stored m b ys)
    (hda : d + (xs.length + ys.length) ≤ a ∨ a + xs.length ≤ d) (hdb : d + (xs.length + ys.length) ≤ b ∨ b + ys.length ≤ d)
    (hd : d + (xs.length + ys.length) ≤ m.length) (hsx : SortedBy comp xs) (hsy : SortedBy comp ys) :
    ∃ zs, merge comp m a (a + xs.length) b (b + ys.length) d = some (overwrite m d zs, d + (xs.length + ys.length)) ∧
      StableSorted comp (xs ++ ys) zs ∧ zs.Perm (xs ++ ys) := by
  have hs : StableSorted comp (xs ++ ys) (zm (mergeDec comp) true true xs ys) := by
    refine ⟨zm_sorted hc ?_ ?_ ?_ xs ys hsx hsy, fun v => ?_⟩
    · intro x y e h; unfold mergeDec at h; split at h <;> simp_all
    · intro x y e h; unfold mergeDec at h; split at h <;> simp_all
    · intro x y e h; unfold mergeDec at h; split at h <;> simp_all
    · rw [cls_append]
      refine zm_cls hc (fun a b => a ++ b) (by simp) (by simp) ?_ ?_ ?_ v xs ys hsx hsy
      · intro x y e h; unfold mergeDec at h; split at h
        · cases h
        · cases h; exact ⟨by simp_all, fun a b _ => rfl⟩
      · intro x y e h; unfold mergeDec at h; split at h
        · cases h; exact ⟨by simp_all, fun b => rfl⟩
        · cases h
      · intro x y e h; unfold mergeDec at h; split at h <;> cases h
  have hp := StableSorted.perm hc hs.2
  have hl : (zm (mergeDec comp) true true xs ys).length = xs.length + ys.length := by simpa using hp.length_eq
  refine ⟨_, ?_, hs, hp⟩
  unfold merge
  rw [merge2_spec _ true true xs ys m a b d hx hy (by omega) (by omega) (by omega), hl]

theorem C07_inplace_merge (comp : α → α → Bool) (hc : StrictWeak comp) (pre xs ys post : List α) (hsx : SortedBy comp xs) (hsy : SortedBy comp ys) :
    ∃ zs, inplaceMerge comp (pre ++ (xs ++ ys) ++ post) pre.length (pre.length + xs.length) (pre.length + (xs.length + ys.length))
        = some (pre ++ zs ++ post) ∧ StableSorted comp (xs ++ ys) zs ∧ zs.Perm (xs ++ ys) := by
  unfold inplaceMerge
  by_cases h : pre.length = pre.length + xs.length ∨ pre.length + xs.length = pre.length + (xs.length + ys.length)
  · rw [if_pos h]
    refine ⟨xs ++ ys, rfl, ⟨?_, fun _ => rfl⟩, .refl _⟩
    rcases h with h | h
    · rw [List.length_eq_zero_iff.mp (show xs.length = 0 by omega)]; exact hsy
    · rw [List.length_eq_zero_iff.mp (show ys.length = 0 by omega)]; simpa using hsx
  · rw [if_neg h]
    obtain ⟨zs, h1, h2, -⟩ := inplaceMergeImpl_spec hc _ pre xs ys post rfl hsx hsy
    rw [show pre.length + xs.length - pre.length = xs.length by omega,
      show pre.length + (xs.length + ys.length) - (pre.length + xs.length) = ys.length by omega]
    exact ⟨zs, h1, h2, StableSorted.perm hc h2.2⟩

/-! Non-trivial instances: keys with ties, the second component records the origin. -/

def keyLt (a b : Nat × Nat) : Bool := decide (a.1 < b.1)

theorem strictWeak_keyLt : StrictWeak keyLt :=
  ⟨by simp [keyLt], fun a b c h1 h2 => by simp [keyLt] at *; omega, fun a b c h => by simp [keyLt] at *; omega⟩

example : ∃ zs, inplaceMerge keyLt ([(7, 7)] ++ ([(1, 0), (2, 0), (2, 1)] ++ [(1, 5), (2, 6), (3, 7)]) ++ [(0, 0)]) 1 4 7
      = some ([(7, 7)] ++ zs ++ [(0, 0)]) ∧ StableSorted keyLt ([(1, 0), (2, 0), (2, 1)] ++ [(1, 5), (2, 6), (3, 7)]) zs ∧
      zs.Perm ([(1, 0), (2, 0), (2, 1)] ++ [(1, 5), (2, 6), (3, 7)]) :=
  C07_inplace_merge keyLt strictWeak_keyLt [(7, 7)] [(1, 0), (2, 0), (2, 1)] [(1, 5), (2, 6), (3, 7)] [(0, 0)]
    (by unfold SortedBy; decide) (by unfold SortedBy; decide)

/-- the specification pins the order of ties -/
example : StableSorted keyLt ([(1, 0), (2, 0)] ++ [(1, 5)]) [(1, 0), (1, 5), (2, 0)] ∧
    ¬ StableSorted keyLt ([(1, 0), (2, 0)] ++ [(1, 5)]) [(1, 5), (1, 0), (2, 0)] := by
  refine ⟨⟨by unfold SortedBy; decide, fun v => ?_⟩, fun h => ?_⟩
  · simp only [cls, keyLt, List.filter_cons, List.cons_append, List.nil_append, List.filter_nil]
    split <;> split <;> simp_all
    omega
  · have := h.2 (1, 0); revert this; decide

end Sprout

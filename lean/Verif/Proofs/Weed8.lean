import Verif.Proofs.Weed7

/-! # Attributes collected by a limited repetition -/

namespace Sprout.Weed
open Spec

variable {A B : Type} {f : Nat → Option (Res A)} {g : Nat → Option (Res B)}

/-- successive successes of `f` from `i` to `e` with the attributes `as` -/
inductive RunA (f : Nat → Option (Res A)) : Nat → List A → Nat → Prop
  | nil {i} : RunA f i [] i
  | cons {i j e a as} : f i = some ⟨true, j, j, a⟩ → RunA f j as e → RunA f i (a :: as) e

/-- the next attribute -/
def push (cat : Cat) (L : Nat) (acc : List A) (a : A) : List A :=
  if acc.length = L then (if cat = .discard then acc else acc.drop 1 ++ [a]) else acc ++ [a]

theorem push_length {cat : Cat} {L : Nat} (hL : 1 ≤ L) {acc : List A} (h : acc.length ≤ L) (a : A) :
    (push cat L acc a).length ≤ L := by
  unfold push
  split
  · split
    · exact h
    · simp; omega
  · simp; omega

theorem timesLim_attrs {L : Nat} {cat : Cat} (hL : 1 ≤ L) {i e : Nat} {as : List A} (h : RunA f i as e)
    {r0 : Res A} (he : f e = some r0) (hok : r0.ok = false) :
    ∀ (acc : List A) (res : Res A), f i = some res → acc.length ≤ L → (cat ≠ .stopover ∨ acc.length = L) →
    timesLim f L cat i res acc = some ⟨true, e, e, as.foldl (push cat L) acc⟩ := by
  induction h with
  | nil =>
    intro acc res hr hacc _
    rw [he] at hr; cases hr
    rw [timesLim]
    simp only [hok, Bool.false_eq_true, if_false, List.foldl_nil]
    split
    · rfl
    · split
      · rfl
      · rw [if_pos (by omega)]
  | @cons i j e a as h1 h2 ih =>
    intro acc res hr hacc hcat
    rw [h1] at hr; cases hr
    obtain ⟨r1, hr1⟩ : ∃ r1, f j = some r1 := by
      cases h2 with
      | nil => exact ⟨_, he⟩
      | cons h _ => exact ⟨_, h⟩
    rw [timesLim]
    simp only [if_true, Option.bind_eq_bind, hr1, Option.bind_some, List.foldl_cons]
    by_cases h3 : acc.length = L
    · rw [if_pos h3]
      have hp : push cat L acc a = if cat = .discard then acc else acc.drop 1 ++ [a] := by simp [push, h3]
      rw [hp]
      by_cases h4 : cat = .discard
      · rw [if_pos h4, if_pos h4]
        exact ih he _ r1 hr1 hacc (.inr h3)
      · rw [if_neg h4, if_neg h4]
        exact ih he _ r1 hr1 (by simp; omega) (.inr (by simp; omega))
    · have hp : push cat L acc a = acc ++ [a] := by simp [push, h3]
      rw [if_neg h3, hp]
      have h4 : cat ≠ .stopover := by rcases hcat with h | h <;> [exact h; exact absurd h h3]
      by_cases h5 : acc.length + 1 = L
      · rw [if_pos h5, if_pos h4]
        exact ih he _ r1 hr1 (by simp; omega) (.inl h4)
      · rw [if_neg h5, if_pos (by omega)]
        exact ih he _ r1 hr1 (by simp; omega) (.inl h4)

theorem listLim_attrs {L : Nat} {cat : Cat} (hL : 1 ≤ L) (sep : Nat → Option (Res B)) {i : Nat} {as : List A} {e : Nat}
    {f' : Nat → Option (Res A)}
    (hf' : f' = fun i => do
      let r ← sep i
      if r.ok then do
        let r2 ← f r.ctx
        if r2.ok then some r2 else none
      else none)
    (h : RunA f' i as e) {r0 : Res B} (he : sep e = some r0) (hok : r0.ok = false) :
    ∀ (acc : List A) (res : Res B), sep i = some res → acc.length ≤ L → (cat ≠ .stopover ∨ acc.length = L) →
    listLim f sep L cat i res acc = some ⟨true, e, e, as.foldl (push cat L) acc⟩ := by
  induction h with
  | nil =>
    intro acc res hr hacc _
    rw [he] at hr; cases hr
    rw [listLim]
    simp only [hok, Bool.false_eq_true, if_false, List.foldl_nil]
  | @cons i j e a as h1 h2 ih =>
    intro acc res hr hacc hcat
    rw [hf'] at h1
    simp only [hr, Option.bind_eq_bind, Option.bind_some] at h1
    cases hro : res.ok with
    | false => rw [hro] at h1; simp at h1
    | true =>
    rw [hro] at h1
    simp only [if_true, Option.bind_eq_some_iff] at h1
    obtain ⟨r2, hr2, h1⟩ := h1
    have h1' : r2 = ⟨true, j, j, a⟩ := by
      split at h1
      · simpa using h1
      · cases h1
    subst h1'
    obtain ⟨r1, hr1⟩ : ∃ r1, sep j = some r1 := by
      cases h2 with
      | nil => exact ⟨_, he⟩
      | cons h _ =>
        rw [hf'] at h
        simp only [Option.bind_eq_bind, Option.bind_eq_some_iff] at h
        exact ⟨_, h.choose_spec.1⟩
    rw [listLim]
    simp only [hro, if_true, Option.bind_eq_bind, hr2, hr1, Option.bind_some, List.foldl_cons]
    by_cases h3 : acc.length = L
    · rw [if_pos h3]
      have hp : push cat L acc a = if cat = .discard then acc else acc.drop 1 ++ [a] := by simp [push, h3]
      rw [hp]
      by_cases h4 : cat = .discard
      · rw [if_pos h4, if_pos h4]
        exact ih he _ r1 hr1 hacc (.inr h3)
      · rw [if_neg h4, if_neg h4]
        exact ih he _ r1 hr1 (by simp; omega) (.inr (by simp; omega))
    · have hp : push cat L acc a = acc ++ [a] := by simp [push, h3]
      rw [if_neg h3, hp]
      have h4 : cat ≠ .stopover := by rcases hcat with h | h <;> [exact h; exact absurd h h3]
      by_cases h5 : acc.length + 1 = L
      · rw [if_pos h5, if_pos h4]
        exact ih he _ r1 hr1 (by simp; omega) (.inl h4)
      · rw [if_neg h5, if_pos (by omega)]
        exact ih he _ r1 hr1 (by simp; omega) (.inl h4)

theorem push_discard {L : Nat} : ∀ (as acc : List A), acc.length ≤ L → as.foldl (push .discard L) acc = (acc ++ as).take L := by
  intro as
  induction as with
  | nil => intro acc h; simp [List.take_of_length_le h]
  | cons a as ih =>
    intro acc h
    rw [List.foldl_cons]
    by_cases h1 : acc.length = L
    · have : push .discard L acc a = acc := by simp [push, h1]
      rw [this, ih acc h, List.take_append_of_le_length (by omega), List.take_append_of_le_length (by omega)]
    · have : push .discard L acc a = acc ++ [a] := by simp [push, h1]
      rw [this, ih _ (by simp; omega)]
      simp

theorem push_circular {cat : Cat} (hc : cat ≠ .discard) {L : Nat} (hL : 1 ≤ L) : ∀ (as acc : List A), acc.length ≤ L →
    as.foldl (push cat L) acc = (acc ++ as).drop ((acc ++ as).length - L) := by
  intro as
  induction as with
  | nil => intro acc h; simp [show acc.length - L = 0 by omega]
  | cons a as ih =>
    intro acc h
    rw [List.foldl_cons]
    by_cases h1 : acc.length = L
    · have : push cat L acc a = acc.drop 1 ++ [a] := by simp [push, h1, hc]
      rw [this, ih _ (by simp; omega)]
      cases acc with
      | nil => simp at h1; omega
      | cons x acc =>
        simp only [List.length_cons] at h1
        simp only [List.drop_succ_cons, List.drop_zero, List.append_assoc, List.singleton_append, List.length_append,
          List.length_cons, List.cons_append]
        rw [show acc.length + (as.length + 1) + 1 - L = (acc.length + (as.length + 1) - L) + 1 by omega, List.drop_succ_cons]
        simp
    · have : push cat L acc a = acc ++ [a] := by simp [push, h1]
      rw [this, ih _ (by simp; omega)]
      simp

/-- a stopover limit, not yet reached -/
theorem timesLim_stopover {L : Nat} {i e : Nat} {as : List A} (h : RunA f i as e) :
    ∀ (acc : List A) (res : Res A), f i = some res → acc.length < L → acc.length + as.length ≤ L →
    (acc.length + as.length = L ∨ ∃ r0, f e = some r0 ∧ r0.ok = false) →
    timesLim f L .stopover i res acc = some ⟨true, e, e, acc ++ as⟩ := by
  induction h with
  | nil =>
    intro acc res hr hacc _ hend
    rcases hend with h | ⟨r0, he, hok⟩
    · simp at h; omega
    · rw [he] at hr; cases hr
      rw [timesLim]
      simp only [hok, Bool.false_eq_true, if_false, List.append_nil]
      rw [if_neg (by omega)]
      split
      · rfl
      · rw [if_pos (by omega)]
  | @cons i j e a as h1 h2 ih =>
    intro acc res hr hacc hle hend
    rw [h1] at hr; cases hr
    simp only [List.length_cons] at hle hend
    rw [timesLim]
    simp only [if_true, Option.bind_eq_bind]
    rw [if_neg (by omega)]
    by_cases h5 : acc.length + 1 = L
    · rw [if_pos h5, if_neg (by simp)]
      have : as = [] := List.length_eq_zero_iff.1 (by omega)
      subst this
      cases h2
      rfl
    · rw [if_neg h5, if_pos (by omega)]
      obtain ⟨r1, hr1⟩ : ∃ r1, f j = some r1 := by
        cases h2 with
        | nil =>
          rcases hend with h | ⟨r0, he, _⟩
          · simp at h; omega
          · exact ⟨_, he⟩
        | cons h _ => exact ⟨_, h⟩
      rw [hr1, Option.bind_some, ih (acc ++ [a]) r1 hr1 (by simp; omega) (by simp; omega) (by simpa [Nat.add_assoc, Nat.add_comm 1] using hend)]
      simp

end Sprout.Weed

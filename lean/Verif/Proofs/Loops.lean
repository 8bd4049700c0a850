import Verif.Model.Loops
import Verif.Proofs.Doubling

/-!
# Doubling recursions that end are runs
-/

namespace Sprout

variable {σ : Type}

theorem run_of_dbl1 {fin step : σ → Option σ} (hf : FinIdem fin) (s : σ) (n : Nat) (c : σ) (h : dbl1 fin step s n = some c) :
    ∀ k r, Run fin step k c r → ∃ k', Run fin step k' s r := by
  refine dbl1.partial_correctness fin step (motive := fun s _ c => ∀ k r, Run fin step k c r → ∃ k', Run fin step k' s r) ?_ s n c h
  intro rec ih s n c h k r hr
  cases e : fin s with
  | some t =>
    simp only [e, Option.some.injEq] at h
    subst h
    have hi := hf _ _ e
    cases hr with
    | stop h2 =>
      rw [hi] at h2
      exact ⟨0, .stop (by rw [e, h2])⟩
    | step h2 => rw [hi] at h2; cases h2
  | none =>
    simp only [e] at h
    split at h
    · exact ⟨k + 1, .step e h hr⟩
    · simp only [Option.bind_eq_bind, Option.bind_eq_some_iff] at h
      obtain ⟨a, h1, h2⟩ := h
      obtain ⟨k1, hr1⟩ := ih _ _ _ h2 k r hr
      exact ih _ _ _ h1 k1 r hr1

theorem run_of_dbl {fin step : σ → Option σ} (hf : FinIdem fin) (s : σ) (n : Nat) (r : σ) (h : dbl fin step s n = some r) :
    ∃ k, Run fin step k s r := by
  refine dbl.partial_correctness fin step (motive := fun s _ r => ∃ k, Run fin step k s r) ?_ s n r h
  intro rec ih s n r h
  cases e : fin s with
  | some t =>
    simp only [e, Option.some.injEq] at h
    exact ⟨0, .stop (by rw [e, h])⟩
  | none =>
    simp only [e, Option.bind_eq_bind, Option.bind_eq_some_iff] at h
    obtain ⟨c, h1, h2⟩ := h
    obtain ⟨k, hr⟩ := ih _ _ _ h2
    exact run_of_dbl1 hf s n c h1 k r hr

/-- a doubling recursion has the value `r` just if the loop ends with `r` -/
theorem dbl_iff_run {fin step : σ → Option σ} (hf : FinIdem fin) (s : σ) (r : σ) : dbl fin step s 1 = some r ↔ ∃ k, Run fin step k s r :=
  ⟨run_of_dbl hf s 1 r, fun ⟨k, h⟩ => dbl_run hf k s r 1 (Nat.le_refl 1) h⟩

namespace Loops

variable {T : Type}

theorem flat_of_run (pred : T → Bool) (op : T → Option T) : ∀ (k : Nat) (s r : T × Bool), (s.2 = true → pred s.1 = false) →
    Run (finIf fun s : T × Bool => s.2 || !pred s.1) (whileStep pred op) k s r → flatWhile s.1 pred op = some r.1 := by
  intro k s r hs hr
  induction hr with
  | @stop s r h =>
    simp only [finIf] at h
    split_ifs at h with h1
    rw [← Option.some.inj h, flatWhile, if_neg]
    rcases Bool.eq_false_or_eq_true s.2 with h2 | h2
    · simp [hs h2]
    · simpa [h2] using h1
  | @step s t r k h h2 h3 ih =>
    simp only [finIf] at h
    split_ifs at h with h1
    simp only [Bool.or_eq_true, not_or, Bool.not_eq_true, Bool.not_eq_true', Bool.not_eq_false] at h1
    simp only [whileStep, Option.bind_eq_bind, Option.bind_eq_some_iff, Option.some.injEq] at h2
    obtain ⟨u, h4, rfl⟩ := h2
    rw [flatWhile, if_pos h1.2, h4]
    exact ih (by simp)

theorem run_of_flat (pred : T → Bool) (op : T → Option T) (init r : T) (h : flatWhile init pred op = some r) :
    ∀ b, (b = true → pred init = false) → ∃ k c, Run (finIf fun s : T × Bool => s.2 || !pred s.1) (whileStep pred op) k (init, b) (r, c) := by
  refine flatWhile.partial_correctness pred op (motive := fun init r => ∀ b, (b = true → pred init = false) →
    ∃ k c, Run (finIf fun s : T × Bool => s.2 || !pred s.1) (whileStep pred op) k (init, b) (r, c)) ?_ init r h
  intro rec ih init r h b hb
  split_ifs at h with hp
  · simp only [Option.bind_eq_bind, Option.bind_eq_some_iff] at h
    obtain ⟨t, h1, h2⟩ := h
    obtain ⟨k, c, hr⟩ := ih _ _ h2 (!pred t) (by simp)
    have hb' : b = false := by
      rcases Bool.eq_false_or_eq_true b with h3 | h3
      · rw [hb h3] at hp; cases hp
      · exact h3
    exact ⟨k + 1, c, .step (by simp [finIf, hb', hp]) (by simp [whileStep, h1]) hr⟩
  · rw [← Option.some.inj h]
    exact ⟨0, b, .stop (by simp [finIf, hp])⟩

theorem flatUntil_eq (pred : T → Bool) (op : T → Option T) (init : T) : flatUntil init pred op = flatWhile init (fun x => !pred x) op := by
  apply Option.ext
  intro r
  constructor
  · intro h
    refine flatUntil.partial_correctness pred op (motive := fun init r => flatWhile init (fun x => !pred x) op = some r) ?_ init r h
    intro rec ih init r h
    rw [flatWhile]
    split_ifs at h ⊢ with hp
    · simp only [Option.bind_eq_bind, Option.bind_eq_some_iff] at h ⊢
      obtain ⟨t, h1, h2⟩ := h
      exact ⟨t, h1, ih _ _ h2⟩
    · exact h
  · intro h
    refine flatWhile.partial_correctness (fun x => !pred x) op (motive := fun init r => flatUntil init pred op = some r) ?_ init r h
    intro rec ih init r h
    rw [flatUntil]
    split_ifs at h ⊢ with hp
    · simp only [Option.bind_eq_bind, Option.bind_eq_some_iff] at h ⊢
      obtain ⟨t, h1, h2⟩ := h
      exact ⟨t, h1, ih _ _ h2⟩
    · exact h

end Loops
end Sprout

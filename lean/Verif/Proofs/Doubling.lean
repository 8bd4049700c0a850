import Verif.Model.Doubling

namespace Sprout
variable {σ : Type}

/-- `Run fin step k s r`: iterating `step` from `s` reaches a finished state in `k` steps, with result `r`. -/
inductive Run (fin : σ → Option σ) (step : σ → Option σ) : Nat → σ → σ → Prop
  | stop {s r} : fin s = some r → Run fin step 0 s r
  | step {s t r k} : fin s = none → step s = some t → Run fin step k t r → Run fin step (k + 1) s r

/-- Finished results are themselves finished. -/
def FinIdem (fin : σ → Option σ) : Prop := ∀ s r, fin s = some r → fin r = some r

theorem finIf_idem (p : σ → Bool) : FinIdem (finIf p) := by
  intro s r h
  unfold finIf at h ⊢
  split at h <;> simp_all

theorem dbl1_run {fin step : σ → Option σ} (hf : FinIdem fin) :
    ∀ n, 1 ≤ n → ∀ k s r, Run fin step k s r →
      ∃ c, dbl1 fin step s n = some c ∧ Run fin step (k - n) c r := by
  intro n
  induction n using Nat.strongRecOn with
  | ind n ih =>
    intro hn k s r hr
    rw [dbl1]
    cases hr with
    | stop h => exact ⟨r, by rw [h], by rw [Nat.zero_sub]; exact .stop (hf _ _ h)⟩
    | @step _ t _ k h1 h2 h3 =>
      rw [h1]
      by_cases h : n = 1
      · subst h; exact ⟨t, by simp [h2], h3⟩
      · simp only [h, if_false]
        obtain ⟨c, hc, hrc⟩ := ih (n / 2) (by omega) (by omega) (k + 1) s r (.step h1 h2 h3)
        obtain ⟨d, hd, hrd⟩ := ih (n - n / 2) (by omega) (by omega) _ c r hrc
        refine ⟨d, by simp [hc, hd], ?_⟩
        rw [show k + 1 - n = k + 1 - n / 2 - (n - n / 2) by omega]
        exact hrd

theorem dbl_run {fin step : σ → Option σ} (hf : FinIdem fin) :
    ∀ k s r n, 1 ≤ n → Run fin step k s r → dbl fin step s n = some r := by
  intro k
  induction k using Nat.strongRecOn with
  | ind k ih =>
    intro s r n hn hr
    rw [dbl]
    cases hr with
    | stop h => simp [h]
    | @step _ t _ k h1 h2 h3 =>
      rw [h1]
      obtain ⟨c, hc, hrc⟩ := dbl1_run hf n hn (k + 1) s r (.step h1 h2 h3)
      simp [hc, ih (k + 1 - n) (by omega) c r (n * 2) (by omega) hrc]

end Sprout

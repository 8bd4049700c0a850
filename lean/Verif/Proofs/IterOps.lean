import Verif.Model.IterOps
import Verif.Spec.Iter
import Verif.Proofs.Adaptor

/-! Lemmas on the iterator operations. -/

namespace Sprout.IterOps
open Spec
variable {It : Type}

theorem steps_add (f : It → Option It) : ∀ (m n : Nat) (it : It), steps f (m + n) it = (steps f m it).bind (steps f n) := by
  intro m
  induction m with
  | zero => intro n it; rw [Nat.zero_add]; rfl
  | succ m ih =>
    intro n it
    rw [Nat.add_right_comm, steps, steps]
    cases f it with
    | none => rfl
    | some it' => exact ih n it'

theorem halfPos_eq (f : It → Option It) (n : Nat) : ∀ it, halfPos f it ((n + 1 : Nat) : Int) = steps f (n + 1) it := by
  induction n using Nat.strongRecOn with
  | ind n ih =>
    intro it
    rw [halfPos]; simp only [Option.bind_eq_bind]
    by_cases h : n = 0
    · subst h
      rw [if_pos (by omega), steps]
      cases f it <;> rfl
    · have e : (((n + 1 : Nat) : Int)).tdiv 2 = (((n + 1) / 2 - 1) + 1 : Nat) := by
        rw [Int.tdiv_eq_ediv_of_nonneg (by omega)]
        omega
      have e2 : ((n + 1 : Nat) : Int) - (((n + 1) / 2 - 1) + 1 : Nat) = ((n - (n + 1) / 2) + 1 : Nat) := by omega
      rw [if_neg (by omega), e, e2, ih _ (by omega)]
      have := steps_add f (((n + 1) / 2 - 1) + 1) ((n - (n + 1) / 2) + 1) it
      rw [show (((n + 1) / 2 - 1) + 1) + ((n - (n + 1) / 2) + 1) = n + 1 by omega] at this
      rw [this]
      congr 1
      funext it'
      exact ih _ (by omega) it'

theorem halfNeg_eq (f : It → Option It) (n : Nat) : ∀ it, halfNeg f it (-((n + 1 : Nat) : Int)) = steps f (n + 1) it := by
  induction n using Nat.strongRecOn with
  | ind n ih =>
    intro it
    rw [halfNeg]; simp only [Option.bind_eq_bind]
    by_cases h : n = 0
    · subst h
      rw [if_pos (by omega), steps]
      cases f it <;> rfl
    · have e : (-((n + 1 : Nat) : Int)).tdiv 2 = -((((n + 1) / 2 - 1) + 1 : Nat) : Int) := by
        rw [Int.neg_tdiv, Int.tdiv_eq_ediv_of_nonneg (by omega)]
        omega
      have e2 : -((n + 1 : Nat) : Int) - -((((n + 1) / 2 - 1) + 1 : Nat) : Int) = -(((n - (n + 1) / 2) + 1 : Nat) : Int) := by omega
      rw [if_neg (by omega), e, e2, ih _ (by omega)]
      have := steps_add f (((n + 1) / 2 - 1) + 1) ((n - (n + 1) / 2) + 1) it
      rw [show (((n + 1) / 2 - 1) + 1) + ((n - (n + 1) / 2) + 1) = n + 1 by omega] at this
      rw [this]
      congr 1
      funext it'
      exact ih _ (by omega) it'

theorem advPos_eq (f : It → Option It) : ∀ (n : Nat) (it : It), advPos f it n = steps f n it := by
  intro n
  induction n with
  | zero => intro it; rw [advPos]; simp only [Option.bind_eq_bind]; rw [if_neg (by omega)]; rfl
  | succ n ih =>
    intro it
    rw [advPos]; simp only [Option.bind_eq_bind]; rw [if_pos (by omega), steps]
    congr 1
    funext it'
    rw [← ih it']
    congr 1
    omega

theorem advNeg_eq (f : It → Option It) : ∀ (n : Nat) (it : It), advNeg f it (-(n : Int)) = steps f n it := by
  intro n
  induction n with
  | zero => intro it; rw [advNeg]; simp only [Option.bind_eq_bind]; rw [if_neg (by omega)]; rfl
  | succ n ih =>
    intro it
    rw [advNeg]; simp only [Option.bind_eq_bind]; rw [if_pos (by omega), steps]
    congr 1
    funext it'
    rw [← ih it']
    congr 1
    omega

variable [DecidableEq It]

theorem distImpl1_eq (f : It → Option It) (last : It) (n : Nat) : ∀ (d : Nat) (it : It) (c : Nat), Walk f last d it → c + d < 2 ^ 63 →
    ∃ it', distImpl1 f last (it, (c : Int)) ((n + 1 : Nat) : Int) = some (it', ((c + min (n + 1) d : Nat) : Int)) ∧ Walk f last (d - (n + 1)) it' := by
  induction n using Nat.strongRecOn with
  | ind n ih =>
    intro d it c w hc
    cases w with
    | done => exact ⟨last, by rw [distImpl1, if_pos rfl]; simp, by rw [Nat.zero_sub]; exact .done⟩
    | @step _ s' d h h' w' =>
      by_cases h0 : n = 0
      · subst h0
        refine ⟨s', ?_, w'⟩
        rw [distImpl1]; simp only [Option.bind_eq_bind]; rw [if_neg h, if_pos (by omega), h', Option.bind_some, Adaptor.int64_arith (by omega) (by omega), Option.map_some]
        congr 2
      · have e : (((n + 1 : Nat) : Int)).tdiv 2 = (((n + 1) / 2 - 1) + 1 : Nat) := by
          rw [Int.tdiv_eq_ediv_of_nonneg (by omega)]
          omega
        have e2 : ((n + 1 : Nat) : Int) - (((n + 1) / 2 - 1) + 1 : Nat) = ((n - (n + 1) / 2) + 1 : Nat) := by omega
        obtain ⟨t, ht, wt⟩ := ih ((n + 1) / 2 - 1) (by omega) (d + 1) it c (.step h h' w') hc
        obtain ⟨u, hu, wu⟩ := ih (n - (n + 1) / 2) (by omega) _ t (c + min ((n + 1) / 2 - 1 + 1) (d + 1)) wt (by omega)
        refine ⟨u, ?_, ?_⟩
        · rw [distImpl1]; simp only [Option.bind_eq_bind]; rw [if_neg h, if_neg (by omega), e, e2, ht, Option.bind_some, hu]
          congr 3
          omega
        · have : d + 1 - ((n + 1) / 2 - 1 + 1) - (n - (n + 1) / 2 + 1) = d + 1 - (n + 1) := by omega
          rw [← this]
          exact wu

theorem distImpl_eq (f : It → Option It) (last : It) (d : Nat) : ∀ (it : It) (c n : Nat), Walk f last d it → 0 < n → d + n ≤ 2 ^ 62 → c + d < 2 ^ 63 →
    distImpl f last (it, (c : Int)) n = some (last, ((c + d : Nat) : Int)) := by
  induction d using Nat.strongRecOn with
  | ind d ih =>
    intro it c n w hn h1 h2
    rw [distImpl]; simp only [Option.bind_eq_bind]
    cases w with
    | done => rw [if_pos rfl]; rfl
    | @step _ s' d h h' w' =>
      obtain ⟨m, rfl⟩ : ∃ m, n = m + 1 := ⟨n - 1, by omega⟩
      obtain ⟨t, ht, wt⟩ := distImpl1_eq f last m (d + 1) it c (.step h h' w') h2
      rw [if_neg h, ht, Option.bind_some, Adaptor.int64_arith (by omega) (by omega), Option.bind_some]
      by_cases hd : d + 1 ≤ m + 1
      · rw [show d + 1 - (m + 1) = 0 by omega] at wt
        cases wt
        rw [distImpl, if_pos rfl]
        congr 3
        omega
      · have := ih (d + 1 - (m + 1)) (by omega) t (c + min (m + 1) (d + 1)) ((m + 1) * 2) wt (by omega) (by omega) (by omega)
        rw [show c + min (m + 1) (d + 1) + (d + 1 - (m + 1)) = c + (d + 1) by omega] at this
        rw [← this]
        rfl

theorem distImpl_none (f : It → Option It) (last : It) (e : Nat) : ∀ (d : Nat) (it : It) (c : Nat), e ≤ 62 → Walk f last d it →
    2 ^ 62 < d + 2 ^ (62 - e) → c + d < 2 ^ 63 → distImpl f last (it, (c : Int)) ((2 ^ (62 - e) : Nat) : Int) = none := by
  induction e with
  | zero =>
    intro d it c he w h1 h2
    rw [distImpl]; simp only [Option.bind_eq_bind]
    cases w with
    | done => omega
    | @step _ s' d h h' w' =>
      rw [if_neg h]
      have : CInt.int64.arith (((2 ^ (62 - 0) : Nat) : Int) * 2) = none := by decide
      rw [this]
      cases distImpl1 f last (it, (c : Int)) ((2 ^ (62 - 0) : Nat) : Int) <;> rfl
  | succ e ih =>
    intro d it c he w h1 h2
    have hp : 2 ^ (62 - e) = 2 ^ (62 - (e + 1)) * 2 := by rw [← Nat.pow_succ]; congr 1; omega
    have hp2 : 2 ^ (62 - e) ≤ 2 ^ 62 := Nat.pow_le_pow_right (by omega) (by omega)
    have hp3 : 0 < 2 ^ (62 - (e + 1)) := Nat.pos_of_ne_zero (by simp)
    generalize hn : 2 ^ (62 - (e + 1)) = n at *
    rw [distImpl]; simp only [Option.bind_eq_bind]
    obtain ⟨m, rfl⟩ : ∃ m, n = m + 1 := ⟨n - 1, by omega⟩
    obtain ⟨t, ht, wt⟩ := distImpl1_eq f last m d it c w h2
    cases w with
    | done => omega
    | @step _ s' d h h' w' =>
      rw [if_neg h, ht, Option.bind_some, Adaptor.int64_arith (by omega) (by omega), Option.bind_some]
      have := ih _ t (c + min (m + 1) (d + 1)) (by omega) wt (by omega) (by omega)
      rw [← this, hp]
      rfl

theorem distLoop_eq (f : It → Option It) (last : It) (d : Nat) : ∀ (it : It) (c : Nat), Walk f last d it → c + d < 2 ^ 63 →
    distLoop f last it c = some ((c + d : Nat) : Int) := by
  induction d with
  | zero =>
    intro it c w h
    cases w
    rw [distLoop, if_pos rfl]
    rfl
  | succ d ih =>
    intro it c w h
    cases w with
    | step hne h' w' =>
      rw [distLoop]; simp only [Option.bind_eq_bind]; rw [if_neg hne, Adaptor.int64_arith (by omega) (by omega), Option.bind_some, h', Option.bind_some]
      have := ih _ (c + 1) w' (by omega)
      rw [show c + 1 + d = c + (d + 1) by omega] at this
      rw [← this]
      rfl

end Sprout.IterOps

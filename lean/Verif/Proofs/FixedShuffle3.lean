import Verif.Proofs.FixedShuffle
import Verif.Props.C18
import Verif.Props.C21

/-! # Sorting by chance -/

namespace Sprout.FixedAlg

open ContOp

variable {α σ χ : Type}

theorem steps_add (f : χ → Option χ) : ∀ (a b : ℕ) (x : χ), steps f (a + b) x = steps f a x >>= steps f b
  | 0, b, x => by simp [steps]
  | a + 1, b, x => by
    rw [show a + 1 + b = (a + b) + 1 by omega, steps, steps]
    cases f x with
    | none => rfl
    | some y => exact steps_add f a b y

theorem steps_fix {f : χ → Option χ} {x : χ} (h : f x = some x) : ∀ n, steps f n x = some x
  | 0 => rfl
  | n + 1 => by rw [steps, h]; exact steps_fix h n

/-- one attempt -/
def attempt (comp : α → α → Bool) (step : Cont α → σ → Option (Cont α × σ)) (cur : (Cont α × σ) × Bool) : Option ((Cont α × σ) × Bool) :=
  if cur.2 then some cur
  else do
    if ← sortedNow comp cur.1.1 then some (cur.1, true)
    else do
      let r ← step cur.1.1 cur.1.2
      some (r, false)

variable {comp : α → α → Bool} {step : Cont α → σ → Option (Cont α × σ)}

theorem attempt_fix {cur : (Cont α × σ) × Bool} (h : cur.2 = true) : attempt comp step cur = some cur := by
  rw [attempt, if_pos h]

theorem tryImpl1_eq (n : ℕ) (cur : (Cont α × σ) × Bool) (hn : n ≠ 0) : tryImpl1 comp step cur n = steps (attempt comp step) n cur := by
  induction n using Nat.strongRecOn generalizing cur with
  | _ n ih =>
    rw [tryImpl1]
    by_cases h : cur.2 = true
    · rw [if_pos h, steps_fix (attempt_fix h)]
    · rw [if_neg h, if_neg hn]
      by_cases h1 : n = 1
      · subst h1
        rw [if_pos rfl, steps, attempt, if_neg h]
        simp only [steps]
        exact (bind_pure _).symm
      · rw [if_neg h1, ih (n / 2) (by omega) cur (by omega), show n = n / 2 + (n - n / 2) by omega, steps_add,
          show n / 2 + (n - n / 2) = n by omega]
        cases steps (attempt comp step) (n / 2) cur with
        | none => rfl
        | some c => exact ih (n - n / 2) (by omega) c (by omega)

theorem tryImpl_of_steps {r : (Cont α × σ) × Bool} (hr : r.2 = true) (k : ℕ) : ∀ (cur : (Cont α × σ) × Bool) (n : ℕ), n ≠ 0 →
    steps (attempt comp step) k cur = some r → tryImpl comp step cur n = some r := by
  induction k using Nat.strongRecOn with
  | _ k ih =>
    intro cur n hn h
    have fin : ∀ m, tryImpl comp step r m = some r := fun m => by rw [tryImpl, if_pos hr]
    rw [tryImpl]
    by_cases hc : cur.2 = true
    · rw [if_pos hc, ← h, steps_fix (attempt_fix hc)]
    · rw [if_neg hc, tryImpl1_eq n cur hn]
      have hk : k ≠ 0 := by
        rintro rfl
        rw [steps] at h
        cases h
        exact hc hr
      by_cases hkn : k ≤ n
      · obtain ⟨m, rfl⟩ := Nat.exists_eq_add_of_le hkn
        rw [steps_add, h]
        simp only [Option.bind_eq_bind, Option.bind_some]
        rw [steps_fix (attempt_fix hr)]
        exact fin _
      · obtain ⟨m, rfl⟩ := Nat.exists_eq_add_of_le (Nat.le_of_lt (not_le.1 hkn))
        rw [steps_add] at h
        simp only [Option.bind_eq_bind, Option.bind_eq_some_iff] at h
        obtain ⟨z, z1, z2⟩ := h
        rw [z1]
        exact ih m (by omega) z (n * 2) (by omega) z2

theorem tryImpl_steps : ∀ (cur : (Cont α × σ) × Bool) (n : ℕ) (r : (Cont α × σ) × Bool), tryImpl comp step cur n = some r →
    n ≠ 0 → r.2 = true ∧ ∃ k, steps (attempt comp step) k cur = some r := by
  refine tryImpl.partial_correctness comp step (fun cur n r => n ≠ 0 → r.2 = true ∧ ∃ k, steps (attempt comp step) k cur = some r) ?_
  intro f ih cur n r h hn
  by_cases hc : cur.2 = true
  · rw [if_pos hc] at h
    cases h
    exact ⟨hc, 0, rfl⟩
  · rw [if_neg hc, tryImpl1_eq n cur hn] at h
    simp only [Option.bind_eq_bind, Option.bind_eq_some_iff] at h
    obtain ⟨z, z1, z2⟩ := h
    obtain ⟨h1, k, h2⟩ := ih z (n * 2) r z2 (by omega)
    refine ⟨h1, n + k, ?_⟩
    rw [steps_add, z1]
    exact h2

variable [Inhabited α]

theorem sortedNow_eq (hc : StrictWeak comp) {c : Cont α} (h : c.Ok) : ∃ b, sortedNow comp c = some b ∧ (b = true ↔ SortedBy comp c.vis) := by
  obtain ⟨⟨b, h1, h2⟩, -⟩ := C18_is_sorted comp hc [] c.vis []
  rw [sortedNow, elems_eq h]
  refine ⟨b, ?_, h2⟩
  simpa using h1

/-- every step is defined and rearranges the window -/
def Rearranges (step : Cont α → σ → Option (Cont α × σ)) : Prop :=
  ∀ c s, c.Ok → ∃ d s', step c s = some (d, s') ∧ Frame c d ∧ d.vis.Perm c.vis

theorem steps_rearrange (hs : Rearranges step) : ∀ (k : ℕ) (c : Cont α) (s : σ), c.Ok →
    ∃ d s', steps (fun x => step x.1 x.2) k (c, s) = some (d, s') ∧ Frame c d ∧ d.vis.Perm c.vis
  | 0, c, s, h => ⟨c, s, rfl, .refl h, .refl _⟩
  | k + 1, c, s, h => by
    obtain ⟨d, s', h1, h2, h3⟩ := hs c s h
    obtain ⟨e, s'', g1, g2, g3⟩ := steps_rearrange hs k d s' h2.ok
    refine ⟨e, s'', ?_, h2.trans g2, g3.trans h3⟩
    rw [steps, h1]
    exact g1

theorem steps_attempt (hc : StrictWeak comp) (hs : Rearranges step) : ∀ (k : ℕ) (c : Cont α) (s : σ) (r : Cont α × σ), c.Ok →
    (steps (attempt comp step) k ((c, s), false) = some (r, true) ↔ ∃ j < k, steps (fun x => step x.1 x.2) j (c, s) = some r ∧
      SortedBy comp r.1.vis ∧ ∀ i < j, ∀ z, steps (fun x => step x.1 x.2) i (c, s) = some z → ¬SortedBy comp z.1.vis)
  | 0, c, s, r, h => by simp [steps]
  | k + 1, c, s, r, h => by
    obtain ⟨b, b1, b2⟩ := sortedNow_eq hc h
    rw [steps, attempt, if_neg (by simp), b1]
    simp only [Option.bind_eq_bind, Option.bind_some]
    cases b with
    | true =>
      rw [if_pos rfl, Option.bind_some, steps_fix (attempt_fix rfl)]
      have hb := b2.1 rfl
      constructor
      · intro e
        cases e
        exact ⟨0, by omega, rfl, hb, by simp⟩
      · rintro ⟨j, -, j1, j2, j3⟩
        cases j with
        | zero =>
          rw [steps] at j1
          cases j1
          rfl
        | succ j => exact absurd hb (j3 0 (by omega) (c, s) rfl)
    | false =>
      have hb : ¬SortedBy comp c.vis := fun hb => by simpa using b2.2 hb
      obtain ⟨d, s', h1, h2, h3⟩ := hs c s h
      rw [if_neg (by simp), h1]
      simp only [Option.bind_some]
      rw [steps_attempt hc hs k d s' r h2.ok]
      have e : ∀ i, steps (fun x : Cont α × σ => step x.1 x.2) (i + 1) (c, s) = steps (fun x => step x.1 x.2) i (d, s') := fun i => by
        rw [steps, h1]
        rfl
      constructor
      · rintro ⟨j, j0, j1, j2, j3⟩
        refine ⟨j + 1, by omega, by rw [e, j1], j2, ?_⟩
        intro i hi z hz
        cases i with
        | zero =>
          rw [steps] at hz
          cases hz
          exact hb
        | succ i =>
          rw [e] at hz
          exact j3 i (by omega) z hz
      · rintro ⟨j, j0, j1, j2, j3⟩
        cases j with
        | zero =>
          rw [steps] at j1
          cases j1
          exact absurd j2 hb
        | succ j =>
          rw [e] at j1
          exact ⟨j, by omega, j1, j2, fun i hi z hz => j3 (i + 1) (by omega) z (by rw [e]; exact hz)⟩

theorem trySort_iff (hc : StrictWeak comp) (hs : Rearranges step) {c : Cont α} (h : c.Ok) (s : σ) (r : Cont α × σ) :
    trySort comp step c s = some r ↔ FirstWith (fun x : Cont α × σ => SortedBy comp x.1.vis) (fun x => step x.1 x.2) (c, s) r := by
  obtain ⟨b, b1, b2⟩ := sortedNow_eq hc h
  rw [trySort, b1]
  simp only [Option.bind_eq_bind, Option.bind_some]
  cases b with
  | true =>
    have hb := b2.1 rfl
    rw [if_pos rfl]
    constructor
    · intro e
      cases e
      exact ⟨0, rfl, hb, by simp⟩
    · rintro ⟨j, j1, j2, j3⟩
      cases j with
      | zero => exact j1
      | succ j => exact absurd hb (j3 0 (by omega) (c, s) rfl)
  | false =>
    have hb : ¬SortedBy comp c.vis := fun hb => by simpa using b2.2 hb
    rw [if_neg (by simp)]
    obtain ⟨d, s', h1, h2, h3⟩ := hs c s h
    rw [h1]
    simp only [Option.bind_some, Option.bind_eq_some_iff, Option.some.injEq]
    have e : ∀ i, steps (fun x : Cont α × σ => step x.1 x.2) (i + 1) (c, s) = steps (fun x => step x.1 x.2) i (d, s') := fun i => by
      rw [steps, h1]
      rfl
    constructor
    · rintro ⟨⟨q, t⟩, t1, rfl⟩
      obtain ⟨t2, k, t3⟩ := tryImpl_steps _ _ _ t1 (by omega)
      simp only at t2
      subst t2
      obtain ⟨j, j0, j1, j2, j3⟩ := (steps_attempt hc hs k d s' q h2.ok).1 t3
      refine ⟨j + 1, by rw [e, j1], j2, ?_⟩
      intro i hi z hz
      cases i with
      | zero =>
        rw [steps] at hz
        cases hz
        exact hb
      | succ i =>
        rw [e] at hz
        exact j3 i (by omega) z hz
    · rintro ⟨j, j1, j2, j3⟩
      cases j with
      | zero =>
        rw [steps] at j1
        cases j1
        exact absurd j2 hb
      | succ j =>
        rw [e] at j1
        refine ⟨(r, true), ?_, rfl⟩
        exact tryImpl_of_steps rfl (j + 1) _ 1 (by omega) ((steps_attempt hc hs (j + 1) d s' r h2.ok).2
          ⟨j, by omega, j1, j2, fun i hi z hz => j3 (i + 1) (by omega) z (by rw [e]; exact hz)⟩)

theorem trySort_sorts (hc : StrictWeak comp) (hs : Rearranges step) {c : Cont α} (h : c.Ok) {s s' : σ} {d : Cont α}
    (hr : trySort comp step c s = some (d, s')) : Frame c d ∧ SortedBy comp d.vis ∧ d.vis.Perm c.vis := by
  obtain ⟨k, k1, k2, -⟩ := (trySort_iff hc hs h s _).1 hr
  obtain ⟨e, s'', g1, g2, g3⟩ := steps_rearrange hs k c s h
  rw [g1] at k1
  cases k1
  exact ⟨g2, k2, g3⟩

/-! ## in place -/

omit [Inhabited α] in
theorem tryInPlace_sorts {f : List α → ℕ → ℕ → σ → Option (List α × σ)} (hc : StrictWeak comp) (pre post : List α) (n : ℕ)
    (hs : ∀ xs s, xs.length = n → ∃ zs s', f (pre ++ xs ++ post) pre.length (pre.length + n) s = some (pre ++ zs ++ post, s') ∧ zs.Perm xs) :
    ∀ (m : List α) (s : σ) (r : List α × σ), tryInPlace comp f m pre.length (pre.length + n) s = some r →
      ∀ xs, m = pre ++ xs ++ post → xs.length = n → ∃ zs, r.1 = pre ++ zs ++ post ∧ zs.Perm xs ∧ SortedBy comp zs := by
  refine tryInPlace.partial_correctness comp f pre.length (pre.length + n) (fun m s r => ∀ xs, m = pre ++ xs ++ post →
    xs.length = n → ∃ zs, r.1 = pre ++ zs ++ post ∧ zs.Perm xs ∧ SortedBy comp zs) ?_
  intro g ih m s r h xs hm hn
  subst hm
  obtain ⟨⟨b, h1, h2⟩, -⟩ := C18_is_sorted comp hc pre xs post
  rw [hn] at h1
  rw [h1] at h
  simp only [Option.bind_eq_bind, Option.bind_some] at h
  cases b with
  | true =>
    rw [if_pos rfl] at h
    cases h
    exact ⟨xs, rfl, .refl _, h2.1 rfl⟩
  | false =>
    rw [if_neg (by simp)] at h
    obtain ⟨zs, s', z1, z2⟩ := hs xs s hn
    rw [z1] at h
    simp only [Option.bind_some] at h
    obtain ⟨ys, y1, y2, y3⟩ := ih _ _ r h zs rfl (by rw [z2.length_eq, hn])
    exact ⟨ys, y1, y2.trans z2, y3⟩

end Sprout.FixedAlg

import Verif.Proofs.Brainfuck

/-!
# C41: the brainfuck interpreter

`exec` against the big-step semantics of `Verif/Spec/Brainfuck.lean`, in both directions (so the interpreter terminates exactly when the semantics has
an outcome, up to the undefined ones). Refuted: `-` does nothing (line 101 tests for `'+'` a second time). With that line repaired the theorem holds
for all programs.
-/

namespace Sprout
open Spec.BF BF

/-- the full statement for an interpreter: it computes exactly the outcomes of the semantics. Programs and tape fit into memory. -/
def C41_statement (interp : CInt → CInt → Nat → List Int → List Int → List Int → Option (Ret (List Int))) : Prop :=
  ∀ (T To : CInt) (N : Nat) (p : Prog) (output inp : List Int), T.Std → (text p).length + N < 2 ^ 63 →
    (∀ s, Exec T To output.length p (start N inp) (.done s) →
      interp T To N (text p) output inp = some (.ret (s.out ++ output.drop s.out.length))) ∧
    (Exec T To output.length p (start N inp) .error → interp T To N (text p) output inp = some (.throw .outOfRange)) ∧
    (∀ v, interp T To N (text p) output inp = some v → Exec T To output.length p (start N inp) .undef ∨
      (∃ s, Exec T To output.length p (start N inp) (.done s) ∧ v = .ret (s.out ++ output.drop s.out.length)) ∨
      (Exec T To output.length p (start N inp) .error ∧ v = .throw .outOfRange))

private theorem exec_both (sub : Int) (T To : CInt) (N : Nat) (p : Prog) (output inp : List Int) (hT : T.Std) (hN : (text p).length + N < 2 ^ 63)
    (hs : sub = 45 ∨ (sub = 43 ∧ 45 ∉ text p)) :
    (∀ s, Exec T To output.length p (start N inp) (.done s) →
      execS sub T To N (text p) output inp = some (.ret (s.out ++ output.drop s.out.length))) ∧
    (Exec T To output.length p (start N inp) .error → execS sub T To N (text p) output inp = some (.throw .outOfRange)) ∧
    (∀ v, execS sub T To N (text p) output inp = some v → Exec T To output.length p (start N inp) .undef ∨
      (∃ s, Exec T To output.length p (start N inp) (.done s) ∧ v = .ret (s.out ++ output.drop s.out.length)) ∨
      (Exec T To output.length p (start N inp) .error ∧ v = .throw .outOfRange)) := by
  have hrel := rel_start hT N output.length inp
  have hs' : sub = 45 ∨ (sub = 43 ∧ 45 ∉ ops p) := by
    rw [← mem_text p 45 (by decide) (by decide)]; exact hs
  refine ⟨?_, ?_, ?_⟩
  · intro s hE
    obtain ⟨st', h', hip, he⟩ := complete (sub := sub) (output := output) hT hN hE [] [] _ (by simp) rfl hrel hs'
    rw [execS, he, execImpl, if_pos (by simpa using hip), finish_eq h']
  · intro hE
    exact complete (sub := sub) (output := output) hT hN hE [] [] _ (by simp) rfl hrel hs'
  · intro v hv
    obtain ⟨o, r, ho, hf, hm⟩ := sound (sub := sub) hT hN _ v hv [] p [] _ trivial (by simp [ktext]) rfl hrel hs
    cases o with
    | done s =>
      obtain rfl : r = .done s := hf
      exact Or.inr (Or.inl ⟨s, ho, hm⟩)
    | error =>
      obtain rfl : r = .error := hf
      exact Or.inr (Or.inr ⟨ho, hm⟩)
    | undef => exact Or.inl ho

/-- the interpreter with line 101 repaired implements the language -/
theorem C41_repaired : C41_statement execFixed := fun T To N p output inp hT hN =>
  exec_both 45 T To N p output inp hT hN (Or.inl rfl)

/-- the interpreter as it is implements the language for programs without `-`. Missing: programs with `-`, see `C41_minus_false`. -/
theorem C41_exec_partial (T To : CInt) (N : Nat) (p : Prog) (output inp : List Int) (hT : T.Std) (hN : (text p).length + N < 2 ^ 63)
    (hm : 45 ∉ text p) :
    (∀ s, Exec T To output.length p (start N inp) (.done s) →
      exec T To N (text p) output inp = some (.ret (s.out ++ output.drop s.out.length))) ∧
    (Exec T To output.length p (start N inp) .error → exec T To N (text p) output inp = some (.throw .outOfRange)) ∧
    (∀ v, exec T To N (text p) output inp = some v → Exec T To output.length p (start N inp) .undef ∨
      (∃ s, Exec T To output.length p (start N inp) (.done s) ∧ v = .ret (s.out ++ output.drop s.out.length)) ∨
      (Exec T To output.length p (start N inp) .error ∧ v = .throw .outOfRange)) :=
  exec_both 43 T To N p output inp hT hN (Or.inr ⟨rfl, hm⟩)

/-- `++-.` on one cell of type `signed char`: the language outputs 1, the code 2 -/
private def minusProg : Prog := .op 43 (by decide) (.op 43 (by decide) (.op 45 (by decide) (.op 46 (by decide) .nil)))

private theorem minus_exec : Exec .int8 .int8 1 minusProg (start 1 []) (.done ⟨[1], 0, [], [1]⟩) := by
  refine .op (s' := ⟨[1], 0, [], []⟩) (by rfl) (.op (s' := ⟨[2], 0, [], []⟩) (by rfl) (.op (s' := ⟨[1], 0, [], []⟩) (by rfl)
    (.op (s' := ⟨[1], 0, [], [1]⟩) (by rfl) (.nil _))))

private theorem minus_code : exec .int8 .int8 1 (text minusProg) [0] [] = some (.ret [2]) := by
  unfold exec execS
  have e : text minusProg = [43, 43, 45, 46] := rfl
  rw [e]
  rw [run_ret (st' := ⟨1, [], [1], [0], 0, 0⟩) (by decide) (by rfl), run_ret (st' := ⟨2, [], [2], [0], 0, 0⟩) (by decide) (by rfl),
    run_ret (st' := ⟨3, [], [2], [0], 0, 0⟩) (by decide) (by rfl), run_ret (st' := ⟨4, [], [2], [2], 0, 1⟩) (by decide) (by rfl), execImpl]
  rfl

theorem C41_minus_false : ¬ C41_statement exec := by
  intro h
  have := (h .int8 .int8 1 minusProg [0] [] (by decide) (by decide)).1 _ minus_exec
  rw [minus_code] at this
  cases this

/-- in the code `-` is a comment: it does nothing but step on -/
theorem C41_minus_noop (T To : CInt) (src : List Int) (s : St) (h : src[s.ip]? = some 45) :
    step 43 T To src s = some (.ret { s with ip := s.ip + 1 }) := by
  unfold step
  rw [rd, h]
  rfl

/-- `is_well_formed` accepts exactly the texts of programs -/
theorem C41_isWellFormed (s : List Int) : isWellFormed s = true ↔ ∃ p, s = text p := by
  constructor
  · intro h
    obtain ⟨p, r, hr, hs⟩ := wf_split s 0 h
    obtain rfl := List.length_eq_zero_iff.1 hr
    exact ⟨p, by simpa using hs⟩
  · rintro ⟨p, rfl⟩
    have := wf_text p 0 []
    rw [List.append_nil] at this
    rw [isWellFormed, this]; rfl

/-- hence a bracket count: every prefix has at least as many opening as closing brackets, the whole text equally many -/
theorem C41_balanced (s : List Int) : isWellFormed s = true ↔
    s.count 91 = s.count 93 ∧ ∀ q r, s = q ++ r → q.count 93 ≤ q.count 91 := by
  suffices H : ∀ (s : List Int) (n : Nat), isWellFormedC n s = true ↔
      n + s.count 91 = s.count 93 ∧ ∀ q r, s = q ++ r → q.count 93 ≤ n + q.count 91 by
    have := H s 0
    simpa [isWellFormed] using this
  intro s
  induction s with
  | nil =>
    intro n
    simp only [isWellFormedC, beq_iff_eq, List.count_nil, Nat.add_zero]
    constructor
    · rintro rfl
      refine ⟨rfl, fun q r h => ?_⟩
      have h' := List.append_eq_nil_iff.1 h.symm
      simp [h'.1]
    · exact fun h => h.1
  | cons c s ih =>
    intro n
    have pre : ∀ (P : List Int → Prop), (∀ q r, c :: s = q ++ r → P q) ↔ P [] ∧ ∀ q r, s = q ++ r → P (c :: q) := by
      intro P
      constructor
      · intro h
        exact ⟨h [] _ rfl, fun q r hq => h (c :: q) r (by simp [hq])⟩
      · rintro ⟨h0, h1⟩ q r hq
        cases q with
        | nil => exact h0
        | cons d q =>
          simp only [List.cons_append, List.cons.injEq] at hq
          obtain ⟨rfl, hq⟩ := hq
          exact h1 q r hq
    rw [pre]
    unfold isWellFormedC
    by_cases h1 : c = 91
    · subst h1
      rw [if_pos rfl, ih]
      simp [List.count_cons]
      constructor
      · rintro ⟨a, b⟩; exact ⟨by omega, fun q r h => by have := b q r h; omega⟩
      · rintro ⟨a, b⟩; exact ⟨by omega, fun q r h => by have := b q r h; omega⟩
    · by_cases h2 : c = 93
      · subst h2
        rw [if_neg h1, if_pos rfl, Bool.and_eq_true, ih]
        simp [List.count_cons]
        constructor
        · rintro ⟨h0, a, b⟩; exact ⟨by omega, fun q r h => by have := b q r h; omega⟩
        · rintro ⟨a, b⟩
          have := b [] s rfl
          simp at this
          exact ⟨by omega, by omega, fun q r h => by have := b q r h; omega⟩
      · rw [if_neg h1, if_neg h2, ih]
        simp [List.count_cons, h1, h2]

/-- reading input with the pointer just behind the tape is no error: the character is dropped -/
theorem C41_input_dropped (T To : CInt) (src : List Int) (s : St) (x : Int) (r : List Int) (h : src[s.ip]? = some 44) (hi : s.inp = x :: r)
    (hp : s.pos = s.buf.length) : step 43 T To src s = some (.ret { s with ip := s.ip + 1, inp := r }) := by
  unfold step
  rw [rd, h]
  simp [hi, fset, hp, List.set_eq_of_length_le]

/-- not vacuous: a loop. `,[.,]` copies the input `1 2 0` to the output -/
private def catProg : Prog := .op 44 (by decide) (.loop (.op 46 (by decide) (.op 44 (by decide) .nil)) .nil)

example : exec .int8 .int8 1 [44, 91, 46, 44, 93] [7, 7, 7] [1, 2, 0] = some (.ret [1, 2, 7]) := by
  refine (C41_exec_partial .int8 .int8 1 catProg [7, 7, 7] [1, 2, 0] (by decide) (by decide) (by decide)).1 ⟨[0], 0, [], [1, 2]⟩ ?_
  refine .op (s' := ⟨[1], 0, [2, 0], []⟩) (by rfl) (.iter (v := 1) (s' := ⟨[2], 0, [0], [1]⟩) (by rfl) (by decide) ?_
    (.iter (v := 2) (s' := ⟨[0], 0, [], [1, 2]⟩) (by rfl) (by decide) ?_ (.skip (by rfl) (.nil _))))
  · exact .op (s' := ⟨[1], 0, [2, 0], [1]⟩) (by rfl) (.op (s' := ⟨[2], 0, [0], [1]⟩) (by rfl) (.nil _))
  · exact .op (s' := ⟨[2], 0, [0], [1, 2]⟩) (by rfl) (.op (s' := ⟨[0], 0, [], [1, 2]⟩) (by rfl) (.nil _))

/-- errors occur, too: `<+` -/
example : exec .int8 .int8 1 [60, 43] [] [] = some (.throw .outOfRange) :=
  (C41_exec_partial .int8 .int8 1 (.op 60 (by decide) (.op 43 (by decide) .nil)) [] [] (by decide) (by decide) (by decide)).2.1
    (.op (s' := ⟨[0], -1, [], []⟩) (by rfl) (.opErr (by rfl)))

example : isWellFormed [91, 43, 91, 93, 93] = true ∧ isWellFormed [93, 91] = false ∧ isWellFormed [91] = false := by decide

end Sprout

import Verif.Model.Brainfuck
import Verif.Spec.Brainfuck
import Verif.Proofs.CInt

/-!
# The brainfuck interpreter simulates the big-step semantics
-/

namespace Sprout.BF
open Spec.BF

/-! ## bracket matching -/

theorem rd_mid (q : List Int) (c : Int) (post : List Int) : rd (q ++ c :: post) q.length = some c := by
  simp [rd]

theorem scopeEnd_text (p : Prog) : ∀ (q post : List Int) (n : Nat),
    findScopeEnd (q ++ text p ++ post) q.length n = findScopeEnd (q ++ text p ++ post) (q.length + (text p).length) n := by
  induction p with
  | nil => intro q post n; simp [text]
  | op c h r ih =>
    intro q post n
    rw [findScopeEnd]
    have e : q ++ text (.op c h r) ++ post = (q ++ [c]) ++ text r ++ post := by simp [text]
    have e2 : q ++ text (.op c h r) ++ post = q ++ c :: (text r ++ post) := by simp [text]
    rw [e2, rd_mid, ← e2, e]
    simp only [Option.bind_eq_bind, Option.bind_some, if_neg h.1, if_neg h.2]
    have := ih (q ++ [c]) post n
    simp only [List.length_append, List.length_cons, List.length_nil] at this
    rw [this]
    congr 1
    simp [text]; omega
  | loop b r ihb ihr =>
    intro q post n
    rw [findScopeEnd]
    have e : q ++ text (.loop b r) ++ post = (q ++ [91]) ++ text b ++ (93 :: (text r ++ post)) := by simp [text]
    have e2 : q ++ text (.loop b r) ++ post = q ++ 91 :: (text b ++ 93 :: (text r ++ post)) := by simp [text]
    have e3 : q ++ text (.loop b r) ++ post = (q ++ [91] ++ text b ++ [93]) ++ text r ++ post := by simp [text]
    rw [e2, rd_mid, ← e2]
    simp only [Option.bind_eq_bind, Option.bind_some, if_true]
    have h1 := ihb (q ++ [91]) (93 :: (text r ++ post)) (n + 1)
    rw [← e] at h1
    simp only [List.length_append, List.length_cons, List.length_nil] at h1
    rw [h1, findScopeEnd]
    have h2 := rd_mid (q ++ [91] ++ text b) 93 (text r ++ post)
    rw [← e] at h2
    simp only [List.length_append, List.length_cons, List.length_nil] at h2
    rw [h2]
    simp only [Option.bind_eq_bind, Option.bind_some, if_true, show ¬ ((93 : Int) = 91) by decide, if_false, show ¬ (n + 1 = 0) by omega,
      Nat.add_sub_cancel]
    have h3 := ihr (q ++ [91] ++ text b ++ [93]) post n
    rw [← e3] at h3
    simp only [List.length_append, List.length_cons, List.length_nil] at h3
    rw [h3]
    congr 1
    simp [text]; omega

theorem scopeEnd_eq (p : Prog) (q post : List Int) :
    findScopeEnd (q ++ text p ++ 93 :: post) q.length 0 = some (q.length + (text p).length) := by
  rw [scopeEnd_text, findScopeEnd]
  have := rd_mid (q ++ text p) 93 post
  rw [List.length_append] at this
  rw [this]
  simp

/-- `find_scope_start(prev(j))` -/
def back (src : List Int) (j n : Nat) : Option Nat := do
  let i ← prev j
  findScopeStart src i n

theorem back_step (q post : List Int) (c : Int) (n : Nat) : back (q ++ c :: post) (q.length + 1) n =
    if c = 93 then back (q ++ c :: post) q.length (n + 1)
    else if c = 91 then (if n = 0 then some q.length else back (q ++ c :: post) q.length (n - 1))
    else back (q ++ c :: post) q.length n := by
  rw [back]
  simp only [prev, Nat.succ_ne_zero, if_false, Nat.add_sub_cancel, Option.bind_eq_bind, Option.bind_some]
  rw [findScopeStart, rd_mid]
  rfl

theorem back_text (p : Prog) : ∀ (q post : List Int) (n : Nat),
    back (q ++ text p ++ post) (q.length + (text p).length) n = back (q ++ text p ++ post) q.length n := by
  induction p with
  | nil => intro q post n; simp [text]
  | op c h r ih =>
    intro q post n
    have e : q ++ text (.op c h r) ++ post = (q ++ [c]) ++ text r ++ post := by simp [text]
    have e2 : q ++ text (.op c h r) ++ post = q ++ c :: (text r ++ post) := by simp [text]
    have h1 := ih (q ++ [c]) post n
    rw [← e] at h1
    have h2 := back_step q (text r ++ post) c n
    rw [← e2, if_neg h.2, if_neg h.1] at h2
    simp only [List.length_append, List.length_cons, List.length_nil] at h1
    rw [← h2, ← h1]
    congr 1
    simp [text]; omega
  | loop b r ihb ihr =>
    intro q post n
    have e : q ++ text (.loop b r) ++ post = (q ++ [91]) ++ text b ++ (93 :: (text r ++ post)) := by simp [text]
    have e2 : q ++ text (.loop b r) ++ post = q ++ 91 :: (text b ++ 93 :: (text r ++ post)) := by simp [text]
    have e3 : q ++ text (.loop b r) ++ post = (q ++ [91] ++ text b ++ [93]) ++ text r ++ post := by simp [text]
    have h1 := ihr (q ++ [91] ++ text b ++ [93]) post n
    rw [← e3] at h1
    have h2 := back_step (q ++ [91] ++ text b) (text r ++ post) 93 n
    rw [← e, if_pos rfl] at h2
    have h3 := ihb (q ++ [91]) (93 :: (text r ++ post)) (n + 1)
    rw [← e] at h3
    have h4 := back_step q (text b ++ 93 :: (text r ++ post)) 91 (n + 1)
    rw [← e2, if_neg (by decide), if_pos rfl, if_neg (by omega), Nat.add_sub_cancel] at h4
    simp only [List.length_append, List.length_cons, List.length_nil] at h1 h2 h3
    rw [← h4, ← h3, ← h2, ← h1]
    congr 1
    simp [text]; omega

theorem scopeStart_eq (p : Prog) (q post : List Int) :
    back (q ++ 91 :: (text p ++ post)) (q.length + 1 + (text p).length) 0 = some q.length := by
  have h1 := back_text p (q ++ [91]) post 0
  have h2 := back_step q (text p ++ post) 91 0
  rw [if_neg (by decide), if_pos rfl, if_pos rfl] at h2
  simp only [List.append_assoc, List.cons_append, List.nil_append, List.length_append, List.length_cons, List.length_nil] at h1
  rw [h1, h2]

/-! ## the simulation relation -/

structure Rel (T : CInt) (N M : Nat) (st : St) (s : State) : Prop where
  inp : st.inp = s.inp
  buf : st.buf = s.tape
  len : s.tape.length = N
  has : ∀ v ∈ s.tape, T.Has v
  pos : st.pos = (s.ptr % 2 ^ 64).toNat
  lo : -(st.ip : Int) ≤ s.ptr
  hi : s.ptr ≤ N + st.ip
  olen : st.out.length = M
  opos : st.opos = s.out.length
  ole : s.out.length ≤ M
  out : st.out.take st.opos = s.out

variable {T To : CInt} {N M : Nat} {src : List Int} {st : St} {s : State}

theorem cell_some {v : Int} (h : cell s = some v) : ∃ h0 : s.ptr.toNat < s.tape.length, 0 ≤ s.ptr ∧ s.tape[s.ptr.toNat] = v := by
  unfold cell at h
  split at h
  · obtain ⟨h1, h2⟩ := List.getElem?_eq_some_iff.1 h
    exact ⟨h1, by assumption, h2⟩
  · cases h

theorem Rel.at_none (h : Rel T N M st s) (hL : st.ip ≤ src.length) (hN : src.length + N < 2 ^ 63) (hc : cell s = none) :
    at' st.buf st.pos = .throw .outOfRange := by
  have hb := h.buf; have hl := h.len; have hp := h.pos; have h1 := h.lo; have h2 := h.hi
  have : st.buf[st.pos]? = none := by
    rw [List.getElem?_eq_none_iff, hb, hl, hp]
    unfold cell at hc
    split at hc
    · rw [List.getElem?_eq_none_iff, hl] at hc
      omega
    · omega
  simp [at', this]

theorem Rel.at_some (h : Rel T N M st s) (hL : st.ip ≤ src.length) (hN : src.length + N < 2 ^ 63) {v : Int} (hc : cell s = some v) :
    at' st.buf st.pos = .ret v ∧ st.pos = s.ptr.toNat ∧ st.pos < N ∧ 0 ≤ s.ptr ∧ T.Has v := by
  obtain ⟨h0, h1, h2⟩ := cell_some hc
  have hp := h.pos; have hl := h.len
  have e : st.pos = s.ptr.toNat := by omega
  refine ⟨?_, e, by omega, h1, ?_⟩
  · rw [h.buf, e, at', List.getElem?_eq_getElem h0, h2]
  · rw [← h2]; exact h.has _ (List.getElem_mem _)

/-- a change of the position while the pointer is on the tape -/
theorem Rel.move (h : Rel T N M st s) {v : Int} (hc : cell s = some v) (i : Nat) : Rel T N M { st with ip := i } s := by
  obtain ⟨h0, h1, h2⟩ := cell_some hc
  have hl := h.len
  exact ⟨h.inp, h.buf, h.len, h.has, h.pos, by simp only; omega, by simp only; omega, h.olen, h.opos, h.ole, h.out⟩

/-- a step forward -/
theorem Rel.next (h : Rel T N M st s) : Rel T N M { st with ip := st.ip + 1 } s := by
  have h1 := h.lo; have h2 := h.hi
  exact ⟨h.inp, h.buf, h.len, h.has, h.pos, by simp only; omega, by simp only; omega, h.olen, h.opos, h.ole, h.out⟩

theorem conv_has (hT : T.Std) (x : Int) : T.Has (T.conv x) := by
  obtain ⟨w, sg⟩ := T
  unfold CInt.Std at hT
  unfold CInt.Has CInt.conv CInt.min CInt.max
  simp only at hT
  cases sg <;> rcases hT with h | h | h | h <;> subst h <;> simp <;> omega

theorem ar_eq (hT : T.Std) {v d : Int} (hv : T.Has v) (hd : d = 1 ∨ d = -1) :
    T.ar (v + d) = if T.w < 32 ∨ T.sg = false ∨ T.Has (v + d) then some (T.conv (v + d)) else none := by
  obtain ⟨w, sg⟩ := T
  unfold CInt.Std at hT
  simp only at hT
  unfold CInt.ar CInt.arith
  by_cases h32 : w < 32
  · simp only [h32, if_true, true_or]
    rw [if_pos]
    · rfl
    · unfold CInt.Has CInt.min CInt.max at hv
      simp only at hv
      cases sg <;> rcases hT with h | h | h | h <;> subst h <;> simp at hv <;> omega
  · simp only [h32, if_false, false_or]
    cases sg
    · simp only [Bool.false_eq_true, if_false, true_or, if_true, Option.map_some, Option.some.injEq]
      unfold CInt.conv CInt.min
      simp
    · simp only [if_true, Bool.true_eq_false, false_or]
      split <;> rfl

theorem Rel.put (hT : T.Std) (h : Rel T N M st s) (hp : st.pos = s.ptr.toNat) (x : Int) :
    Rel T N M { st with ip := st.ip + 1, buf := st.buf.set st.pos (T.conv x) } (Spec.BF.put s (T.conv x)) := by
  have h1 := h.lo; have h2 := h.hi
  refine ⟨h.inp, ?_, ?_, ?_, h.pos, ?_, ?_, h.olen, h.opos, h.ole, h.out⟩
  · simp only [Spec.BF.put, h.buf, hp]
  · simp [Spec.BF.put, h.len]
  · intro v hv
    simp only [Spec.BF.put] at hv
    rcases List.mem_or_eq_of_mem_set hv with hv | rfl
    · exact h.has v hv
    · exact conv_has hT x
  · simp only [Spec.BF.put]; omega
  · simp only [Spec.BF.put]; omega

/-- what a step of the model must do for an outcome of the specification -/
def Sim (T : CInt) (N M : Nat) (st : St) (r : Option (Ret St)) : Res → Prop
  | .done s' => ∃ st', r = some (.ret st') ∧ st'.ip = st.ip + 1 ∧ Rel T N M st' s'
  | .error => r = some (.throw .outOfRange)
  | .undef => True

theorem bump_sim (hT : T.Std) (h : Rel T N M st s) (hL : st.ip ≤ src.length) (hN : src.length + N < 2 ^ 63) {d : Int} (hd : d = 1 ∨ d = -1) :
    Sim T N M st (bump T st d) (addCell T s d) := by
  unfold bump addCell
  cases hc : cell s with
  | none => rw [h.at_none hL hN hc]; rfl
  | some v =>
    obtain ⟨e1, e2, e3, e4, e5⟩ := h.at_some hL hN hc
    rw [e1]
    simp only
    rw [ar_eq hT e5 hd]
    split
    · have : st.pos ≤ st.buf.length := by rw [h.buf, h.len]; omega
      simp only [Option.bind_eq_bind, Option.bind_some, fset, this, if_true]
      exact ⟨_, rfl, rfl, h.put hT e2 _⟩
    · trivial

theorem instr_sim (hT : T.Std) (h : Rel T N M st s) (hN : src.length + N < 2 ^ 63) {c sub : Int} (hc : src[st.ip]? = some c)
    (hb : c ≠ 91 ∧ c ≠ 93) (hs : sub = 45 ∨ (sub = 43 ∧ c ≠ 45)) :
    Sim T N M st (step sub T To src st) (instr T To M c s) := by
  have hlt : st.ip < src.length := (List.getElem?_eq_some_iff.1 hc).1
  have hL : st.ip ≤ src.length := by omega
  have h1 := h.lo; have h2 := h.hi; have hpos := h.pos
  unfold step instr
  rw [rd, hc]
  simp only [Option.bind_eq_bind, Option.bind_some]
  by_cases c1 : c = 62
  · simp only [c1, if_true]
    refine ⟨_, rfl, rfl, ⟨h.inp, h.buf, h.len, h.has, ?_, ?_, ?_, h.olen, h.opos, h.ole, h.out⟩⟩
    · simp only; omega
    · simp only; omega
    · simp only; omega
  by_cases c2 : c = 60
  · simp only [c1, c2, if_true, if_false]
    refine ⟨_, rfl, rfl, ⟨h.inp, h.buf, h.len, h.has, ?_, ?_, ?_, h.olen, h.opos, h.ole, h.out⟩⟩
    · simp only; omega
    · simp only; omega
    · simp only; omega
  by_cases c3 : c = 43
  · simp only [c1, c2, c3, if_true, if_false]
    exact bump_sim hT h hL hN (Or.inl rfl)
  by_cases c4 : c = 45
  · obtain rfl : sub = 45 := by rcases hs with hs | hs <;> [exact hs; exact absurd c4 hs.2]
    simp only [c1, c2, c3, c4, if_true, if_false]
    exact bump_sim hT h hL hN (Or.inr rfl)
  have c5 : c ≠ sub := by rcases hs with hs | hs <;> [exact hs ▸ c4; exact hs.1 ▸ c3]
  simp only [c1, c2, c3, c4, c5, if_false]
  by_cases c6 : c = 46
  · simp only [c6, if_true]
    have ho := h.olen; have hop := h.opos; have hle := h.ole
    by_cases hfull : s.out.length = M
    · rw [if_neg (by omega), if_pos hfull]; rfl
    · rw [if_pos (by omega), if_neg hfull]
      cases hcell : cell s with
      | none => rw [h.at_none hL hN hcell]; rfl
      | some v =>
        obtain ⟨e1, e2, e3, e4, e5⟩ := h.at_some hL hN hcell
        rw [e1]
        have : st.opos ≤ st.out.length := by omega
        simp only [fset, this, if_true, Option.bind_eq_bind, Option.bind_some]
        refine ⟨_, rfl, rfl, ⟨h.inp, h.buf, h.len, h.has, h.pos, ?_, ?_, ?_, ?_, ?_, ?_⟩⟩
        · simp only; omega
        · simp only; omega
        · simp [ho]
        · simp [hop]
        · simp; omega
        · simp only
          rw [← h.out]
          apply List.ext_getElem
          · simp; omega
          · intro i hi1 hi2
            simp only [List.getElem_take, List.getElem_set, List.getElem_append, List.length_take, List.getElem_cons]
            simp at hi1
            split <;> split <;> simp_all <;> omega
  by_cases c7 : c = 44
  · simp only [c6, c7, if_true, if_false]
    rw [h.inp]
    cases hi : s.inp with
    | nil => rfl
    | cons x r =>
      simp only
      cases hcell : cell s with
      | none => trivial
      | some v =>
        obtain ⟨e1, e2, e3, e4, e5⟩ := h.at_some hL hN hcell
        have : st.pos ≤ st.buf.length := by rw [h.buf, h.len]; omega
        simp only [fset, this, if_true, Option.bind_eq_bind, Option.bind_some]
        have h' : Rel T N M { st with inp := r } { s with inp := r } :=
          ⟨rfl, h.buf, h.len, h.has, h.pos, h.lo, h.hi, h.olen, h.opos, h.ole, h.out⟩
        exact ⟨_, rfl, rfl, h'.put hT e2 x⟩
  simp only [c6, c7, hb.1, hb.2, if_false]
  exact ⟨_, rfl, rfl, h.next⟩

/-! ## the steps at brackets -/

variable {sub : Int}

theorem open_step (hs : sub = 45 ∨ sub = 43) (b : Prog) (q post : List Int) (hsrc : src = q ++ 91 :: (text b ++ 93 :: post)) (hip : st.ip = q.length) :
    step sub T To src st = match at' st.buf st.pos with
      | .throw e => some (.throw e)
      | .ret v => if v = 0 then some (.ret { st with ip := q.length + 1 + (text b).length + 1 })
          else some (.ret { st with ip := st.ip + 1 }) := by
  subst hsrc
  unfold step
  rw [hip, rd_mid]
  have h91 : ¬ ((91 : Int) = sub) := by rcases hs with rfl | rfl <;> decide
  simp only [Option.bind_eq_bind, Option.bind_some, show ¬ ((91 : Int) = 62) by decide, show ¬ ((91 : Int) = 60) by decide,
    show ¬ ((91 : Int) = 43) by decide, show ¬ ((91 : Int) = 46) by decide, show ¬ ((91 : Int) = 44) by decide, h91, if_false, if_true]
  have h1 := scopeEnd_eq b (q ++ [91]) post
  simp only [List.append_assoc, List.cons_append, List.nil_append, List.length_append, List.length_cons, List.length_nil, Nat.zero_add] at h1
  simp only [h1, Option.bind_some]
  cases at' st.buf st.pos <;> rfl

theorem close_step (hs : sub = 45 ∨ sub = 43) (b : Prog) (q post : List Int) (hsrc : src = q ++ 91 :: (text b ++ 93 :: post))
    (hip : st.ip = q.length + 1 + (text b).length) :
    step sub T To src st = match at' st.buf st.pos with
      | .throw e => some (.throw e)
      | .ret v => if v = 0 then some (.ret { st with ip := st.ip + 1 })
          else some (.ret { st with ip := q.length + 1 }) := by
  unfold step
  have h0 := rd_mid (q ++ 91 :: text b) 93 post
  have e : (q ++ 91 :: text b) ++ 93 :: post = src := by rw [hsrc]; simp
  rw [e, show (q ++ 91 :: text b).length = q.length + 1 + (text b).length by simp; omega, ← hip] at h0
  rw [h0]
  have h93 : ¬ ((93 : Int) = sub) := by rcases hs with rfl | rfl <;> decide
  simp only [Option.bind_eq_bind, Option.bind_some, show ¬ ((93 : Int) = 62) by decide, show ¬ ((93 : Int) = 60) by decide,
    show ¬ ((93 : Int) = 43) by decide, show ¬ ((93 : Int) = 46) by decide, show ¬ ((93 : Int) = 44) by decide,
    show ¬ ((93 : Int) = 91) by decide, h93, if_false, if_true]
  have h1 := scopeStart_eq b q (93 :: post)
  rw [← hsrc, ← hip, back] at h1
  cases at' st.buf st.pos with
  | throw e => rfl
  | ret v =>
    simp only
    by_cases hv : v = 0
    · simp [hv]
    · simp only [hv, not_false_eq_true, if_true, if_false, ne_eq]
      have : ∀ x : Option Nat, (do let j ← x; let e ← findScopeStart src j 0; some (Ret.ret { st with ip := e + 1 })) =
          (do let e ← (do let j ← x; findScopeStart src j 0); some (Ret.ret { st with ip := e + 1 })) := by
        intro x; cases x <;> rfl
      have h2 := this (prev st.ip)
      simp only [Option.bind_eq_bind] at h2 h1
      rw [h2, h1]
      rfl

theorem run_ret {output : List Int} {st' : St} (hne : st.ip ≠ src.length) (h : step sub T To src st = some (.ret st')) :
    execImpl sub T To src output st = execImpl sub T To src output st' := by
  rw [execImpl, if_neg hne, h]; rfl

theorem run_throw {output : List Int} {e : Exn} (hne : st.ip ≠ src.length) (h : step sub T To src st = some (.throw e)) :
    execImpl sub T To src output st = some (.throw e) := by
  rw [execImpl, if_neg hne, h]; rfl

/-- what the execution of a piece of program does to the model -/
def After (T : CInt) (N M : Nat) (sub : Int) (To : CInt) (src output : List Int) (st : St) (k : Nat) : Res → Prop
  | .done s' => ∃ st', Rel T N M st' s' ∧ st'.ip = st.ip + k ∧ execImpl sub T To src output st = execImpl sub T To src output st'
  | .error => execImpl sub T To src output st = some (.throw .outOfRange)
  | .undef => True

theorem complete (hT : T.Std) {output : List Int} (hN : src.length + N < 2 ^ 63) {p : Prog} {o : Res} (hE : Exec T To M p s o) :
    ∀ (q post : List Int) (st : St), src = q ++ text p ++ post → st.ip = q.length → Rel T N M st s →
      (sub = 45 ∨ (sub = 43 ∧ 45 ∉ ops p)) → After T N M sub To src output st (text p).length o := by
  induction hE with
  | nil s => intro q post st _ _ h _; exact ⟨st, h, rfl, rfl⟩
  | @op c hc r s s' o hi _ ih =>
    intro q post st hsrc hip h hs
    have e : src = q ++ c :: (text r ++ post) := by rw [hsrc]; simp [text]
    have hrd : src[st.ip]? = some c := by rw [hip, e]; exact rd_mid q c _
    have hne : st.ip ≠ src.length := Nat.ne_of_lt (List.getElem?_eq_some_iff.1 hrd).1
    have := instr_sim (To := To) hT h hN hrd hc (hs.imp id (fun h => ⟨h.1, fun hh => h.2 (by simp [ops, hh])⟩))
    rw [hi] at this
    obtain ⟨st', hst, hip', h'⟩ := this
    have := ih (q ++ [c]) post st' (by rw [e]; simp) (by simp [hip', hip]) h' (hs.imp id (fun h => ⟨h.1, fun hh => h.2 (by simp [ops, hh])⟩))
    cases o with
    | done s2 =>
      obtain ⟨st2, h2, hip2, he⟩ := this
      exact ⟨st2, h2, by simp only [text, List.length_cons]; omega, (run_ret hne hst).trans he⟩
    | error => exact (run_ret hne hst).trans this
    | undef => trivial
  | @opErr c hc r s hi =>
    intro q post st hsrc hip h hs
    have e : src = q ++ c :: (text r ++ post) := by rw [hsrc]; simp [text]
    have hrd : src[st.ip]? = some c := by rw [hip, e]; exact rd_mid q c _
    have hne : st.ip ≠ src.length := Nat.ne_of_lt (List.getElem?_eq_some_iff.1 hrd).1
    have := instr_sim (To := To) hT h hN hrd hc (hs.imp id (fun h => ⟨h.1, fun hh => h.2 (by simp [ops, hh])⟩))
    rw [hi] at this
    exact run_throw hne this
  | opUndef => intros; trivial
  | @skip b r s o hc _ ih =>
    intro q post st hsrc hip h hs
    have e : src = q ++ 91 :: (text b ++ 93 :: (text r ++ post)) := by rw [hsrc]; simp [text]
    have hl : src.length = q.length + 1 + (text b).length + 1 + ((text r).length + post.length) := by rw [e]; simp; omega
    have hne : st.ip ≠ src.length := by omega
    have hst := open_step (T := T) (To := To) (st := st) (hs.imp id (·.1)) b q (text r ++ post) e hip
    rw [(h.at_some (src := src) (by omega) hN hc).1] at hst
    simp only [if_true] at hst
    have := ih (q ++ 91 :: (text b ++ [93])) post _ (by rw [e]; simp) (by simp; omega) (h.move hc (q.length + 1 + (text b).length + 1))
      (hs.imp id (fun h => ⟨h.1, fun hh => h.2 (by simp [ops, hh])⟩))
    cases o with
    | done s2 =>
      obtain ⟨st2, h2, hip2, he⟩ := this
      refine ⟨st2, h2, ?_, (run_ret hne hst).trans he⟩
      simp only [text, List.length_cons, List.length_append] at hip2 ⊢
      omega
    | error => exact (run_ret hne hst).trans this
    | undef => trivial
  | @iter b r s v s' o hc hv _ _ ihb ihl =>
    intro q post st hsrc hip h hs
    have e : src = q ++ 91 :: (text b ++ 93 :: (text r ++ post)) := by rw [hsrc]; simp [text]
    have hl : src.length = q.length + 1 + (text b).length + 1 + ((text r).length + post.length) := by rw [e]; simp; omega
    have hne : st.ip ≠ src.length := by omega
    have hst := open_step (T := T) (To := To) (st := st) (hs.imp id (·.1)) b q (text r ++ post) e hip
    rw [(h.at_some (src := src) (by omega) hN hc).1] at hst
    simp only [hv, if_false] at hst
    obtain ⟨st1, h1, hip1, he1⟩ := ihb (q ++ [91]) (93 :: (text r ++ post)) { st with ip := st.ip + 1 } (by rw [e]; simp) (by simp [hip]) h.next
      (hs.imp id (fun h => ⟨h.1, fun hh => h.2 (by simp [ops, hh])⟩))
    simp only at hip1
    have hne1 : st1.ip ≠ src.length := by omega
    have hst1 := close_step (T := T) (To := To) (st := st1) (hs.imp id (·.1)) b q (text r ++ post) e (by omega)
    have run1 := (run_ret (output := output) hne hst).trans he1
    -- at the closing bracket, the model does what it does at the opening one
    cases hc1 : cell s' with
    | none =>
      rw [h1.at_none (src := src) (by omega) hN hc1] at hst1
      have ht := run_throw (output := output) hne1 hst1
      -- the specification errs, too
      have : o = .error := by
        rename_i _ hloop
        cases hloop with
        | skip hh => rw [hc1] at hh; cases hh
        | iter hh => rw [hc1] at hh; cases hh
        | iterErr hh => rfl
        | iterUndef hh => rw [hc1] at hh; cases hh
        | loopErr hh => rfl
      subst this
      exact run1.trans ht
    | some v1 =>
      have hq := h1.move hc1 q.length
      have hl2 := ihl q post { st1 with ip := q.length } hsrc rfl hq hs
      have hst2 := open_step (T := T) (To := To) (st := { st1 with ip := q.length }) (hs.imp id (·.1)) b q (text r ++ post) e rfl
      have hne2 : ({ st1 with ip := q.length } : St).ip ≠ src.length := by simp only; omega
      have key : execImpl sub T To src output st1 = execImpl sub T To src output { st1 with ip := q.length } := by
        have a := (h1.at_some (src := src) (by omega) hN hc1).1
        simp only [a] at hst1 hst2
        by_cases hv1 : v1 = 0
        · simp only [hv1, if_true] at hst1 hst2
          rw [run_ret hne1 hst1, run_ret hne2 hst2]
          congr 2
          omega
        · simp only [hv1, if_false] at hst1 hst2
          rw [run_ret hne1 hst1, run_ret hne2 hst2]
      cases o with
      | done s2 =>
        obtain ⟨st2, h2, hip2, he⟩ := hl2
        exact ⟨st2, h2, by simp only at hip2; omega, run1.trans (key.trans he)⟩
      | error => exact run1.trans (key.trans hl2)
      | undef => trivial
  | @iterErr b r s v hc hv _ ihb =>
    intro q post st hsrc hip h hs
    have e : src = q ++ 91 :: (text b ++ 93 :: (text r ++ post)) := by rw [hsrc]; simp [text]
    have hl : src.length = q.length + 1 + (text b).length + 1 + ((text r).length + post.length) := by rw [e]; simp; omega
    have hne : st.ip ≠ src.length := by omega
    have hst := open_step (T := T) (To := To) (st := st) (hs.imp id (·.1)) b q (text r ++ post) e hip
    rw [(h.at_some (src := src) (by omega) hN hc).1] at hst
    simp only [hv, if_false] at hst
    have := ihb (q ++ [91]) (93 :: (text r ++ post)) { st with ip := st.ip + 1 } (by rw [e]; simp) (by simp [hip]) h.next
      (hs.imp id (fun h => ⟨h.1, fun hh => h.2 (by simp [ops, hh])⟩))
    exact (run_ret hne hst).trans this
  | iterUndef => intros; trivial
  | @loopErr b r s hc =>
    intro q post st hsrc hip h hs
    have e : src = q ++ 91 :: (text b ++ 93 :: (text r ++ post)) := by rw [hsrc]; simp [text]
    have hl : src.length = q.length + 1 + (text b).length + 1 + ((text r).length + post.length) := by rw [e]; simp; omega
    have hne : st.ip ≠ src.length := by omega
    have hst := open_step (T := T) (To := To) (st := st) (hs.imp id (·.1)) b q (text r ++ post) e hip
    rw [h.at_none (src := src) (by omega) hN hc] at hst
    exact run_throw hne hst

/-! ## the converse: a result of the model is one of the semantics -/

/-- continue with `k` after a normal end -/
def Fin (k : State → Res → Prop) : Res → Res → Prop
  | .done s, r => k s r
  | .error, r => r = .error
  | .undef, r => r = .undef

/-- what remains to be done after the current piece of program: the enclosing loops -/
def Cont (T To : CInt) (M : Nat) : List (Prog × Prog) → State → Res → Prop
  | [], s, r => r = .done s
  | (b, rest) :: K, s, r => ∃ o, Exec T To M (.loop b rest) s o ∧ Fin (Cont T To M K) o r

/-- the position after `q` inside of the loops `K` with the piece `p` remaining in the innermost one -/
def Valid : List Int → Prog → List (Prog × Prog) → Prop
  | _, _, [] => True
  | q, p, (b, rest) :: K => ∃ q0 d, q = q0 ++ 91 :: text d ∧ text b = text d ++ text p ∧ Valid q0 (.loop b rest) K

/-- the text after the current piece -/
def ktext : List (Prog × Prog) → List Int
  | [] => []
  | (_, rest) :: K => 93 :: (text rest ++ ktext K)

def app : Prog → Prog → Prog
  | .nil, e => e
  | .op c h r, e => .op c h (app r e)
  | .loop b r, e => .loop b (app r e)

theorem text_app (d e : Prog) : text (app d e) = text d ++ text e := by
  induction d with
  | nil => rfl
  | op c h r ih => simp [app, text, ih]
  | loop b r _ ih => simp [app, text, ih]

theorem Valid.op {q : List Int} {c : Int} {h : c ≠ 91 ∧ c ≠ 93} {r : Prog} {K} (hv : Valid q (.op c h r) K) : Valid (q ++ [c]) r K := by
  cases K with
  | nil => trivial
  | cons f K =>
    obtain ⟨q0, d, h1, h2, h3⟩ := hv
    exact ⟨q0, app d (.op c h .nil), by simp [h1, text_app, text], by simp [h2, text_app, text], h3⟩

theorem Valid.loop {q : List Int} {b r : Prog} {K} (hv : Valid q (.loop b r) K) : Valid (q ++ 91 :: (text b ++ [93])) r K := by
  cases K with
  | nil => trivial
  | cons f K =>
    obtain ⟨q0, d, h1, h2, h3⟩ := hv
    exact ⟨q0, app d (.loop b .nil), by simp [h1, text_app, text], by simp [h2, text_app, text], h3⟩

theorem Valid.enter {q : List Int} {b r : Prog} {K} (hv : Valid q (.loop b r) K) : Valid (q ++ [91]) b ((b, r) :: K) :=
  ⟨q, .nil, rfl, rfl, hv⟩

/-- agreement of a result of the semantics with one of the model -/
def Match (output : List Int) : Res → Ret (List Int) → Prop
  | .done s, v => v = .ret (s.out ++ output.drop s.out.length)
  | .error, v => v = .throw .outOfRange
  | .undef, _ => True

theorem finish_eq {output : List Int} (h : Rel T N M st s) : finish output st = s.out ++ output.drop s.out.length := by
  have h1 := h.olen; have h2 := h.opos; have h3 := h.ole; have h4 := h.out
  unfold finish
  rw [Nat.min_eq_left (by omega), h4, h2]

theorem sound (hT : T.Std) {output : List Int} (hN : src.length + N < 2 ^ 63) :
    ∀ (st : St) (v : Ret (List Int)), execImpl sub T To src output st = some v →
    ∀ (q : List Int) (p : Prog) (K : List (Prog × Prog)) (s : State), Valid q p K → src = q ++ text p ++ ktext K → st.ip = q.length →
      Rel T N M st s → (sub = 45 ∨ (sub = 43 ∧ 45 ∉ src)) →
      ∃ o r, Exec T To M p s o ∧ Fin (Cont T To M K) o r ∧ Match output r v := by
  apply execImpl.partial_correctness
  intro run ih st v hrun q p K s hv hsrc hip h hs
  have hs' : sub = 45 ∨ sub = 43 := hs.imp id (·.1)
  cases p with
  | nil =>
    cases K with
    | nil =>
      have : st.ip = src.length := by rw [hsrc, hip]; simp [text, ktext]
      rw [if_pos this] at hrun
      refine ⟨_, _, .nil s, rfl, ?_⟩
      cases hrun
      show _ = _
      rw [finish_eq h]
    | cons f K =>
      obtain ⟨b, rest⟩ := f
      obtain ⟨q0, d, h1, h2, h3⟩ := hv
      simp only [text, List.append_nil] at h2 hsrc
      have e : src = q0 ++ 91 :: (text b ++ 93 :: (text rest ++ ktext K)) := by rw [hsrc, h1, h2]; simp [ktext]
      have hl : src.length = q0.length + 1 + (text b).length + 1 + ((text rest).length + (ktext K).length) := by rw [e]; simp; omega
      have hq : q.length = q0.length + 1 + (text b).length := by rw [h1, h2]; simp; omega
      have hne : st.ip ≠ src.length := by omega
      have hst := close_step (T := T) (To := To) (st := st) hs' b q0 (text rest ++ ktext K) e (by omega)
      rw [if_neg hne] at hrun
      cases hc : cell s with
      | none =>
        rw [h.at_none (src := src) (by omega) hN hc] at hst
        simp only at hst
        rw [hst] at hrun
        simp only [Option.bind_eq_bind, Option.bind_some] at hrun
        cases hrun
        exact ⟨_, .error, .nil s, ⟨.error, .loopErr hc, rfl⟩, rfl⟩
      | some w =>
        rw [(h.at_some (src := src) (by omega) hN hc).1] at hst
        simp only at hst
        by_cases hw : w = 0
        · rw [if_pos hw] at hst
          rw [hst] at hrun
          simp only [Option.bind_eq_bind, Option.bind_some] at hrun
          obtain ⟨o, r, ho, hf, hm⟩ := ih _ _ hrun (q0 ++ 91 :: (text b ++ [93])) rest K s h3.loop (by rw [e]; simp) (by simp; omega) h.next hs
          exact ⟨_, r, .nil s, ⟨o, .skip (hw ▸ hc) ho, hf⟩, hm⟩
        · rw [if_neg hw] at hst
          rw [hst] at hrun
          simp only [Option.bind_eq_bind, Option.bind_some] at hrun
          obtain ⟨o, r, ho, hf, hm⟩ := ih _ _ hrun (q0 ++ [91]) b ((b, rest) :: K) s h3.enter (by rw [e]; simp [ktext]) (by simp)
            (h.move hc _) hs
          refine ⟨_, r, .nil s, ?_, hm⟩
          cases o with
          | done s1 =>
            obtain ⟨o1, ho1, hf1⟩ := hf
            exact ⟨o1, .iter hc hw ho ho1, hf1⟩
          | error => exact ⟨.error, .iterErr hc hw ho, hf⟩
          | undef => exact ⟨.undef, .iterUndef hc hw ho, hf⟩
  | op c hc r =>
    have e : src = q ++ c :: (text r ++ ktext K) := by rw [hsrc]; simp [text]
    have hrd : src[st.ip]? = some c := by rw [hip, e]; exact rd_mid q c _
    have hne : st.ip ≠ src.length := Nat.ne_of_lt (List.getElem?_eq_some_iff.1 hrd).1
    have hsim := instr_sim (To := To) hT h hN hrd hc (hs.imp id (fun h => ⟨h.1, fun hh => h.2 (by rw [e, ← hh]; simp)⟩))
    rw [if_neg hne] at hrun
    cases hi : instr T To M c s with
    | done s' =>
      rw [hi] at hsim
      obtain ⟨st', hst, hip', h'⟩ := hsim
      rw [hst] at hrun
      simp only [Option.bind_eq_bind, Option.bind_some] at hrun
      obtain ⟨o, r', ho, hf, hm⟩ := ih _ _ hrun (q ++ [c]) r K s' hv.op (by rw [e]; simp) (by simp; omega) h' hs
      exact ⟨o, r', .op hi ho, hf, hm⟩
    | error =>
      rw [hi] at hsim
      rw [show step sub T To src st = _ from hsim] at hrun
      simp only [Option.bind_eq_bind, Option.bind_some] at hrun
      cases hrun
      exact ⟨.error, .error, .opErr hi, rfl, rfl⟩
    | undef => exact ⟨.undef, .undef, .opUndef hi, rfl, trivial⟩
  | loop b rest =>
    have e : src = q ++ 91 :: (text b ++ 93 :: (text rest ++ ktext K)) := by rw [hsrc]; simp [text]
    have hl : src.length = q.length + 1 + (text b).length + 1 + ((text rest).length + (ktext K).length) := by rw [e]; simp; omega
    have hne : st.ip ≠ src.length := by omega
    have hst := open_step (T := T) (To := To) (st := st) hs' b q (text rest ++ ktext K) e hip
    rw [if_neg hne] at hrun
    cases hc : cell s with
    | none =>
      rw [h.at_none (src := src) (by omega) hN hc] at hst
      simp only at hst
      rw [hst] at hrun
      simp only [Option.bind_eq_bind, Option.bind_some] at hrun
      cases hrun
      exact ⟨.error, .error, .loopErr hc, rfl, rfl⟩
    | some w =>
      rw [(h.at_some (src := src) (by omega) hN hc).1] at hst
      simp only at hst
      by_cases hw : w = 0
      · rw [if_pos hw] at hst
        rw [hst] at hrun
        simp only [Option.bind_eq_bind, Option.bind_some] at hrun
        obtain ⟨o, r, ho, hf, hm⟩ := ih _ _ hrun (q ++ 91 :: (text b ++ [93])) rest K s hv.loop (by rw [e]; simp) (by simp; omega) (h.move hc _) hs
        exact ⟨o, r, .skip (hw ▸ hc) ho, hf, hm⟩
      · rw [if_neg hw] at hst
        rw [hst] at hrun
        simp only [Option.bind_eq_bind, Option.bind_some] at hrun
        obtain ⟨o, r, ho, hf, hm⟩ := ih _ _ hrun (q ++ [91]) b ((b, rest) :: K) s hv.enter (by rw [e]; simp [ktext]) (by simp; omega)
          (h.move hc _) hs
        cases o with
        | done s1 =>
          obtain ⟨o1, ho1, hf1⟩ := hf
          exact ⟨o1, r, .iter hc hw ho ho1, hf1, hm⟩
        | error => exact ⟨.error, r, .iterErr hc hw ho, hf, hm⟩
        | undef => exact ⟨.undef, r, .iterUndef hc hw ho, hf, hm⟩

/-! ## the initial state -/

theorem rel_start (hT : T.Std) (N : Nat) (M : Nat) (inp : List Int) :
    Rel T N M ⟨0, inp, List.replicate N 0, List.replicate M 0, 0, 0⟩ (start N inp) := by
  refine ⟨rfl, rfl, by simp [start], ?_, by simp [start], by simp [start], by simp [start], by simp, rfl, by simp [start], by simp [start]⟩
  intro v hv
  obtain rfl := (List.mem_replicate.1 hv).2
  obtain ⟨w, sg⟩ := T
  unfold CInt.Std at hT
  simp only at hT
  cases sg <;> rcases hT with h | h | h | h <;> subst h <;> decide

theorem mem_text (p : Prog) : ∀ c : Int, c ≠ 91 → c ≠ 93 → (c ∈ text p ↔ c ∈ ops p) := by
  induction p with
  | nil => intro c _ _; simp [text, ops]
  | op c h r ih => intro x h1 h2; simp [text, ops, ih x h1 h2]
  | loop b r ihb ihr => intro x h1 h2; simp [text, ops, ihb x h1 h2, ihr x h1 h2, h1, h2]

/-! ## well-formedness -/

theorem wf_text (p : Prog) : ∀ (n : Nat) (post : List Int), isWellFormedC n (text p ++ post) = isWellFormedC n post := by
  induction p with
  | nil => intros; rfl
  | op c h r ih => intro n post; simp [text, isWellFormedC, h.1, h.2, ih]
  | loop b r ihb ihr =>
    intro n post
    simp [text, isWellFormedC, ihb, ihr]

/-- a text accepted at depth `n` is `n` closing brackets between programs -/
theorem wf_split : ∀ (s : List Int) (n : Nat), isWellFormedC n s = true →
    ∃ (p : Prog) (r : List Prog), r.length = n ∧ s = text p ++ (r.map (fun x => 93 :: text x)).flatten := by
  intro s
  induction s with
  | nil =>
    intro n h
    simp only [isWellFormedC, beq_iff_eq] at h
    exact ⟨.nil, [], by simp [h], by simp [text]⟩
  | cons c s ih =>
    intro n h
    unfold isWellFormedC at h
    split at h
    · rename_i hc
      obtain ⟨p, r, hr, hs⟩ := ih _ h
      cases r with
      | nil => simp at hr
      | cons x r =>
        refine ⟨.loop p x, r, by simpa using hr, ?_⟩
        rw [hs, hc]; simp [text]
    · split at h
      · rename_i _ hc
        simp only [Bool.and_eq_true, bne_iff_ne, ne_eq] at h
        obtain ⟨p, r, hr, hs⟩ := ih _ h.2
        refine ⟨.nil, p :: r, by simp; omega, ?_⟩
        rw [hs, hc]; simp [text]
      · rename_i h1 h2
        obtain ⟨p, r, hr, hs⟩ := ih _ h
        exact ⟨.op c ⟨h1, h2⟩ p, r, hr, by rw [hs]; simp [text]⟩

end Sprout.BF

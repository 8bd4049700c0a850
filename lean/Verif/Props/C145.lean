import Verif.Proofs.Bind

/-!
# C145: `bind`
-/

namespace Sprout

open Bind BindSpec

variable {α : Type}

theorem expand_build_length (n : Nat) (e : Expr α) : (expand n (build e)).length = size n e := by
  cases e <;> simp [build, expand, size, Bind.mk]

theorem buildList_eq_map : ∀ es : List (Expr α), buildList es = es.map build
  | [] => by rw [buildList, List.map_nil]
  | e :: es => by rw [buildList, buildList_eq_map es, List.map_cons]

theorem buildList_length (n : Nat) (es : List (Expr α)) : ((buildList es).flatMap (expand n)).length = (es.map (size n)).sum := by
  rw [buildList_eq_map]
  induction es with
  | nil => rfl
  | cons e es ih => simp [ih, expand_build_length]

theorem fits_build {n : Nat} {c : Bool} {e : Expr α} (h : ok n c e) : fits n (build e) := by
  cases e <;> simp only [build, fits, Bind.mk]
  rwa [ok] at h

theorem fits_buildList {n : Nat} {c : Bool} : ∀ {es : List (Expr α)}, okList n c es → ∀ b ∈ buildList es, fits n b
  | [], _ => by simp [buildList]
  | e :: es, h => by
    rw [okList] at h
    rw [buildList]
    intro b hb
    rcases List.mem_cons.1 hb with rfl | hb
    · exact fits_build h.1
    · exact fits_buildList h.2 b hb

theorem build_no_va {e : Expr α} (h : isTail e = false) (k : Nat) : build e ≠ .va k := by
  cases e <;> simp_all [build, isTail, Bind.mk]

mutual
theorem mu_build (args : List α) (hn : args.length < W) : ∀ (e : Expr α) (q c : Bool), ok args.length c e → (q = true → isRef e = false) →
    ((expand args.length (build e)).mapM fun x => mu q c x x args) = (vals args e).map (·.map .val)
  | .val a, q, c, _, _ => by simp [build, expand, mu, pass, vals]
  | .ref a, q, c, _, hq => by
    have : q = false := by
      cases q
      · rfl
      · simp [isRef] at hq
    simp [build, expand, mu, vals, this]
  | .arg k, q, c, _, _ => by
    rw [build, expand, List.mapM_cons, mu, if_pos (by omega), if_pos rfl, show ((k : Int) + 1 - 1).toNat = k by omega, vals]
    · cases args[k]? <;> simp
    · simp
  | .tail k, q, c, h, _ => by
    rw [ok] at h
    rw [build, expand, mu_range _ _ _ _ h, vals, if_pos h]
    simp
  | .app k f es, q, c, h, _ => by
    rw [ok] at h
    obtain ⟨h1, h2, h3, h4⟩ := h
    have hl : ((buildList es).flatMap (expand args.length)).length < W := by rw [buildList_length]; exact h1
    have key : ∀ q', (q' = true → ∀ e ∈ es, isRef e = false) → (((buildList es).flatMap (expand args.length)).mapM
        fun x => mu q' (c || isConst k) x x args) = (valsList args es).map (·.map .val) := fun q' hq' =>
      mu_buildList args hn es q' _ h4 hq'
    have hcall : call (build (.app k f es)) c args = BindSpec.eval f es args := by
      rw [build, Bind.mk, call, BindSpec.eval]
      cases k with
      | binder =>
        simp only [isConst, Bool.or_false, isRes] at *
        rw [callBinder_eq _ _ _ _ hn (fits_buildList h4) hl, key c (h3 trivial)]
        cases valsList args es <;> rfl
      | cbinder =>
        simp only [isConst, Bool.or_true, isRes] at *
        rw [callBinder_eq _ _ _ _ hn (fits_buildList h4) hl, key true (fun _ => h3 trivial trivial)]
        cases valsList args es <;> rfl
      | resBinder =>
        simp only [isConst, Bool.or_false, isRes] at *
        have hv : ∀ b ∈ buildList es, ∀ k, b ≠ .va k := by
          rw [buildList_eq_map]
          intro b hb
          obtain ⟨e, he, rfl⟩ := List.mem_map.1 hb
          exact build_no_va (h2 trivial e he)
        have hx := flatMap_expand_of_no_va (n := args.length) hv
        rw [hx] at hl key
        rw [callRes_eq _ _ _ _ hn hv hl, key false (by simp)]
        cases valsList args es <;> rfl
      | resCbinder =>
        simp only [isConst, Bool.or_true, isRes] at *
        have hv : ∀ b ∈ buildList es, ∀ k, b ≠ .va k := by
          rw [buildList_eq_map]
          intro b hb
          obtain ⟨e, he, rfl⟩ := List.mem_map.1 hb
          exact build_no_va (h2 trivial e he)
        have hx := flatMap_expand_of_no_va (n := args.length) hv
        rw [hx] at hl key
        rw [callRes_eq _ _ _ _ hn hv hl, key false (by simp)]
        cases valsList args es <;> rfl
    have he : expand args.length (build (.app k f es)) = [build (.app k f es)] := by rw [build, Bind.mk, expand]; simp
    have hm : mu q c (build (.app k f es)) (build (.app k f es)) args = (call (build (.app k f es)) c args).map .val := by
      rw [build, Bind.mk]; rfl
    rw [he, List.mapM_cons, hm, hcall, vals, BindSpec.eval]
    cases valsList args es with
    | none => rfl
    | some l => cases hf : f (l.map .val) <;> simp [hf]
theorem mu_buildList (args : List α) (hn : args.length < W) : ∀ (es : List (Expr α)) (q c : Bool), okList args.length c es →
    (q = true → ∀ e ∈ es, isRef e = false) →
    (((buildList es).flatMap (expand args.length)).mapM fun x => mu q c x x args) = (valsList args es).map (·.map .val)
  | [], _, _, _, _ => by simp [buildList, valsList]
  | e :: es, q, c, h, hq => by
    rw [okList] at h
    rw [buildList, List.flatMap_cons, List.mapM_append, mu_build args hn e q c h.1 fun hh => hq hh e (by simp),
      mu_buildList args hn es q c h.2 fun hh e he => hq hh e (by simp [he]), valsList]
    cases vals args e <;> simp
    cases valsList args es <;> simp
end

/-- **A call of a bind expression** (of each of the four kinds, nested to any depth, with placeholders, tails, `ref`): the function is
called with what the bound arguments stand for. Partial: the conditions `ok`, see below -/
theorem C145_bind_partial (k : Kind) (f : List (Passed α) → Option α) (es : List (Expr α)) (c : Bool) (args : List α)
    (hn : args.length < 2 ^ 64) (h : ok args.length c (.app k f es)) :
    call (Bind.mk k f (buildList es)) c args = BindSpec.eval f es args := by
  have := mu_build args hn (.app k f es) false c h (by simp)
  have he : expand args.length (build (.app k f es)) = [build (.app k f es)] := by rw [build, Bind.mk, expand]; simp
  have hm : mu false c (build (.app k f es)) (build (.app k f es)) args = (call (build (.app k f es)) c args).map .val := by
    rw [build, Bind.mk]; rfl
  rw [he, List.mapM_cons, hm, vals] at this
  rw [build] at this
  rw [BindSpec.eval]
  cases hv : valsList args es with
  | none =>
    rw [hv] at this
    cases hc : call (Bind.mk k f (buildList es)) c args with
    | none => rfl
    | some x => rw [hc] at this; simp at this
  | some l =>
    rw [hv] at this
    cases hc : call (Bind.mk k f (buildList es)) c args with
    | none =>
      rw [hc] at this
      cases hf : f (l.map .val) with
      | none => simp [hf]
      | some y => simp [hf] at this
    | some x =>
      rw [hc] at this
      cases hf : f (l.map .val) with
      | none => simp [hf] at this
      | some y => simp [hf] at this; simp [hf, this]

/-- `_`: the unnumbered placeholders get the numbers 1, 2, … from left to right -/
theorem C145_positional (k : Kind) (f : List (Passed α) → Option α) (as : List (Arg α)) :
    ∃ bs : List (Bound α), Bind.bind k f as = Bind.mk k f bs ∧ bs.length = as.length
      ∧ ∀ i (_ : i < as.length), bs[i]? = match as[i] with
          | .pos => some (.ph ((as.take i).countP isPos + 1))
          | .bound b => some b := by
  have key : ∀ (as : List (Arg α)) (n : Nat) (acc : List (Bound α)), ∃ bs, complete n acc as = acc ++ bs ∧ bs.length = as.length
      ∧ ∀ i (_ : i < as.length), bs[i]? = match as[i] with
          | .pos => some (.ph (n + (as.take i).countP isPos + 1))
          | .bound b => some b := by
    intro as
    induction as with
    | nil => intro n acc; exact ⟨[], by simp [complete], rfl, by simp⟩
    | cons a as ih =>
      intro n acc
      cases a with
      | pos =>
        obtain ⟨bs, h1, h2, h3⟩ := ih (n + 1) (acc ++ [.ph (n + 1)])
        refine ⟨.ph (n + 1) :: bs, by rw [complete, h1]; simp, by simp [h2], ?_⟩
        intro i hi
        cases i with
        | zero => simp
        | succ i =>
          have := h3 i (by simpa using hi)
          simp only [List.getElem?_cons_succ, List.getElem_cons_succ, List.take_succ_cons, List.countP_cons, isPos, this]
          generalize as[i]'(by simpa using hi) = a
          cases a with
          | pos =>
            simp only [Option.some.injEq, Bound.ph.injEq, if_true]
            push_cast
            omega
          | bound b => rfl
      | bound b =>
        obtain ⟨bs, h1, h2, h3⟩ := ih n (acc ++ [b])
        refine ⟨b :: bs, by rw [complete, h1]; simp, by simp [h2], ?_⟩
        intro i hi
        cases i with
        | zero => simp
        | succ i =>
          have := h3 i (by simpa using hi)
          simp only [List.getElem?_cons_succ, List.getElem_cons_succ, List.take_succ_cons, this]
          rw [List.countP_cons_of_neg (by simp [isPos])]
  obtain ⟨bs, h1, h2, h3⟩ := key as 0 []
  refine ⟨bs, by rw [Bind.bind, h1]; rfl, h2, fun i hi => ?_⟩
  rw [h3 i hi]
  split <;> simp

/-- the literal `k_` is the placeholder `_k` -/
theorem C145_literal (k : Nat) : (Bind.literal (k + 1) : Bound α) = build (.arg k) := by
  simp [Bind.literal, build]

/-- a function that returns its first argument if it is a value -/
def fstVal : List (Passed Nat) → Option Nat
  | .val a :: _ => some a
  | _ => none

/-- a function of any number of arguments: their number -/
def argCount (l : List (Passed Nat)) : Option Nat := some l.length

/-- **Const objects do not unwrap `ref`**: a function object that can be called with all types receives the `reference_wrapper` -/
theorem C145_const_ref_refuted : ¬ ∀ (f : List (Passed Nat) → Option Nat) (es : List (Expr Nat)) (args : List Nat),
    call (Bind.mk .cbinder f (buildList es)) false args = BindSpec.eval f es args := by
  intro h
  have := h fstVal [.ref 3] []
  rw [Bind.mk, call] at this
  simp only at this
  rw [callBinder_eq _ _ _ _ (by decide) (by simp [buildList, build, fits]) (by simp [buildList, build, expand, W])] at this
  simp [buildList, build, expand, mu, pass, fstVal, BindSpec.eval, valsList, vals] at this

/-- **A tail beginning behind the arguments**: the number of arguments wraps around, and other bound arguments are dropped silently:
`bind(f, x, _1tail)()` calls `f()` -/
theorem C145_tail_refuted (f : List (Passed α) → Option α) (x : α) :
    call (Bind.mk .binder f [.val x, Bind.tail 1]) false [] = f [] := by
  have h : boundsSize (([] : List α).length) [Bound.val x, Bind.tail 1] = 0 := by
    simp [boundsSize, boundSize, Bind.tail, W]
  rw [Bind.mk, call, callBinder, h]
  rfl

/-- neither an empty tail (`f(x)`) nor an ill-formed call -/
theorem C145_tail_refuted' : call (Bind.mk .binder argCount [.val 7, Bind.tail 1]) false [] = some 0 ∧ argCount [.val 7] = some 1
    ∧ BindSpec.eval argCount [.val 7, .tail 1] [] = none := by
  refine ⟨by rw [C145_tail_refuted]; rfl, rfl, ?_⟩
  rw [BindSpec.eval, valsList, valsList, vals, vals, if_neg (by decide)]
  rfl

/-- **`bind<R>` does not work with tails**: the function receives the placeholder, or the call is ill-formed -/
theorem C145_res_tail_refuted (f : List (Passed Nat) → Option Nat) :
    call (Bind.mk .resBinder f [Bind.tail 0]) false [5] = f [.object] ∧ call (Bind.mk .resBinder f [Bind.tail 0]) false [5, 6] = none
      ∧ BindSpec.eval f [.tail 0] [5, 6] = f [.val 5, .val 6] := by
  refine ⟨?_, ?_, ?_⟩
  · have h : callRes false f [Bind.tail 0] [5] = (some [Passed.object]).bind f := by
      rw [callRes, if_neg (by simp [boundsSize, boundSize, Bind.tail, W])]
      have e : boundElement 0 [(Bind.tail 0 : Bound Nat)] 1 = some (.ph 1) := by
        rw [boundElement_eq (by decide) _ (by simp [Bind.tail, fits]) (by simp [Bind.tail, expand, W]) _ (by simp [Bind.tail, expand])]
        simp [Bind.tail, expand, List.range_succ]
      simp only [List.length_singleton, List.range_succ, List.range_zero, List.nil_append, List.mapM_cons, List.mapM_nil, e]
      rfl
    exact h
  · rw [Bind.mk, call]
    simp only
    rw [callRes, if_pos (by simp [boundsSize, boundSize, Bind.tail, W])]
  · rw [BindSpec.eval, valsList, vals, valsList]
    rfl

/-- **The literals `k_tail` are no placeholders** (their number is negative): the function receives the object -/
theorem C145_literal_tail_refuted (k : Nat) (q c : Bool) (args : List α) :
    mu q c (Bind.literalTail k : Bound α) (Bind.literalTail k) args = some .object := by
  rw [Bind.literalTail, mu, if_neg (by omega)]
  rfl

/-! ## examples -/

/-- `bind(f, _2, bind(g, _1tail, ref(10)), 7, _va)(1, 2, 3)` is `f(2, g(2, 3, 10), 7, 1, 2, 3)` -/
example (f g : List (Passed Nat) → Option Nat) :
    call (Bind.mk .binder f (buildList [.arg 1, .app .binder g [.tail 1, .ref 10], .val 7, .tail 0])) false [1, 2, 3]
      = (g [.val 2, .val 3, .val 10]).bind fun x => f [.val 2, .val x, .val 7, .val 1, .val 2, .val 3] := by
  rw [C145_bind_partial]
  · simp only [BindSpec.eval, valsList, vals]
    cases hg : g [.val 2, .val 3, .val 10] <;> simp [hg]
  · decide
  · simp [ok, okList, isRes, isConst, size]

/-- an empty tail between other arguments -/
example (f : List (Passed Nat) → Option Nat) :
    call (Bind.mk .cbinder f (buildList [.val 1, .tail 2, .val 4])) false [8, 9] = f [.val 1, .val 4] := by
  rw [C145_bind_partial]
  · simp [BindSpec.eval, valsList, vals]
  · decide
  · simp [ok, okList, isRes, isConst, size, isRef]

end Sprout

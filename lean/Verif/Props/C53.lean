import Verif.Proofs.Weed8

/-!
# C53: attributes collected by a limited repetition

`*lim<L>(p)`, `+lim<L>(p)` and `lim<L>(p) % q` collect the first `L` attributes (`discard`), the last `L` (`circular`), or stop after
`L` elements (`stopover`). Refuted: with a stopover limit of 1 the repetition goes on and keeps the last element.
-/

namespace Sprout
open Weed

variable {A B : Type}

/-- the attributes that are kept -/
def kept (L : Nat) : Cat → List A → List A
  | .circular, as => as.drop (as.length - L)
  | _, as => as.take L

/-- the evaluation `f` succeeds on successive elements with attributes `as` from `i` to `e` -/
inductive Elements (f : Nat → Option (Res A)) : Nat → List A → Nat → Prop
  | nil {i} : Elements f i [] i
  | cons {i j e a as} : f i = some ⟨true, j, j, a⟩ → Elements f j as e → Elements f i (a :: as) e

/-- and fails at `e` -/
def Fails (f : Nat → Option (Res A)) (e : Nat) : Prop := ∃ r, f e = some r ∧ r.ok = false

/-- the full statement for `+` and `*` -/
def C53_statement : Prop := ∀ {A : Type} (f : Nat → Option (Res A)) (least : Bool) (L : Nat) (cat : Cat) (i e : Nat) (a : A)
  (as : List A), 1 ≤ L → Elements f i (a :: as) e → (Fails f e ∨ (cat = .stopover ∧ (a :: as).length = L)) →
  (cat = .stopover → (a :: as).length ≤ L) →
  timesOp least f (some (L, cat)) i = some ⟨true, e, e, kept L cat (a :: as)⟩

theorem Elements.run {f : Nat → Option (Res A)} {i e : Nat} {as : List A} (h : Elements f i as e) : RunA f i as e := by
  induction h with
  | nil => exact .nil
  | cons h1 _ ih => exact .cons h1 ih

theorem Elements.next {f : Nat → Option (Res A)} {i e : Nat} {as : List A} (h : Elements f i as e) (he : Fails f e) :
    ∃ r, f i = some r := by
  cases h with
  | nil => exact ⟨_, he.choose_spec.1⟩
  | cons h1 _ => exact ⟨_, h1⟩

/-- `discard` and `circular`: any number of elements, then a failure -/
theorem C53_times_partial (f : Nat → Option (Res A)) (least : Bool) (L : Nat) (cat : Cat) (hcat : cat ≠ .stopover) (hL : 1 ≤ L)
    (i e : Nat) (a : A) (as : List A) (h : Elements f i (a :: as) e) (he : Fails f e) :
    timesOp least f (some (L, cat)) i = some ⟨true, e, e, kept L cat (a :: as)⟩ := by
  cases h with
  | @cons _ j _ _ _ h1 h2 =>
    obtain ⟨r, hr⟩ := h2.next he
    obtain ⟨r0, he0, hok⟩ := he
    unfold timesOp
    simp only [h1, Option.bind_eq_bind, Option.bind_some, if_true, hr]
    rw [timesLim_attrs hL h2.run he0 hok [a] r hr (by simpa using hL) (.inl hcat)]
    congr 2
    cases cat with
    | discard => rw [push_discard as [a] (by simpa using hL)]; rfl
    | circular => rw [push_circular (by simp) hL as [a] (by simpa using hL)]; rfl
    | stopover => exact absurd rfl hcat

/-- `stopover` with a limit of at least 2: it stops after `L` elements or at the first failure -/
theorem C53_stopover_partial (f : Nat → Option (Res A)) (least : Bool) (L : Nat) (hL : 2 ≤ L)
    (i e : Nat) (a : A) (as : List A) (h : Elements f i (a :: as) e) (hle : (a :: as).length ≤ L)
    (he : (a :: as).length = L ∨ Fails f e) :
    timesOp least f (some (L, .stopover)) i = some ⟨true, e, e, a :: as⟩ := by
  simp only [List.length_cons] at hle he
  cases h with
  | @cons _ j _ _ _ h1 h2 =>
    obtain ⟨r, hr⟩ : ∃ r, f j = some r := by
      cases h2 with
      | nil =>
        rcases he with h | h
        · simp at h; omega
        · exact ⟨_, h.choose_spec.1⟩
      | cons h _ => exact ⟨_, h⟩
    unfold timesOp
    simp only [h1, Option.bind_eq_bind, Option.bind_some, if_true, hr]
    rw [timesLim_stopover h2.run [a] r hr (by simp; omega) (by simp; omega) ?_]
    · rfl
    · simp only [List.length_singleton]
      rcases he with h | h
      · exact .inl (by omega)
      · exact .inr h

/-- no element: `*` succeeds, `+` fails -/
theorem C53_empty (f : Nat → Option (Res A)) (least : Bool) (lim : Option (Nat × Cat)) (i : Nat) (h : Fails f i) :
    timesOp least f lim i = some ⟨!least, i, i, []⟩ := by
  obtain ⟨r, h1, h2⟩ := h
  unfold timesOp
  simp only [h1, Option.bind_eq_bind, Option.bind_some, h2, Bool.false_eq_true, if_false]

/-- a separator and an element -/
def sepThen (f : Nat → Option (Res A)) (g : Nat → Option (Res B)) (i : Nat) : Option (Res A) := do
  let r ← g i
  if r.ok then do
    let r2 ← f r.ctx
    if r2.ok then some r2 else none
  else none

/-- lists: an element, then separators with elements up to `e`, where no separator follows -/
theorem C53_list_partial (f : Nat → Option (Res A)) (g : Nat → Option (Res B)) (L : Nat) (cat : Cat) (hcat : cat ≠ .stopover)
    (hL : 1 ≤ L) (i j e : Nat) (a : A) (as : List A) (h1 : f i = some ⟨true, j, j, a⟩) (h : Elements (sepThen f g) j as e)
    (he : Fails g e) :
    listOp f g (some (L, cat)) i = some ⟨true, e, e, kept L cat (a :: as)⟩ := by
  obtain ⟨r0, he0, hok⟩ := he
  obtain ⟨r, hr⟩ : ∃ r, g j = some r := by
    cases h with
    | nil => exact ⟨_, he0⟩
    | cons h _ =>
      unfold sepThen at h
      simp only [Option.bind_eq_bind, Option.bind_eq_some_iff] at h
      exact ⟨_, h.choose_spec.1⟩
  unfold listOp
  simp only [h1, Option.bind_eq_bind, Option.bind_some, if_true, hr]
  rw [listLim_attrs hL g rfl h.run he0 hok [a] r hr (by simpa using hL) (.inl hcat)]
  congr 2
  cases cat with
  | discard => rw [push_discard as [a] (by simpa using hL)]; rfl
  | circular => rw [push_circular (by simp) hL as [a] (by simpa using hL)]; rfl
  | stopover => exact absurd rfl hcat

/-! ## Examples -/

/-- a parser of one character with its code as attribute -/
def anyCode (s : List Int) (i : Nat) : Option (Res Int) :=
  match s[i]? with
  | some c => some ⟨true, i + 1, i + 1, c⟩
  | none => some ⟨false, i, i, 0⟩

example : timesOp false (anyCode [10, 11, 12]) (some (2, .discard)) 0 = some ⟨true, 3, 3, [10, 11]⟩ :=
  C53_times_partial _ false 2 .discard (by simp) (by decide) 0 3 10 [11, 12] (.cons rfl (.cons rfl (.cons rfl .nil))) ⟨_, rfl, rfl⟩

example : timesOp false (anyCode [10, 11, 12]) (some (2, .circular)) 0 = some ⟨true, 3, 3, [11, 12]⟩ :=
  C53_times_partial _ false 2 .circular (by simp) (by decide) 0 3 10 [11, 12] (.cons rfl (.cons rfl (.cons rfl .nil))) ⟨_, rfl, rfl⟩

example : timesOp true (anyCode [10, 11, 12]) (some (2, .stopover)) 0 = some ⟨true, 2, 2, [10, 11]⟩ :=
  C53_stopover_partial _ true 2 (by decide) 0 2 10 [11] (.cons rfl (.cons rfl .nil)) (by decide) (.inl rfl)

/-- a stopover limit of 1: all three characters are consumed and the last one is kept -/
theorem C53_stopover_refuted : timesOp true (anyCode [10, 11, 12]) (some (1, .stopover)) 0 = some ⟨true, 3, 3, [12]⟩ := by
  have h : RunA (anyCode [10, 11, 12]) 1 [11, 12] 3 := .cons rfl (.cons rfl .nil)
  have := timesLim_attrs (cat := .stopover) (L := 1) (by decide) h (r0 := ⟨false, 3, 3, 0⟩) rfl rfl [10] ⟨true, 2, 2, 11⟩ rfl
    (by decide) (.inr rfl)
  unfold timesOp
  simp only [anyCode, Option.bind_eq_bind, Option.bind_some] at this ⊢
  exact this

theorem C53_refuted : ¬ C53_statement := by
  intro h
  have := h (anyCode [10, 11, 12]) true 1 .stopover 0 1 10 [] (by decide) (.cons rfl .nil) (.inr ⟨rfl, rfl⟩) (fun _ => by decide)
  rw [C53_stopover_refuted] at this
  cases this

end Sprout

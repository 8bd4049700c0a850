import Verif.Model.ContAccess

/-!
# C170: `front`, `back`, `subscript_at` and `at`

Whatever members a container has, if the call is well-formed then `front` is the first element, `back` the last one, `subscript_at`
and `at` the one with the given number, and `at` throws if there is none. For which containers the calls are well-formed is
documented in `container/at.hpp` 20-36.
-/

namespace Sprout
open ContAccess

variable {α : Type}

/-- an access that is right whenever it is well-formed -/
def RightIfWf (r : Out α) (a : α) : Prop := r ≠ .illFormed → r = .val a

theorem nextBegin_right (c : Cont α) (k : Bool) (i : Nat) (a : α) (h : c.elems[i]? = some a) : RightIfWf (nextBegin c k i) a := by
  intro hw
  unfold nextBegin at *
  split at hw
  · rename_i hb; rw [if_pos hb, h]; rfl
  · exact absurd rfl hw

theorem ofElem_right (o : Option α) (a : α) (h : o = some a) : RightIfWf (Out.ofElem o) a := by
  intro _; rw [h]; rfl

theorem RightIfWf.ite {p : Prop} [Decidable p] {r s : Out α} {a : α} (hr : RightIfWf r a) (hs : RightIfWf s a) :
    RightIfWf (if p then r else s) a := by
  split
  · exact hr
  · exact hs

/-- `front` is the first element -/
theorem C170_front (c : Cont α) (k : Bool) (a : α) (h : c.elems[0]? = some a) : RightIfWf (frontOf c k) a := by
  have hc : RightIfWf (frontConst c) a := .ite (ofElem_right _ _ h) (nextBegin_right _ _ _ _ h)
  exact .ite hc (.ite hc (.ite (ofElem_right _ _ h) (nextBegin_right _ _ _ _ h)))

/-- `subscript_at` is the element with the number -/
theorem C170_subscript (c : Cont α) (k : Bool) (i : Nat) (a : α) (h : c.elems[i]? = some a) : RightIfWf (subscriptAt c k i) a := by
  have hc : RightIfWf (subConst c i) a := .ite (ofElem_right _ _ h) (nextBegin_right _ _ _ _ h)
  exact .ite hc (.ite hc (.ite (ofElem_right _ _ h) (nextBegin_right _ _ _ _ h)))

theorem rangeSize_eq (c : Cont α) (n : Nat) (h : rangeSize c = some n) : n = c.elems.length := by
  unfold rangeSize at h
  split at h
  · exact (Option.some.inj h).symm
  · split at h
    · exact (Option.some.inj h).symm
    · exact absurd h (by simp)

theorem checked_right (c : Cont α) (i : Nat) (a : α) (r : Out α) (h : c.elems[i]? = some a) (hr : RightIfWf r a) :
    RightIfWf (checked c i r) a := by
  intro hw
  have hi : i < c.elems.length := (List.getElem?_eq_some_iff.mp h).1
  unfold checked at *
  cases hs : rangeSize c with
  | none => rw [hs] at hw; exact absurd rfl hw
  | some n =>
    have hn := rangeSize_eq c n hs
    cases r with
    | illFormed => rw [hs] at hw; exact absurd rfl hw
    | val b => simp only [Out.wf, if_true]; rw [if_pos (by omega)]; exact hr nofun
    | ub => exact absurd (hr nofun) nofun
    | throws => exact absurd (hr nofun) nofun

theorem memAt_right (c : Cont α) (i : Nat) (a : α) (h : c.elems[i]? = some a) : RightIfWf (memAt c i) a := by
  intro _; unfold memAt; rw [h]

theorem memSub_right (c : Cont α) (k : Bool) (i : Nat) (a : α) (h : c.elems[i]? = some a) : RightIfWf (memSub c k i) a := by
  intro hw
  unfold memSub at *
  split at hw
  · rename_i hb; rw [if_pos hb, h]; rfl
  · exact absurd rfl hw

/-- `at` is the element with the number -/
theorem C170_at (c : Cont α) (k : Bool) (i : Nat) (a : α) (h : c.elems[i]? = some a) : RightIfWf (atOf c k i) a := by
  have hs : ∀ k, RightIfWf (checked c i (memSub c k i)) a := fun k => checked_right _ _ _ _ h (memSub_right _ k _ _ h)
  have hb : ∀ k, RightIfWf (checked c i (nextBegin c k i)) a := fun k => checked_right _ _ _ _ h (nextBegin_right _ k _ _ h)
  have hc : RightIfWf (atConst c i) a := .ite (memAt_right _ _ _ h) (.ite (hs _) (hb _))
  exact .ite hc (.ite hc (.ite (memAt_right _ _ _ h) (.ite (hs _) (hb _))))

theorem checked_throws (c : Cont α) (i : Nat) (r : Out α) (h : c.elems.length ≤ i) :
    checked c i r ≠ .illFormed → checked c i r = .throws := by
  intro hw
  unfold checked at *
  cases hs : rangeSize c with
  | none => rw [hs] at hw; exact absurd rfl hw
  | some n =>
    have hn := rangeSize_eq c n hs
    rw [hs] at hw
    cases hr : r.wf with
    | false => rw [hr] at hw; exact absurd rfl hw
    | true => simp only [if_true]; rw [if_neg (by omega)]

/-- `at` throws if there is no element with the number -/
theorem C170_at_throws (c : Cont α) (k : Bool) (i : Nat) (h : c.elems.length ≤ i) (hw : atOf c k i ≠ .illFormed) :
    atOf c k i = .throws := by
  have hm : memAt c i = .throws := by unfold memAt; rw [List.getElem?_eq_none h]
  have ite' : ∀ {p : Prop} [Decidable p] {r s : Out α}, (r ≠ .illFormed → r = .throws) → (s ≠ .illFormed → s = .throws) →
      (if p then r else s) ≠ .illFormed → (if p then r else s) = .throws := by
    intro p _ r s hr hs
    split
    · exact hr
    · exact hs
  have hc : atConst c i ≠ .illFormed → atConst c i = .throws :=
    ite' (fun _ => hm) (ite' (checked_throws _ _ _ h) (checked_throws _ _ _ h))
  exact ite' hc (ite' hc (ite' (fun _ => hm) (ite' (checked_throws _ _ _ h) (checked_throws _ _ _ h)))) hw

theorem nextBeginLast_right (c : Cont α) (k : Bool) (a : α) (h : c.elems.getLast? = some a) : RightIfWf (nextBeginLast c k) a := by
  unfold nextBeginLast
  cases hs : rangeSize c with
  | none => intro hw; exact absurd rfl hw
  | some n =>
    have hn := rangeSize_eq c n hs
    rw [List.getLast?_eq_getElem?] at h
    cases n with
    | zero =>
      have := (List.getElem?_eq_some_iff.mp h).1
      omega
    | succ n => exact nextBegin_right c k n a (by rw [← h]; congr 1; omega)

/-- `back` is the last element of a const container, of one whose references can be cast, and of one with the member -/
theorem C170_back_partial (c : Cont α) (k : Bool) (a : α) (h : c.elems.getLast? = some a)
    (hk : k = true ∨ (c.castable = true ∧ c.begin.callable true = true) ∨ c.back.callable false = true) : RightIfWf (backOf c k) a := by
  have hc : RightIfWf (backConst c) a := .ite (ofElem_right _ _ h) (nextBeginLast_right _ _ _ h)
  cases k with
  | true => exact hc
  | false =>
    show RightIfWf (backMut c) a
    unfold backMut
    rcases hk with hk | ⟨h1, h2⟩ | hb
    · exact absurd hk nofun
    · rw [h1, h2, Bool.or_true, Bool.and_true, if_pos rfl]; exact hc
    · refine .ite hc ?_
      rw [if_pos hb]; exact ofElem_right _ _ h

/-- for all other containers `back` is the first element -/
theorem C170_back_first (c : Cont α) (a : α) (h : c.elems[0]? = some a) (hb : c.back.callable false = false)
    (hc : c.castable = false ∨ c.begin.callable true = false) (hm : c.begin.callable false = true) : backOf c false = .val a := by
  have hb' : c.back.callable true = false := by
    cases hx : c.back <;> rw [hx] at hb <;> first | rfl | exact absurd hb nofun
  show backMut c = _
  unfold backMut
  have : (c.castable && (c.back.callable true || c.begin.callable true)) = false := by
    rcases hc with hc | hc
    · rw [hc]; rfl
    · rw [hb', hc, Bool.or_self, Bool.and_false]
  rw [this, hb]
  simp only [Bool.false_eq_true, if_false]
  unfold nextBegin
  rw [if_pos hm, h]; rfl

/-- refuted: a container with `begin` and `size` only, with proxies as references: `back` is not the last element -/
theorem C170_back_refuted : ¬ ∀ (c : Cont Nat) (k : Bool) (a : Nat), c.elems.getLast? = some a → RightIfWf (backOf c k) a := by
  intro h
  have := h ⟨[1, 2, 3], .both, .both, .absent, .absent, .absent, .absent, false⟩ false 3 rfl
  exact absurd (this (by decide)) (by decide)

/-- `at` is well-formed for containers with `begin`, unless the subscript can be applied to mutable containers only -/
theorem C170_at_wf_partial (c : Cont α) (k : Bool) (i : Nat) (hb : c.begin = .both) (hs : c.subscript ≠ .mutableOnly) :
    atOf c k i ≠ .illFormed := by
  have hsz : rangeSize c = some c.elems.length := by
    unfold rangeSize; rw [hb]; simp [Mem.callable]
  have hn : ∀ k, (nextBegin c k i).wf = true := by
    intro k; unfold nextBegin; rw [hb]; simp only [Mem.callable, if_true]
    cases c.elems[i]? <;> rfl
  have hch : ∀ r : Out α, r.wf = true → checked c i r ≠ .illFormed := by
    intro r hr
    unfold checked
    rw [hsz]
    simp only [hr, if_true]
    split
    · intro e; rw [e] at hr; exact absurd hr nofun
    · nofun
  have hm : memAt c i ≠ .illFormed := by unfold memAt; split <;> nofun
  have hsub : ∀ k, c.subscript.callable false = true → (memSub c k i).wf = true := by
    intro k h
    have : c.subscript.callable k = true := by
      cases hx : c.subscript with
      | absent => rw [hx] at h; exact absurd h nofun
      | mutableOnly => exact absurd hx hs
      | both => rfl
    unfold memSub
    rw [if_pos this]
    cases c.elems[i]? <;> rfl
  have hc : atConst c i ≠ .illFormed := by
    unfold atConst
    split
    · exact hm
    · split
      · rename_i h; exact hch _ (hsub _ h)
      · exact hch _ (hn _)
  cases k with
  | true => exact hc
  | false =>
    show atMut c i ≠ _
    unfold atMut
    split
    · exact hc
    · split
      · exact hm
      · split
        · rename_i h; exact hch _ (hsub _ h)
        · exact hch _ (hn _)

/-- refuted: a container with `begin` and `size` for const containers and a subscript for mutable ones: `at` is ill-formed for both,
though `begin` would do -/
theorem C170_at_wf_refuted (l : List α) (i : Nat) :
    let c : Cont α := ⟨l, .both, .both, .both, .both, .mutableOnly, .absent, true⟩
    atOf c true i = .illFormed ∧ atOf c false i = .illFormed ∧ nextBegin c true i ≠ .illFormed ∧ subscriptAt c true i ≠ .illFormed := by
  refine ⟨rfl, rfl, ?_, ?_⟩
  · show Out.ofElem l[i]? ≠ _
    cases l[i]? <;> nofun
  · show Out.ofElem l[i]? ≠ _
    cases l[i]? <;> nofun

example : backOf ⟨[1, 2, 3], .both, .both, .absent, .absent, .absent, .absent, true⟩ false = .val 3 := by decide
example : backOf ⟨[1, 2, 3], .both, .both, .absent, .absent, .absent, .absent, false⟩ false = .val 1 := by decide
example : backOf ⟨[1, 2, 3], .mutableOnly, .both, .absent, .absent, .absent, .absent, true⟩ false = .val 1 := by decide
example : atOf ⟨[1, 2, 3], .both, .absent, .absent, .absent, .both, .absent, false⟩ false 3 = .throws := by decide
example : atOf ⟨[1, 2, 3], .both, .absent, .absent, .absent, .both, .absent, false⟩ true 2 = .val 3 := by decide

end Sprout

import Verif.Proofs.FixedSort2
import Verif.Proofs.Merge2

/-! # Sorting algorithms that return containers: stable_sort -/

namespace Sprout.FixedAlg

open ContOp Spec

variable {α : Type} [Inhabited α]

/-- the first of the smallest elements of `l` with `P`, with the number of equivalent elements -/
structure Found (comp : α → α → Bool) (P : α → Bool) (l : List α) (f : α × ℕ × ℕ) : Prop where
  get : l[f.2.2]? = some f.1
  mem : P f.1 = true
  min : ∀ x ∈ l, P x = true → comp x f.1 = false
  count : f.2.1 = (cls comp f.1 l).length
  first : cls comp f.1 (l.take f.2.2) = []

omit [Inhabited α]

/-- equivalent elements agree about `P` -/
def Closed (comp : α → α → Bool) (P : α → Bool) : Prop := ∀ x y, comp x y = false → comp y x = false → P x = true → P y = true

theorem mem_cls {comp : α → α → Bool} {v x : α} {l : List α} : x ∈ cls comp v l ↔ x ∈ l ∧ comp x v = false ∧ comp v x = false := by
  simp [cls]

theorem Found.lt {comp : α → α → Bool} {P : α → Bool} {l : List α} {f : α × ℕ × ℕ} (h : Found comp P l f) : f.2.2 < l.length := by
  by_contra hn
  have := h.get
  rw [List.getElem?_eq_none (by omega)] at this
  cases this

theorem Found.pos {comp : α → α → Bool} (hc : StrictWeak comp) {P : α → Bool} {l : List α} {f : α × ℕ × ℕ} (h : Found comp P l f) : f.2.1 ≠ 0 := by
  rw [h.count]
  have : f.1 ∈ cls comp f.1 l := mem_cls.2 ⟨List.mem_of_getElem? h.get, hc.irrefl _, hc.irrefl _⟩
  intro h0
  rw [List.length_eq_zero_iff] at h0
  rw [h0] at this
  cases this

theorem found_start {comp : α → α → Bool} (hc : StrictWeak comp) {P : α → Bool} (hP : Closed comp P) {l : List α} (hl : ∀ x ∈ l, P x = false)
    {x : α} (hx : P x = true) : Found comp P (l ++ [x]) (x, 1, l.length) := by
  have e : cls comp x l = [] := by
    rw [List.eq_nil_iff_forall_not_mem]
    intro y hy
    obtain ⟨h1, h2, h3⟩ := mem_cls.1 hy
    have := hl y h1
    rw [hP x y h3 h2 hx] at this
    cases this
  refine ⟨by simp, hx, ?_, ?_, by simpa using e⟩
  · intro y hy hy'
    rcases List.mem_append.1 hy with hy | hy
    · rw [hl y hy] at hy'
      cases hy'
    · rw [List.mem_singleton.1 hy]
      exact hc.irrefl x
  · rw [cls_append, e, cls_self hc]
    rfl

theorem Found.take {comp : α → α → Bool} {P : α → Bool} {l : List α} {f : α × ℕ × ℕ} (h : Found comp P l f) (x : α) (n : ℕ)
    (hm : P x = true → comp x f.1 = false) (hn : n = (cls comp f.1 (l ++ [x])).length) : Found comp P (l ++ [x]) (f.1, n, f.2.2) := by
  have := h.lt
  refine ⟨by rw [List.getElem?_append_left this]; exact h.get, h.mem, ?_, hn, by simp only; rw [List.take_append_of_le_length (by omega)]; exact h.first⟩
  intro y hy hy'
  rcases List.mem_append.1 hy with hy | hy
  · exact h.min y hy hy'
  · obtain rfl := List.mem_singleton.1 hy
    exact hm hy'

theorem Found.smaller {comp : α → α → Bool} (hc : StrictWeak comp) {P : α → Bool} (hP : Closed comp P) {l : List α} {f : α × ℕ × ℕ}
    (h : Found comp P l f) {x : α} (hx : P x = true) (hlt : comp x f.1 = true) : Found comp P (l ++ [x]) (x, 1, l.length) := by
  have e : cls comp x l = [] := by
    rw [List.eq_nil_iff_forall_not_mem]
    intro y hy
    obtain ⟨h1, h2, h3⟩ := mem_cls.1 hy
    have := h.min y h1 (hP x y h3 h2 hx)
    rw [hc.lt_of_le_of_lt h3 hlt] at this
    cases this
  refine ⟨by simp, hx, ?_, ?_, by simpa using e⟩
  · intro y hy hy'
    rcases List.mem_append.1 hy with hy | hy
    · have := h.min y hy hy'
      by_contra h5
      rw [hc.trans _ _ _ (by simpa using h5) hlt] at this
      cases this
    · rw [List.mem_singleton.1 hy]
      exact hc.irrefl x
  · rw [cls_append, e, cls_self hc]
    rfl

theorem Found.step {comp : α → α → Bool} (hc : StrictWeak comp) {P : α → Bool} (hP : Closed comp P) {l : List α} {f : α × ℕ × ℕ}
    (h : Found comp P l f) (x : α) : Found comp P (l ++ [x])
      (if P x = true then if comp x f.1 = true then (x, 1, l.length) else if comp f.1 x = true then f else (f.1, f.2.1 + 1, f.2.2) else f) := by
  split_ifs with h1 h2 h3
  · exact h.smaller hc hP h1 h2
  · refine h.take x _ (fun _ => by simpa using h2) ?_
    rw [cls_append, cls_cons_neg (.inr h3), cls_nil, List.append_nil]
    exact h.count
  · refine h.take x _ (fun _ => by simpa using h2) ?_
    rw [cls_append, cls_cons_pos (by simpa using h2) (by simpa using h3), cls_nil, List.length_append, ← h.count]
    rfl
  · refine h.take x _ (fun h => absurd h h1) ?_
    rw [cls_append, cls_cons_neg, cls_nil, List.append_nil]
    · exact h.count
    · by_contra h5
      push Not at h5
      exact h1 (hP f.1 x (by simpa using h5.2) (by simpa using h5.1) h.mem)

theorem closed_true (comp : α → α → Bool) : Closed comp fun _ => true := fun _ _ _ _ _ => rfl

theorem closed_above {comp : α → α → Bool} (hc : StrictWeak comp) (p : α) : Closed comp fun x => comp p x :=
  fun _ _ _ h2 h3 => hc.lt_of_lt_of_le h3 h2

theorem sortFirst_spec {comp : α → α → Bool} (hc : StrictWeak comp) : ∀ (xs pre : List α) (f : α × ℕ × ℕ), Found comp (fun _ => true) pre f →
    Found comp (fun _ => true) (pre ++ xs) (sortFirst comp xs pre.length f.1 f.2.1 f.2.2) := by
  intro xs
  induction xs with
  | nil =>
    intro pre f h
    rw [List.append_nil]
    exact h
  | cons x xs ih =>
    intro pre f h
    have := ih (pre ++ [x]) _ (h.step hc (closed_true comp) x)
    rw [List.append_assoc, List.singleton_append, List.length_append, List.length_singleton] at this
    rw [sortFirst]
    simp only [if_true] at this
    split_ifs at this ⊢ <;> exact this

theorem sortNext_some {comp : α → α → Bool} (hc : StrictWeak comp) (p : α) : ∀ (xs pre : List α) (f : α × ℕ × ℕ), Found comp (fun x => comp p x) pre f →
    Found comp (fun x => comp p x) (pre ++ xs) (sortNext comp p xs pre.length f.1 f.2.1 f.2.2) := by
  intro xs
  induction xs with
  | nil =>
    intro pre f h
    rw [List.append_nil]
    exact h
  | cons x xs ih =>
    intro pre f h
    have h0 := h.pos hc
    have := ih (pre ++ [x]) _ (h.step hc (closed_above hc p) x)
    rw [List.append_assoc, List.singleton_append, List.length_append, List.length_singleton] at this
    rw [sortNext]
    by_cases h1 : comp p x = true
    · rw [if_pos h1] at this ⊢
      by_cases h2 : comp x f.1 = true
      · rw [if_pos h2] at this
        rw [if_pos (by simp [h2])]
        exact this
      · rw [if_neg h2] at this
        rw [if_neg (by simp [h2, h0])]
        split_ifs at this ⊢ <;> exact this
    · rw [if_neg h1] at this ⊢
      exact this

theorem sortNext_none {comp : α → α → Bool} (hc : StrictWeak comp) (p : α) : ∀ (xs pre : List α) (v : α) (cur : ℕ), (∀ x ∈ pre, comp p x = false) →
    (∃ x ∈ xs, comp p x = true) → Found comp (fun x => comp p x) (pre ++ xs) (sortNext comp p xs pre.length v 0 cur) := by
  intro xs
  induction xs with
  | nil =>
    rintro pre v cur - ⟨x, hx, -⟩
    cases hx
  | cons x xs ih =>
    intro pre v cur h0 hex
    rw [sortNext]
    by_cases h1 : comp p x = true
    · rw [if_pos h1, if_pos (by simp)]
      have := sortNext_some hc p xs (pre ++ [x]) _ (found_start hc (closed_above hc p) h0 h1)
      rw [List.append_assoc, List.singleton_append, List.length_append, List.length_singleton] at this
      exact this
    · rw [if_neg h1]
      have := ih (pre ++ [x]) v cur (by
        intro y hy
        rcases List.mem_append.1 hy with hy | hy
        · exact h0 y hy
        · rw [List.mem_singleton.1 hy]
          simpa using h1) (by
        obtain ⟨y, hy, hy'⟩ := hex
        rcases List.mem_cons.1 hy with rfl | hy
        · exact absurd hy' h1
        · exact ⟨y, hy, hy'⟩)
      rw [List.append_assoc, List.singleton_append, List.length_append, List.length_singleton] at this
      exact this

theorem sortSynonym_eq (static : ℕ) (comp : α → α → Bool) (v : α) : ∀ (ys args : List α), args.length + (cls comp v ys).length ≤ static →
    sortSynonym static comp v ys (cls comp v ys).length args = args ++ cls comp v ys := by
  intro ys
  induction ys with
  | nil =>
    intro args _
    rw [sortSynonym, cls_nil, List.append_nil]
  | cons y ys ih =>
    intro args h
    rw [sortSynonym]
    by_cases h1 : static = args.length
    · rw [if_pos h1, List.eq_nil_of_length_eq_zero (show (cls comp v (y :: ys)).length = 0 by omega), List.append_nil]
    · rw [if_neg h1]
      by_cases h2 : (cls comp v (y :: ys)).length = 0
      · rw [if_neg (by simpa using h2), List.eq_nil_of_length_eq_zero h2, List.append_nil]
      · rw [if_pos h2]
        by_cases h3 : (!comp y v && !comp v y) = true
        · have h4 : comp y v = false ∧ comp v y = false := by simpa using h3
          rw [if_pos h3, cls_cons_pos h4.1 h4.2, List.length_cons, Nat.add_sub_cancel]
          rw [cls_cons_pos h4.1 h4.2, List.length_cons] at h
          rw [ih (args ++ [y]) (by simp; omega)]
          simp
        · rw [if_neg h3]
          have h4 : cls comp v (y :: ys) = cls comp v ys := by
            apply cls_cons_neg
            by_contra h5
            push Not at h5
            exact h3 (by simpa using h5)
          rw [h4] at h ⊢
          exact ih args h

theorem sortArgs_eq {comp : α → α → Bool} (hc : StrictWeak comp) {P : α → Bool} {xs : List α} {f : α × ℕ × ℕ} (h : Found comp P xs f) (static : ℕ)
    (args : List α) (hs : args.length + (cls comp f.1 xs).length ≤ static) : sortArgs static comp xs f args = args ++ cls comp f.1 xs := by
  have hlt := h.lt
  have e : cls comp f.1 xs = f.1 :: cls comp f.1 (xs.drop (f.2.2 + 1)) := by
    conv_lhs => rw [← List.take_append_drop f.2.2 xs]
    rw [cls_append, h.first, List.nil_append, List.drop_eq_getElem_cons hlt, ← at_of hlt h.get, cls_self hc]
  have e' := congrArg List.length e
  rw [List.length_cons, ← h.count] at e'
  rw [sortArgs, if_neg (h.pos hc), e', Nat.add_sub_cancel, sortSynonym_eq]
  · rw [e]
    simp
  · rw [← h.count, e'] at hs
    simp
    omega

/-- the elements not greater than the first value found are its class -/
theorem stable_first {comp : α → α → Bool} (hc : StrictWeak comp) {xs : List α} {f : α × ℕ × ℕ} (h : Found comp (fun _ => true) xs f) :
    StableSorted comp (xs.filter fun x => !comp f.1 x) (cls comp f.1 xs) := by
  have e : cls comp f.1 xs = xs.filter fun x => !comp f.1 x := by
    apply List.filter_congr
    intro x hx
    rw [h.min x hx rfl]
    simp
  refine ⟨?_, fun v => by rw [e]⟩
  refine List.Pairwise.imp_of_mem (R := fun _ _ => True) ?_ (List.pairwise_of_forall fun _ _ => trivial)
  intro a b ha hb _
  exact hc.le_trans (mem_cls.1 ha).2.2 (mem_cls.1 hb).2.1

theorem cls_filter (comp : α → α → Bool) (v : α) (p : α → Bool) (l : List α) : cls comp v (l.filter p) = (cls comp v l).filter p := by
  rw [cls, cls, List.filter_filter, List.filter_filter]
  exact List.filter_congr fun x _ => Bool.and_comm _ _

theorem stable_next {comp : α → α → Bool} (hc : StrictWeak comp) {xs args : List α} {p : α} {f : α × ℕ × ℕ}
    (ha : StableSorted comp (xs.filter fun x => !comp p x) args) (h : Found comp (fun x => comp p x) xs f) :
    StableSorted comp (xs.filter fun x => !comp f.1 x) (args ++ cls comp f.1 xs) := by
  have hm : comp p f.1 = true := h.mem
  have pm : args.Perm (xs.filter fun x => !comp p x) := StableSorted.perm hc ha.2
  have hle : ∀ a ∈ args, comp p a = false := fun a h => by simpa using (List.mem_filter.1 (pm.subset h)).2
  refine ⟨List.pairwise_append.2 ⟨ha.1, ?_, ?_⟩, fun w => ?_⟩
  · refine List.Pairwise.imp_of_mem (R := fun _ _ => True) ?_ (List.pairwise_of_forall fun _ _ => trivial)
    intro a b ha hb _
    exact hc.le_trans (mem_cls.1 ha).2.2 (mem_cls.1 hb).2.1
  · intro a ha b hb
    by_contra h5
    have := hle a ha
    rw [hc.trans _ _ _ hm (hc.lt_of_le_of_lt (mem_cls.1 hb).2.1 (by simpa using h5))] at this
    cases this
  · rw [cls_append, ha.2, cls_filter, cls_filter]
    have e2 : cls comp w (cls comp f.1 xs) = (cls comp w xs).filter fun x => !comp x f.1 && !comp f.1 x := by
      rw [← cls_filter]
      rfl
    rw [e2]
    by_cases hw : comp w f.1 = false ∧ comp f.1 w = false
    · have k : ∀ x ∈ cls comp w xs, comp p x = true ∧ comp x f.1 = false ∧ comp f.1 x = false := by
        intro x hx
        obtain ⟨-, h2, h3⟩ := mem_cls.1 hx
        have h4 : comp x f.1 = false := hc.le_trans hw.1 h2
        have h5 : comp f.1 x = false := hc.le_trans h3 hw.2
        exact ⟨hc.lt_of_lt_of_le hm h4, h4, h5⟩
      rw [List.filter_eq_nil_iff.2 fun x hx => by simp [(k x hx).1], List.nil_append]
      exact List.filter_congr fun x hx => by simp [(k x hx).2]
    · have k : ∀ x ∈ cls comp w xs, ¬ (comp x f.1 = false ∧ comp f.1 x = false) := by
        rintro x hx ⟨h4, h5⟩
        obtain ⟨-, h2, h3⟩ := mem_cls.1 hx
        exact hw ⟨hc.le_trans h4 h3, hc.le_trans h2 h5⟩
      have k2 : ((cls comp w xs).filter fun x => !comp x f.1 && !comp f.1 x) = [] := List.filter_eq_nil_iff.2 fun x hx => by simpa using k x hx
      rw [k2, List.append_nil]
      apply List.filter_congr
      intro x hx
      have hxs := (mem_cls.1 hx).1
      by_cases h6 : comp f.1 x = true
      · simp [h6, hc.trans _ _ _ hm h6]
      · have h7 : comp f.1 x = false := by simpa using h6
        have h8 : comp x f.1 = true := by
          by_contra h9
          exact k x hx ⟨by simpa using h9, h7⟩
        have h9 : comp p x = false := by
          by_contra h10
          have := h.min x hxs (by simpa using h10)
          rw [h8] at this
          cases this
        simp [h7, h9]

variable [Inhabited α]

theorem full_rewrites {c : Cont α} (h : c.Ok) {ws : List α} (hw : ws.length = c.vis.length) : Rewrites (complate c ws) c ws := by
  have := complate_rewrites h (ws := ws) (by omega)
  rwa [writeFront, List.take_of_length_le (by omega), List.drop_of_length_le (by omega), List.append_nil] at this

theorem sortLoop_spec {comp : α → α → Bool} (hc : StrictWeak comp) {c : Cont α} (h : c.Ok) (P : α → Bool) (f : α × ℕ × ℕ) (args : List α)
    (hf : Found comp P c.vis f) (hs : StableSorted comp (c.vis.filter fun x => !comp f.1 x) (args ++ cls comp f.1 c.vis)) :
    ∃ ws, Rewrites (sortLoop c comp c.vis f args) c ws ∧ StableSorted comp c.vis ws := by
  have hst := vis_le_static h
  obtain ⟨_, _, hp⟩ := parts' h
  have hsz := hp.len
  induction hk : c.vis.length - args.length using Nat.strongRecOn generalizing P f args with
  | _ k ih =>
    have pm := StableSorted.perm hc hs.2
    have hlen := pm.length_eq
    have hle := List.length_filter_le (fun x => !comp f.1 x) c.vis
    rw [List.length_append] at hlen
    have e := sortArgs_eq hc hf c.static args (by omega)
    have gr := length_sortArgs c.static comp c.vis f args
    have done : (args ++ cls comp f.1 c.vis).length = c.vis.length →
        ∃ ws, Rewrites (complate c (args ++ cls comp f.1 c.vis)) c ws ∧ StableSorted comp c.vis ws := by
      intro hl
      refine ⟨_, full_rewrites h hl, ?_⟩
      rw [List.length_append, hlen] at hl
      have e3 := List.length_filter_eq_length_iff.1 hl
      rwa [List.filter_eq_self.2 e3] at hs
    rw [sortLoop, e]
    by_cases h1 : c.static = (args ++ cls comp f.1 c.vis).length
    · rw [if_pos h1]
      have := done (by rw [← h1]; rw [List.length_append] at h1; omega)
      rwa [complate, if_pos h1] at this
    · rw [if_neg h1]
      by_cases h2 : (args ++ cls comp f.1 c.vis).length < c.size.toNat
      · rw [if_pos h2]
        rw [List.length_append] at h2
        have hlt : (c.vis.filter fun x => !comp f.1 x).length < c.vis.length := by omega
        have hex : ∃ x ∈ c.vis, comp f.1 x = true := by
          by_contra hn
          push Not at hn
          rw [List.filter_eq_self.2 fun x hx => by simpa using hn x hx] at hlt
          omega
        cases hv : c.vis with
        | nil => rw [hv] at hlt; simp at hlt
        | cons x rest =>
          rw [← hv]
          have hh : c.vis.head? = some x := by rw [hv]; rfl
          rw [hh]
          have nf := sortNext_none hc f.1 c.vis [] x 0 (by simp) hex
          rw [List.nil_append, List.length_nil] at nf
          refine ih _ ?_ _ _ _ nf (stable_next hc hs nf) rfl
          rw [e] at gr
          rw [List.length_append] at gr ⊢
          omega
      · rw [if_neg h2]
        rw [List.length_append] at h2
        exact done (by rw [List.length_append]; omega)

theorem stableSort_spec {comp : α → α → Bool} (hc : StrictWeak comp) {c : Cont α} (h : c.Ok) (h0 : c.vis ≠ [] ∨ c.static ≤ 1) :
    ∃ ws, Rewrites (stableSort comp c) c ws ∧ StableSorted comp c.vis ws := by
  rw [stableSort]
  split_ifs with h1
  · refine ⟨c.vis, (rewrites_iff h).2 ⟨c, rfl, .refl h, rfl⟩, ?_, fun v => rfl⟩
    have := vis_le_static h
    match hv : c.vis with
    | [] => exact List.Pairwise.nil
    | [x] => exact List.pairwise_singleton _ _
    | x :: y :: l => rw [hv] at this; simp at this; omega
  · rw [elems_eq h]
    simp only [Option.bind_eq_bind, Option.bind_some]
    match hv : c.vis with
    | [] => rcases h0 with h0 | h0 <;> contradiction
    | x :: rest =>
      have hf := sortFirst_spec hc rest [x] (x, 1, 0) (found_start hc (closed_true comp) (l := []) (by simp) rfl)
      rw [List.singleton_append, ← hv, List.length_singleton] at hf
      have key := sortLoop_spec hc h _ _ _ hf (by rw [List.nil_append]; exact stable_first hc hf)
      rwa [hv] at key

end Sprout.FixedAlg

import Verif.Spec.ForwardClist
import Mathlib.Data.List.Basic
import Mathlib.Data.List.Nodup

/-! # Lemmas about linked lists -/

namespace Sprout
namespace Clist

variable {h : Heap}

theorem set_self (h : Heap) (a : Nat) (n : Option Nat) : set h a n a = n := if_pos rfl

theorem set_ne (h : Heap) {a b : Nat} (n : Option Nat) (hb : b ≠ a) : set h a n b = h b := if_neg hb

theorem iterEq_iff (a b : Option Nat) : iterEq a b = true ↔ a = b := by
  cases a with
  | none => cases b <;> simp [iterEq]
  | some a =>
    simp only [iterEq, beq_iff_eq]
    exact eq_comm

/-- following `next` through the list -/
def Path (h : Heap) : Nat → List Nat → Prop
  | _, [] => True
  | a, b :: l => h a = some b ∧ Path h b l

theorem chain_append : ∀ (l1 : List Nat) {l2 : List Nat} {a : Nat},
    Chain h a (l1 ++ l2) ↔ Path h a l1 ∧ Chain h (l1.getLastD a) l2
  | [], l2, a => by simp [Path]
  | b :: l1, l2, a => by
    have := chain_append l1 (l2 := l2) (a := b)
    rw [List.getLastD_cons]
    simp only [List.cons_append, Chain, Path, this, and_assoc]

theorem chain_unique : ∀ {l m : List Nat} {a : Nat}, Chain h a l → Chain h a m → l = m
  | [], [], _, _, _ => rfl
  | [], b :: m, a, h1, h2 => by simp [Chain] at h1 h2; simp [h1] at h2
  | b :: l, [], a, h1, h2 => by simp [Chain] at h1 h2; simp [h2] at h1
  | b :: l, c :: m, a, h1, h2 => by
    obtain ⟨e1, h1⟩ := h1
    obtain ⟨e2, h2⟩ := h2
    rw [e1] at e2
    cases e2
    rw [chain_unique h1 h2]

theorem chain_nodup : ∀ {l : List Nat} {a : Nat}, Chain h a l → (a :: l).Nodup
  | [], a, _ => by simp
  | b :: l, a, hc => by
    have ih := chain_nodup hc.2
    refine List.nodup_cons.2 ⟨fun hm => ?_, ih⟩
    obtain ⟨l1, l2, e⟩ := List.append_of_mem hm
    have hc' := hc
    rw [e, show l1 ++ a :: l2 = (l1 ++ [a]) ++ l2 by simp, chain_append] at hc'
    have h2 := hc'.2
    rw [show (l1 ++ [a]).getLastD a = a by simp] at h2
    have := congrArg List.length ((chain_unique hc h2).symm.trans e)
    have e' := congrArg List.length e
    have := congrArg List.length (chain_unique hc h2)
    simp at e' this
    omega

theorem chain_congr {h' : Heap} : ∀ {l : List Nat} {a : Nat}, Chain h a l → (∀ b ∈ a :: l, h' b = h b) → Chain h' a l
  | [], a, hc, he => by
    show h' a = none
    rw [he a (by simp)]
    exact hc
  | b :: l, a, hc, he => ⟨by rw [he a (by simp)]; exact hc.1, chain_congr hc.2 fun c hm => he c (by simp at hm ⊢; tauto)⟩

theorem path_congr {h' : Heap} : ∀ {l : List Nat} {a : Nat}, Path h a l → (∀ b ∈ (a :: l).dropLast, h' b = h b) → Path h' a l
  | [], _, _, _ => trivial
  | b :: l, a, hc, he => ⟨by rw [he a (by simp)]; exact hc.1, path_congr hc.2 fun c hm => he c (by
      rw [List.dropLast_cons_of_ne_nil (by simp)]
      exact List.mem_cons_of_mem _ hm)⟩

theorem getLastD_mem : ∀ (l : List Nat) (a : Nat), l.getLastD a ∈ a :: l
  | [], a => by simp
  | b :: l, a => by
    have := getLastD_mem l b
    rw [List.getLastD_cons]
    exact List.mem_cons_of_mem _ this

theorem last_not_mem_dropLast : ∀ (l : List Nat) (a : Nat), (a :: l).Nodup → l.getLastD a ∉ (a :: l).dropLast
  | [], a, _ => by simp
  | b :: l, a, hn => by
    rw [List.getLastD_cons, List.dropLast_cons_of_ne_nil (by simp)]
    have ih := last_not_mem_dropLast l b (List.nodup_cons.1 hn).2
    intro hm
    rcases List.mem_cons.1 hm with e | hm
    · exact (List.nodup_cons.1 hn).1 (e ▸ getLastD_mem l b)
    · exact ih hm

/-- the items of the list follow one another, up to `last` -/
def Run (h : Heap) : List Nat → Option Nat → Prop
  | [], _ => True
  | b :: m, last => h b = m.head?.or last ∧ Run h m last

theorem run_congr {h' : Heap} {last : Option Nat} : ∀ {m : List Nat}, Run h m last → (∀ b ∈ m, h' b = h b) → Run h' m last
  | [], _, _ => trivial
  | b :: m, hr, he => ⟨by rw [he b (by simp)]; exact hr.1, run_congr hr.2 fun c hc => he c (List.mem_cons_of_mem _ hc)⟩

theorem chain_head : ∀ {l : List Nat} {a : Nat}, Chain h a l → h a = l.head?
  | [], _, hl => hl
  | _ :: _, _, hl => hl.1

theorem chain_run : ∀ {m l : List Nat} {a : Nat}, Chain h a (m ++ l) → Run h m l.head?
  | [], _, _, _ => trivial
  | b :: m, l, a, hl => ⟨(chain_head hl.2).trans List.head?_append, chain_run hl.2⟩

theorem eraseLoop_eq (last : Option Nat) : ∀ (m : List Nat) (h : Heap), Run h m last → m.Nodup → (∀ x ∈ m, last ≠ some x) →
    ∃ h', eraseLoop h (m.head?.or last) last = some h' ∧ (∀ x ∈ m, h' x = none) ∧ SameBut h h' m
  | [], h, _, _, _ => ⟨h, by rw [eraseLoop.eq_def, if_pos ((iterEq_iff _ _).2 (by simp))], by simp, fun _ _ => rfl⟩
  | b :: m, h, hr, hn, hl => by
    obtain ⟨hb, hn⟩ := List.nodup_cons.1 hn
    obtain ⟨h', e, hu, hs⟩ := eraseLoop_eq last m (set h b none)
      (run_congr hr.2 fun c hc => set_ne _ _ (by rintro rfl; exact hb hc)) hn fun x hx => hl x (List.mem_cons_of_mem _ hx)
    refine ⟨h', ?_, ?_, ?_⟩
    · rw [eraseLoop.eq_def, if_neg (by rw [iterEq_iff]; exact fun e => hl b (by simp) (by simpa using e.symm))]
      simp only [List.head?_cons, Option.or, nextOf, setNext, Option.map_some, Option.bind_eq_bind, Option.bind_some]
      rw [hr.1]
      exact e
    · intro x hx
      rcases List.mem_cons.1 hx with rfl | hx
      · rw [hs _ hb, set_self]
      · exact hu x hx
    · intro x hx
      simp only [List.mem_cons, not_or] at hx
      rw [hs _ hx.2, set_ne _ _ hx.1]

theorem unlinkAll_eq : ∀ (l : List Nat) (a : Nat) (h : Heap), Chain h a l →
    ∃ h', unlinkAll h a = some h' ∧ (∀ x ∈ a :: l, h' x = none) ∧ SameBut h h' (a :: l)
  | [], a, h, hl => ⟨h, by rw [unlinkAll.eq_def, show h a = none from hl], by simpa using (show h a = none from hl), fun _ _ => rfl⟩
  | b :: l, a, h, hl => by
    have hn := chain_nodup hl
    obtain ⟨h', e, hu, hs⟩ := unlinkAll_eq l b h hl.2
    refine ⟨set h' a none, ?_, ?_, ?_⟩
    · rw [unlinkAll.eq_def, hl.1]
      simp only [e, Option.bind_eq_bind, Option.bind_some]
    · intro x hx
      rcases List.mem_cons.1 hx with rfl | hx
      · exact set_self _ _ _
      · rw [set_ne _ _ (fun e : x = a => (List.nodup_cons.1 hn).1 (e ▸ hx))]
        exact hu x hx
    · intro x hx
      rw [List.mem_cons, not_or] at hx
      rw [set_ne _ _ hx.1, hs _ hx.2]

theorem unlinkLoop_eq (x : Nat) : ∀ (l : List Nat) (a : Nat) (h : Heap), Chain h a l → x ≠ a →
    ∃ h', unlinkLoop h (some a) x = some h' ∧ Chain h' a (l.erase x) ∧ (x ∈ l → h' x = none) ∧ SameBut h h' (a :: l)
      ∧ (x ∉ l → h' = h)
  | [], a, h, hl, _ => by
    refine ⟨h, ?_, hl, by simp, fun _ _ => rfl, fun _ => rfl⟩
    rw [unlinkLoop.eq_def, if_neg (by simp [iterEq, Clist.end])]
    simp only [nextOf, Option.map_some, Option.bind_eq_bind, Option.bind_some]
    rw [show h a = none from hl, if_neg (by simp), unlinkLoop.eq_def, if_pos (by rfl)]
  | b :: l, a, h, hl, hxa => by
    have hn := chain_nodup hl
    have hstep : unlinkLoop h (some a) x = if b = x then some (set (set h a (h b)) b none) else unlinkLoop h (some b) x := by
      rw [unlinkLoop.eq_def, if_neg (by simp [iterEq, Clist.end])]
      simp only [nextOf, Option.map_some, Option.bind_eq_bind, Option.bind_some, setNext, hl.1, Option.some_inj]
    by_cases hbx : b = x
    · subst hbx
      have hab : a ≠ b := by rintro rfl; simp at hn
      refine ⟨_, by rw [hstep, if_pos rfl], ?_, fun _ => set_self _ _ _, ?_, by simp⟩
      · rw [List.erase_cons_head]
        cases l with
        | nil =>
          show set _ b _ a = none
          rw [set_ne _ _ hab, set_self]
          exact hl.2
        | cons c l =>
          refine ⟨by rw [set_ne _ _ hab, set_self]; exact hl.2.1, chain_congr hl.2.2 fun d hd => ?_⟩
          rw [set_ne _ _ (by rintro rfl; simp at hn hd; tauto), set_ne _ _ (by rintro rfl; simp at hn hd; tauto)]
      · intro d hd
        simp only [List.mem_cons, not_or] at hd
        rw [set_ne _ _ hd.2.1, set_ne _ _ hd.1]
    · obtain ⟨h', e, hc, hu, hs, hno⟩ := unlinkLoop_eq x l b h hl.2 (Ne.symm hbx)
      refine ⟨h', by rw [hstep, if_neg hbx, e], ?_, ?_, ?_, ?_⟩
      · rw [List.erase_cons_tail (by simpa using hbx)]
        refine ⟨?_, hc⟩
        rw [hs a (List.nodup_cons.1 hn).1]
        exact hl.1
      · intro hx
        rcases List.mem_cons.1 hx with e | hx
        · exact absurd e.symm hbx
        · exact hu hx
      · intro d hd
        exact hs d fun hm => hd (List.mem_cons_of_mem _ hm)
      · intro hx
        exact hno fun hm => hx (List.mem_cons_of_mem _ hm)

end Clist
end Sprout

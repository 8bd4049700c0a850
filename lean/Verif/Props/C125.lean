import Verif.Proofs.ForwardClist

/-!
# C125: intrusive forward lists
-/

namespace Sprout
open Clist

/-! ### observation -/

/-- A loop from `begin()` to `end()` sees the values of the items in order. -/
theorem C125_values {α : Type} (val : Nat → α) (h : Heap) (fst : Nat) (l : List Nat) (hl : Chain h fst l) :
    Clist.values val h (Clist.begin h fst) = some (l.map val) := by
  unfold Clist.begin
  induction l generalizing fst with
  | nil =>
    rw [show h fst = none from hl, Clist.values.eq_def, if_pos (by rfl)]
    rfl
  | cons b l ih =>
    rw [hl.1, Clist.values.eq_def, if_neg (by simp [iterEq, Clist.end])]
    simp only [Clist.deref, Option.map_some, Option.bind_eq_bind, Option.bind_some, nextOf, ih b hl.2, List.map_cons]

/-- The successor of `before_begin()` is `begin()`; `front()` is the value of the first item, and undefined for an empty list. -/
theorem C125_front {α : Type} (val : Nat → α) (h : Heap) (fst : Nat) (l : List Nat) (hl : Chain h fst l) :
    nextOf h (beforeBegin fst) = some (Clist.begin h fst) ∧ Clist.begin h fst = l.head?
    ∧ front val h fst = l.head?.map val := by
  cases l with
  | nil => exact ⟨rfl, hl, by rw [front, show h fst = none from hl]; rfl⟩
  | cons b l => exact ⟨rfl, hl.1, by rw [front, hl.1]; rfl⟩

example : Chain (fun a => if a = 0 then some 7 else if a = 7 then some 4 else none) 0 [7, 4] := by simp [Chain]

/-- `empty()` holds exactly for the lists which are not empty. -/
theorem C125_empty_refuted (h : Heap) (fst : Nat) (l : List Nat) (hl : Chain h fst l) : empty h fst = true ↔ l ≠ [] := by
  rw [(by simp [empty, Clist.begin] : empty h fst = (Clist.begin h fst).isSome), (C125_front (fun _ => ()) h fst l hl).2.1]
  cases l <;> simp

/-- `cbefore_begin()` is `cbegin()`; `before_begin()` of a const list does not compile. -/
theorem C125_before_begin_refuted (h : Heap) (fst : Nat) :
    cbeforeBegin h fst = Clist.begin h fst ∧ (h fst ≠ some fst → cbeforeBegin h fst ≠ beforeBegin fst)
    ∧ beforeBeginConst fst = none := ⟨rfl, id, rfl⟩

/-! ### modification -/

/-- Lists keep their items if the items are not changed: all operations below change those of the list in question only. -/
theorem C125_frame (h h' : Heap) (c : List Nat) (hs : SameBut h h' c) (fst : Nat) (l : List Nat) (hl : Chain h fst l)
    (hd : ∀ a ∈ fst :: l, a ∉ c) : Chain h' fst l := chain_congr hl fun b hb => hs b (hd b hb)

/-- `push_front` of an item which is in no list. -/
theorem C125_push_front (h : Heap) (fst : Nat) (l : List Nat) (hl : Chain h fst l) (x : Nat) (hx : x ∉ fst :: l) :
    ∃ h', pushFront h fst x = some h' ∧ Chain h' fst (x :: l) ∧ SameBut h h' [fst, x] := by
  have hxf : x ≠ fst := fun e => hx (by simp [e])
  refine ⟨set (set h x (h fst)) fst (some x), by rfl, ⟨set_self _ _ _, ?_⟩, ?_⟩
  · cases l with
    | nil =>
      show set _ fst _ x = none
      rw [set_ne _ _ hxf, set_self]
      exact hl
    | cons b l =>
      have hn := chain_nodup hl
      refine ⟨by rw [set_ne _ _ hxf, set_self]; exact hl.1, chain_congr hl.2 fun c hc => ?_⟩
      rw [set_ne _ _ (by rintro rfl; exact (List.nodup_cons.1 hn).1 hc), set_ne _ _ (by rintro rfl; exact hx (List.mem_cons_of_mem _ hc))]
  · intro a ha
    simp at ha
    rw [set_ne _ _ ha.1, set_ne _ _ ha.2]

/-- `pop_front` removes the first item, and unlinks it; it is undefined for an empty list. -/
theorem C125_pop_front (h : Heap) (fst : Nat) :
    (∀ x l, Chain h fst (x :: l) → ∃ h', popFront h fst = some h' ∧ Chain h' fst l ∧ h' x = none ∧ SameBut h h' [fst, x])
    ∧ (Chain h fst [] → popFront h fst = none) := by
  constructor
  · intro x l hl
    have hn := chain_nodup hl
    have hxf : fst ≠ x := fun e => by simp [e] at hn
    have e : popFront h fst = some (set (set h fst (h x)) x none) := by
      unfold popFront
      rw [hl.1]
      rfl
    refine ⟨_, e, ?_, set_self _ _ _, ?_⟩
    · cases l with
      | nil =>
        show set _ x _ fst = none
        rw [set_ne _ _ hxf, set_self]
        exact hl.2
      | cons b l =>
        refine ⟨by rw [set_ne _ _ hxf, set_self]; exact hl.2.1, chain_congr hl.2.2 fun c hc => ?_⟩
        rw [set_ne _ _ (by rintro rfl; simp at hn hc; tauto), set_ne _ _ (by rintro rfl; simp at hn hc; tauto)]
    · intro a ha
      simp at ha
      rw [set_ne _ _ ha.2, set_ne _ _ ha.1]
  · intro hl
    unfold popFront
    rw [show h fst = none from hl]
    rfl

/-- `insert_after` the item before the rest `l2` of the list (or after `before_begin()`) returns an iterator to the inserted item. -/
theorem C125_insert_after (h : Heap) (fst : Nat) (l1 l2 : List Nat) (hl : Chain h fst (l1 ++ l2)) (x : Nat) (hx : x ∉ fst :: (l1 ++ l2)) :
    ∃ h', insertAfter h (some (l1.getLastD fst)) x = some (h', some x) ∧ Chain h' fst (l1 ++ x :: l2)
      ∧ SameBut h h' [l1.getLastD fst, x] := by
  have hn := chain_nodup hl
  obtain ⟨hp, hc⟩ := (chain_append l1).1 hl
  have hpm := getLastD_mem l1 fst
  have hn1 : (fst :: l1).Nodup := by
    rw [← List.cons_append] at hn
    exact (List.nodup_append.1 hn).1
  have hpd := last_not_mem_dropLast l1 fst hn1
  set p := l1.getLastD fst with hpdef
  have hxp : x ≠ p := by
    intro e
    apply hx
    rw [e, ← List.cons_append]
    exact List.mem_append_left _ hpm
  obtain ⟨h', e, hc', hs⟩ := C125_push_front h p l2 hc x (by
    intro hm
    rcases List.mem_cons.1 hm with e | hm
    · exact hxp e
    · exact hx (List.mem_cons_of_mem _ (List.mem_append_right _ hm)))
  refine ⟨h', ?_, (chain_append l1).2 ⟨path_congr hp fun b hb => hs b ?_, hc'⟩, hs⟩
  · unfold pushFront at e
    unfold insertAfter
    simp only [nextOf, setNext, Option.map_some, Option.bind_some] at e ⊢
    rw [Option.some_inj] at e
    rw [e]
  · simp only [List.mem_cons, List.not_mem_nil, or_false, not_or]
    refine ⟨by rintro rfl; exact hpd hb, ?_⟩
    rintro rfl
    apply hx
    rw [← List.cons_append]
    exact List.mem_append_left _ (List.dropLast_subset _ hb)

example : ∃ h', insertAfter (fun a => if a = 0 then some 7 else if a = 7 then some 4 else none) (some 7) 5 = some (h', some 5)
    ∧ Chain h' 0 [7, 5, 4] := by
  obtain ⟨h', e, hc, -⟩ := C125_insert_after (fun a => if a = 0 then some 7 else if a = 7 then some 4 else none) 0 [7] [4] (by simp [Chain]) 5 (by simp)
  exact ⟨h', e, hc⟩

/-- `erase_after` removes and unlinks the following item, and returns an iterator to the item after it; after the last item it is
undefined. -/
theorem C125_erase_after (h : Heap) (fst : Nat) (l1 : List Nat) :
    (∀ x l2, Chain h fst (l1 ++ x :: l2) → ∃ h', eraseAfter h (some (l1.getLastD fst)) = some (h', l2.head?) ∧ Chain h' fst (l1 ++ l2)
      ∧ h' x = none ∧ SameBut h h' [l1.getLastD fst, x])
    ∧ (Chain h fst l1 → eraseAfter h (some (l1.getLastD fst)) = none) := by
  constructor
  · intro x l2 hl
    have hn := chain_nodup hl
    obtain ⟨hp, hc⟩ := (chain_append l1).1 hl
    have hpm := getLastD_mem l1 fst
    have hn1 : (fst :: l1).Nodup := by
      rw [← List.cons_append] at hn
      exact (List.nodup_append.1 hn).1
    have hpd := last_not_mem_dropLast l1 fst hn1
    have hx1 : x ∉ fst :: l1 := by
      rw [← List.cons_append] at hn
      exact fun hm => (List.nodup_append.1 hn).2.2 x hm x (by simp) rfl
    set p := l1.getLastD fst with hpdef
    obtain ⟨h', e, hc', hu, hs⟩ := (C125_pop_front h p).1 x l2 hc
    refine ⟨h', ?_, (chain_append l1).2 ⟨path_congr hp fun b hb => hs b ?_, hc'⟩, hu, hs⟩
    · have e2 : nextOf h' (some p) = some l2.head? := congrArg some (C125_front (fun _ => ()) h' p l2 hc').2.1
      unfold popFront at e
      unfold eraseAfter
      rw [hc.1] at e
      simp only [nextOf, setNext, Option.map_some, Option.bind_some, hc.1, Option.some_inj] at e e2 ⊢
      rw [e, e2]
    · simp only [List.mem_cons, List.not_mem_nil, or_false, not_or]
      refine ⟨by rintro rfl; exact hpd hb, ?_⟩
      rintro rfl
      exact hx1 (List.dropLast_subset _ hb)
  · intro hl
    rw [← List.append_nil l1] at hl
    have := ((chain_append l1).1 hl).2
    unfold eraseAfter
    rw [nextOf, Option.map_some, show h _ = none from this]
    rfl

/-- `erase_after(position, last)` removes and unlinks the items between. -/
theorem C125_erase_range (h : Heap) (fst : Nat) (l1 m l2 : List Nat) (hl : Chain h fst (l1 ++ (m ++ l2))) :
    ∃ h', eraseRange h (some (l1.getLastD fst)) l2.head? = some (h', l2.head?) ∧ Chain h' fst (l1 ++ l2)
      ∧ (∀ x ∈ m, h' x = none) ∧ SameBut h h' (l1.getLastD fst :: m) := by
  have hn := chain_nodup hl
  obtain ⟨hp, hc⟩ := (chain_append l1).1 hl
  have hpm := getLastD_mem l1 fst
  rw [← List.cons_append, ← List.append_assoc] at hn
  have hn12 := (List.nodup_append.1 hn).1
  have hn1 := (List.nodup_append.1 hn12).1
  have hpd := last_not_mem_dropLast l1 fst hn1
  have hm1 : ∀ x ∈ m, x ∉ fst :: l1 := fun x hx hx1 => (List.nodup_append.1 hn12).2.2 x hx1 x hx rfl
  have hm2 : ∀ x ∈ m, x ∉ l2 := fun x hx hx2 => (List.nodup_append.1 hn).2.2 x (List.mem_append_right _ hx) x hx2 rfl
  have hp2 : l1.getLastD fst ∉ l2 := fun hx2 => (List.nodup_append.1 hn).2.2 _ (List.mem_append_left _ hpm) _ hx2 rfl
  set p := l1.getLastD fst with hpdef
  have hpnm : p ∉ m := fun hx => hm1 p hx hpm
  obtain ⟨h', e, hu, hs⟩ := eraseLoop_eq l2.head? m (set h p l2.head?)
    (run_congr (chain_run hc) fun b hb => set_ne _ _ (by rintro rfl; exact hpnm hb)) (List.nodup_append.1 hn12).2.1
    fun x hx e => hm2 x hx (List.mem_of_mem_head? e)
  have hsb : SameBut h h' (p :: m) := by
    intro b hb
    simp only [List.mem_cons, not_or] at hb
    rw [hs b hb.2, set_ne _ _ hb.1]
  refine ⟨h', ?_, (chain_append l1).2 ⟨path_congr hp fun b hb => hsb b ?_, ?_⟩, hu, hsb⟩
  · unfold eraseRange
    simp only [nextOf, setNext, Option.map_some, Option.bind_some]
    rw [chain_head hc, List.head?_append, e]
    rfl
  · simp only [List.mem_cons, not_or]
    exact ⟨by rintro rfl; exact hpd hb, fun hm => hm1 b hm (List.dropLast_subset _ hb)⟩
  · have hpl : h' p = l2.head? := by rw [hs p hpnm, set_self]
    cases l2 with
    | nil => exact hpl
    | cons c l2 =>
      rw [show m ++ c :: l2 = (m ++ [c]) ++ l2 by simp, chain_append] at hc
      refine ⟨hpl, chain_congr (by simpa using hc.2) fun d hd => hsb d ?_⟩
      simp only [List.mem_cons, not_or]
      exact ⟨by rintro rfl; exact hp2 hd, fun hm => hm2 d hm hd⟩

/-- `clear()` empties the list and unlinks all its items. -/
theorem C125_clear (h : Heap) (fst : Nat) (l : List Nat) (hl : Chain h fst l) :
    ∃ h', unlinkAll h fst = some h' ∧ Chain h' fst [] ∧ (∀ x ∈ l, h' x = none) ∧ SameBut h h' (fst :: l) := by
  obtain ⟨h', e, hu, hs⟩ := unlinkAll_eq l fst h hl
  exact ⟨h', e, hu fst (by simp), fun x hx => hu x (List.mem_cons_of_mem _ hx), hs⟩

/-- `unlink(x)` removes the item if it is in the list, and does nothing if not. -/
theorem C125_unlink (h : Heap) (fst : Nat) (l : List Nat) (hl : Chain h fst l) (x : Nat) (hx : x ≠ fst) :
    ∃ h', unlink h fst x = some h' ∧ Chain h' fst (l.erase x) ∧ (x ∈ l → h' x = none) ∧ SameBut h h' (fst :: l) ∧ (x ∉ l → h' = h) :=
  unlinkLoop_eq x l fst h hl hx

/-- `unlink(first, last)` removes the items of a range of items. -/
theorem C125_unlink_range (h : Heap) (fst : Nat) (l : List Nat) (hl : Chain h fst l) (xs : List Nat) (hx : fst ∉ xs) :
    ∃ h', unlinkRange h fst xs = some h' ∧ Chain h' fst (l.filter (· ∉ xs)) ∧ (∀ x ∈ l, x ∈ xs → h' x = none)
      ∧ SameBut h h' (fst :: l) := by
  induction xs generalizing h l with
  | nil => exact ⟨h, rfl, by simpa using hl, by simp, fun _ _ => rfl⟩
  | cons x xs ih =>
    have hn := (List.nodup_cons.1 (chain_nodup hl)).2
    obtain ⟨h1, e1, hc1, hu1, hs1, -⟩ := C125_unlink h fst l hl x (by rintro rfl; simp at hx)
    obtain ⟨h2, e2, hc2, hu2, hs2⟩ := ih h1 _ hc1 (fun hm => hx (List.mem_cons_of_mem _ hm))
    refine ⟨h2, by rw [unlinkRange, e1]; exact e2, ?_, ?_, ?_⟩
    · rw [hn.erase_eq_filter, List.filter_filter] at hc2
      have : l.filter (· ∉ x :: xs) = l.filter (fun a => decide (a ∉ xs) && (a != x)) := by
        apply List.filter_congr
        intro a _
        by_cases hax : a = x <;> simp [hax]
      rw [this]
      exact hc2
    · intro y hy hys
      by_cases hyx : y = x
      · subst hyx
        have hyf : y ≠ fst := by rintro rfl; exact (List.nodup_cons.1 (chain_nodup hl)).1 hy
        rw [hs2 y (by rw [hn.erase_eq_filter]; simp [hyf])]
        exact hu1 hy
      · exact hu2 y (by rw [List.mem_erase_of_ne hyx]; exact hy) (by simpa [hyx] using hys)
    · intro a ha
      simp only [List.mem_cons, not_or] at ha
      rw [hs2 a (by simp only [List.mem_cons, not_or]; exact ⟨ha.1, fun hm => ha.2 (List.mem_of_mem_erase hm)⟩),
        hs1 a (by simp only [List.mem_cons, not_or]; exact ha)]

example : ∃ h', unlinkRange (fun a => if a = 0 then some 7 else if a = 7 then some 4 else none) 0 [7, 9] = some h' ∧ Chain h' 0 [4] := by
  obtain ⟨h', e, hc, -⟩ := C125_unlink_range (fun a => if a = 0 then some 7 else if a = 7 then some 4 else none) 0 [7, 4] (by simp [Chain]) [7, 9] (by simp)
  exact ⟨h', e, by simpa using hc⟩

/-! ### whole lists -/

/-- The move constructor leaves the items in the list moved from: they are in both lists then. -/
theorem C125_move_refuted (h : Heap) (fst : Nat) (l : List Nat) (hl : Chain h fst l) (new : Nat) (hx : new ∉ fst :: l) :
    Chain (moveCtor h fst new) new l ∧ Chain (moveCtor h fst new) fst l := by
  constructor
  · cases l with
    | nil =>
      show set _ _ _ _ = none
      rw [set_self]
      exact hl
    | cons b l =>
      refine ⟨by rw [moveCtor, set_self]; exact hl.1, chain_congr hl.2 fun c hc => set_ne _ _ ?_⟩
      rintro rfl
      exact hx (List.mem_cons_of_mem _ hc)
  · exact chain_congr hl fun c hc => set_ne _ _ (by rintro rfl; exact hx hc)

/-- Construction, `push_front` and `insert_after` from ranges of items, `swap`, `assign`, move assignment and assignment of values to
items do not compile. -/
theorem C125_compile_refuted (h : Heap) (a b : Nat) : fromRange h = none ∧ Clist.swap h a b = none := by
  refine ⟨?_, rfl⟩
  unfold fromRange
  rw [if_neg (by decide)]

end Sprout

import Verif.Proofs.FixedAlg
import Verif.Proofs.Moves
import Verif.Spec.Moves

/-! # Algorithms that return containers: the single algorithms -/

namespace Sprout.FixedAlg

open ContOp

variable {α β : Type} [Inhabited α]

/-! ## copying -/

theorem copyRa_rewrites {c : Cont α} (h : c.Ok) (xs : List α) : Rewrites (copyRa xs c) c (writeFront c.vis xs) :=
  packRa_rewrites h rfl fun j _ _ => rdz_nat xs j

theorem copyIn_rewrites {c : Cont α} (h : c.Ok) (xs : List α) : Rewrites (copyIn xs c) c (writeFront c.vis xs) :=
  collect_rewrites h (f := fun x => [x]) (fun _ _ _ => rfl) (by simp) (by simp)

omit [Inhabited α] in
theorem length_writeBack (v ws : List α) : (writeBack v ws).length = v.length := by
  simp [writeBack]
  omega

theorem copyBackwardRa_rewrites {c : Cont α} (h : c.Ok) (xs : List α) : Rewrites (copyBackwardRa xs c) c (writeBack c.vis xs) := by
  obtain ⟨X, Z, hp⟩ := parts' h
  have e1 := hp.pre
  have e2 := hp.len
  have e3 := hp.fin
  have hl := length_writeBack c.vis xs
  refine pack_rewrites hp hl ?_ ?_ ?_
  · intro i hi
    rw [if_neg (by omega)]
  · intro j hj
    rw [hl] at hj
    by_cases hjn : c.vis.length ≤ j + xs.length
    · rw [if_pos (by push_cast; omega),
        show (xs.length : ℤ) + (((X.length + j : ℕ) : ℤ) - c.endOff) = ((xs.length + j - c.vis.length : ℕ) : ℤ) by push_cast; omega,
        rdz_nat, writeBack, List.getElem?_append_right (by simp; omega), List.getElem?_drop]
      congr 1
      simp
      omega
    · rw [if_neg (by push_cast; omega), internal_window hp hj, writeBack, List.getElem?_append_left (by simp; omega),
        List.getElem?_take_of_lt (by omega)]
  · intro i hi _
    rw [if_neg (by omega)]

theorem complateBackward2_eq {c : Cont α} {B : List α} (hB : c.block.take c.static = B) (hs : c.static ≤ c.block.length)
    (hI : internalEnd c = c.static) (args : List α) (ha : args.length ≤ c.static) :
    complateBackward2 c args = some (remake c c c.size (B.take (c.static - args.length) ++ args)) := by
  have hlen : B.length = c.static := by rw [← hB]; simp; omega
  induction hk : c.static - args.length generalizing args with
  | zero =>
    rw [complateBackward2, if_pos (by omega)]
    simp
  | succ k ih =>
    have hlt : args.length < c.static := by omega
    have hx : internalAt c (internalEnd c - (args.length + 1)) = some (B[k]'(by omega)) := by
      rw [hI, show (c.static : ℤ) - (args.length + 1) = (k : ℕ) by omega, internal_eq hB (by omega), List.getElem?_eq_getElem (by omega)]
    rw [complateBackward2, if_neg (by omega), if_pos hlt, hx]
    simp only [bind, Option.bind]
    rw [ih _ (by simp; omega) (by simp; omega)]
    congr 2
    rw [List.take_succ_eq_append_getElem (by omega)]
    simp only [List.append_assoc, List.cons_append, List.nil_append]

theorem complateBackward1_eq {c : Cont α} {B : List α} (hB : c.block.take c.static = B) (hs : c.static ≤ c.block.length)
    (hI : internalEnd c = c.static) : ∀ (remain : ℕ) (args : List α), args.length + remain ≤ c.static →
      complateBackward1 c remain args =
        some (remake c c c.size (B.take (c.static - args.length - remain) ++ args ++ B.drop (c.static - remain)))
  | 0, args, h => by
    have hlen : B.length = c.static := by rw [← hB]; simp; omega
    rw [complateBackward1]
    split_ifs with h0
    · rw [List.drop_of_length_le (by omega), h0]
      simp
    · rw [complateBackward2_eq hB hs hI args (by omega), List.drop_of_length_le (by omega)]
      simp
  | remain + 1, args, h => by
    have hlen : B.length = c.static := by rw [← hB]; simp; omega
    have hx : internalAt c (internalEnd c - (remain + 1)) = some (B[c.static - (remain + 1)]'(by omega)) := by
      rw [hI, show (c.static : ℤ) - (remain + 1) = (c.static - (remain + 1) : ℕ) by omega, internal_eq hB (by omega),
        List.getElem?_eq_getElem (by omega)]
    rw [complateBackward1, if_neg (by omega), hx]
    simp only [bind, Option.bind]
    rw [complateBackward1_eq hB hs hI remain _ (by simp; omega), List.drop_eq_getElem_cons (i := c.static - (remain + 1)) (by omega)]
    congr 2
    rw [show c.static - (remain + 1) + 1 = c.static - remain by omega, List.length_append, List.length_singleton,
      show c.static - (args.length + 1) - remain = c.static - args.length - (remain + 1) by omega]
    simp only [List.append_assoc, List.cons_append, List.nil_append]

theorem complateBackward_rewrites {c : Cont α} (h : c.Ok) (hI : internalEnd c = c.static) {ws : List α} (hw : ws.length ≤ c.vis.length) :
    Rewrites (complateBackward c ws) c (writeBack c.vis ws) := by
  obtain ⟨X, Z, hp⟩ := parts' h
  have e1 := hp.pre
  have e2 := hp.len
  have e3 := hp.total
  have e4 := hp.fin
  have hl := length_writeBack c.vis ws
  have hwf : writeBack c.vis ws = c.vis.take (c.vis.length - ws.length) ++ ws := by
    rw [writeBack, Nat.sub_eq_zero_of_le hw, List.drop_zero]
  rw [complateBackward]
  split_ifs with h0 h1
  · have hX : X = [] := List.eq_nil_of_length_eq_zero (by omega)
    have hZ : Z = [] := List.eq_nil_of_length_eq_zero (by omega)
    have := remake_rewrites hp hl
    rw [hX, hZ] at this
    rw [hwf, show c.vis.length - ws.length = 0 by omega] at this ⊢
    simpa using this
  · omega
  · have hz : (internalEnd c - c.endOff).toNat = Z.length := by omega
    rw [hz, complateBackward1_eq hp.blk hp.le hI _ _ (by omega)]
    have e : List.take (c.static - ws.length - Z.length) (X ++ c.vis ++ Z) ++ ws ++ List.drop (c.static - Z.length) (X ++ c.vis ++ Z) =
        X ++ writeBack c.vis ws ++ Z := by
      rw [show c.static - ws.length - Z.length = X.length + (c.vis.length - ws.length) by omega,
        show c.static - Z.length = (X ++ c.vis).length by simp; omega, List.drop_left, hwf, List.append_assoc X c.vis Z,
        List.take_length_add_append, List.take_append_of_le_length (by omega)]
      simp
    rw [e]
    exact remake_rewrites hp hl

/-- values put in front -/
theorem collect_front {c : Cont α} (h : c.Ok) {fin : List α → Option (Cont α)}
    (hfin : ∀ a : List α, c.static = a.length → fin a = some (remake c c c.size a)) :
    ∀ (xs args : List α), args.length ≤ c.vis.length →
      collect c (fun args x => .go (x :: args)) fin xs args = fin ((xs.take (c.vis.length - args.length)).reverse ++ args)
  | [], args, ha => by
    rw [collect]
    split_ifs with h0
    · simp [hfin _ h0]
    · simp
  | x :: xs, args, ha => by
    obtain ⟨X, Z, hp⟩ := parts' h
    have e2 := hp.len
    have hle := vis_le_static h
    rw [collect]
    split_ifs with h0 h1
    · rw [show c.vis.length - args.length = 0 by omega]
      simp [hfin _ h0]
    · have ih := collect_front h hfin xs (x :: args) (by simp; omega)
      simp only [List.length_cons] at ih
      simp only
      rw [ih, show c.vis.length - args.length = (c.vis.length - (args.length + 1)) + 1 by omega]
      simp
    · rw [show c.vis.length - args.length = 0 by omega]
      simp

theorem copyBackwardIn_rewrites {c : Cont α} (h : c.Ok) (hI : internalEnd c = c.static) (xs : List α) :
    Rewrites (copyBackwardIn xs c) c (writeBack c.vis xs) := by
  rw [copyBackwardIn, collect_front h (fun a ha => by rw [complateBackward, if_pos ha]) _ _ (by simp)]
  have e : writeBack c.vis xs = writeBack c.vis ((xs.reverse.take (c.vis.length - ([] : List α).length)).reverse ++ []) := by
    rw [List.append_nil, List.length_nil, Nat.sub_zero, List.take_reverse, List.reverse_reverse, writeBack, writeBack, List.length_drop]
    by_cases hl : xs.length ≤ c.vis.length
    · rw [show xs.length - c.vis.length = 0 by omega, List.drop_zero, Nat.sub_zero, Nat.sub_eq_zero_of_le hl,
        List.drop_zero]
    · rw [show c.vis.length - xs.length = 0 by omega, show xs.length - (xs.length - c.vis.length) = c.vis.length by omega]
      simp
  rw [e]
  exact complateBackward_rewrites h hI (by simp)

/-! ## filling -/

theorem fillImpl_rewrites {c : Cont α} (h : c.Ok) (v : α) {n : ℕ} (hn : n ≤ c.vis.length) :
    Rewrites (fillImpl c v n) c (writeFront c.vis (List.replicate n v)) := by
  obtain ⟨X, Z, hp⟩ := parts' h
  have e1 := hp.pre
  have e2 := hp.len
  have hl := length_writeFront c.vis (List.replicate n v)
  refine pack_rewrites hp hl ?_ ?_ ?_
  · intro i hi
    rw [if_neg (by omega)]
  · intro j hj
    rw [hl] at hj
    by_cases hjn : j < n
    · rw [if_pos (by push_cast; omega), writeFront, List.getElem?_append_left (by simp; omega), List.getElem?_take_of_lt hj,
        List.getElem?_replicate, if_pos hjn]
    · rw [if_neg (by push_cast; omega), internal_window hp hj, writeFront, List.getElem?_append_right (by simp; omega), List.getElem?_drop]
      congr 1
      simp
      omega
  · intro i hi _
    rw [if_neg (by omega)]

theorem generateImpl1_eq {σ : Type} {c : Cont α} (h : c.Ok) (g : σ → α × σ) {n : ℕ} (hn : n ≤ c.vis.length) (next : α × σ) (args : List α)
    (ha : args.length + 1 ≤ n) :
    generateImpl1 c g n next args = complate c (args ++ next.1 :: genTerms g (n - (args.length + 1)) next.2) := by
  have hle := vis_le_static h
  obtain ⟨X, Z, hp⟩ := parts' h
  have e2 := hp.len
  induction hk : n - (args.length + 1) generalizing next args with
  | zero =>
    rw [generateImpl1]
    split_ifs with h0 h1
    · rw [genTerms, complate, if_pos (by simp; omega), show (n : ℤ) = c.size by omega]
    · omega
    · rw [genTerms]
  | succ k ih =>
    rw [generateImpl1, if_neg (by omega), if_pos (by omega), ih _ _ (by simp; omega) (by simp; omega), genTerms]
    simp

theorem length_genTerms {σ : Type} (g : σ → α × σ) : ∀ (n : ℕ) (s : σ), (genTerms g n s).length = n
  | 0, _ => rfl
  | n + 1, s => by rw [genTerms, List.length_cons, length_genTerms]

theorem generateImpl_rewrites {σ : Type} {c : Cont α} (h : c.Ok) (g : σ → α × σ) (s : σ) {n : ℕ} (hn : n ≤ c.vis.length) :
    Rewrites (generateImpl c g s n) c (writeFront c.vis (genTerms g n s)) := by
  have hle := vis_le_static h
  obtain ⟨X, Z, hp⟩ := parts' h
  have e2 := hp.len
  rw [generateImpl]
  split_ifs with h0 h1
  · have := complate_rewrites h (ws := []) (by simp)
    rw [complate, if_pos (by simpa using h0)] at this
    rw [show (n : ℤ) = c.size by omega, show n = 0 by omega]
    exact this
  · rw [generateImpl1_eq h g hn (g s) [] (by simp; omega), List.nil_append]
    obtain ⟨m, rfl⟩ := Nat.exists_eq_succ_of_ne_zero (by omega : n ≠ 0)
    rw [show m.succ - (([] : List α).length + 1) = m by simp, genTerms]
    exact complate_rewrites h (by simp [length_genTerms]; omega)
  · rw [show n = 0 by omega]
    exact complate_rewrites h (by simp)

theorem callGen_eq (gen : List α → α) {k : ℕ} : ∀ (args : List α), k ≤ args.length →
    callGen k gen args = some (gen (args.drop (args.length - k)))
  | [], h => by
    have : k = 0 := by simpa using h
    rw [callGen, if_pos this]
    simp
  | a :: as, h => by
    rw [callGen]
    split_ifs with h0 h1
    · rw [h0]
      simp
    · rw [h1]
      simp
    · have h2 : k ≤ as.length := by simp at h; omega
      rw [callGen_eq gen as h2, List.length_cons, show as.length + 1 - k = (as.length - k) + 1 by omega, List.drop_succ_cons]

theorem length_recTerms (gen : List α → α) (k : ℕ) : ∀ (n : ℕ) (l : List α), (recTerms gen k n l).length = l.length + n
  | 0, _ => rfl
  | n + 1, l => by rw [recTerms, length_recTerms]; simp; omega

theorem recurrenceImpl1_eq {c : Cont α} (h : c.Ok) (gen : List α → α) {n k : ℕ} (hn : n ≤ c.vis.length) (args : List α)
    (hk : k ≤ args.length) (ha : args.length ≤ n) :
    recurrenceImpl1 k c gen n args = complate c (recTerms gen k (n - args.length) args) := by
  have hle := vis_le_static h
  induction hm : n - args.length generalizing args with
  | zero =>
    rw [recurrenceImpl1]
    split_ifs with h0 h1
    · rw [recTerms, complate_full h0]
    · omega
    · rw [recTerms]
  | succ m ih =>
    rw [recurrenceImpl1, if_neg (by omega), if_pos (by omega), callGen_eq gen args hk]
    simp only [bind, Option.bind]
    rw [ih _ (by simp; omega) (by simp; omega) (by simp; omega), recTerms]

theorem recurrenceDrop_eq {c : Cont α} {n : ℕ} (hn : n ≤ c.static) : ∀ (inits : List α),
    recurrenceDrop c n inits = complate c (inits.drop (inits.length - n))
  | [] => by simp [recurrenceDrop]
  | a :: as => by
    rw [recurrenceDrop]
    split_ifs with h0 h1
    · rw [recurrenceDrop_eq hn as, List.length_cons, show as.length + 1 - n = (as.length - n) + 1 by omega, List.drop_succ_cons]
    · rw [List.length_cons, show as.length + 1 - n = 0 by omega, List.drop_zero]
    · rw [recurrenceDrop_eq hn as, List.length_cons, show as.length + 1 - n = (as.length - n) + 1 by omega, List.drop_succ_cons]

/-- few first values: the sequence; many: the last of them -/
theorem recurrenceImpl_rewrites {c : Cont α} (h : c.Ok) (gen : List α → α) (inits : List α) {n : ℕ} (hn : n ≤ c.vis.length) :
    Rewrites (recurrenceImpl c gen n inits) c
      (writeFront c.vis (recTerms gen inits.length (n - inits.length) (inits.drop (inits.length - n)))) := by
  have hle := vis_le_static h
  have key : n ≤ inits.length → Rewrites (recurrenceDrop c n inits) c
      (writeFront c.vis (recTerms gen inits.length (n - inits.length) (inits.drop (inits.length - n)))) := by
    intro hl
    rw [recurrenceDrop_eq (by omega), Nat.sub_eq_zero_of_le hl, recTerms]
    exact complate_rewrites h (by simp; omega)
  rw [recurrenceImpl]
  split_ifs with h0 h1
  · rw [recurrenceImpl1_eq h gen hn inits le_rfl (by omega), Nat.sub_eq_zero_of_le (by omega : inits.length ≤ n), List.drop_zero]
    exact complate_rewrites h (by rw [length_recTerms]; omega)
  · exact key (by omega)
  · exact key (by omega)

/-! ## removal and order -/

theorem uniqueCopyImpl_eq {c : Cont α} (h : c.Ok) (p : α → α → Bool) : ∀ (xs : List α) (head : α) (args : List α),
    args.length + 1 ≤ c.vis.length →
    uniqueCopyImpl c p xs head args = complate c ((args ++ head :: Spec.dedupFrom p head xs).take c.vis.length)
  | [], head, args, ha => by
    rw [uniqueCopyImpl, Spec.dedupFrom, List.take_of_length_le (by simp; omega)]
    split_ifs with h0
    · rw [complate_full (by simpa using h0)]
    · rfl
  | x :: xs, head, args, ha => by
    have hle := vis_le_static h
    obtain ⟨X, Z, hp⟩ := parts' h
    have e2 := hp.len
    have key : c.vis.length = args.length + 1 →
        (args ++ head :: Spec.dedupFrom p head (x :: xs)).take c.vis.length = args ++ [head] := by
      intro e
      rw [e, List.take_length_add_append]
      simp
    rw [uniqueCopyImpl]
    split_ifs with h0 h1 h2
    · rw [key (by omega), complate_full (by simpa using h0)]
    · rw [uniqueCopyImpl_eq h p xs x _ (by simp; omega), Spec.dedupFrom, if_neg (by simpa using h2)]
      simp
    · rw [uniqueCopyImpl_eq h p xs head _ (by omega), Spec.dedupFrom, if_pos (by simpa using h2)]
    · rw [key (by omega)]

theorem uniqueCopy_rewrites {c : Cont α} (h : c.Ok) (p : α → α → Bool) (xs : List α) (hs : 0 < c.size) :
    Rewrites (uniqueCopy p xs c) c (writeFront c.vis (Spec.dedup p xs)) := by
  obtain ⟨X, Z, hp⟩ := parts' h
  have e2 := hp.len
  match xs with
  | [] => exact complate_rewrites h (by simp)
  | x :: xs =>
    rw [uniqueCopy, uniqueCopyImpl_eq h p xs x [] (by simp; omega), List.nil_append, ← writeFront_take]
    exact complate_rewrites h (by simp)

theorem partition_eq {c : Cont α} (h : c.Ok) (p : α → Bool) : ∀ (xs T F : List α), T.length + F.length ≤ c.vis.length →
    collect c (fun args x => .go (if p x then x :: args else args ++ [x])) (complate c) xs (T ++ F) =
      complate c (((xs.take (c.vis.length - (T.length + F.length))).filter p).reverse ++ T ++
        (F ++ (xs.take (c.vis.length - (T.length + F.length))).filter fun x => !p x)) := by
  intro xs
  have hle := vis_le_static h
  obtain ⟨X, Z, hp⟩ := parts' h
  have e2 := hp.len
  induction xs with
  | nil =>
    intro T F ha
    rw [collect]
    split_ifs with h0
    · simp [complate_full h0]
    · simp
  | cons x xs ih =>
    intro T F ha
    rw [collect]
    by_cases h0 : c.static = (T ++ F).length
    · rw [if_pos h0]
      rw [List.length_append] at h0
      rw [show c.vis.length - (T.length + F.length) = 0 by omega]
      simp [complate_full (c := c) (ws := T ++ F) (by simp; omega)]
    rw [if_neg h0]
    by_cases h1 : ((T ++ F).length : ℤ) < c.size
    · rw [if_pos h1]
      rw [List.length_append] at h1
      obtain ⟨m, hm⟩ := Nat.exists_eq_succ_of_ne_zero (by omega : c.vis.length - (T.length + F.length) ≠ 0)
      simp only
      by_cases hx : p x = true
      · have := ih (x :: T) F (by simp; omega)
        simp only [hx, if_true]
        rw [← List.cons_append, this, hm, show c.vis.length - ((x :: T).length + F.length) = m by simp; omega]
        simp [hx]
      · have := ih T (F ++ [x]) (by simp; omega)
        simp only [hx]
        rw [if_neg (by simp), List.append_assoc, this, hm, show c.vis.length - (T.length + (F ++ [x]).length) = m by simp; omega]
        simp [hx]
    · rw [if_neg h1]
      rw [List.length_append] at h1
      rw [show c.vis.length - (T.length + F.length) = 0 by omega]
      simp

theorem collect_full {c : Cont α} {step : List α → β → Step α} {fin : List α → Option (Cont α)} {xs : List β} {a : List α}
    (h : c.static = a.length) : collect c step fin xs a = some (remake c c c.size a) := by
  cases xs <;> rw [collect, if_pos h]

omit [Inhabited α] in
theorem take_take_append (A B : List α) (n : ℕ) : (A.take n ++ B).take n = (A ++ B).take n := by
  rw [List.take_append, List.take_append, List.take_take, min_self, List.length_take]
  congr 2
  omega

/-- two ranges, one after the other -/
theorem collect_two {γ : Type} {c : Cont α} (h : c.Ok) {s1 : List α → β → Step α} {s2 : List α → γ → Step α} {f1 : β → List α} {f2 : γ → List α}
    (h1 : ∀ args x, s1 args x = .go (args ++ f1 x)) (h2 : ∀ args x, s2 args x = .go (args ++ f2 x))
    (l1 : ∀ x, (f1 x).length ≤ 1) (l2 : ∀ x, (f2 x).length ≤ 1) (xs : List β) (ys : List γ) :
    Rewrites (collect c s1 (collect c s2 (complate c) ys) xs []) c (writeFront c.vis (xs.flatMap f1 ++ ys.flatMap f2)) := by
  rw [collect_all h (fun a ha => collect_full ha) l1 xs [] (fun x _ args => h1 args x) (by simp), List.nil_append,
    collect_all h (fun a ha => complate_full ha) l2 ys _ (fun x _ args => h2 args x) (by simp), take_take_append, ← writeFront_take]
  exact complate_rewrites h (by simp)

omit [Inhabited α] in
theorem swap_get {xs : List α} {p q : ℕ} (hp : p < xs.length) (hq : q < xs.length) (k : ℕ) :
    ((xs.set p xs[q]).set q xs[p])[k]? = if k = p then xs[q]? else if k = q then xs[p]? else xs[k]? := by
  rw [List.getElem?_set, List.getElem?_set]
  have e1 := List.getElem?_eq_getElem hp
  have e2 := List.getElem?_eq_getElem hq
  by_cases h1 : q = k
  · subst h1
    by_cases h2 : q = p
    · subst h2
      simp [hp]
    · simp [h2, hq, e1]
  · by_cases h2 : p = k
    · subst h2
      simp [h1, hp, e2]
    · simp [h1, h2, Ne.symm h1, Ne.symm h2]

end Sprout.FixedAlg

import Verif.Spec.FixedAlg
import Verif.Model.FixedAlg
import Verif.Proofs.ContOp

/-! # Algorithms that return containers -/

namespace Sprout.FixedAlg

open ContOp

variable {α β : Type} [Inhabited α]

/-- `static_size`, window and block of a valid container -/
structure Parts (c : Cont α) (X Z : List α) : Prop where
  ok : c.Ok
  blk : c.block.take c.static = X ++ c.vis ++ Z
  pre : (X.length : ℤ) = c.beginOff
  len : (c.vis.length : ℤ) = c.size
  fin : c.endOff = c.beginOff + c.size
  le : c.static ≤ c.block.length
  arr : (∃ l, c = .array l) → X = []
  str : (∃ e n, c = .string e n) → X = []
  total : c.static = X.length + c.vis.length + Z.length

omit [Inhabited α] in
theorem parts' {c : Cont α} (h : c.Ok) : ∃ X Z, Parts c X Z := by
  obtain ⟨X, Z, h1, h2, h3, h4, h5, h6, h7⟩ := parts h
  have hlen := congrArg List.length h1
  simp only [List.length_take, List.length_append] at hlen
  exact ⟨X, Z, h, h1, h2, h3, h4, h5, fun h => (h6 h).1, h7, by omega⟩

/-- a new window of the same length -/
theorem remake_rewrites {c : Cont α} {X Z : List α} (h : Parts c X Z) {W : List α} (hW : W.length = c.vis.length) :
    Rewrites (some (remake c c c.size (X ++ W ++ Z))) c W := by
  have hs : c.size = (W.length : ℤ) := by rw [hW, h.len]
  obtain ⟨ok, blk, pre, len, fin, le, arr, str, tot⟩ := h
  obtain ⟨a1, a2, a3⟩ := remake_vis (W := W) (Z := Z) ok pre hs str arr
  have h2 : (remake c c c.size (X ++ W ++ Z)).static = c.static := by rw [a2]; simp; omega
  have hst : (∀ e n, c ≠ .string e n) → c.block = X ++ c.vis ++ Z := by
    intro hns
    match c, ok with
    | .array l, _ => simpa [Cont.block, Cont.static] using blk
    | .string e n, _ => exact absurd rfl (hns e n)
    | .sub (.array l) f t, _ => simpa [Cont.block, Cont.static] using blk
  refine ⟨_, rfl, a1, h2, ?_, ?_, ?_, ?_⟩
  · match c, ok with
    | .array l, _ => rfl
    | .string e n, _ => rfl
    | .sub (.array l) f t, _ => simp [remake, Cont.beginOff]
  · match c, ok with
    | .array l, _ =>
      simp only [remake, Cont.size]
      simp only [Cont.static] at tot
      simp
      omega
    | .string e n, _ =>
      have h0 : ¬ (Cont.string e n).size < 0 := by simp [Cont.size]
      simp only [remake, rawStr]
      rw [if_neg h0]
      simp [Cont.size]
    | .sub (.array l) f t, _ => simp [remake, Cont.size]
  · rw [a3]
    match c, ok with
    | .array l, _ =>
      have := hst (by simp)
      have hv : (Cont.array l).vis = l := by simp [Cont.vis, Cont.block, Cont.beginOff, Cont.size]
      rw [hv] at this
      have hl := congrArg List.length this
      simp [Cont.block] at hl
      have : Z = [] := List.eq_nil_of_length_eq_zero (by omega)
      simp [tailOf, this]
    | .string e n, _ => simp [tailOf]
    | .sub (.array l) f t, _ => simp [tailOf]
  · intro hns
    have hb := hst hns
    have hxb : (remake c c c.size (X ++ W ++ Z)).block = X ++ W ++ Z := by
      match c, ok with
      | .array l, _ => rfl
      | .string e n, _ => exact absurd rfl (hns e n)
      | .sub (.array l) f t, _ => rfl
    have e1 : c.beginOff.toNat = X.length := by omega
    have e2 : c.endOff.toNat = X.length + W.length := by omega
    rw [hxb, hb, e1, e2]
    refine ⟨?_, by simp, ?_⟩
    · match c, ok with
      | .array l, _ => simp [remake]
      | .string e n, _ => exact absurd rfl (hns e n)
      | .sub (.array l) f t, _ => simp [remake]
    rw [← List.length_append, List.drop_left]
    rw [List.length_append, hW, ← List.length_append, List.drop_left]

/-- the pack expansion of a window -/
theorem pack_rewrites {c : Cont α} {X Z : List α} (h : Parts c X Z) {W : List α} (hW : W.length = c.vis.length) {f : ℕ → Option α}
    (h1 : ∀ i < X.length, f i = internalAt c i) (h2 : ∀ j < W.length, f (X.length + j) = W[j]?)
    (h3 : ∀ i, X.length + W.length ≤ i → i < c.static → f i = internalAt c i) :
    Rewrites (do let args ← pack c.static f; some (remake c c c.size args)) c W := by
  have ht := h.total
  rw [pack_eq (X ++ W ++ Z) (by simp; omega)]
  · exact remake_rewrites h hW
  · intro i hi
    by_cases g1 : i < X.length
    · rw [h1 i g1, internal_eq h.blk hi, List.append_assoc, List.append_assoc, List.getElem?_append_left g1, List.getElem?_append_left g1]
    · by_cases g2 : i < X.length + W.length
      · obtain ⟨j, rfl⟩ := Nat.exists_eq_add_of_le (not_lt.1 g1)
        rw [h2 j (by omega), List.append_assoc, List.getElem?_append_right (by omega), List.getElem?_append_left (by omega)]
        simp
      · rw [h3 i (by omega) hi, internal_eq h.blk hi, List.getElem?_append_right (by simp; omega),
          List.getElem?_append_right (by simp; omega)]
        simp [hW]

omit [Inhabited α] in
theorem length_writeFront (v ws : List α) : (writeFront v ws).length = v.length := by
  simp [writeFront]
  omega

omit [Inhabited α] in
theorem internal_window {c : Cont α} {X Z : List α} (h : Parts c X Z) {j : ℕ} (hj : j < c.vis.length) :
    internalAt c ((X.length + j : ℕ) : ℤ) = c.vis[j]? := by
  have ht := h.total
  rw [internal_eq h.blk (by omega), List.append_assoc, List.getElem?_append_right (by omega), List.getElem?_append_left (by omega)]
  simp

theorem packRa_rewrites {c : Cont α} (h : c.Ok) {n : ℕ} {g : ℤ → Option α} {ws : List α} (hn : ws.length = n)
    (hg : ∀ j : ℕ, j < n → j < c.vis.length → g j = ws[j]?) : Rewrites (packRa c n g) c (writeFront c.vis ws) := by
  obtain ⟨X, Z, hp⟩ := parts' h
  have e1 := hp.pre
  have e2 := hp.len
  have hl := length_writeFront c.vis ws
  refine pack_rewrites hp hl ?_ ?_ ?_
  · intro i hi
    rw [if_neg (by omega)]
  · intro j hj
    rw [hl] at hj
    by_cases hjn : j < n
    · rw [if_pos (by push_cast; omega), show ((X.length + j : ℕ) : ℤ) - c.beginOff = j by push_cast; omega, hg j hjn hj]
      rw [writeFront, List.getElem?_append_left (by simp; omega), List.getElem?_take_of_lt hj]
    · rw [if_neg (by push_cast; omega), internal_window hp hj, writeFront, List.getElem?_append_right (by simp; omega), List.getElem?_drop]
      congr 1
      simp
      omega
  · intro i hi _
    rw [if_neg (by omega)]

/-! ## completion -/

theorem complate2_eq {c : Cont α} {B : List α} (hB : c.block.take c.static = B) (hs : c.static ≤ c.block.length) (args : List α)
    (ha : args.length ≤ c.static) : complate2 c args = some (remake c c c.size (args ++ B.drop args.length)) := by
  have hlen : B.length = c.static := by rw [← hB]; simp; omega
  induction hk : c.static - args.length generalizing args with
  | zero =>
    rw [complate2, if_pos (by omega), List.drop_of_length_le (by omega), List.append_nil]
  | succ k ih =>
    have hlt : args.length < c.static := by omega
    have hx : internalAt c args.length = some (B[args.length]'(by omega)) := by
      rw [internal_eq hB hlt, List.getElem?_eq_getElem (by omega)]
    rw [complate2, if_neg (by omega), if_pos hlt, hx]
    simp only [bind, Option.bind]
    rw [ih _ (by simp; omega) (by simp; omega)]
    congr 2
    rw [List.append_assoc, List.length_append, List.length_singleton, List.singleton_append, ← List.drop_eq_getElem_cons]

theorem complate1_eq {c : Cont α} {B : List α} (hB : c.block.take c.static = B) (hs : c.static ≤ c.block.length) :
    ∀ (remain : ℕ) (args : List α), args.length + remain ≤ c.static →
      complate1 c remain args = some (remake c c c.size (B.take remain ++ args ++ B.drop (remain + args.length)))
  | 0, args, h => by
    have hlen : B.length = c.static := by rw [← hB]; simp; omega
    rw [complate1]
    split_ifs with h0
    · rw [List.drop_of_length_le (by omega)]
      simp
    · rw [complate2_eq hB hs args (by omega)]
      simp
  | remain + 1, args, h => by
    have hlen : B.length = c.static := by rw [← hB]; simp; omega
    have hx : internalAt c remain = some (B[remain]'(by omega)) := by
      rw [internal_eq hB (by omega), List.getElem?_eq_getElem (by omega)]
    rw [complate1, if_neg (by omega), hx]
    simp only [bind, Option.bind]
    rw [complate1_eq hB hs remain _ (by simp; omega)]
    congr 2
    rw [List.take_succ_eq_append_getElem (by omega), show remain + (B[remain] :: args).length = remain + 1 + args.length by simp; omega]
    simp only [List.append_assoc, List.cons_append, List.nil_append]

theorem complate_rewrites {c : Cont α} (h : c.Ok) {ws : List α} (hw : ws.length ≤ c.vis.length) :
    Rewrites (complate c ws) c (writeFront c.vis ws) := by
  obtain ⟨X, Z, hp⟩ := parts' h
  have e1 := hp.pre
  have e2 := hp.len
  have e3 := hp.total
  have hl := length_writeFront c.vis ws
  have hwf : writeFront c.vis ws = ws ++ c.vis.drop ws.length := by rw [writeFront, List.take_of_length_le hw]
  rw [complate]
  split_ifs with h0 h1
  · have hX : X = [] := List.eq_nil_of_length_eq_zero (by omega)
    have hZ : Z = [] := List.eq_nil_of_length_eq_zero (by omega)
    have := remake_rewrites hp hl
    rw [hX, hZ] at this
    rw [hwf, List.drop_of_length_le (by omega)] at this ⊢
    simpa using this
  · omega
  · rw [complate1_eq hp.blk hp.le _ _ (by omega)]
    have hx : c.beginOff.toNat = X.length := by omega
    have e : List.take c.beginOff.toNat (X ++ c.vis ++ Z) ++ ws ++ List.drop (c.beginOff.toNat + ws.length) (X ++ c.vis ++ Z) =
        X ++ writeFront c.vis ws ++ Z := by
      rw [hx, hwf, List.append_assoc X c.vis Z, List.take_left, ← List.drop_drop, List.drop_left, List.drop_append_of_le_length hw]
      simp
    rw [e]
    exact remake_rewrites hp hl

theorem complate_full {c : Cont α} {ws : List α} (h : c.static = ws.length) : complate c ws = some (remake c c c.size ws) := by
  rw [complate, if_pos h]

/-! ## collection -/

omit [Inhabited α] in
theorem vis_le_static {c : Cont α} (h : c.Ok) : c.vis.length ≤ c.static := by
  obtain ⟨X, Z, hp⟩ := parts' h
  have := hp.total
  omega

/-- steps that put at most one value at the end, until one stops -/
theorem collect_while {c : Cont α} (h : c.Ok) {step : List α → β → Step α} {f : β → List α} {p : β → Bool} {fin : List α → Option (Cont α)}
    (hfin : ∀ a : List α, c.static = a.length → fin a = some (remake c c c.size a)) (hf : ∀ x, (f x).length ≤ 1) :
    ∀ (xs : List β) (args : List α), (∀ x ∈ xs, ∀ args, step args x = if p x then .go (args ++ f x) else .stop) →
      args.length ≤ c.vis.length →
      collect c step fin xs args = fin ((args ++ (xs.takeWhile p).flatMap f).take c.vis.length)
  | [], args, _, ha => by
    rw [collect]
    simp only [List.takeWhile_nil, List.flatMap_nil, List.append_nil, List.take_of_length_le ha]
    split_ifs with h0
    · exact (hfin _ h0).symm
    · rfl
  | x :: xs, args, hs, ha => by
    obtain ⟨X, Z, hp⟩ := parts' h
    have e2 := hp.len
    have hle := vis_le_static h
    rw [collect]
    split_ifs with h0 h1
    · rw [List.take_append_of_le_length (by omega), List.take_of_length_le (by omega), hfin _ h0]
    · rw [hs x (by simp) args, List.takeWhile_cons]
      by_cases hx : p x = true
      · simp only [hx, if_true]
        rw [collect_while h hfin hf xs _ (fun y hy => hs y (by simp [hy])) (by have := hf x; simp; omega)]
        simp
      · simp only [hx]
        simp [List.take_of_length_le ha]
    · rw [List.take_append_of_le_length (by omega), List.take_of_length_le (by omega)]

theorem collect_all {c : Cont α} (h : c.Ok) {step : List α → β → Step α} {f : β → List α} {fin : List α → Option (Cont α)}
    (hfin : ∀ a : List α, c.static = a.length → fin a = some (remake c c c.size a)) (hf : ∀ x, (f x).length ≤ 1)
    (xs : List β) (args : List α) (hs : ∀ x ∈ xs, ∀ args, step args x = .go (args ++ f x)) (ha : args.length ≤ c.vis.length) :
    collect c step fin xs args = fin ((args ++ xs.flatMap f).take c.vis.length) := by
  rw [collect_while h (p := fun _ => true) hfin hf xs args (fun x hx args => by rw [hs x hx]; rfl) ha]
  have ht : ∀ l : List β, l.takeWhile (fun _ => true) = l := by
    intro l
    induction l with
    | nil => rfl
    | cons a l ih => rw [List.takeWhile_cons, ih]; rfl
  rw [ht]

omit [Inhabited α] in
theorem writeFront_take (v ws : List α) : writeFront v (ws.take v.length) = writeFront v ws := by
  rw [writeFront, writeFront, List.take_take, min_self, List.length_take]
  congr 1
  by_cases hl : ws.length ≤ v.length
  · rw [min_eq_right hl]
  · rw [min_eq_left (by omega), List.drop_of_length_le le_rfl, List.drop_of_length_le (by omega)]

theorem collect_rewrites {c : Cont α} (h : c.Ok) {step : List α → β → Step α} {f : β → List α} {ws : List α} {xs : List β}
    (hs : ∀ x ∈ xs, ∀ args, step args x = .go (args ++ f x)) (hf : ∀ x, (f x).length ≤ 1) (hw : xs.flatMap f = ws) :
    Rewrites (collect c step (complate c) xs []) c (writeFront c.vis ws) := by
  rw [collect_all h (fun a ha => complate_full ha) hf xs [] hs (by simp), List.nil_append, hw, ← writeFront_take]
  exact complate_rewrites h (by simp)

omit [Inhabited α] in
theorem flatMap_filter (p : α → Bool) (l : List α) : l.flatMap (fun x => if p x then [x] else []) = l.filter p := by
  induction l with
  | nil => rfl
  | cons a l ih =>
    rw [List.flatMap_cons, List.filter_cons, ih]
    by_cases h : p a = true <;> simp [h]

omit [Inhabited α] in
theorem flatMap_pure (f : β → α) (l : List β) : l.flatMap (fun x => [f x]) = l.map f := by
  induction l with
  | nil => rfl
  | cons a l ih => rw [List.flatMap_cons, List.map_cons, ih]; rfl

/-- values read by index -/
theorem collect_read {c : Cont α} (h : c.Ok) {n : ℕ} {r : ℕ → Option α} {ws : List α} (hn : ws.length = n) (hr : ∀ k < n, r k = ws[k]?) :
    Rewrites (collect c (fun args k => Step.read args (r k)) (complate c) (List.range n) []) c (writeFront c.vis ws) := by
  refine collect_rewrites h (f := fun k => (ws[k]?).toList) ?_ ?_ ?_
  · intro k hk args
    have hk' : k < n := List.mem_range.1 hk
    rw [hr k hk', List.getElem?_eq_getElem (by omega)]
    rfl
  · intro k
    cases ws[k]? <;> simp
  · subst hn
    apply List.ext_getElem?
    intro i
    have key : ∀ m ≤ ws.length, (List.range m).flatMap (fun k => (ws[k]?).toList) = ws.take m := by
      intro m
      induction m with
      | zero => intro _; rfl
      | succ m ih =>
        intro hm
        rw [List.range_succ, List.flatMap_append, ih (by omega), List.take_succ]
        simp
    rw [key _ le_rfl, List.take_length]

end Sprout.FixedAlg

import Verif.Spec.ContainerOps
import Mathlib.Tactic.Linarith
import Mathlib.Tactic.Ring

/-! # Container operations -/

namespace Sprout.ContOp

variable {α : Type}

theorem pack_eq {n : ℕ} {f : ℕ → Option α} (l : List α) (hl : l.length = n) (h : ∀ i < n, f i = l[i]?) : pack n f = some l := by
  unfold pack
  have key : ∀ (k : ℕ), k ≤ n → (List.range k).mapM f = some (l.take k) := by
    intro k
    induction k with
    | zero => intro _; rfl
    | succ k ih =>
      intro hk
      rw [List.range_succ, List.mapM_append, ih (by omega)]
      have hg : l[k]? = some l[k] := List.getElem?_eq_getElem (by omega)
      simp only [List.mapM_cons, List.mapM_nil, h k (by omega), hg]
      simp
  rw [key n le_rfl, List.take_of_length_le (by omega)]

theorem pack_congr {n : ℕ} {f g : ℕ → Option α} (h : ∀ i < n, f i = g i) : pack n f = pack n g := by
  unfold pack
  have key : ∀ (l : List ℕ), (∀ i ∈ l, f i = g i) → l.mapM f = l.mapM g := by
    intro l
    induction l with
    | nil => intro _; rfl
    | cons a l ih =>
      intro hl
      rw [List.mapM_cons, List.mapM_cons, hl a (by simp), ih (fun i hi => hl i (by simp [hi]))]
  exact key _ fun i hi => h i (List.mem_range.1 hi)

theorem rdz_nat (l : List α) (n : ℕ) : rdz l n = l[n]? := by
  unfold rdz
  rw [if_pos (by omega), Int.toNat_natCast]

/-- the parts of a valid container -/
theorem parts {c : Cont α} (h : c.Ok) : ∃ X Z, c.block.take c.static = X ++ c.vis ++ Z ∧ (X.length : ℤ) = c.beginOff ∧
    (c.vis.length : ℤ) = c.size ∧ c.endOff = c.beginOff + c.size ∧ c.static ≤ c.block.length ∧
    ((∃ l, c = .array l) → X = [] ∧ Z = []) ∧ ((∃ e n, c = .string e n) → X = []) := by
  match c, h with
  | .array l, _ =>
    refine ⟨[], [], ?_, ?_, ?_, ?_, ?_, ?_, ?_⟩ <;> simp [Cont.block, Cont.static, Cont.vis, Cont.beginOff, Cont.size, Cont.endOff]
  | .string e n, h =>
    simp only [Cont.Ok] at h
    refine ⟨[], (e.take (e.length - 1)).drop n, ?_, ?_, ?_, ?_, ?_, ?_, ?_⟩
    · simp only [Cont.block, Cont.static, Cont.vis, Cont.beginOff, Cont.size, List.nil_append]
      conv_lhs => rw [← List.take_append_drop n (e.take (e.length - 1))]
      rw [List.take_take, min_eq_left (by omega), Int.toNat_zero, List.drop_zero, Int.toNat_natCast]
    all_goals simp [Cont.block, Cont.static, Cont.vis, Cont.beginOff, Cont.size, Cont.endOff]
    omega
  | .sub (.array l) f t, h =>
    simp only [Cont.Ok] at h
    obtain ⟨h1, h2, h3⟩ := h
    obtain ⟨a, rfl⟩ := Int.eq_ofNat_of_zero_le h1
    obtain ⟨b, hb⟩ := Int.eq_ofNat_of_zero_le (by omega : 0 ≤ t - a)
    have ht : t = ((a + b : ℕ) : ℤ) := by omega
    subst ht
    refine ⟨l.take a, l.drop (a + b), ?_, ?_, ?_, ?_, ?_, ?_, ?_⟩
    · simp only [Cont.block, Cont.static, Cont.vis, Cont.beginOff, Cont.size, List.take_length]
      rw [show (0 + (a : ℤ)).toNat = a by omega, show (((a + b : ℕ) : ℤ) - a).toNat = b by omega]
      rw [← List.take_add, List.take_append_drop]
    all_goals simp [Cont.block, Cont.static, Cont.vis, Cont.beginOff, Cont.size, Cont.endOff]
    all_goals omega

theorem internal_eq {c : Cont α} {B : List α} (hB : c.block.take c.static = B) {i : ℕ} (hi : i < c.static) : internalAt c i = B[i]? := by
  rw [internalAt, rdz_nat, ← hB, List.getElem?_take_of_lt hi]

theorem begin_eq {c : Cont α} (h : c.Ok) {i : ℕ} (hi : (i : ℤ) < c.size) : beginAt c i = c.vis[i]? := by
  obtain ⟨X, Z, h1, h2, h3, h4, h5, -⟩ := parts h
  have hlen := congrArg List.length h1
  simp only [List.length_take, List.length_append] at hlen
  have : c.beginOff + (i : ℤ) = ((X.length + i : ℕ) : ℤ) := by push_cast; omega
  rw [beginAt, this]
  have := internal_eq h1 (i := X.length + i) (by omega)
  rw [internalAt] at this
  rw [this, List.append_assoc, List.getElem?_append_right (by omega), Nat.add_sub_cancel_left, List.getElem?_append_left (by omega)]

variable [Inhabited α]

/-- the values of an insertion -/
theorem pack_splice {c : Cont α} {A C ws : List α} (hB : c.block.take c.static = A ++ C) (hs : c.static ≤ c.block.length) {pos : ℤ}
    (hpos : pos = A.length) {n : ℕ} (hn : c.static + ws.length ≤ n) {g : ℤ → Option α}
    (hg : ∀ j : ℕ, j < ws.length → g j = ws[j]?) :
    pack n (fun i : ℕ => if (i : ℤ) < c.static + ws.length then
      if (i : ℤ) < pos then internalAt c i else if (i : ℤ) < pos + ws.length then g (i - pos) else internalAt c (i - ws.length)
      else some default) = some (A ++ ws ++ C ++ List.replicate (n - (c.static + ws.length)) default) := by
  have hlen := congrArg List.length hB
  simp only [List.length_take, List.length_append] at hlen
  refine pack_eq _ (by simp; omega) fun i hi => ?_
  split_ifs with h1 h2 h3
  · rw [internal_eq hB (by omega), List.append_assoc, List.append_assoc, List.getElem?_append_left (by omega),
      List.getElem?_append_left (by omega)]
  · rw [show (i : ℤ) - pos = ((i - A.length : ℕ) : ℤ) by omega, hg _ (by omega), List.append_assoc, List.append_assoc,
      List.getElem?_append_right (by omega), List.getElem?_append_left (by omega)]
  · rw [List.getElem?_append_left (by simp; omega), List.getElem?_append_right (by simp; omega),
      show (i : ℤ) - ws.length = ((i - ws.length : ℕ) : ℤ) by omega, internal_eq hB (by omega), List.getElem?_append_right (by omega)]
    congr 1
    simp
    omega
  · rw [List.getElem?_append_right (by simp; omega), List.getElem?_replicate, if_pos (by simp; omega)]

/-- the values of a removal -/
theorem pack_cut {c : Cont α} {A D C : List α} (hB : c.block.take c.static = A ++ D ++ C) (hs : c.static ≤ c.block.length) {pos : ℤ}
    (hpos : pos = A.length) :
    pack (c.static - D.length) (fun i : ℕ => if i < c.static - D.length then
      if (i : ℤ) < pos then internalAt c i else internalAt c (i + D.length) else some default) = some (A ++ C) := by
  have hlen := congrArg List.length hB
  simp only [List.length_take, List.length_append] at hlen
  refine pack_eq _ (by simp; omega) fun i hi => ?_
  rw [if_pos hi]
  split_ifs with h2
  · rw [internal_eq hB (by omega), List.append_assoc, List.getElem?_append_left (by omega), List.getElem?_append_left (by omega)]
  · rw [show (i : ℤ) + D.length = ((i + D.length : ℕ) : ℤ) by push_cast; ring, internal_eq hB (by omega),
      List.getElem?_append_right (by simp; omega), List.getElem?_append_right (by omega)]
    congr 1
    simp
    omega

/-- what is made anew -/
theorem remake_vis {c : Cont α} (h : c.Ok) {X W Z : List α} (hX : (X.length : ℤ) = c.beginOff) {s : ℤ} (hs : s = W.length)
    (hstr : (∃ e n, c = .string e n) → X = []) (harr : (∃ l, c = .array l) → X = []) :
    (remake c c s (X ++ W ++ Z)).Ok ∧ (remake c c s (X ++ W ++ Z)).static = (X ++ W ++ Z).length ∧
    (remake c c s (X ++ W ++ Z)).vis = W ++ tailOf c Z := by
  match c, h with
  | .array l, _ =>
    rw [harr ⟨l, rfl⟩]
    simp [remake, Cont.Ok, Cont.static, Cont.vis, Cont.block, Cont.beginOff, Cont.size, tailOf]
    omega
  | .string e n, h =>
    rw [hstr ⟨e, n, rfl⟩]
    subst hs
    simp only [remake, rawStr, List.nil_append]
    rw [if_neg (by omega), Int.toNat_natCast]
    refine ⟨by simp [Cont.Ok]; omega, by simp [Cont.static], ?_⟩
    simp only [Cont.vis, Cont.block, Cont.beginOff, Cont.size, Int.toNat_zero, List.drop_zero, Int.toNat_natCast, tailOf, List.append_nil]
    refine List.ext_getElem? fun i => ?_
    rw [List.getElem?_take]
    split_ifs with hi
    · rw [List.getElem?_map, List.getElem?_range (by simp; omega), Option.map_some, if_pos hi, List.getD_eq_getElem?_getD,
        List.getElem?_append_left hi, List.getElem?_eq_getElem hi]
      rfl
    · rw [List.getElem?_eq_none (by omega)]
  | .sub (.array l) f t, h =>
    subst hs
    simp only [remake]
    have hb : (Cont.sub (.array l) f t).beginOff = X.length := hX.symm
    rw [hb]
    refine ⟨by simp [Cont.Ok], by simp [Cont.static], ?_⟩
    simp only [Cont.vis, Cont.block, Cont.beginOff, Cont.size]
    rw [show (0 + (X.length : ℤ)).toNat = X.length by omega, show ((X.length : ℤ) + W.length - X.length).toNat = W.length by omega,
      List.append_assoc, List.drop_left, List.take_left]
    simp [tailOf]

omit [Inhabited α] in
theorem paramAt_eq (v : α) (vs : List α) (n : ℕ) (h : n < (v :: vs).length) : some (paramAt n v vs) = (v :: vs)[n]? := by
  induction vs generalizing v n with
  | nil =>
    simp at h
    subst h
    rfl
  | cons w ws ih =>
    rw [paramAt]
    split_ifs with h0
    · subst h0; rfl
    · obtain ⟨m, rfl⟩ := Nat.exists_eq_succ_of_ne_zero h0
      rw [Nat.succ_sub_one, ih w m (by simp at h ⊢; omega)]
      rfl

omit [Inhabited α] in
theorem Cont.Ok.inBounds {c : Cont α} (h : c.Ok) : c.InBounds := by
  obtain ⟨X, Z, h1, h2, h3, h4, h5, -⟩ := parts h
  have hlen := congrArg List.length h1
  simp only [List.length_take, List.length_append] at hlen
  refine ⟨by omega, by omega, h4, by omega⟩

/-- the window of what is made anew -/
theorem remake_fit {c : Cont α} (h : c.Ok) {X W Z : List α} (hX : (X.length : ℤ) = c.beginOff) {s : ℤ} (hs : s = W.length)
    (hstr : (∃ e n, c = .string e n) → X = []) {e : ℤ} (he : e = c.beginOff + s) :
    (subCopy (getInternal (remake c c s (X ++ W ++ Z))) c.beginOff e).InBounds ∧
    (subCopy (getInternal (remake c c s (X ++ W ++ Z))) c.beginOff e).vis = W := by
  subst he hs
  match c, h with
  | .array l, _ =>
    have hb : (Cont.array l).beginOff = X.length := hX.symm
    rw [hb]
    simp only [remake, getInternal, subCopy, Cont.InBounds, Cont.vis, Cont.block, Cont.beginOff, Cont.size, Cont.endOff]
    refine ⟨⟨by omega, by omega, by omega, by simp⟩, ?_⟩
    rw [show (0 + (X.length : ℤ)).toNat = X.length by omega, show ((X.length : ℤ) + W.length - X.length).toNat = W.length by omega,
      List.append_assoc, List.drop_left, List.take_left]
  | .string e n, h =>
    have hX' := hstr ⟨e, n, rfl⟩
    have := remake_vis (W := W) (Z := Z) (s := W.length) h hX rfl hstr (by rintro ⟨l, hl⟩; cases hl)
    subst hX'
    simp only [remake, rawStr, List.nil_append] at this ⊢
    rw [if_neg (by omega), Int.toNat_natCast] at this ⊢
    obtain ⟨-, -, hv⟩ := this
    simp only [getInternal, subCopy, Cont.InBounds, Cont.beginOff, Cont.size, Cont.endOff, Cont.vis, Cont.block, tailOf, List.append_nil] at hv ⊢
    refine ⟨⟨by omega, by omega, by omega, by simp; omega⟩, ?_⟩
    simpa using hv
  | .sub (.array l) f t, h =>
    have hb : (Cont.sub (.array l) f t).beginOff = X.length := hX.symm
    simp only [remake]
    rw [hb]
    simp only [getInternal, subCopy, Cont.InBounds, Cont.vis, Cont.block, Cont.beginOff, Cont.size, Cont.endOff]
    refine ⟨⟨by omega, by omega, by omega, by simp⟩, ?_⟩
    rw [show (0 + (X.length : ℤ)).toNat = X.length by omega, show ((X.length : ℤ) + W.length - X.length).toNat = W.length by omega,
      List.append_assoc, List.drop_left, List.take_left]

/-! ## the operations -/

/-- the result of an operation: `r` from `remake` with a new window `W` -/
def Made (c : Cont α) (k : ℤ) (n : ℕ) (W T : List α) (r : Option (Cont α)) : Prop :=
  ∃ x, r = some x ∧ x.Ok ∧ x.static = n ∧ x.vis = W ++ tailOf c T ∧
    ∃ y, fitOp c k r = some y ∧ y.InBounds ∧ y.vis = W

theorem made {c : Cont α} (h : c.Ok) {X W Z T : List α} (hX : (X.length : ℤ) = c.beginOff) {s k : ℤ} (hs : s = W.length)
    (hstr : (∃ e n, c = .string e n) → X = []) (harr : (∃ l, c = .array l) → X = []) (he : c.endOff + k = c.beginOff + s) {n : ℕ}
    (hn : n = (X ++ W ++ Z).length) (hT : tailOf c Z = tailOf c T) : Made c k n W T (some (remake c c s (X ++ W ++ Z))) := by
  obtain ⟨a1, a2, a3⟩ := remake_vis (Z := Z) h hX hs hstr harr
  obtain ⟨b1, b2⟩ := remake_fit (Z := Z) h hX hs hstr he
  exact ⟨_, rfl, a1, by rw [a2, hn], by rw [a3, hT], _, rfl, b1, b2⟩

omit [Inhabited α] in
theorem split_vis {c : Cont α} (h : c.Ok) {p : ℕ} (hp : (p : ℤ) ≤ c.size) : ∃ X Z, c.block.take c.static = X ++ c.vis.take p ++ (c.vis.drop p ++ Z) ∧
    (X.length : ℤ) = c.beginOff ∧ (c.vis.length : ℤ) = c.size ∧ c.endOff = c.beginOff + c.size ∧ c.static ≤ c.block.length ∧
    ((∃ l, c = .array l) → X = [] ∧ Z = []) ∧ ((∃ e n, c = .string e n) → X = []) ∧ (c.vis.take p).length = p := by
  obtain ⟨X, Z, h1, h2, h3, h4, h5, h6, h7⟩ := parts h
  refine ⟨X, Z, ?_, h2, h3, h4, h5, h6, h7, by rw [List.length_take]; omega⟩
  rw [h1, List.append_assoc, List.append_assoc, ← List.append_assoc (c.vis.take p), List.take_append_drop]

omit [Inhabited α] in
theorem tailOf_nil {c : Cont α} {X Z : List α} (h : (∃ l, c = .array l) → X = [] ∧ Z = []) (T : List α) : tailOf c (Z ++ T) = tailOf c T := by
  match c with
  | .array l => rw [(h ⟨l, rfl⟩).2, List.nil_append]
  | .string _ _ => rfl
  | .sub _ _ _ => rfl

theorem append_made {c input : Cont α} (h : c.Ok) (hi : input.Ok) {p : ℕ} (hp : (p : ℤ) ≤ c.size) :
    Made c input.size (c.static + input.static) (splice c.vis p input.vis) (List.replicate (input.static - input.size.toNat) default)
      (appendImpl c (c.beginOff + p) input) := by
  obtain ⟨X, Z, h1, h2, h3, h4, h5, h6, h7, h8⟩ := split_vis h hp
  obtain ⟨X', Z', i1, i2, i3, i4, i5, -⟩ := parts hi
  have hlen := congrArg List.length h1
  simp only [List.length_take, List.length_append, List.length_drop] at hlen
  have hlen' := congrArg List.length i1
  simp only [List.length_take, List.length_append] at hlen'
  have := pack_splice (c := c) h1 h5 (ws := input.vis) (pos := c.beginOff + p) (by rw [List.length_append, h8]; push_cast; omega)
    (n := c.static + input.static) (by omega) (g := beginAt input) (fun j hj => begin_eq hi (by omega))
  rw [appendImpl]
  rw [i3] at this
  rw [this]
  have e : X ++ List.take p c.vis ++ input.vis ++ (List.drop p c.vis ++ Z) ++
      List.replicate (c.static + input.static - (c.static + input.vis.length)) default =
      X ++ splice c.vis p input.vis ++ (Z ++ List.replicate (input.static - input.size.toNat) default) := by
    rw [splice, show c.static + input.static - (c.static + input.vis.length) = input.static - input.size.toNat by omega]
    simp only [List.append_assoc]
  rw [e]
  refine made h h2 ?_ h7 (fun ha => (h6 ha).1) (by omega) ?_ (tailOf_nil h6 _)
  · simp only [splice, List.length_append, List.length_take, List.length_drop]
    omega
  · simp only [splice, List.length_append, List.length_take, List.length_drop, List.length_replicate]
    omega

theorem insert_made {c : Cont α} (h : c.Ok) {p : ℕ} (hp : (p : ℤ) ≤ c.size) {ws : List α} {g : ℤ → Option α}
    (hg : ∀ j : ℕ, j < ws.length → g j = ws[j]?) {f : ℕ → Option α}
    (hf : ∀ i : ℕ, f i = if (i : ℤ) < c.static + ws.length then
      if (i : ℤ) < c.beginOff + p then internalAt c i else if (i : ℤ) < c.beginOff + p + ws.length then g (i - (c.beginOff + p))
        else internalAt c (i - ws.length)
      else some default) :
    Made c ws.length (c.static + ws.length) (splice c.vis p ws) []
      (do let args ← pack (c.static + ws.length) f; some (remake c c (c.size + ws.length) args)) := by
  obtain ⟨X, Z, h1, h2, h3, h4, h5, h6, h7, h8⟩ := split_vis h hp
  have hlen := congrArg List.length h1
  simp only [List.length_take, List.length_append, List.length_drop] at hlen
  have := pack_splice (c := c) h1 h5 (ws := ws) (pos := c.beginOff + p) (by rw [List.length_append, h8]; push_cast; omega)
    (n := c.static + ws.length) le_rfl (g := g) hg
  rw [pack_congr fun i _ => hf i, this, Nat.sub_self, List.replicate_zero, List.append_nil]
  have e : X ++ List.take p c.vis ++ ws ++ (List.drop p c.vis ++ Z) = X ++ splice c.vis p ws ++ Z := by
    rw [splice]
    simp only [List.append_assoc]
  rw [e]
  refine made h h2 ?_ h7 (fun ha => (h6 ha).1) (by omega) ?_ ?_
  · simp only [splice, List.length_append, List.length_take, List.length_drop]
    omega
  · simp only [splice, List.length_append, List.length_take, List.length_drop]
    omega
  · have := tailOf_nil h6 []
    rwa [List.append_nil] at this

theorem erase_made {c : Cont α} (h : c.Ok) {p N : ℕ} (hp : (p : ℤ) + N ≤ c.size) {f : ℕ → Option α}
    (hf : ∀ i : ℕ, f i = if i < c.static - N then
      if (i : ℤ) < c.beginOff + p then internalAt c i else internalAt c (i + N) else some default) :
    Made c (-N) (c.static - N) (cut c.vis p N) []
      (do let args ← pack (c.static - N) f; some (remake c c (c.size - N) args)) := by
  obtain ⟨X, Z, h1, h2, h3, h4, h5, h6, h7, h8⟩ := split_vis h (p := p) (by omega)
  have hlen := congrArg List.length h1
  simp only [List.length_take, List.length_append, List.length_drop] at hlen
  have hD : ((c.vis.drop p).take N).length = N := by rw [List.length_take, List.length_drop]; omega
  have h1' : c.block.take c.static = X ++ c.vis.take p ++ (c.vis.drop p).take N ++ (c.vis.drop (p + N) ++ Z) := by
    rw [h1, List.append_assoc (X ++ _), ← List.append_assoc ((c.vis.drop p).take N), ← List.drop_drop, List.take_append_drop]
  have := pack_cut (c := c) h1' h5 (pos := c.beginOff + p) (by rw [List.length_append, h8]; push_cast; omega)
  rw [hD] at this
  rw [pack_congr fun i _ => hf i, this]
  have e : X ++ List.take p c.vis ++ (List.drop (p + N) c.vis ++ Z) = X ++ cut c.vis p N ++ Z := by
    rw [cut]
    simp only [List.append_assoc]
  rw [e]
  refine made h h2 ?_ h7 (fun ha => (h6 ha).1) (by omega) ?_ ?_
  · simp only [cut, List.length_append, List.length_take, List.length_drop]
    omega
  · simp only [cut, List.length_append, List.length_take, List.length_drop]
    omega
  · have := tailOf_nil h6 []
    rwa [List.append_nil] at this

theorem set_made {c : Cont α} (h : c.Ok) {p : ℕ} (hp : (p : ℤ) < c.size) (v : α) :
    Made c 0 c.static (c.vis.set p v) [] (setImpl c (c.beginOff + p) v) := by
  obtain ⟨X, Z, h1, h2, h3, h4, h5, h6, h7⟩ := parts h
  have hlen := congrArg List.length h1
  simp only [List.length_take, List.length_append, List.length_drop] at hlen
  rw [setImpl, pack_eq (X ++ c.vis.set p v ++ Z) (by simp; omega)]
  · refine made h h2 (by simp [h3]) h7 (fun ha => (h6 ha).1) (by omega) (by simp; omega) ?_
    have := tailOf_nil h6 []
    rwa [List.append_nil] at this
  · intro i hi
    split_ifs with h0
    · rw [internal_eq h1 hi]
      simp only [List.append_assoc, List.getElem?_append]
      split_ifs with g1 g2 g3 g4
      · rfl
      · rw [List.getElem?_set_ne (by omega)]
      · simp at g3; omega
      · simp at g4; omega
      · simp
    · have hi' : i = X.length + p := by omega
      subst hi'
      rw [List.append_assoc, List.getElem?_append_right (by omega), Nat.add_sub_cancel_left, List.getElem?_append_left (by simp; omega),
        List.getElem?_set_self (by omega)]

theorem Made.gives {c : Cont α} {k : ℤ} {n : ℕ} {W T : List α} {r : Option (Cont α)} (h : Made c k n W T r) : Gives r n (W ++ tailOf c T) :=
  let ⟨x, h1, h2, h3, h4, _⟩ := h
  ⟨x, h1, h2, h3, h4⟩

theorem Made.gives' {c : Cont α} {k : ℤ} {n : ℕ} {W : List α} {r : Option (Cont α)} (h : Made c k n W [] r) : Gives r n W := by
  have := h.gives
  rwa [show tailOf c ([] : List α) = [] by cases c <;> rfl, List.append_nil] at this

theorem Made.shows {c : Cont α} {k : ℤ} {n : ℕ} {W T : List α} {r : Option (Cont α)} (h : Made c k n W T r) : Shows (fitOp c k r) W :=
  let ⟨_, _, _, _, _, h5⟩ := h
  h5

theorem insertImpl_made {c : Cont α} (h : c.Ok) {p : ℕ} (hp : (p : ℤ) ≤ c.size) (v : α) (vs : List α) :
    Made c (1 + vs.length) (c.static + (1 + vs.length)) (splice c.vis p (v :: vs)) [] (insertImpl c (c.beginOff + p) v vs) := by
  have := insert_made h hp (ws := v :: vs) (g := fun j => some (paramAt j.toNat v vs))
    (fun j hj => by
      simp only [Int.toNat_natCast]
      exact paramAt_eq _ _ _ hj)
    (f := fun i => if i < c.static + (1 + vs.length) then
      if (i : ℤ) < c.beginOff + p then internalAt c i
      else if (i : ℤ) < c.beginOff + p + 1 + vs.length then some (paramAt (i - (c.beginOff + p)).toNat v vs)
      else internalAt c (i - (1 + vs.length))
      else some default)
    (fun i => by
      simp only [List.length_cons, Nat.cast_add, Nat.cast_one]
      have e1 : (i < c.static + (1 + vs.length)) = ((i : ℤ) < c.static + (vs.length + 1)) := propext (by omega)
      rw [show (1 + (vs.length : ℤ)) = vs.length + 1 by omega,
        show c.beginOff + (p : ℤ) + (vs.length + 1 : ℤ) = c.beginOff + p + 1 + vs.length by omega]
      simp only [e1])
  simp only [List.length_cons, Nat.cast_add, Nat.cast_one] at this
  rw [insertImpl]
  rwa [add_comm vs.length 1, add_comm (vs.length : ℤ) 1, ← add_assoc c.size] at this

theorem flatten_replicate_getElem? (l : List α) : ∀ (N j : ℕ), j < (List.replicate N l).flatten.length →
    (List.replicate N l).flatten[j]? = l[j % l.length]?
  | 0, j, h => by simp at h
  | N + 1, j, h => by
    rw [List.replicate_succ, List.flatten_cons, List.length_append] at h
    rw [List.replicate_succ, List.flatten_cons]
    by_cases hj : j < l.length
    · rw [List.getElem?_append_left hj, Nat.mod_eq_of_lt hj]
    · rw [List.getElem?_append_right (by omega), flatten_replicate_getElem? l N _ (by omega), ← Nat.mod_eq_sub_mod (by omega)]

theorem insertNImpl_made {c : Cont α} (h : c.Ok) {p : ℕ} (hp : (p : ℤ) ≤ c.size) (N : ℕ) (v : α) (vs : List α) :
    Made c ((1 + vs.length) * N : ℕ) (c.static + (1 + vs.length) * N) (splice c.vis p (List.replicate N (v :: vs)).flatten) []
      (insertNImpl N c (c.beginOff + p) v vs) := by
  have hl : (List.replicate N (v :: vs)).flatten.length = (1 + vs.length) * N := by
    simp [List.length_flatten]
    ring
  have := insert_made h hp (ws := (List.replicate N (v :: vs)).flatten) (g := fun j => some (paramAt (j.toNat % (1 + vs.length)) v vs))
    (fun j hj => by
      simp only [Int.toNat_natCast]
      rw [flatten_replicate_getElem? _ _ _ hj, List.length_cons, add_comm 1 vs.length]
      exact paramAt_eq _ _ _ (Nat.mod_lt _ (by simp)))
    (f := fun i => if i < c.static + (1 + vs.length) * N then
      if (i : ℤ) < c.beginOff + p then internalAt c i
      else if (i : ℤ) < c.beginOff + p + ((1 + vs.length) * N : ℕ) then some (paramAt ((i - (c.beginOff + p)).toNat % (1 + vs.length)) v vs)
      else internalAt c (i - ((1 + vs.length) * N : ℕ))
      else some default)
    (fun i => by
      have e1 : (i < c.static + (1 + vs.length) * N) = ((i : ℤ) < c.static + ((1 + vs.length) * N : ℕ)) := propext (by omega)
      rw [hl]
      simp only [e1])
  rw [hl] at this
  exact this

theorem eraseImpl_made {c : Cont α} (h : c.Ok) {p : ℕ} (hp : (p : ℤ) + 1 ≤ c.size) :
    Made c (-1) (c.static - 1) (cut c.vis p 1) [] (eraseImpl c (c.beginOff + p)) :=
  erase_made h (N := 1) hp fun _ => rfl

theorem eraseNImpl_made {c : Cont α} (h : c.Ok) {p N : ℕ} (hp : (p : ℤ) + N ≤ c.size) :
    Made c (-N) (c.static - N) (cut c.vis p N) [] (eraseNImpl N c (c.beginOff + p)) :=
  erase_made h hp fun _ => rfl

/-! ## made from values -/

variable [DecidableEq α]

/-- arrays, strings and windows of arrays -/
def Kind : Cont α → Prop
  | .array _ => True
  | .string _ _ => True
  | .sub (.array _) _ _ => True
  | _ => False

omit [Inhabited α] [DecidableEq α] in
theorem Cont.Ok.kind {c : Cont α} (h : c.Ok) : Kind c := by
  match c, h with
  | .array _, _ => trivial
  | .string _ _, _ => trivial
  | .sub (.array _) _ _, _ => trivial

theorem make_gives {shape : Cont α} (h : Kind shape) (args : List α) : Gives (some (make shape args)) args.length (upTo shape args) := by
  match shape, h with
  | .array l, _ => exact ⟨_, rfl, trivial, rfl, by simp [make, Cont.vis, Cont.block, Cont.beginOff, Cont.size, upTo]⟩
  | .string e n, _ =>
    have hle := List.idxOf_le_length (a := default) (l := args)
    refine ⟨_, rfl, ?_, ?_, ?_⟩
    · simp only [make, rawStr, Cont.Ok, List.length_map, List.length_range]
      omega
    · simp [make, rawStr, Cont.static]
    · simp only [make, rawStr, Cont.vis, Cont.block, Cont.beginOff, Cont.size, upTo, Int.toNat_zero, List.drop_zero, Int.toNat_natCast]
      apply List.ext_getElem?
      intro i
      simp only [List.getElem?_take, List.getElem?_map]
      split_ifs with hi
      · rw [List.getElem?_range (by omega)]
        simp only [Option.map_some, hi, if_true]
        rw [List.getD_eq_getElem?_getD, List.getElem?_eq_getElem (by omega)]
        rfl
      · rfl
  | .sub (.array l) f t, _ =>
    refine ⟨_, rfl, ?_, rfl, ?_⟩
    · simp [make, Cont.Ok, Cont.endOff, Cont.beginOff]
    · simp [make, Cont.vis, Cont.block, Cont.beginOff, Cont.endOff, Cont.size, upTo]

theorem resize_gives {c : Cont α} (h : c.Ok) {shape : Cont α} (hs : Kind shape) (N : ℕ) (v : α) :
    resizeImpl N shape c v = some (make shape (fitTo c.vis N v)) := by
  obtain ⟨X, Z, h1, h2, h3, h4, h5, h6, h7⟩ := parts h
  rw [resizeImpl, pack_eq (fitTo c.vis N v) (by simp [fitTo]; omega)]
  · rfl
  · intro i hi
    split_ifs with hc
    · rw [begin_eq h (by omega), fitTo, List.getElem?_append_left (by simp; omega), List.getElem?_take_of_lt hi]
    · rw [fitTo, List.getElem?_append_right (by simp; omega), List.getElem?_replicate, if_pos (by simp; omega)]

theorem resizeBackward_gives {c : Cont α} (h : c.Ok) (N : ℕ) (v : α) :
    resizeBackward N c v = some (make c (fitToBack c.vis N v)) := by
  obtain ⟨X, Z, h1, h2, h3, h4, h5, h6, h7⟩ := parts h
  rw [resizeBackward, pack_eq (fitToBack c.vis N v) (by simp [fitToBack]; omega)]
  · rfl
  · intro i hi
    rw [fitToBack]
    split_ifs with hc
    · rw [List.getElem?_append_right (by simp; omega), List.length_replicate, List.getElem?_drop,
        ← begin_eq h (by omega)]
      congr 1
      omega
    · rw [List.getElem?_append_left (by simp; omega), List.getElem?_replicate, if_pos (by omega)]

theorem fitMake {shape : Cont α} (hs : Kind shape) (hk : ∀ e n, shape ≠ .string e n) (args : List α) {n : ℕ} (hn : n ≤ args.length) :
    Shows (some (subCopy (getInternal (make shape args)) 0 n)) (args.take n) := by
  match shape, hs with
  | .array l, _ =>
    refine ⟨_, rfl, ⟨?_, ?_, ?_, ?_⟩, ?_⟩ <;>
      simp [make, getInternal, subCopy, Cont.vis, Cont.block, Cont.beginOff, Cont.size, Cont.endOff, hn]
  | .string e n, _ => exact absurd rfl (hk _ _)
  | .sub (.array l) f t, _ =>
    refine ⟨_, rfl, ⟨?_, ?_, ?_, ?_⟩, ?_⟩ <;>
      simp [make, getInternal, subCopy, Cont.vis, Cont.block, Cont.beginOff, Cont.size, Cont.endOff, hn]

end Sprout.ContOp

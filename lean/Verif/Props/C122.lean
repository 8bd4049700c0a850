import Verif.Proofs.OptionalT

/-!
# C122: optional
-/

namespace Sprout
open Opt Spec
variable {H P α : Type}

/-! ### construction, assignment -/

/-- Objects, references and references to const obey the laws of holders. -/
theorem C122_holders (d : α) (m : List α) : HolderLaws (objPolicy d) ∧ HolderLaws (refPolicy m) ∧ HolderLaws (crefPolicy m) :=
  ⟨laws_obj d, laws_ref m, laws_cref m⟩

theorem C122_construct (p : Policy H P α) (v : P) (a : α) (hv : p.ref (p.hold v) = some a) (c : Bool) :
    Holds p (empty p) none ∧ Holds p (ofValue p v) (some a) ∧ Holds p (ofCond p c v) (if c then some a else none) := by
  refine ⟨rfl, ⟨rfl, hv⟩, ?_⟩
  cases c
  · rfl
  · exact ⟨rfl, hv⟩

example : Holds (refPolicy [7, 8, 9]) (ofValue (refPolicy [7, 8, 9]) 2) (some 9) := (C122_construct (refPolicy [7, 8, 9]) 2 9 rfl true).2.1

theorem C122_copy (p : Policy H P α) (hp : HolderLaws p) (o : O H) (x : Option α) (h : Holds p o x) :
    ∃ o', copy p o = some o' ∧ Holds p o' x := by
  cases x with
  | none =>
    refine ⟨⟨o.init, p.dflt⟩, ?_, h⟩
    rw [copy, if_neg (by rw [show o.init = false from h]; decide)]
  | some a =>
    obtain ⟨b, e, hb⟩ := hp.again _ _ h.2
    refine ⟨⟨o.init, p.hold b⟩, ?_, h.1, hb⟩
    rw [copy, if_pos h.1, e]
    rfl

example : copy (refPolicy [7, 8, 9]) ⟨true, some 1⟩ = some ⟨true, some 1⟩ := by decide

/-- Moving gives the value of the source. Missing: `optional<T&>`, see `C122_move_ref_refuted`. -/
theorem C122_move_partial (p : Policy H P α) (hp : HolderLaws p) (hm : p.holdMove = some p.hold) (o : O H) (x : Option α)
    (h : Holds p o x) : ∃ o', move p o = some o' ∧ Holds p o' x := by
  obtain ⟨o', e, h'⟩ := C122_copy p hp o x h
  refine ⟨o', ?_, h'⟩
  rw [move, hm]
  exact e

example (d : α) : (objPolicy d).holdMove = some (objPolicy d).hold := rfl
example (m : List α) : (crefPolicy m).holdMove = some (crefPolicy m).hold := rfl

/-- `optional<T&>` cannot be moved at all: `value_holder<T&>(T&&)` passes an rvalue to `hold(T&)` and does not compile. -/
theorem C122_move_ref_refuted (m : List α) (o : O (Option Nat)) : move (refPolicy m) o = none := rfl

theorem C122_assign (p : Policy H P α) (hp : HolderLaws p) (this v : O H) (x : Option α) (h : Holds p v x) :
    ∃ o', assign p this v = some o' ∧ Holds p o' x := by
  obtain ⟨o', e, h'⟩ := C122_copy p hp v x h
  refine ⟨o', ?_, h'⟩
  rw [assign, e]
  rfl

example : assign (objPolicy 0) ⟨true, 3⟩ ⟨true, 5⟩ = some ⟨true, 5⟩ := by decide

theorem C122_assign_value (p : Policy H P α) (this : O H) (v : P) (a : α) (hv : p.ref (p.hold v) = some a) :
    Holds p (assignValue p this v) (some a) := ⟨rfl, hv⟩

theorem C122_reset (p : Policy H P α) (this : O H) : Holds p (reset this) none := rfl

theorem C122_swap (p : Policy H P α) (a b : O H) (x y : Option α) (ha : Holds p a x) (hb : Holds p b y) :
    Holds p (swap a b).1 y ∧ Holds p (swap a b).2 x := ⟨hb, ha⟩

/-! ### observers -/

/-- `operator*` is defined exactly if there is a value (otherwise the assertion fails). -/
theorem C122_deref (p : Policy H P α) (o : O H) (x : Option α) (h : Holds p o x) : deref p o = x := deref_holds h

/-- `get`, `value`: the value, or `bad_optional_access`. -/
theorem C122_get (p : Policy H P α) (o : O H) (x : Option α) (h : Holds p o x) :
    Opt.get p o = some (x.elim (.throw .badAccess) .ret) := by
  cases x with
  | none => rw [Opt.get, if_neg (by rw [show o.init = false from h]; decide)]; rfl
  | some a => rw [Opt.get, if_pos h.1, h.2]; rfl

example : Opt.get (objPolicy 0) ⟨false, 4⟩ = some (.throw .badAccess) := by decide

theorem C122_value_or (p : Policy H P α) (o : O H) (x : Option α) (h : Holds p o x) (v : α) : valueOr p o v = some (x.getD v) := by
  cases x with
  | none => rw [valueOr, if_neg (by rw [show o.init = false from h]; decide)]; rfl
  | some a => rw [valueOr, if_pos h.1, h.2]; rfl

/-- The member `get_pointer` is null exactly if there is no value. -/
theorem C122_get_pointer (p : Policy H P α) (hp : HolderLaws p) (o : O H) (x : Option α) (h : Holds p o x) :
    memberPtr p o = x.isSome := by
  cases x with
  | none => rw [memberPtr, if_neg (by rw [show o.init = false from h]; decide)]; rfl
  | some a => rw [memberPtr, if_pos h.1, hp.ptr _ _ h.2]; rfl

/-- The functions `get_pointer(x)` and `get(&x)` are not null if `x` is an empty optional object; `get(x)` reads what was there
before `x` was reset. -/
theorem C122_free_get_refuted (d v : α) :
    freePtr (objPolicy d) (empty (objPolicy d)) = true ∧ freeGet (objPolicy d) (reset (ofValue (objPolicy d) v)) = some v := ⟨rfl, rfl⟩

/-- For values they do what the members do. -/
theorem C122_free_get_partial (p : Policy H P α) (hp : HolderLaws p) (o : O H) (a : α) (h : Holds p o (some a)) :
    freePtr p o = true ∧ freeGet p o = some a := ⟨hp.ptr _ _ h.2, h.2⟩

/-! ### the container of at most one element -/

theorem C122_size (p : Policy H P α) (o : O H) (x : Option α) (h : Holds p o x) :
    size o = x.toList.length ∧ isEmpty o = x.isNone ∧ ∀ i, rangecheck o i = if i < x.toList.length then .ret () else .throw .outOfRange := by
  have hs : size o = x.toList.length := by
    rw [size, init_holds h]
    cases x <;> rfl
  refine ⟨hs, ?_, fun i => ?_⟩
  · rw [isEmpty, init_holds h]
    cases x <;> rfl
  · rw [rangecheck, hs]
    by_cases hi : i < x.toList.length
    · rw [if_neg (by omega), if_pos hi]
    · rw [if_pos (by omega), if_neg hi]

theorem C122_at (p : Policy H P α) (o : O H) (x : Option α) (h : Holds p o x) (i : Nat) :
    at' p o i = some ((x.toList[i]?).elim (.throw .outOfRange) .ret) := by
  rw [at', (C122_size p o x h).1]
  cases x with
  | none => rfl
  | some a =>
    cases i with
    | zero => simp [h.2]
    | succ i => simp

example : at' (objPolicy 0) ⟨true, 4⟩ 0 = some (.ret 4) ∧ at' (objPolicy 0) ⟨true, 4⟩ 1 = some (.throw .outOfRange) := by decide

theorem C122_index (p : Policy H P α) (o : O H) (a : α) (h : Holds p o (some a)) : index p o = some a := h.2

/-- The loop from `begin` to `end` sees the value, if there is one. -/
theorem C122_values (p : Policy H P α) (o : O H) (x : Option α) (h : Holds p o x) : values p o = some x.toList := by
  cases x with
  | none =>
    rw [values, begin', if_neg (by rw [show o.init = false from h]; decide), walk.eq_def, if_pos (by simp [It.eq, end'])]
    rfl
  | some a =>
    rw [values, begin', if_pos h.1, walk.eq_def, if_neg (by simp [It.eq, end']), walk.eq_def, if_pos (by simp [It.eq, It.next, end'])]
    simp [It.deref, h.2]

/-- The loop from `rbegin` to `rend` is undefined if there is a value: `end()` has a null pointer, and so has the iterator before it. -/
theorem C122_reverse_refuted (p : Policy H P α) (o : O H) (a : α) (h : Holds p o (some a)) : rvalues p o = none := by
  rw [rvalues, begin', if_pos h.1, rwalk.eq_def, if_neg (by simp [It.eq, end'])]
  rfl

example : Holds (objPolicy 0) ⟨true, 4⟩ (some 4) := ⟨rfl, rfl⟩

theorem C122_reverse_partial (p : Policy H P α) (o : O H) (h : Holds p o none) : rvalues p o = some [] := by
  rw [rvalues, begin', if_neg (by rw [show o.init = false from h]; decide), rwalk.eq_def, if_pos (by simp [It.eq, end'])]

/-- `begin` compiles for optional objects, both with and without const; -/
theorem C122_begin_partial : beginCompiles .obj (iterTy .obj) = true ∧ beginCompiles .obj (citerTy .obj) = true := by decide
/-- but not for `optional<T&>` (without const) and `optional<T const&>`. -/
theorem C122_begin_refuted : beginCompiles .ref (iterTy .ref) = false ∧ beginCompiles .cref (iterTy .cref) = false
    ∧ beginCompiles .cref (citerTy .cref) = false := by decide

/-- `max_size` is not the largest size an optional can have: it is the size now. -/
theorem C122_max_size_refuted (d v : α) : ∃ o o' : O α, o' = assignValue (objPolicy d) o v ∧ maxSize o < size o' :=
  ⟨empty (objPolicy d), _, rfl, by simp [maxSize, size, empty, assignValue, Opt.swap, ofValue]⟩

/-! ### comparison and hash -/

theorem C122_eq (p : Policy H P α) (eqv : α → α → Bool) (l r : O H) (x y : Option α) (hl : Holds p l x) (hr : Holds p r y) :
    eq p eqv l r = some (optEq eqv x y) ∧ ne p eqv l r = some (!optEq eqv x y) := by
  have h : eq p eqv l r = some (optEq eqv x y) := by
    rw [Opt.eq, deref_holds hl, deref_holds hr, init_holds hl, init_holds hr]
    cases x <;> cases y <;> rfl
  exact ⟨h, by rw [ne, h]; rfl⟩

theorem C122_lt (p : Policy H P α) (ltv : α → α → Bool) (l r : O H) (x y : Option α) (hl : Holds p l x) (hr : Holds p r y) :
    lt p ltv l r = some (optLt ltv x y) ∧ gt p ltv l r = some (optLt ltv y x) ∧ le p ltv l r = some (!optLt ltv y x)
    ∧ ge p ltv l r = some (!optLt ltv x y) := by
  have h : ∀ (l r : O H) (x y : Option α), Holds p l x → Holds p r y → lt p ltv l r = some (optLt ltv x y) := by
    intro l r x y hl hr
    rw [Opt.lt, deref_holds hl, deref_holds hr, init_holds hl, init_holds hr]
    cases x <;> cases y <;> rfl
  have h1 := h l r x y hl hr
  have h2 := h r l y x hr hl
  exact ⟨h1, h2, by rw [le, h2]; rfl, by rw [ge, h1]; rfl⟩

/-- If `<` of the values is a strict weak ordering, so is `<` of optionals. -/
theorem C122_order (ltv : α → α → Bool) (h : StrictWeak ltv) : StrictWeak (optLt ltv) := by
  refine ⟨fun a => ?_, fun a b c => ?_, fun a b c => ?_⟩
  · cases a with
    | none => rfl
    | some a => exact h.irrefl a
  · cases a <;> cases b <;> cases c <;> simp [optLt]
    exact h.trans _ _ _
  · cases a <;> cases b <;> cases c <;> simp [optLt]
    exact h.cotrans _ _ _

example : optLt (fun a b : Nat => decide (a < b)) none (some 0) = true := rfl

/-- `optional` compares with `nullopt` as with an empty optional. -/
theorem C122_nullopt (p : Policy H P α) (eqv ltv : α → α → Bool) (o : O H) (x : Option α) (h : Holds p o x) :
    [eqNull o, neNull o, ltNull o, gtNull o, leNull o, geNull o]
      = [optEq eqv x none, !optEq eqv x none, optLt ltv x none, optLt ltv none x, !optLt ltv none x, !optLt ltv x none]
    ∧ [nullEq o, nullNe o, nullLt o, nullGt o, nullLe o, nullGe o]
      = [optEq eqv none x, !optEq eqv none x, optLt ltv none x, optLt ltv x none, !optLt ltv x none, !optLt ltv none x] := by
  simp only [eqNull, neNull, ltNull, gtNull, leNull, geNull, nullEq, nullNe, nullLt, nullGt, nullLe, nullGe, init_holds h]
  cases x <;> exact ⟨rfl, rfl⟩

/-- Equal optionals have equal hash values, if equal values have. -/
theorem C122_hash (p : Policy H P α) (eqv : α → α → Bool) (h : α → Nat) (hh : ∀ a b, eqv a b = true → h a = h b) (l r : O H)
    (x y : Option α) (hl : Holds p l x) (hr : Holds p r y) (e : Opt.eq p eqv l r = some true) :
    hash p h l = hash p h r ∧ (hash p h l).isSome := by
  rw [(C122_eq p eqv l r x y hl hr).1] at e
  simp only [Opt.hash, deref_holds hl, deref_holds hr, init_holds hl, init_holds hr]
  cases x <;> cases y <;> simp [optEq] at e ⊢
  exact hh _ _ e

example : Opt.hash (objPolicy 0) id ⟨true, 7⟩ = some 7 := by decide

/-! ### streams -/

/-- What was written is read back, if the values can be. -/
theorem C122_io_round_trip (p : Policy H P α) (w : α → List Nat) (r : IStream → Option P × IStream) (o rhs : O H) (x : Option α)
    (h : Holds p o x) (rest : List Nat)
    (hr : ∀ a, x = some a → ∃ v s', p.ref (p.hold v) = some a ∧ r ⟨w a ++ rest, false, false⟩ = (some v, s') ∧ s'.fail = false ∧ s'.rest = rest) :
    ∃ t s' o', write p w o = some t ∧ Opt.read p r ⟨t ++ rest, false, false⟩ rhs = some (s', o') ∧ Holds p o' x ∧ s'.fail = false
      ∧ s'.rest = rest := by
  cases x with
  | none =>
    refine ⟨[45, 45], ⟨rest, false, false⟩, reset rhs, ?_, ?_, rfl, rfl, rfl⟩
    · rw [write, if_pos (by rw [show o.init = false from h]; rfl)]
    · simp [Opt.read, IStream.good, IStream.get]
  | some a =>
    obtain ⟨v, s', hv, e, hf, hre⟩ := hr a rfl
    refine ⟨32 :: w a, s', assignValue p rhs v, ?_, ?_, ⟨rfl, hv⟩, hf, hre⟩
    · rw [write, if_neg (by rw [h.1]; decide), deref_holds h]
      rfl
    · simp [Opt.read, IStream.good, IStream.get, e]

example : Opt.read (objPolicy 0) readNat ⟨[32, 52, 50, 10], false, false⟩ ⟨false, 0⟩ = some (⟨[10], false, false⟩, ⟨true, 42⟩) := by decide

/-- Other text sets `failbit` and does not change the optional. -/
theorem C122_read_invalid (p : Policy H P α) (r : IStream → Option P × IStream) (s : IStream) (rhs : O H)
    (h1 : s.rest.head? ≠ some 32) (h2 : s.rest.take 2 ≠ [45, 45]) (hg : s.good = true) :
    ∃ s', Opt.read p r s rhs = some (s', rhs) ∧ s'.fail = true := by
  obtain ⟨l, f, e⟩ := s
  simp only [IStream.good, Bool.and_eq_true, Bool.not_eq_true'] at hg
  obtain ⟨rfl, rfl⟩ := hg
  match l with
  | [] => exact ⟨_, rfl, rfl⟩
  | c :: l =>
    have hc : c ≠ 32 := by simpa using h1
    by_cases h45 : c = 45
    · subst h45
      match l with
      | [] => exact ⟨_, rfl, rfl⟩
      | d :: l =>
        have hd : d ≠ 45 := by simpa using h2
        refine ⟨⟨l, true, false⟩, ?_, rfl⟩
        simp [Opt.read, IStream.good, IStream.get, hd]
    · refine ⟨⟨l, true, false⟩, ?_, rfl⟩
      simp [Opt.read, IStream.good, IStream.get, hc, h45]

/-- Reading the text that consists of one space is undefined for arithmetic types: `x` is used without having been given a value. -/
theorem C122_read_refuted (rhs : O Nat) : Opt.read (objPolicy 0) readNat ⟨[32], false, false⟩ rhs = none := by
  simp [Opt.read, IStream.good, IStream.get, readNat]

/-- A failed extraction of the value overwrites the optional. -/
theorem C122_read_fail_refuted (rhs : O Nat) :
    Opt.read (objPolicy 0) readNat ⟨[32, 120], false, false⟩ rhs = some (⟨[120], true, false⟩, ⟨true, 0⟩) := by
  simp [Opt.read, IStream.good, IStream.get, readNat, assignValue, Opt.swap, ofValue, objPolicy]

end Sprout

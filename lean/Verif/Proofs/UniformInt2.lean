import Verif.Proofs.UniformInt

/-! # `uniform_int_distribution`: the same algorithm on natural numbers -/

namespace Sprout.UInt

/-- an engine with at least two different numbers -/
structure Engine.Ok (E : Engine) : Prop where
  std : E.T.Std
  hmin : E.T.Has E.min
  hmax : E.T.Has E.max
  lt : E.min < E.max

def Engine.B (E : Engine) : Nat := (E.max - E.min).toNat
def Engine.num (E : Engine) (d : Nat) : Int := E.min + d

theorem Engine.Ok.B_eq {E : Engine} (h : E.Ok) : (E.B : Int) = E.max - E.min := by
  have := h.lt
  unfold Engine.B; omega

theorem Engine.Ok.B_pos {E : Engine} (h : E.Ok) : 1 ≤ E.B := by
  have := h.lt
  unfold Engine.B; omega

theorem Engine.Ok.B_le {E : Engine} (h : E.Ok) : (E.B : Int) ≤ E.T.uns.max := by
  have e := h.B_eq
  obtain ⟨b1, b2, b3, b4, b5, b6⟩ := h.std.bounds
  obtain ⟨c1, c2, c3, c4, c5, c6⟩ := (CInt.uns_std h.std).bounds
  have c5 := c5 rfl
  have h1 := h.hmin; have h2 := h.hmax
  unfold CInt.Has at h1 h2
  simp only [CInt.uns] at c6 ⊢ c5
  omega

theorem Engine.Ok.brange {E : Engine} (h : E.Ok) : subtract E.T E.max E.min = some (E.B : Int) := by
  rw [subtract_eq h.std h.hmax h.hmin (by have := h.lt; omega), h.B_eq]

theorem Engine.Ok.sub_num {E : Engine} (h : E.Ok) {d : Nat} (hd : d ≤ E.B) : subtract E.T (E.num d) E.min = some (d : Int) := by
  have e := h.B_eq
  have h1 := h.hmin; have h2 := h.hmax
  rw [subtract_eq h.std (by unfold CInt.Has at *; unfold Engine.num; omega) h.hmin (by unfold Engine.num; omega)]
  unfold Engine.num
  congr 1
  omega

/-- an unsigned standard type -/
structure Uns (U : CInt) : Prop where
  std : U.Std
  un : U.sg = false

theorem Uns.has {U : CInt} (h : Uns U) {x : Int} (h0 : 0 ≤ x) (h1 : x ≤ U.max) : U.Has x := by
  obtain ⟨-, c2, -⟩ := h.std.bounds
  unfold CInt.Has
  omega

theorem Uns.hasLe {U : CInt} (h : Uns U) {k n : Nat} (hk : k ≤ n) (hn : (n : Int) ≤ U.max) : U.Has (k : Int) := h.has (by omega) (by omega)

theorem Uns.of {T : CInt} (h : T.Std) : Uns T.uns := ⟨CInt.uns_std h, rfl⟩

/-- `(n + 1) / (m + 1)`, computed without overflow -/
theorem limitOf_eq {U : CInt} (h : Uns U) {n m : Nat} (hm : 1 ≤ m) (hmn : m < n) (hn : (n : Int) ≤ U.max) :
    limitOf U n m = some (((n + 1) / (m + 1) : Nat) : Int) := by
  have hle : (n + 1) / (m + 1) ≤ n := by
    have : (n + 1) / (m + 1) ≤ (n + 1) / 2 := Nat.div_le_div_left (by omega) (by omega)
    omega
  unfold limitOf
  rw [CInt.conv_ok h.std (h.has (by omega) (by omega)), CInt.arith_ok h.std (h.has (by omega) (by omega))]
  simp only [Option.bind_eq_bind, Option.bind_some]
  split
  · rename_i hmax
    rw [CInt.div_ok h.std (by omega) hn (by omega), Option.bind_some, CInt.rem_ok h.std (by omega) hn (by omega), Option.bind_some]
    have e1 : (n : Int) / ((m : Int) + 1) = ((n / (m + 1) : Nat) : Int) := by push_cast; rfl
    have e2 : (n : Int) % ((m : Int) + 1) = ((n % (m + 1) : Nat) : Int) := by push_cast; rfl
    rw [e1, e2]
    have hd := Nat.div_add_mod n (m + 1)
    have hr := Nat.mod_lt n (show 0 < m + 1 by omega)
    have hq : n / (m + 1) ≤ n := Nat.div_le_self _ _
    rw [CInt.conv_ok h.std (h.hasLe hq hn)]
    by_cases hc : n % (m + 1) = m
    · have e3 : (n + 1) / (m + 1) = n / (m + 1) + 1 := by
        apply Nat.div_eq_of_eq_mul_right (by omega)
        rw [Nat.mul_add]
        omega
      rw [if_pos (by rw [hc]), show ((n / (m + 1) : Nat) : Int) + 1 = ((n / (m + 1) + 1 : Nat) : Int) from rfl,
        CInt.ar_ok h.std (h.hasLe (by omega) hn), e3]
    · have e3 : (n + 1) / (m + 1) = n / (m + 1) := by
        have : n + 1 = (n % (m + 1) + 1) + (m + 1) * (n / (m + 1)) := by omega
        rw [this, Nat.add_mul_div_left _ _ (by omega), Nat.div_eq_of_lt (by omega)]
        omega
      rw [if_neg (fun hh => hc (Int.ofNat_inj.1 hh)), e3]
  · rename_i hmax
    rw [CInt.arith_ok h.std (h.has (by omega) (by omega)), Option.bind_some, CInt.div_ok h.std (by omega) (by omega) (by omega), Option.bind_some]
    have e1 : ((n : Int) + 1) / ((m : Int) + 1) = (((n + 1) / (m + 1) : Nat) : Int) := by push_cast; rfl
    rw [e1, CInt.conv_ok h.std (h.hasLe hle hn)]

theorem bucketOf_eq {U : CInt} (h : Uns U) {n m : Nat} (hm : 1 ≤ m) (hmn : m < n) (hn : (n : Int) ≤ U.max) :
    bucketOf U m n = some (((n + 1) / (m + 1) : Nat) : Int) := limitOf_eq h hm hmn hn

/-! ### The samplers -/

/-- consume numbers below `B + 1`, produce a number; `none` if there are too few -/
abbrev Samp := List Nat → Option (Nat × List Nat)

def oneR : Samp
  | [] => none
  | d :: l => some (d, l)

/-- `d / q`, until it is at most `S` -/
def pickR (q S : Nat) : Samp
  | [] => none
  | d :: l => if d / q ≤ S then some (d / q, l) else pickR q S l

/-- a number up to `S ≤ B` -/
def smallR (twice : Bool) (B S : Nat) (l : List Nat) : Option (Nat × List Nat) :=
  if S = 0 then some (0, l)
  else if B = S then
    if twice then (oneR l).bind fun p => oneR p.2 else oneR l
  else pickR ((B + 1) / (S + 1)) S l

/-- `k` digits to the base `B + 1`, the lowest first -/
def digitsR (B : Nat) : Nat → List Nat → Option (Nat × List Nat)
  | 0, l => some (0, l)
  | _ + 1, [] => none
  | k + 1, d :: l => (digitsR B k l).map fun p => (d + (B + 1) * p.1, p.2)

/-- a number up to `R > B`: `k` digits and one more for the rest, until the whole is at most `R` -/
def loopR (twice : Bool) (B R k : Nat) (l : List Nat) : Option (Nat × List Nat) := do
  let (z, l) ← digitsR B k l
  if (B + 1) ^ k = R + 1 then some (z, l)
  else do
    let (i, l) ← smallR twice B (R / (B + 1) ^ k) l
    if z + i * (B + 1) ^ k ≤ R then some (z + i * (B + 1) ^ k, l) else loopR twice B R k l
partial_fixpoint

/-- the result of a sampler, moved to the numbers of the distribution -/
def lift (E : Engine) (mn : Int) (p : Nat × List Nat) : Int × List Int := (mn + p.1, p.2.map E.num)

/-- all numbers are at most `B` -/
def Below (B : Nat) (l : List Nat) : Prop := ∀ d ∈ l, d ≤ B

theorem Below.cons {B d : Nat} {l : List Nat} (h : Below B (d :: l)) : d ≤ B ∧ Below B l :=
  ⟨h d (by simp), fun x hx => h x (by simp [hx])⟩

theorem direct_eq {E : Engine} (h : E.Ok) {T : CInt} (hT : T.Std) {mn mx : Int} (h1 : T.Has mn) (h2 : T.Has mx) (hR : mx - mn = E.B)
    (ha : AddOk E.T.uns T mn) {l : List Nat} (hl : Below E.B l) : direct E T mn (l.map E.num) = (oneR l).map (lift E mn) := by
  cases l with
  | nil => rfl
  | cons d l =>
    obtain ⟨hd, -⟩ := hl.cons
    have hB := h.B_le
    unfold direct oneR
    simp only [List.map_cons, Option.bind_eq_bind]
    rw [h.sub_num hd, Option.bind_some, add_eq (CInt.uns_std h.std) rfl hT (by omega) (by omega) h1 (by unfold CInt.Has at *; omega) ha,
      Option.bind_some]
    simp only [Option.map_some, lift]
    rw [Int.add_comm]

theorem buckets_eq {E : Engine} (h : E.Ok) {T : CInt} (hT : T.Std) {mn mx : Int} (h1 : T.Has mn) (h2 : T.Has mx) {R q : Nat} (hR : mx - mn = R)
    (hRB : R ≤ E.B) (hq : 0 < q) (ha : AddOk E.T.uns T mn) {l : List Nat} (hl : Below E.B l) :
    buckets E T mn R q (l.map E.num) = (pickR q R l).map (lift E mn) := by
  have hU := Uns.of h.std
  have hB := h.B_le
  induction l with
  | nil => rfl
  | cons d l ih =>
    obtain ⟨hd, hl⟩ := hl.cons
    unfold buckets pickR
    simp only [List.map_cons, Option.bind_eq_bind]
    have e1 : (d : Int) / (q : Int) = ((d / q : Nat) : Int) := by push_cast; rfl
    have hq' : d / q ≤ d := Nat.div_le_self _ _
    rw [h.sub_num hd, Option.bind_some, CInt.div_ok hU.std (by omega) (by omega) (by omega), Option.bind_some, e1,
      CInt.conv_ok hU.std (hU.hasLe (Nat.le_trans hq' hd) hB), CInt.conv_ok hU.std (hU.hasLe hRB hB)]
    generalize d / q = t at hq'
    by_cases hc : t ≤ R
    · rw [if_pos (by omega), if_pos hc, add_eq hU.std rfl hT (by omega) (by omega) h1 (by unfold CInt.Has at *; omega) ha, Option.bind_some]
      simp only [Option.map_some, lift]
      rw [Int.add_comm]
    · rw [if_neg (by omega), if_neg hc]
      exact ih hl

theorem subR {T : CInt} (hT : T.Std) {mn mx : Int} (h1 : T.Has mn) (h2 : T.Has mx) {R : Nat} (hR : mx - mn = R) :
    subtract T mx mn = some (R : Int) := by
  rw [subtract_eq hT h2 h1 (by omega), hR]

theorem gen_small {E : Engine} (h : E.Ok) {T : CInt} (hT : T.Std) {mn mx : Int} (h1 : T.Has mn) (h2 : T.Has mx) {R : Nat} (hR : mx - mn = R)
    (hRB : R ≤ E.B) (ha : AddOk E.T.uns T mn) (twice : Bool) {l : List Nat} (hl : Below E.B l) :
    gen twice E T mn mx (l.map E.num) = (smallR twice E.B R l).map (lift E mn) := by
  rw [gen.eq_def]
  unfold smallR
  rw [subR hT h1 h2 hR, h.brange]
  simp only [Option.bind_eq_bind, Option.bind_some]
  by_cases h0 : R = 0
  · rw [if_pos (by omega), if_pos h0]
    simp [lift]
  · rw [if_neg (by omega), if_neg h0]
    by_cases hB : E.B = R
    · rw [if_pos (by omega), if_pos hB]
      cases twice with
      | false => exact direct_eq h hT h1 h2 (by omega) ha hl
      | true =>
        simp only [if_true]
        cases l with
        | nil => rfl
        | cons d l =>
          obtain ⟨hd, hl⟩ := hl.cons
          simp only [List.map_cons, oneR, Option.bind_some]
          rw [h.sub_num hd, Option.bind_some]
          exact direct_eq h hT h1 h2 (by omega) ha hl
    · rw [if_neg (by omega), if_neg hB, if_neg (by omega), bucketOf_eq (Uns.of h.std) (by omega) (by omega) h.B_le, Option.bind_some]
      exact buckets_eq h hT h1 h2 hR hRB (Nat.div_pos (by omega) (by omega)) ha hl

theorem wider_max {U V : CInt} (hU : Uns U) (hV : Uns V) : Uns (wider U V) ∧ U.max ≤ (wider U V).max ∧ V.max ≤ (wider U V).max := by
  unfold wider
  have e : ∀ A B : CInt, Uns A → Uns B → A.w ≤ B.w → A.max ≤ B.max := by
    intro A B hA hB hw
    have : (2 : Int) ^ A.w ≤ 2 ^ B.w := pow_le_pow_right₀ (by omega) hw
    simp [CInt.max, hA.un, hB.un]
    omega
  split
  · exact ⟨hV, e _ _ hU hV (by omega), Int.le_refl _⟩
  · exact ⟨hU, Int.le_refl _, e _ _ hV hU (by omega)⟩

/-- the low digits -/
theorem lowDigits_eq {E : Engine} (h : E.Ok) {U : CInt} (hU : Uns U) {R k : Nat} (hR : (R : Int) ≤ U.max) (hBR : E.B < R)
    (hk1 : (E.B + 1) ^ k ≤ R + 1) (hk2 : R + 1 < (E.B + 1) ^ (k + 1)) : ∀ (i j acc : Nat) (l : List Nat), j + i = k → ((E.B + 1) ^ k = R + 1 → 0 < i) →
      acc < (E.B + 1) ^ j → Below E.B l →
      lowDigits E U R E.B (((R + 1) / (E.B + 1) : Nat) : Int) acc (((E.B + 1) ^ j : Nat) : Int) (l.map E.num) =
        (digitsR E.B i l).map fun p => if (E.B + 1) ^ k = R + 1 then .inl (((acc + (E.B + 1) ^ j * p.1 : Nat) : Int), p.2.map E.num)
          else .inr (((acc + (E.B + 1) ^ j * p.1 : Nat) : Int), (((E.B + 1) ^ k : Nat) : Int), p.2.map E.num) := by
  have hB1 := h.B_pos
  have hB := h.B_le
  intro i
  induction i with
  | zero =>
    intro j acc l hj hx hacc hl
    simp only [Nat.add_zero] at hj
    subst hj
    have hne : ¬ (E.B + 1) ^ j = R + 1 := fun hc => absurd (hx hc) (by omega)
    unfold lowDigits
    rw [if_neg]
    · simp [digitsR, if_neg hne]
    · intro hc
      have hc := Int.ofNat_le.1 hc
      rw [Nat.le_div_iff_mul_le (by omega)] at hc
      rw [Nat.pow_succ] at hk2
      omega
  | succ i ih =>
    intro j acc l hj hx hacc hl
    have hjk : (E.B + 1) ^ j * (E.B + 1) ≤ R + 1 := by
      rw [← Nat.pow_succ]
      exact Nat.le_trans (Nat.pow_le_pow_right (by omega) (by omega)) hk1
    have hpos : 0 < (E.B + 1) ^ j := Nat.pow_pos (by omega)
    have hexact : (E.B + 1) ^ (j + 1) = R + 1 → i = 0 := by
      intro he
      by_contra hi
      have : (E.B + 1) ^ (j + 2) ≤ (E.B + 1) ^ k := Nat.pow_le_pow_right (by omega) (by omega)
      rw [show j + 2 = (j + 1) + 1 by omega, Nat.pow_succ, he] at this
      have : (R + 1) * 2 ≤ (R + 1) * (E.B + 1) := Nat.mul_le_mul_left _ (by omega)
      omega
    unfold lowDigits
    rw [if_pos (by rw [Int.ofNat_le, Nat.le_div_iff_mul_le (by omega)]; exact hjk)]
    cases l with
    | nil => rfl
    | cons d l =>
      obtain ⟨hd, hl⟩ := hl.cons
      obtain ⟨hw, hw1, hw2⟩ := wider_max (Uns.of h.std) hU
      have hdm : d * (E.B + 1) ^ j ≤ E.B * (E.B + 1) ^ j := Nat.mul_le_mul_right _ hd
      have hmul : (E.B + 1) ^ j * (E.B + 1) = E.B * (E.B + 1) ^ j + (E.B + 1) ^ j := by rw [Nat.mul_add, Nat.mul_one, Nat.mul_comm]
      have hMB : (E.B + 1) ^ j ≤ E.B * (E.B + 1) ^ j := Nat.le_mul_of_pos_left _ hB1
      rw [Nat.pow_succ] at hexact
      simp only [List.map_cons, Option.bind_eq_bind]
      rw [h.sub_num hd, Option.bind_some]
      have e1 : (d : Int) * (((E.B + 1) ^ j : Nat) : Int) = ((d * (E.B + 1) ^ j : Nat) : Int) := by push_cast; rfl
      have e2 : (((E.B + 1) ^ j : Nat) : Int) * (E.B : Int) = ((E.B * (E.B + 1) ^ j : Nat) : Int) := by push_cast; ring
      have e3 : ∀ mm : Nat, (mm : Int) * ((E.B : Int) + 1) = ((mm * (E.B + 1) : Nat) : Int) := by intro mm; push_cast; rfl
      rw [e1, CInt.conv_ok hU.std (hU.hasLe (show E.B ≤ R by omega) hR), e2]
      have ihj := ih (j + 1) (acc + d * (E.B + 1) ^ j) l (by omega)
      rw [Nat.pow_succ] at ihj
      simp only [digitsR, Option.map_map]
      have e4 : ∀ z : Nat, acc + (E.B + 1) ^ j * (d + (E.B + 1) * z) = acc + d * (E.B + 1) ^ j + (E.B + 1) ^ j * (E.B + 1) * z := by
        intro z; ring
      generalize hM : (E.B + 1) ^ j = M at *
      generalize hD : d * M = D at *
      generalize hBM : E.B * M = BM at *
      rw [CInt.arith_ok hw.std (hw.hasLe (show D ≤ R by omega) (by omega)), Option.bind_some,
        CInt.conv_ok hU.std (hU.hasLe (show D ≤ R by omega) hR), ← Int.natCast_add,
        CInt.ar_ok hU.std (hU.hasLe (show acc + D ≤ R by omega) hR), Option.bind_some,
        CInt.arith_ok hU.std (hU.hasLe (show BM ≤ R by omega) hR), Option.bind_some,
        CInt.arith_ok hU.std (hU.has (by omega) (by omega)), Option.bind_some,
        CInt.arith_ok hU.std (hU.has (by omega) (by omega)), Option.bind_some]
      by_cases hc : M * (E.B + 1) = R + 1
      · rw [if_pos (by omega)]
        have hi := hexact hc
        subst hi
        have hk' : (E.B + 1) ^ k = R + 1 := by rw [← hj, Nat.pow_succ, hM, hc]
        simp [digitsR, hk', Nat.mul_comm M]
        exact e1.symm
      · rw [if_neg (by omega), CInt.arith_ok hU.std (hU.has (by omega) (by omega)), Option.bind_some, e3,
          CInt.ar_ok hU.std (hU.hasLe (show M * (E.B + 1) ≤ R by omega) hR), Option.bind_some]
        rw [ihj ?_ (by omega) hl]
        · cases digitsR E.B i l with
          | none => rfl
          | some p => simp only [Option.map_some, Function.comp]; rw [e4]
        · intro he
          by_contra hi
          have hi : i = 0 := by omega
          subst hi
          rw [← hj, Nat.zero_add, Nat.pow_succ, hM] at he
          exact hc he

/-- an unsigned sum that wraps around -/
theorem ar_wrap {T : CInt} (hT : T.Std) {x : Int} (h0 : T.uns.max < x) (h1 : x ≤ 2 * T.uns.max + 1) : T.uns.ar x = some (x - T.uns.max - 1) := by
  obtain ⟨c1, c2, c3, c4, c5, c6⟩ := (CInt.uns_std hT).bounds
  have c5 := c5 rfl
  have e : (2 : Int) ^ T.w = T.uns.max + 1 := by
    simp only [CInt.uns] at c6 c5 ⊢
    omega
  have hm : x % (2 : Int) ^ T.w = x - T.uns.max - 1 := by
    rw [e, show x = x - T.uns.max - 1 + (T.uns.max + 1) * 1 by omega, Int.add_mul_emod_self_left, Int.emod_eq_of_lt (by omega) (by omega)]
    omega
  have hc : ∀ y : Int, 0 ≤ y → y ≤ T.uns.max → T.uns.conv y = y := fun y a b => CInt.conv_ok (CInt.uns_std hT) (by unfold CInt.Has; omega)
  unfold CInt.ar CInt.arith
  split
  · rename_i hw
    have hb : T.uns.max ≤ 65535 := by
      rcases hT with h | h | h | h <;> simp [CInt.uns, CInt.max, h] at hw ⊢
    rw [if_pos (by omega), Option.map_some, CInt.uns_conv, hm]
  · rw [if_neg (by simp [CInt.uns]), Option.map_some]
    rw [show T.uns.w = T.w from rfl, hm, hc _ (by omega) (by omega)]

theorem digitsR_props {B : Nat} : ∀ {k : Nat} {l l' : List Nat} {z : Nat}, Below B l → digitsR B k l = some (z, l') →
    l.length = l'.length + k ∧ Below B l' ∧ z < (B + 1) ^ k := by
  intro k
  induction k with
  | zero => intro l l' z hl h; simp only [digitsR] at h; cases h; exact ⟨rfl, hl, by simp⟩
  | succ k ih =>
    intro l l' z hl h
    cases l with
    | nil => simp [digitsR] at h
    | cons d l =>
      obtain ⟨hd, hl⟩ := hl.cons
      simp only [digitsR] at h
      obtain ⟨⟨y, l2⟩, h1, h2⟩ := Option.map_eq_some_iff.1 h
      cases h2
      obtain ⟨a, b, c⟩ := ih hl h1
      refine ⟨by simp [a]; omega, b, ?_⟩
      show d + (B + 1) * y < (B + 1) ^ (k + 1)
      rw [Nat.pow_succ, Nat.mul_comm ((B + 1) ^ k)]
      have : (B + 1) * (y + 1) ≤ (B + 1) * (B + 1) ^ k := Nat.mul_le_mul_left _ c
      rw [Nat.mul_add] at this
      omega

theorem pickR_props {B q S : Nat} : ∀ {l l' : List Nat} {z : Nat}, Below B l → pickR q S l = some (z, l') →
    l'.length ≤ l.length ∧ Below B l' ∧ z ≤ S := by
  intro l
  induction l with
  | nil => intro l' z _ h; simp [pickR] at h
  | cons d l ih =>
    intro l' z hl h
    obtain ⟨-, hl⟩ := hl.cons
    unfold pickR at h
    split at h
    · rename_i hc
      cases h
      exact ⟨by simp, hl, hc⟩
    · obtain ⟨a, b⟩ := ih hl h
      exact ⟨by simp; omega, b⟩

theorem oneR_props {B : Nat} {l l' : List Nat} {z : Nat} (hl : Below B l) (h : oneR l = some (z, l')) : l'.length ≤ l.length ∧ Below B l' ∧ z ≤ B := by
  cases l with
  | nil => simp [oneR] at h
  | cons d l =>
    simp only [oneR] at h
    cases h
    obtain ⟨hd, hl⟩ := hl.cons
    exact ⟨by simp, hl, hd⟩

theorem smallR_props {twice : Bool} {B S : Nat} {l l' : List Nat} {z : Nat} (hl : Below B l) (h : smallR twice B S l = some (z, l')) :
    l'.length ≤ l.length ∧ Below B l' ∧ z ≤ S := by
  unfold smallR at h
  split at h
  · cases h; exact ⟨Nat.le_refl _, hl, by omega⟩
  · split at h
    · rename_i hB
      subst hB
      split at h
      · obtain ⟨⟨y, l2⟩, h1, h2⟩ := Option.bind_eq_some_iff.1 h
        obtain ⟨a, b, -⟩ := oneR_props hl h1
        obtain ⟨c, d⟩ := oneR_props b h2
        exact ⟨by omega, d⟩
      · exact oneR_props hl h
    · exact pickR_props hl h

/-- the second branch -/
theorem gen2_eq {E : Engine} (h : E.Ok) {T : CInt} (hT : T.Std) {mn mx : Int} (h1 : T.Has mn) (h2 : T.Has mx) {R k : Nat} (hR : mx - mn = R)
    (hBR : E.B < R) (hk1 : (E.B + 1) ^ k ≤ R + 1) (hk2 : R + 1 < (E.B + 1) ^ (k + 1)) (hx : (E.B + 1) ^ k = R + 1 → mn = 0) (twice : Bool) :
    ∀ (n : Nat) (l : List Nat), l.length = n → Below E.B l →
      gen2 twice E T mn R E.B (l.map E.num) = (loopR twice E.B R k l).map (lift E mn) := by
  have hU := Uns.of hT
  have hB1 := h.B_pos
  have hRm : (R : Int) ≤ T.uns.max := by
    obtain ⟨b1, b2, b3, b4, b5, b6⟩ := hT.bounds
    obtain ⟨c1, c2, c3, c4, c5, c6⟩ := hU.std.bounds
    have c5 := c5 rfl
    unfold CInt.Has at h1 h2
    simp only [CInt.uns] at c6 c5 ⊢
    omega
  have hk0 : 0 < k := by
    rcases Nat.eq_zero_or_pos k with rfl | hk
    · rw [Nat.zero_add, Nat.pow_one] at hk2
      omega
    · exact hk
  intro n
  induction n using Nat.strongRecOn with
  | ind n ih =>
    intro l hn hl
    rw [gen2.eq_def, loopR]
    simp only [Option.bind_eq_bind]
    rw [limitOf_eq hU hB1 hBR hRm, Option.bind_some]
    have hlow := lowDigits_eq h hU hRm hBR hk1 hk2 k 0 0 l (by omega) (fun _ => hk0) (by simp) hl
    simp only [Nat.pow_zero, Nat.one_mul, Nat.zero_add] at hlow
    rw [show (0 : Int) = ((0 : Nat) : Int) from rfl, show (1 : Int) = ((1 : Nat) : Int) from rfl, hlow]
    cases hdg : digitsR E.B k l with
    | none => rfl
    | some p =>
      obtain ⟨z, l1⟩ := p
      obtain ⟨d1, d2, d3⟩ := digitsR_props hl hdg
      simp only [Option.map_some, Option.bind_some]
      by_cases hc : (E.B + 1) ^ k = R + 1
      · rw [if_pos hc, if_pos hc]
        have h0 := hx hc
        subst h0
        simp only [Option.map_some, lift]
        rw [CInt.conv_ok hT (by unfold CInt.Has at *; omega), Int.zero_add]
      · rw [if_neg hc, if_neg hc]
        simp only
        have hS : R / (E.B + 1) ^ k ≤ E.B := by
          have : R / (E.B + 1) ^ k < E.B + 1 := by
            rw [Nat.div_lt_iff_lt_mul (Nat.pow_pos (by omega)), Nat.mul_comm, ← Nat.pow_succ]
            exact Nat.lt_of_succ_lt hk2
          omega
        have hMpos : 0 < (E.B + 1) ^ k := Nat.pow_pos (by omega)
        have hSR : R / (E.B + 1) ^ k ≤ R := Nat.div_le_self _ _
        have hSm : R / (E.B + 1) ^ k * (E.B + 1) ^ k ≤ R := Nat.div_mul_le_self _ _
        have e1 : (R : Int) / (((E.B + 1) ^ k : Nat) : Int) = ((R / (E.B + 1) ^ k : Nat) : Int) := by push_cast; rfl
        rw [CInt.div_ok hU.std (by omega) hRm (by exact_mod_cast hMpos), Option.bind_some, e1, CInt.conv_ok hU.std (hU.hasLe hSR hRm)]
        have hsub := gen_small h hU.std (mn := ((0 : Nat) : Int)) (mx := ((R / (E.B + 1) ^ k : Nat) : Int)) (hU.hasLe (Nat.zero_le R) hRm) (hU.hasLe hSR hRm)
          (R := R / (E.B + 1) ^ k) (by push_cast; omega) hS (Or.inr (Or.inl (by simp))) twice d2
        rw [hsub]
        cases hsm : smallR twice E.B (R / (E.B + 1) ^ k) l1 with
        | none => rfl
        | some p =>
          obtain ⟨i, l2⟩ := p
          obtain ⟨s1, s2, s3⟩ := smallR_props d2 hsm
          simp only [Option.map_some, Option.bind_some, lift]
          rw [CInt.div_ok hU.std (by omega) (Int.le_refl _) (by exact_mod_cast hMpos), Option.bind_some, Int.natCast_zero, Int.zero_add]
          have him : i * (E.B + 1) ^ k ≤ R := Nat.le_trans (Nat.mul_le_mul_right _ s3) hSm
          have hcont : ¬ (T.uns.max / (((E.B + 1) ^ k : Nat) : Int) < (i : Int)) := by
            rw [Int.not_lt, Int.le_ediv_iff_mul_le (by exact_mod_cast hMpos)]
            have : ((i * (E.B + 1) ^ k : Nat) : Int) ≤ R := Int.ofNat_le.2 him
            push_cast at this ⊢
            omega
          have e2 : (i : Int) * (((E.B + 1) ^ k : Nat) : Int) = ((i * (E.B + 1) ^ k : Nat) : Int) := by push_cast; rfl
          have hrec := ih l2.length (by omega) l2 rfl s2
          rw [if_neg hcont, e2]
          generalize (E.B + 1) ^ k = M at *
          generalize i * M = I at *
          rw [CInt.ar_ok hU.std (hU.hasLe him hRm), Option.bind_some]
          by_cases hov : ((z + I : Nat) : Int) ≤ T.uns.max
          · rw [← Int.natCast_add, CInt.ar_ok hU.std (hU.hasLe (Nat.le_refl _) hov), Option.bind_some, if_neg (by omega)]
            by_cases hle : z + I ≤ R
            · rw [if_neg (by omega), if_pos hle, add_eq hU.std rfl hT (by omega) (by omega) h1 (by unfold CInt.Has at *; omega)
                (Or.inr (Or.inr (Or.inl (Nat.le_refl _)))), Option.bind_some]
              simp only [Option.map_some, lift]
              rw [Int.add_comm]
            · rw [if_pos (by omega), if_neg hle]
              exact hrec
          · rw [if_neg (show ¬ z + I ≤ R by omega)]
            rw [ar_wrap hT (by omega) (by push_cast at hov; omega), Option.bind_some, if_pos (by push_cast at hov; omega)]
            exact hrec

/-- the second branch if the number of values is a power of that of the engine: the smallest value is not added -/
theorem gen2_exact {E : Engine} (h : E.Ok) {T : CInt} (hT : T.Std) {mn : Int} {R k : Nat} (hRm : (R : Int) ≤ T.uns.max)
    (hBR : E.B < R) (hk : (E.B + 1) ^ k = R + 1) (twice : Bool) {l : List Nat} (hl : Below E.B l) :
      gen2 twice E T mn R E.B (l.map E.num) = (digitsR E.B k l).map fun p => (T.conv p.1, p.2.map E.num) := by
  have hU := Uns.of hT
  have hB1 := h.B_pos
  have hk2 : R + 1 < (E.B + 1) ^ (k + 1) := by
    rw [Nat.pow_succ, hk]
    have : (R + 1) * 2 ≤ (R + 1) * (E.B + 1) := Nat.mul_le_mul_left _ (by omega)
    omega
  have hk0 : 0 < k := by
    rcases Nat.eq_zero_or_pos k with rfl | hk
    · rw [Nat.zero_add, Nat.pow_one] at hk2
      omega
    · exact hk
  rw [gen2.eq_def]
  simp only [Option.bind_eq_bind]
  rw [limitOf_eq hU hB1 hBR hRm, Option.bind_some]
  have hlow := lowDigits_eq h hU hRm hBR (by omega) hk2 k 0 0 l (by omega) (fun _ => hk0) (by simp) hl
  simp only [Nat.pow_zero, Nat.one_mul, Nat.zero_add] at hlow
  rw [show (0 : Int) = ((0 : Nat) : Int) from rfl, show (1 : Int) = ((1 : Nat) : Int) from rfl, hlow]
  cases digitsR E.B k l with
  | none => rfl
  | some p => simp only [Option.map_some, Option.bind_some, if_pos hk]

end Sprout.UInt

import Verif.Spec.Bind
import Verif.Props.C117

/-!
# Lemmas on bind expressions
-/

namespace Sprout.Bind

open TypeList BindSpec

variable {α : Type}

/-- what a bound argument is expanded to in a call with `n` arguments -/
def expand (n : Nat) : Bound α → List (Bound α)
  | .va k => (List.range (n - k)).map fun j : Nat => .ph (k + j + 1)
  | b => [b]

/-- tails begin in the arguments -/
def fits (n : Nat) : Bound α → Prop
  | .va k => k ≤ n
  | _ => True

theorem boundSize_eq {n : Nat} (hn : n < W) {b : Bound α} (h : fits n b) : boundSize b n = (expand n b).length := by
  cases b <;> simp only [boundSize, expand, List.length_singleton]
  rename_i k
  simp only [fits] at h
  rw [List.length_map, List.length_range, show n + W - k = n - k + W by omega, Nat.add_mod_right, Nat.mod_eq_of_lt (by omega)]

theorem boundsSize_eq {n : Nat} (hn : n < W) : ∀ {bs : List (Bound α)}, (∀ b ∈ bs, fits n b) → (bs.flatMap (expand n)).length < W →
    boundsSize n bs = (bs.flatMap (expand n)).length
  | [], _, _ => rfl
  | b :: bs, h, hl => by
    rw [List.flatMap_cons, List.length_append] at hl
    rw [boundsSize, boundSize_eq hn (h b (by simp)), boundsSize_eq hn (fun b hb => h b (by simp [hb])) (by omega), List.flatMap_cons,
      List.length_append, Nat.mod_eq_of_lt hl]

theorem partialSize_length (n : Nat) : ∀ (bs : List (Bound α)) (c : Nat), (partialSize n bs c).length = bs.length
  | [], _ => rfl
  | b :: bs, c => by rw [partialSize, List.length_cons, List.length_cons, partialSize_length]

theorem partialSize_get {n : Nat} (hn : n < W) : ∀ (bs : List (Bound α)) (c : Nat), (∀ b ∈ bs, fits n b) →
    c + (bs.flatMap (expand n)).length < W →
    ∀ (p : Nat) (hp : p < (partialSize n bs c).length), (partialSize n bs c)[p] = c + ((bs.take p).flatMap (expand n)).length
  | [], _, _, _, p, hp => by simp [partialSize] at hp
  | b :: bs, c, h, hl, p, hp => by
    rw [List.flatMap_cons, List.length_append] at hl
    cases p with
    | zero => simp [partialSize]
    | succ p =>
      simp only [partialSize, List.getElem_cons_succ, List.take_succ_cons, List.flatMap_cons, List.length_append]
      have e : (c + boundSize b n) % W = c + (expand n b).length := by
        rw [boundSize_eq hn (h b (by simp)), Nat.mod_eq_of_lt (by omega)]
      simp only [e]
      rw [partialSize_get hn bs _ (fun b hb => h b (by simp [hb])) (by omega)]
      omega

theorem take_mono {n : Nat} (bs : List (Bound α)) {i j : Nat} (h : i ≤ j) :
    ((bs.take i).flatMap (expand n)).length ≤ ((bs.take j).flatMap (expand n)).length := by
  have : bs.take j = bs.take i ++ (bs.take j).drop i := by
    conv_lhs => rw [← List.take_append_drop i (bs.take j)]
    rw [List.take_take, Nat.min_eq_left h]
  rw [this, List.flatMap_append, List.length_append]
  omega

theorem boundElement_eq {n : Nat} (hn : n < W) (bs : List (Bound α)) (h : ∀ b ∈ bs, fits n b) (hl : (bs.flatMap (expand n)).length < W)
    (i : Nat) (hi : i < (bs.flatMap (expand n)).length) : boundElement i bs n = (bs.flatMap (expand n))[i]? := by
  have hlen := partialSize_length n bs 0
  have hget := partialSize_get hn bs 0 h (by omega)
  obtain ⟨⟨r, e, hr, hp⟩, -⟩ := C117_bounds (fun x t => decide (x < t)) (partialSize n bs 0) (i + 1)
    (by
      intro a b ha hb hab hh
      rw [hget] at hh ⊢
      have := take_mono (n := n) bs hab
      simp only [decide_eq_true_eq] at hh ⊢
      omega)
    (by
      intro a b ha hb hab hh
      rw [hget] at hh ⊢
      have := take_mono (n := n) bs hab
      simp only [decide_eq_true_eq] at hh ⊢
      omega)
  have hbs : 0 < bs.length := by
    rcases bs with _ | ⟨b, bs⟩
    · simp at hi
    · simp
  have h0 := (hp 0 (by omega)).2 (by rw [hget]; simp)
  have hpos := (hp (r - 1) (by omega)).1 (by omega)
  rw [hget, decide_eq_true_eq, Nat.zero_add] at hpos
  have hq : r - 1 < bs.length := by omega
  have hsplit : bs = bs.take (r - 1) ++ bs[r - 1] :: bs.drop r := by
    conv_lhs => rw [← List.take_append_drop (r - 1) bs]
    rw [List.drop_eq_getElem_cons hq, Nat.sub_add_cancel (by omega)]
  have hnext : i < ((bs.take (r - 1)).flatMap (expand n)).length + (expand n bs[r - 1]).length := by
    have ht : ((bs.take r).flatMap (expand n)).length = ((bs.take (r - 1)).flatMap (expand n)).length + (expand n bs[r - 1]).length := by
      have : bs.take r = bs.take (r - 1) ++ [bs[r - 1]] := by
        conv_lhs => rw [show r = r - 1 + 1 by omega]
        rw [List.take_succ, List.getElem?_eq_getElem hq]; rfl
      rw [this, List.flatMap_append, List.length_append]; simp
    rw [← ht]
    by_cases hrl : r < bs.length
    · have := (hp r (by omega)).not.1 (by omega)
      rw [hget, decide_eq_true_eq] at this
      omega
    · rw [List.take_of_length_le (by omega)]
      omega
  have hrhs : (bs.flatMap (expand n))[i]? = (expand n bs[r - 1])[i - ((bs.take (r - 1)).flatMap (expand n)).length]? := by
    conv_lhs => rw [hsplit]
    rw [List.flatMap_append, List.flatMap_cons, List.getElem?_append_right (by omega), List.getElem?_append_left (by omega)]
  rw [hrhs, boundElement, boundPosition, e]
  simp only [Option.bind_eq_bind, Option.bind_some]
  rw [if_neg (by omega)]
  simp only [Option.bind_some]
  rw [List.getElem?_eq_getElem hq, List.getElem?_eq_getElem (by omega : r - 1 < (partialSize n bs 0).length), hget]
  simp only [Option.bind_some, Nat.zero_add]
  generalize hS : ((bs.take (r - 1)).flatMap (expand n)).length = S at *
  generalize bs[r - 1] = b at *
  cases b with
  | va k =>
    simp only [expand, List.length_map, List.length_range] at hnext
    simp only [expand]
    rw [List.getElem?_map, List.getElem?_range (by omega)]
    simp only [Option.map_some, Option.some.injEq, Bound.ph.injEq]
    omega
  | _ =>
    simp only [expand, List.length_singleton] at hnext
    rw [show i - S = 0 by omega]
    rfl

theorem mapM_range_get {β γ : Type} (g : β → Option γ) (l : List β) :
    ((List.range l.length).mapM fun i => l[i]?.bind g) = l.mapM g := by
  induction l using List.reverseRecOn with
  | nil => rfl
  | append_singleton l a ih =>
    rw [List.length_append, List.length_singleton, List.range_succ, List.mapM_append, List.mapM_append]
    have : ((List.range l.length).mapM fun i => (l ++ [a])[i]?.bind g) = (List.range l.length).mapM fun i => l[i]?.bind g := by
      have key : ∀ m : List Nat, (∀ i ∈ m, i < l.length) → (m.mapM fun i => (l ++ [a])[i]?.bind g) = m.mapM fun i => l[i]?.bind g := by
        intro m hm
        induction m with
        | nil => rfl
        | cons x m ihm =>
          rw [List.mapM_cons, List.mapM_cons, ihm fun i hi => hm i (by simp [hi]), List.getElem?_append_left (hm x (by simp))]
      exact key _ fun i hi => List.mem_range.1 hi
    rw [this, ih]
    simp

theorem mapM_range_congr {β : Type} {f g : Nat → Option β} (n : Nat) (h : ∀ i < n, f i = g i) : (List.range n).mapM f = (List.range n).mapM g := by
  have key : ∀ m : List Nat, (∀ i ∈ m, i < n) → m.mapM f = m.mapM g := by
    intro m hm
    induction m with
    | nil => rfl
    | cons x m ih => rw [List.mapM_cons, List.mapM_cons, ih fun i hi => hm i (by simp [hi]), h x (hm x (by simp))]
  exact key _ fun i hi => List.mem_range.1 hi

theorem callBinder_eq (c : Bool) (f : List (Passed α) → Option α) (bs : List (Bound α)) (args : List α) (hn : args.length < W)
    (h : ∀ b ∈ bs, fits args.length b) (hl : (bs.flatMap (expand args.length)).length < W) :
    callBinder c f bs args = ((bs.flatMap (expand args.length)).mapM fun e => mu c c e e args).bind f := by
  rw [callBinder, boundsSize_eq hn h hl, ← mapM_range_get _ (bs.flatMap (expand args.length))]
  simp only [Option.bind_eq_bind]
  rw [mapM_range_congr (g := fun i => ((bs.flatMap (expand args.length))[i]?).bind fun e => mu c c e e args)]
  intro i hi
  rw [boundElement_eq hn bs h hl i hi]

theorem flatMap_expand_of_no_va {n : Nat} : ∀ {bs : List (Bound α)}, (∀ b ∈ bs, ∀ k, b ≠ .va k) → bs.flatMap (expand n) = bs
  | [], _ => rfl
  | b :: bs, h => by
    rw [List.flatMap_cons, flatMap_expand_of_no_va fun b hb => h b (by simp [hb])]
    have := h b (by simp)
    cases b with
    | va k => exact absurd rfl (this k)
    | _ => rfl

theorem callRes_eq (c : Bool) (f : List (Passed α) → Option α) (bs : List (Bound α)) (args : List α) (hn : args.length < W)
    (h : ∀ b ∈ bs, ∀ k, b ≠ .va k) (hl : bs.length < W) :
    callRes c f bs args = (bs.mapM fun e => mu false c e e args).bind f := by
  have hf : ∀ b ∈ bs, fits args.length b := by
    intro b hb
    have := h b hb
    cases b with
    | va k => exact absurd rfl (this k)
    | _ => trivial
  have he := flatMap_expand_of_no_va (n := args.length) h
  have hl' : (bs.flatMap (expand args.length)).length < W := by rw [he]; exact hl
  rw [callRes, boundsSize_eq hn hf hl', he, if_neg (by simp), ← mapM_range_get _ bs]
  simp only [Option.bind_eq_bind]
  rw [mapM_range_congr (g := fun i => bs[i]?.bind fun e => mu false c e e args)]
  intro i hi
  rw [boundElement_eq hn bs hf hl' i (by rw [he]; exact hi), he]
  rw [List.getElem?_eq_getElem hi]
  rfl

theorem mapM_flatMap {β γ δ : Type} (g : γ → Option δ) (k : β → List γ) (l : List β) :
    (l.flatMap k).mapM g = (l.mapM fun b => (k b).mapM g).map List.flatten := by
  induction l with
  | nil => rfl
  | cons b l ih =>
    rw [List.flatMap_cons, List.mapM_append, List.mapM_cons, ih]
    cases (k b).mapM g <;> simp
    cases (l.mapM fun b => (k b).mapM g) <;> simp

theorem mu_range (q c : Bool) (k : Nat) (args : List α) (hk : k ≤ args.length) :
    ((List.range (args.length - k)).map fun j : Nat => (.ph (k + j + 1) : Bound α)).mapM (fun e => mu q c e e args)
      = some ((args.drop k).map .val) := by
  rw [List.mapM_map]
  have : ((List.range (args.length - k)).mapM fun j : Nat => mu q c (.ph (k + j + 1)) (.ph (k + j + 1) : Bound α) args)
      = (List.range (args.drop k).length).mapM fun j => (args.drop k)[j]?.bind fun x => some (Passed.val x) := by
    rw [List.length_drop]
    refine mapM_range_congr _ fun i hi => ?_
    rw [mu, if_pos (by omega), if_pos rfl, List.getElem?_drop, show ((k : Int) + i + 1 - 1).toNat = k + i by omega]
    cases args[k + i]? <;> rfl
  exact this.trans ((mapM_range_get _ _).trans (by induction args.drop k with | nil => rfl | cons a l ih => simp [ih]))

end Sprout.Bind

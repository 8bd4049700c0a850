import Verif.Model.Cstring
import Verif.Spec.Cstring
import Verif.Proofs.Lex

namespace Sprout.Cstr
open Spec

/-! ### doubling recursion with a reading test -/
section
variable {σ : Type}

inductive SRun (fin : σ → Option (Option σ)) (step : σ → Option σ) : Nat → σ → σ → Prop
  | stop {s r} : fin s = some (some r) → SRun fin step 0 s r
  | step {s t r k} : fin s = some none → step s = some t → SRun fin step k t r → SRun fin step (k + 1) s r

def SIdem (fin : σ → Option (Option σ)) : Prop := ∀ s r, fin s = some (some r) → fin r = some (some r)

theorem sdbl1_run {fin : σ → Option (Option σ)} {step : σ → Option σ} (hf : SIdem fin) :
    ∀ n, 1 ≤ n → ∀ k s r, SRun fin step k s r →
      ∃ c, sdbl1 fin step s n = some c ∧ SRun fin step (k - n) c r := by
  intro n
  induction n using Nat.strongRecOn with
  | ind n ih =>
    intro hn k s r hr
    rw [sdbl1]
    cases hr with
    | stop h => exact ⟨r, by rw [h]; rfl, by rw [Nat.zero_sub]; exact .stop (hf _ _ h)⟩
    | @step _ t _ k h1 h2 h3 =>
      rw [h1]
      by_cases h : n = 1
      · subst h; exact ⟨t, by simp [h2], h3⟩
      · simp only [h, if_false]
        obtain ⟨c, hc, hrc⟩ := ih (n / 2) (by omega) (by omega) (k + 1) s r (.step h1 h2 h3)
        obtain ⟨d, hd, hrd⟩ := ih (n - n / 2) (by omega) (by omega) _ c r hrc
        refine ⟨d, by simp [hc, hd], ?_⟩
        rw [show k + 1 - n = k + 1 - n / 2 - (n - n / 2) by omega]
        exact hrd

theorem sdbl_run {fin : σ → Option (Option σ)} {step : σ → Option σ} (hf : SIdem fin) :
    ∀ k s r n, 1 ≤ n → SRun fin step k s r → sdbl fin step s n = some r := by
  intro k
  induction k using Nat.strongRecOn with
  | ind k ih =>
    intro s r n hn hr
    rw [sdbl]
    cases hr with
    | stop h => simp [h]
    | @step _ t _ k h1 h2 h3 =>
      rw [h1]
      obtain ⟨c, hc, hrc⟩ := sdbl1_run hf n hn (k + 1) s r (.step h1 h2 h3)
      simp [hc, ih (k + 1 - n) (by omega) c r (n * 2) (by omega) hrc]

theorem finFlag_idem (m : List Int) (flag : σ → Bool) (pos : σ → Nat) : SIdem (finFlag m flag pos) := by
  intro s r h
  have : r = s := by
    unfold finFlag at h
    split at h
    · simpa using h.symm
    · cases he : atEnd m (pos s) <;> rw [he] at h
      · simp at h
      · rename_i b; cases b <;> simp at h; exact h.symm
  subst this; exact h
end

/-! ### strings in memory -/

/-- a terminated string with contents `cs` is stored at `p` -/
def IsStr (m : List Int) (p : Nat) (cs : List Int) : Prop := Seg m p (cs ++ [0]) ∧ (0 : Int) ∉ cs

theorem IsStr.of_append (pre cs post : List Int) (h : (0 : Int) ∉ cs) :
    IsStr (pre ++ cs ++ 0 :: post) pre.length cs := by
  refine ⟨?_, h⟩
  have := Seg.of_append pre (cs ++ [0]) post
  simpa using this

theorem IsStr.nil {m : List Int} {p : Nat} (h : IsStr m p []) : rd m p = some 0 := (Seg.cons h.1).1

theorem IsStr.cons {m : List Int} {p : Nat} {c : Int} {cs : List Int} (h : IsStr m p (c :: cs)) :
    rd m p = some c ∧ c ≠ 0 ∧ IsStr m (p + 1) cs := by
  have h1 := Seg.cons h.1
  have h2 := h.2
  simp only [List.mem_cons, not_or] at h2
  exact ⟨h1.1, fun e => h2.1 e.symm, h1.2, h2.2⟩

theorem IsStr.drop {m : List Int} {p : Nat} {cs : List Int} (h : IsStr m p cs) (k : Nat) (hk : k ≤ cs.length) :
    IsStr m (p + k) (cs.drop k) := by
  refine ⟨fun i hi => ?_, fun hc => h.2 (List.mem_of_mem_drop hc)⟩
  have := h.1 (k + i) (by simp at hi ⊢; omega)
  rw [Nat.add_assoc, this]
  have e : cs.drop k ++ [0] = (cs ++ [0]).drop k := by rw [List.drop_append_of_le_length hk]
  rw [e, List.getElem?_drop]

theorem IsStr.get {m : List Int} {p : Nat} {cs : List Int} (h : IsStr m p cs) {k : Nat} {x : Int} (hk : (cs ++ [0])[k]? = some x) :
    rd m (p + k) = some x := by
  have hl : k < (cs ++ [0]).length := (List.getElem?_eq_some_iff.1 hk).1
  rw [rd, h.1 k hl, hk]

theorem IsStr.atEnd_nil {m : List Int} {p : Nat} (h : IsStr m p []) : atEnd m p = some true := by
  simp [atEnd, h.nil]
theorem IsStr.atEnd_cons {m : List Int} {p : Nat} {c : Int} {cs : List Int} (h : IsStr m p (c :: cs)) :
    atEnd m p = some false := by
  have := h.cons; simp [atEnd, this.1, this.2.1]

theorem finFlag_nil {σ : Type} {m : List Int} {flag : σ → Bool} {pos : σ → Nat} {s : σ} (h : IsStr m (pos s) []) :
    finFlag m flag pos s = some (some s) := by
  unfold finFlag; split <;> simp [h.atEnd_nil]
theorem finFlag_cons {σ : Type} {m : List Int} {flag : σ → Bool} {pos : σ → Nat} {s : σ} {c : Int} {cs : List Int}
    (h : IsStr m (pos s) (c :: cs)) (hf : flag s = false) :
    finFlag m flag pos s = some none := by
  unfold finFlag; rw [if_neg (by simp [hf]), h.atEnd_cons]; rfl
theorem finFlag_true {σ : Type} {m : List Int} {flag : σ → Bool} {pos : σ → Nat} {s : σ} (hf : flag s = true) :
    finFlag m flag pos s = some (some s) := by
  unfold finFlag; rw [if_pos hf]

/-! ### strlen -/
theorem strlen_eq {m : List Int} {s : Nat} {cs : List Int} (h : IsStr m s cs) : strlen m s = some cs.length := by
  have run : ∀ (cs : List Int) (p n : Nat), IsStr m p cs →
      SRun (finFlag m (fun _ => false) Prod.fst) (fun s : Nat × Nat => some (s.1 + 1, s.2 + 1)) cs.length (p, n) (p + cs.length, n + cs.length) := by
    intro cs
    induction cs with
    | nil => intro p n h; exact .stop (finFlag_nil h)
    | cons c cs ih =>
      intro p n h
      have := ih (p + 1) (n + 1) h.cons.2.2
      rw [show p + 1 + cs.length = p + (c :: cs).length by simp; omega, show n + 1 + cs.length = n + (c :: cs).length by simp; omega] at this
      exact .step (finFlag_cons h rfl) rfl this
  rw [strlen, sdbl_run (finFlag_idem _ _ _) _ _ _ 1 (by omega) (run cs s 0 h)]
  simp

/-- the halving search reads no further than the first hit -/
theorem halveFind_first {test : Nat → Nat → Option Bool} {q : Nat} :
    ∀ n a b, b - a = n → a < b → a ≤ q → (∀ k, a ≤ k → k < q → k < b → test k (k + 1) = some false) →
      (q < b → test q (q + 1) = some true) →
      halveFind test a b ((b - a) / 2) a = some (min q b) := by
  intro n
  induction n using Nat.strongRecOn with
  | ind n ih =>
    intro a b hn hab haq ht hq
    rw [halveFind]
    simp only [ne_eq, not_true_eq_false, if_false]
    by_cases hp : (b - a) / 2 = 0
    · have hb : b = a + 1 := by omega
      subst hb
      simp only [hp, if_true]
      by_cases hqa : q = a
      · subst hqa; rw [hq (by omega)]; simp
      · rw [ht a (Nat.le_refl _) (by omega) (by omega)]; simp; omega
    · simp only [hp, if_false]
      have h1 := ih ((b - a) / 2) (by omega) a (a + (b - a) / 2) (by omega) (by omega) haq
        (fun k h1 h2 h3 => ht k h1 h2 (by omega)) (fun h => hq (by omega))
      rw [show a + (b - a) / 2 - a = (b - a) / 2 by omega] at h1
      simp only [h1, Option.bind_eq_bind, Option.bind_some]
      by_cases hfe : q < a + (b - a) / 2
      · rw [halveFind, if_pos (by omega)]
        congr 1; omega
      · have h2 := ih (b - (a + (b - a) / 2)) (by omega) (a + (b - a) / 2) b rfl (by omega) (by omega)
          (fun k h1 h2 h3 => ht k (by omega) h2 h3) hq
        rw [show min q (a + (b - a) / 2) = a + (b - a) / 2 by omega]
        rw [← h2]; congr 1; omega

theorem findValRa_first {α : Type} [BEq α] [LawfulBEq α] {m : List α} {a b q : Nat} {v : α} (hab : a ≤ b) (haq : a ≤ q)
    (h1 : ∀ k, a ≤ k → k < q → k < b → ∃ x, m[k]? = some x ∧ x ≠ v) (h2 : q < b → m[q]? = some v) :
    findValRa m a b v = some (min q b) := by
  unfold findValRa findRa
  by_cases h : a = b
  · rw [if_pos h]; congr 1; omega
  · rw [if_neg h]
    apply halveFind_first _ a b rfl (by omega) haq
    · intro k hk1 hk2 hk3
      obtain ⟨x, hx, hne⟩ := h1 k hk1 hk2 hk3
      simp [testAt, rd, hx, hne]
    · intro hq; simp [testAt, rd, h2 hq]

theorem strlenN_eq {m : List Int} {s n : Nat} {cs : List Int} (h : IsStr m s cs) : strlenN m s n = some (min cs.length n) := by
  have := findValRa_first (m := m) (a := s) (b := s + n) (q := s + cs.length) (v := (0 : Int)) (by omega) (by omega) ?_ ?_
  · rw [strlenN, this]; simp
  · intro k hk1 hk2 _
    obtain ⟨j, rfl⟩ := Nat.exists_eq_add_of_le hk1
    have hj : j < cs.length := by omega
    refine ⟨cs[j], ?_, ?_⟩
    · exact h.get (by rw [List.getElem?_append_left hj, List.getElem?_eq_getElem hj])
    · intro e; exact h.2 (e ▸ List.getElem_mem hj)
  · intro _; exact h.get (by simp)

/-! ### strchr -/
theorem strchrPos_eq {m : List Int} {s : Nat} {cs : List Int} (h : IsStr m s cs) (v : Int) :
    strchrPos m s v = some (s + cs.findIdx (· == v)) := by
  have run : ∀ (cs : List Int) (p : Nat), IsStr m p cs →
      ∃ k b, SRun (finFlag m Prod.snd Prod.fst)
        (fun s : Nat × Bool => do
          let x ← rd m s.1
          some (if x == v then (s.1, true) else (s.1 + 1, false))) k (p, false) (p + cs.findIdx (· == v), b) := by
    intro cs
    induction cs with
    | nil => intro p h; exact ⟨_, _, .stop (finFlag_nil h)⟩
    | cons c cs ih =>
      intro p h
      obtain ⟨hr, _, h'⟩ := h.cons
      by_cases hc : c = v
      · subst hc
        refine ⟨_, true, .step (t := (p, true)) (finFlag_cons h rfl) (by simp [hr]) (.stop ?_)⟩
        rw [List.findIdx_cons]
        simpa using finFlag_true (m := m) (pos := Prod.fst) (s := (p, true)) (flag := Prod.snd) rfl
      · obtain ⟨k, b, ih⟩ := ih (p + 1) h'
        refine ⟨k + 1, b, .step (t := (p + 1, false)) (finFlag_cons h rfl) (by simp [hr, hc]) ?_⟩
        rw [show p + (c :: cs).findIdx (· == v) = p + 1 + cs.findIdx (· == v) by
          rw [List.findIdx_cons, beq_false_of_ne hc, cond_false]; omega]
        exact ih
  obtain ⟨k, b, hr⟩ := run cs s h
  rw [strchrPos, sdbl_run (finFlag_idem _ _ _) _ _ _ 1 (by omega) hr]
  rfl

theorem findIdx_val {cs : List Int} {v : Int} :
    (cs ++ [0])[cs.findIdx (· == v)]? = some (if v ∈ cs then v else 0) := by
  induction cs with
  | nil => simp
  | cons c cs ih =>
    rw [List.findIdx_cons]
    by_cases hc : c = v
    · subst hc; simp
    · rw [beq_false_of_ne hc, cond_false, List.cons_append, List.getElem?_cons_succ, ih]; simp [Ne.symm hc]

theorem strchr_eq {m : List Int} {s : Nat} {cs : List Int} (h : IsStr m s cs) (v : Int) :
    strchr m s v = some (if v ∈ cs ∨ v = 0 then some (s + cs.findIdx (· == v)) else none) := by
  rw [strchr, strchrPos_eq h]
  simp only [Option.bind_eq_bind, Option.bind_some, findCheckV]
  rw [h.get findIdx_val]
  by_cases hv : v ∈ cs
  · have : v ≠ 0 := fun e => h.2 (e ▸ hv)
    simp [hv]
  · by_cases h0 : v = 0
    · subst h0; simp
    · simp [hv, h0, Ne.symm h0]

theorem first_findIdx (t : List Int) (v : Int) (h : v ∈ t) : Cstr.First t (· = v) (some (t.findIdx (· == v))) := by
  have hl : t.findIdx (· == v) < t.length := List.findIdx_lt_length.2 ⟨v, h, by simp⟩
  refine ⟨⟨t[t.findIdx (· == v)], List.getElem?_eq_getElem hl, by simpa using List.findIdx_getElem (w := hl)⟩, ?_⟩
  intro j x hj hx e
  have := List.not_of_lt_findIdx hj
  rw [List.getElem?_eq_some_iff] at hx
  obtain ⟨_, hx⟩ := hx
  simp [hx, e] at this

theorem findIdx_append0 (cs : List Int) (v : Int) (h : v ∈ cs ∨ v = 0) :
    (cs ++ [0]).findIdx (· == v) = cs.findIdx (· == v) := by
  induction cs with
  | nil => rcases h with h | h
           · cases h
           · simp [h]
  | cons c cs ih =>
    rw [List.cons_append, List.findIdx_cons, List.findIdx_cons]
    by_cases hc : c = v
    · simp [hc]
    · rw [ih]
      rcases h with h | h
      · rcases List.mem_cons.1 h with h | h
        · exact absurd h.symm hc
        · exact Or.inl h
      · exact Or.inr h

/-! ### strrchr -/
theorem strrchr_spec {m : List Int} {s : Nat} {cs : List Int} (h : IsStr m s cs) (v : Int) :
    ∃ r, strrchr m s v = some (r.map (s + ·)) ∧ Cstr.Last (cs ++ [0]) v r := by
  have run : ∀ (cs : List Int) (p q : Nat), IsStr m p cs →
      ∃ k q', SRun (finFlag m (fun _ => false) Prod.fst)
        (fun s : Nat × Nat => do
          let x ← rd m s.1
          some (if x == v then (s.1 + 1, s.1) else (s.1 + 1, s.2))) k (p, q) (p + cs.length, q') ∧
        ((v ∉ cs ∧ q' = q) ∨ ∃ i, q' = p + i ∧ i < cs.length ∧ cs[i]? = some v ∧ ∀ j, i < j → cs[j]? ≠ some v) := by
    intro cs
    induction cs with
    | nil => intro p q h; exact ⟨_, q, .stop (finFlag_nil h), Or.inl ⟨by simp, rfl⟩⟩
    | cons c cs ih =>
      intro p q h
      obtain ⟨hr, _, h'⟩ := h.cons
      obtain ⟨k, q', hrun, hq⟩ := ih (p + 1) (if c == v then p else q) h'
      rw [show p + 1 + cs.length = p + (c :: cs).length by simp; omega] at hrun
      refine ⟨k + 1, q', .step (finFlag_cons h rfl) (by simp only [hr]; by_cases hc : c = v <;> simp [hc]) (show SRun _ _ k (p + 1, if c == v then p else q) _ from hrun), ?_⟩
      rcases hq with ⟨hn, rfl⟩ | ⟨i, rfl, hi, h1, h2⟩
      · by_cases hc : c = v
        · right
          refine ⟨0, by simp [hc], by simp, by simp [hc], ?_⟩
          intro j hj e
          obtain ⟨j', rfl⟩ : ∃ j', j = j' + 1 := ⟨j - 1, by omega⟩
          rw [List.getElem?_cons_succ] at e
          exact hn (List.mem_of_getElem? e)
        · left; simp [hc, hn, Ne.symm hc]
      · right
        refine ⟨i + 1, by omega, by simp; omega, by simpa using h1, ?_⟩
        intro j hj e
        obtain ⟨j', rfl⟩ : ∃ j', j = j' + 1 := ⟨j - 1, by omega⟩
        rw [List.getElem?_cons_succ] at e
        exact h2 j' (by omega) e
  obtain ⟨k, q, hr, hq⟩ := run cs s s h
  rw [strrchr, sdbl_run (finFlag_idem _ _ _) _ _ _ 1 (by omega) hr]
  simp only [Option.bind_eq_bind, Option.bind_some]
  have last0 : ∀ j, cs.length < j → (cs ++ [(0 : Int)])[j]? = none := by
    intro j hj; rw [List.getElem?_eq_none]; simp; omega
  rcases hq with ⟨hn, rfl⟩ | ⟨i, rfl, hi, h1, h2⟩
  · -- not found among the characters
    cases cs with
    | nil =>
      rw [h.nil]
      by_cases hv : v = 0
      · subst hv
        exact ⟨some 0, by simp, by simp, fun j hj => by rw [List.nil_append, List.getElem?_eq_none (by simp; omega)]; simp⟩
      · exact ⟨none, by simp [hv, Ne.symm hv], by simp [Cstr.Last, hv]⟩
    | cons c cs =>
      rw [h.cons.1]
      have hc : c ≠ v := fun e => hn (by simp [e])
      by_cases hv : v = 0
      · subst hv
        refine ⟨some (c :: cs).length, by simp [hc], by simp, fun j hj => by rw [last0 j hj]; simp⟩
      · exact ⟨none, by simp [hc, hv], by simp only [Cstr.Last, List.mem_append, List.mem_singleton, not_or]; exact ⟨hn, hv⟩⟩
  · have hget : (cs ++ [0])[i]? = some v := by rw [List.getElem?_append_left hi, h1]
    rw [h.get hget]
    refine ⟨some i, by simp, hget, ?_⟩
    intro j hj e
    rcases Nat.lt_trichotomy j cs.length with hl | hl | hl
    · rw [List.getElem?_append_left hl] at e; exact h2 j hj e
    · subst hl; simp at e; exact h.2 (e ▸ List.mem_of_getElem? h1)
    · rw [last0 j hl] at e; cases e

/-! ### strcmp -/
theorem finCmp_idem (m1 m2 : List Int) : SIdem (finCmp m1 m2) := by
  intro s r h
  have : r = s := by
    unfold finCmp at h
    split at h
    · simpa using h.symm
    · cases he : atEnd m2 s.2.1 with
      | none => rw [he] at h; simp at h
      | some b =>
        rw [he] at h
        cases b
        · simp only [Option.bind_eq_bind, Option.bind_some, Bool.false_eq_true, if_false] at h
          cases he1 : atEnd m1 s.1 with
          | none => rw [he1] at h; simp at h
          | some b => rw [he1] at h; cases b <;> simp at h; exact h.symm
        · simp at h; exact h.symm
  subst this; exact h

abbrev ilt : Int → Int → Bool := fun x y => decide (x < y)

theorem strcmp_eq {m1 m2 : List Int} {s1 s2 : Nat} {cs ds : List Int} (h1 : IsStr m1 s1 cs) (h2 : IsStr m2 s2 ds) :
    strcmp m1 m2 s1 s2 = some (verdict ilt cs ds) := by
  have run : ∀ (cs ds : List Int) (p q : Nat), IsStr m1 p cs → IsStr m2 q ds →
      ∃ k r, SRun (finCmp m1 m2)
        (fun s => do
          let x ← rd m1 s.1
          let y ← rd m2 s.2.1
          some (if x < y then (s.1, s.2.1, -1) else if y < x then (s.1, s.2.1, 1) else (s.1 + 1, s.2.1 + 1, 0))) k (p, q, 0) r ∧
        (do
          let e2 ← atEnd m2 r.2.1
          let e1 ← atEnd m1 r.1
          some (if e2 then (if e1 then 0 else 1) else if e1 then -1 else r.2.2)) = some (verdict ilt cs ds) := by
    intro cs
    induction cs with
    | nil =>
      intro ds p q hc hd
      cases ds with
      | nil => exact ⟨_, (p, q, 0), .stop (by simp [finCmp, hd.atEnd_nil]), by simp [hd.atEnd_nil, hc.atEnd_nil, verdict]⟩
      | cons d ds => exact ⟨_, (p, q, 0), .stop (by simp [finCmp, hd.atEnd_cons, hc.atEnd_nil]), by simp [hd.atEnd_cons, hc.atEnd_nil, verdict]⟩
    | cons c cs ih =>
      intro ds p q hc hd
      cases ds with
      | nil => exact ⟨_, (p, q, 0), .stop (by simp [finCmp, hd.atEnd_nil]), by simp [hd.atEnd_nil, hc.atEnd_cons, verdict]⟩
      | cons d ds =>
        have hfin : finCmp m1 m2 (p, q, 0) = some none := by simp [finCmp, hd.atEnd_cons, hc.atEnd_cons]
        have hcc := hc.cons
        have hdc := hd.cons
        by_cases hlt : c < d
        · refine ⟨_, (p, q, -1), .step (t := (p, q, -1)) hfin (by simp [hcc.1, hdc.1, hlt]) (.stop (by simp [finCmp])), ?_⟩
          simp [hd.atEnd_cons, hc.atEnd_cons, verdict, hlt]
        · by_cases hgt : d < c
          · refine ⟨_, (p, q, 1), .step (t := (p, q, 1)) hfin (by simp [hcc.1, hdc.1, hlt, hgt]) (.stop (by simp [finCmp])), ?_⟩
            simp [hd.atEnd_cons, hc.atEnd_cons, verdict, hlt, hgt]
          · obtain ⟨k, r, hr, hv⟩ := ih ds (p + 1) (q + 1) hcc.2.2 hdc.2.2
            refine ⟨k + 1, r, .step (t := (p + 1, q + 1, 0)) hfin (by simp [hcc.1, hdc.1, hlt, hgt]) hr, ?_⟩
            rw [hv]; simp [verdict, hlt, hgt]
  obtain ⟨k, r, hr, hv⟩ := run cs ds s1 s2 h1 h2
  rw [strcmp, sdbl_run (finCmp_idem _ _) _ _ _ 1 (by omega) hr]
  exact hv

/-! ### strncmp -/
def tv : Nat → List Int → List Int → Int
  | 0, _, _ => 2
  | _ + 1, [], [] => 0
  | _ + 1, [], _ :: _ => -1
  | _ + 1, _ :: _, [] => 1
  | n + 1, x :: xs, y :: ys => if x < y then -1 else if y < x then 1 else tv n xs ys

theorem tv_add (b : Nat) : ∀ (a : Nat) (cs ds : List Int),
    (tv a cs ds ≠ 2 → tv (a + b) cs ds = tv a cs ds) ∧
    (tv a cs ds = 2 → a ≤ cs.length ∧ a ≤ ds.length ∧ tv (a + b) cs ds = tv b (cs.drop a) (ds.drop a)) := by
  intro a
  induction a with
  | zero => intro cs ds; simp [tv]
  | succ a ih =>
    intro cs ds
    rw [show a + 1 + b = a + b + 1 by omega]
    cases cs with
    | nil => cases ds <;> simp [tv]
    | cons c cs =>
      cases ds with
      | nil => simp [tv]
      | cons d ds =>
        simp only [tv]
        by_cases h1 : c < d
        · simp [h1]
        · by_cases h2 : d < c
          · simp [h1, h2]
          · simpa [h1, h2] using ih cs ds

theorem tri2_eq {m1 m2 : List Int} : ∀ (n : Nat), 1 ≤ n → ∀ (p q : Nat) (cs ds : List Int), IsStr m1 p cs → IsStr m2 q ds →
    tri2 m1 m2 p q n 2 = some (tv n cs ds) := by
  intro n
  induction n using Nat.strongRecOn with
  | ind n ih =>
    intro hn p q cs ds hc hd
    rw [tri2, if_neg (by simp)]
    by_cases h : n = 1
    · subst h
      rw [if_pos rfl]
      cases cs with
      | nil =>
        cases ds with
        | nil => simp [hc.nil, hd.nil, tv]
        | cons d ds => simp [hc.nil, hd.cons.1, hd.cons.2.1, tv]
      | cons c cs =>
        cases ds with
        | nil => simp [hc.cons.1, hc.cons.2.1, hd.nil, tv]
        | cons d ds =>
          simp only [hc.cons.1, hd.cons.1, Option.bind_eq_bind, Option.bind_some]
          simp [hc.cons.2.1, hd.cons.2.1, tv]
    · rw [if_neg h, ih (n / 2) (by omega) (by omega) p q cs ds hc hd]
      simp only [Option.bind_eq_bind, Option.bind_some]
      have ha := tv_add (n - n / 2) (n / 2) cs ds
      rw [show n / 2 + (n - n / 2) = n by omega] at ha
      by_cases hf : tv (n / 2) cs ds = 2
      · obtain ⟨l1, l2, e⟩ := ha.2 hf
        rw [hf, e]
        exact ih (n - n / 2) (by omega) (by omega) _ _ _ _ (hc.drop _ l1) (hd.drop _ l2)
      · rw [tri2, if_pos hf, ha.1 hf]

theorem tv_verdict : ∀ (n : Nat) (cs ds : List Int), (if tv n cs ds ≠ 2 then tv n cs ds else 0) = verdict ilt (cs.take n) (ds.take n) := by
  intro n
  induction n with
  | zero => intro cs ds; simp [tv, verdict]
  | succ n ih =>
    intro cs ds
    cases cs with
    | nil => cases ds <;> simp [tv, verdict]
    | cons c cs =>
      cases ds with
      | nil => simp [tv, verdict]
      | cons d ds =>
        simp only [tv, List.take_succ_cons, verdict, ilt, decide_eq_true_eq]
        by_cases h1 : c < d
        · simp [h1]
        · by_cases h2 : d < c
          · simp [h1, h2]
          · simp only [h1, h2, if_false]; exact ih cs ds

theorem strncmp_eq {m1 m2 : List Int} {s1 s2 : Nat} {cs ds : List Int} (n : Nat) (h1 : IsStr m1 s1 cs) (h2 : IsStr m2 s2 ds) :
    strncmp m1 m2 s1 s2 n = some (verdict ilt (cs.take n) (ds.take n)) := by
  rw [strncmp, ← tv_verdict]
  by_cases h : n = 0
  · subst h; simp [tv]
  · rw [if_neg h, tri2_eq n (by omega) _ _ _ _ h1 h2]; rfl

/-! ### strspn, strcspn, strpbrk -/
theorem spanGen_eq (neg : Bool) {m1 m2 : List Int} {s1 s2 : Nat} {cs ds : List Int} (h1 : IsStr m1 s1 cs) (h2 : IsStr m2 s2 ds) :
    spanGen neg m1 m2 s1 s2 = some (cs.takeWhile (fun x => if neg then decide (x ∉ ds) else decide (x ∈ ds))).length := by
  have test : ∀ x, x ≠ 0 → (do let f ← strchrPos m2 s2 x; atEnd m2 f) = some (decide (x ∉ ds)) := by
    intro x hx
    rw [strchrPos_eq h2]
    simp only [Option.bind_eq_bind, Option.bind_some, atEnd, h2.get findIdx_val]
    by_cases h : x ∈ ds <;> simp [h, hx]
  have run : ∀ (cs : List Int) (p n : Nat), IsStr m1 p cs →
      ∃ k p' b, SRun (finFlag m1 (fun s => s.2.2) Prod.fst)
        (fun s : Nat × Nat × Bool => do
          let x ← rd m1 s.1
          let f ← strchrPos m2 s2 x
          let e ← atEnd m2 f
          some (if (if neg then e else !e) then (s.1 + 1, s.2.1 + 1, false) else (s.1, s.2.1, true))) k (p, n, false)
        (p', n + (cs.takeWhile (fun x => if neg then decide (x ∉ ds) else decide (x ∈ ds))).length, b) := by
    intro cs
    induction cs with
    | nil => intro p n h; exact ⟨_, _, _, .stop (finFlag_nil h)⟩
    | cons c cs ih =>
      intro p n h
      obtain ⟨hr, hc0, h'⟩ := h.cons
      have ht := test c hc0
      obtain ⟨f, hf, he⟩ : ∃ f, strchrPos m2 s2 c = some f ∧ atEnd m2 f = some (decide (c ∉ ds)) := by
        cases hs : strchrPos m2 s2 c with
        | none => rw [hs] at ht; simp at ht
        | some f => rw [hs] at ht; exact ⟨f, rfl, ht⟩
      have hb : (if neg then decide (c ∉ ds) else !decide (c ∉ ds)) = (if neg then decide (c ∉ ds) else decide (c ∈ ds)) := by
        cases neg <;> simp
      by_cases hw : (if neg then decide (c ∉ ds) else decide (c ∈ ds)) = true
      · obtain ⟨k, p', b, ih⟩ := ih (p + 1) (n + 1) h'
        refine ⟨k + 1, p', b, .step (t := (p + 1, n + 1, false)) (finFlag_cons h rfl) ?_ ?_⟩
        · simp only [hr, hf, he, Option.bind_eq_bind, Option.bind_some, hb, hw, if_true]
        · rw [List.takeWhile_cons, if_pos hw, List.length_cons, ← Nat.add_assoc, Nat.add_right_comm]
          exact ih
      · refine ⟨_, p, true, .step (t := (p, n, true)) (finFlag_cons h rfl) ?_ (.stop ?_)⟩
        · simp only [hr, hf, he, Option.bind_eq_bind, Option.bind_some, hb, hw]
          rfl
        · rw [List.takeWhile_cons, if_neg hw]
          exact finFlag_true rfl
  obtain ⟨k, p', b, hr⟩ := run cs s1 0 h1
  rw [spanGen, sdbl_run (finFlag_idem _ _ _) _ _ _ 1 (by omega) hr]
  simp

theorem span_takeWhile (p : Int → Prop) [DecidablePred p] (t : List Int) : Cstr.Span t p (t.takeWhile (fun x => decide (p x))).length := by
  induction t with
  | nil => exact ⟨by simp, by simp, by simp⟩
  | cons c t ih =>
    rw [List.takeWhile_cons]
    by_cases h : p c
    · simp only [h, decide_true, if_true, List.length_cons]
      refine ⟨by have := ih.1; rw [List.length_cons]; omega, ?_, ?_⟩
      · intro j x hj hx
        cases j with
        | zero => simp at hx; exact hx ▸ h
        | succ j => exact ih.2.1 j x (by omega) (by simpa using hx)
      · intro x hx; exact ih.2.2 x (by simpa using hx)
    · simp only [h, decide_false, Bool.false_eq_true, if_false, List.length_nil]
      exact ⟨by simp, by simp, fun x hx => by simp at hx; exact hx ▸ h⟩

theorem strpbrk_spec {m1 m2 : List Int} {s1 s2 : Nat} {cs ds : List Int} (h1 : IsStr m1 s1 cs) (h2 : IsStr m2 s2 ds) :
    ∃ r, strpbrk m1 m2 s1 s2 = some (r.map (s1 + ·)) ∧ Cstr.First cs (· ∈ ds) r := by
  have run : ∀ (cs : List Int) (p : Nat), IsStr m1 p cs →
      ∃ k i b, SRun (finFlag m1 Prod.snd Prod.fst)
        (fun s : Nat × Bool => do
          let x ← rd m1 s.1
          let f ← strchr m2 s2 x
          some (if f.isSome then (s.1, true) else (s.1 + 1, false))) k (p, false) (p + i, b) ∧
        ((i = cs.length ∧ ∀ x ∈ cs, x ∉ ds) ∨ (i < cs.length ∧ Cstr.First cs (· ∈ ds) (some i))) := by
    intro cs
    induction cs with
    | nil => intro p h; exact ⟨_, 0, _, .stop (finFlag_nil h), Or.inl ⟨rfl, by simp⟩⟩
    | cons c cs ih =>
      intro p h
      obtain ⟨hr, hc0, h'⟩ := h.cons
      by_cases hm : c ∈ ds
      · refine ⟨_, 0, true, .step (t := (p, true)) (finFlag_cons h rfl) ?_ (.stop (finFlag_true rfl)), ?_⟩
        · simp [hr, strchr_eq h2, hm]
        · exact Or.inr ⟨by simp, ⟨c, by simp, hm⟩, by simp⟩
      · obtain ⟨k, i, b, hrun, hi⟩ := ih (p + 1) h'
        rw [show p + 1 + i = p + (i + 1) by omega] at hrun
        refine ⟨k + 1, i + 1, b, .step (t := (p + 1, false)) (finFlag_cons h rfl) ?_ hrun, ?_⟩
        · simp [hr, strchr_eq h2, hm, hc0]
        · rcases hi with ⟨h1, h2⟩ | ⟨h1, ⟨x, h2, h3⟩, h4⟩
          · exact Or.inl ⟨by simp [h1], by simpa [hm] using h2⟩
          · refine Or.inr ⟨by simp; omega, ⟨x, by simpa using h2, h3⟩, ?_⟩
            intro j y hj hy
            cases j with
            | zero => simp at hy; exact hy ▸ hm
            | succ j => exact h4 j y (by omega) (by simpa using hy)
  obtain ⟨k, i, b, hr, hi⟩ := run cs s1 h1
  rw [strpbrk, sdbl_run (finFlag_idem _ _ _) _ _ _ 1 (by omega) hr]
  simp only [Option.bind_eq_bind, Option.bind_some, findCheck, atEnd]
  rcases hi with ⟨rfl, h⟩ | ⟨hl, h⟩
  · refine ⟨none, ?_, h⟩
    rw [h1.get (k := cs.length) (x := 0) (by simp)]; rfl
  · refine ⟨some i, ?_, h⟩
    have hne : cs[i] ≠ 0 := fun e => h1.2 (e ▸ List.getElem_mem hl)
    rw [h1.get (k := i) (x := cs[i]) (by rw [List.getElem?_append_left hl, List.getElem?_eq_getElem hl])]
    simp [hne]

/-! ### strstr -/
theorem finOne_idem (m1 m2 : List Int) (f : Nat) : SIdem (finOne m1 m2 f) := by
  intro s r h
  have : r.2.2 = true := by
    unfold finOne at h
    split at h
    · rename_i hs
      simp only [Option.some.injEq] at h; exact h ▸ hs
    · cases he : atEnd m2 s.2.1 with
      | none => rw [he] at h; simp at h
      | some b =>
        rw [he] at h
        cases b
        · simp only [Option.bind_eq_bind, Option.bind_some, Bool.false_eq_true, if_false] at h
          cases he1 : atEnd m1 s.1 with
          | none => rw [he1] at h; simp at h
          | some b => rw [he1] at h; cases b <;> simp at h; rw [← h]
        · simp at h; rw [← h]
  unfold finOne; rw [if_pos this]

/-- where a failed comparison stops -/
def oneEnd : List Int → List Int → Nat
  | x :: xs, y :: ys => if x = y then oneEnd xs ys + 1 else 1
  | _, _ => 0

theorem oneEnd_spec : ∀ (xs ys : List Int), oneEnd xs ys ≤ xs.length ∧ (xs ≠ [] → ys ≠ [] → 1 ≤ oneEnd xs ys) ∧
    (¬ ys <+: xs → oneEnd xs ys = xs.length → xs.length ≤ ys.length) := by
  intro xs
  induction xs with
  | nil => intro ys; simp [oneEnd]
  | cons x xs ih =>
    intro ys
    cases ys with
    | nil => simp [oneEnd]
    | cons y ys =>
      obtain ⟨h1, _, h3⟩ := ih ys
      rw [oneEnd]
      by_cases h : x = y
      · subst h
        simp only [if_true, List.length_cons]
        refine ⟨by omega, fun _ _ => by omega, fun hn he => ?_⟩
        have := h3 (fun hp => hn (by simpa using hp)) (by omega)
        omega
      · simp only [h, if_false, List.length_cons]
        exact ⟨by omega, fun _ _ => by omega, fun _ _ => by omega⟩

theorem strstrOne_eq {m1 m2 : List Int} {s1 s2 : Nat} {cs ds : List Int} (h1 : IsStr m1 s1 cs) (h2 : IsStr m2 s2 ds) :
    strstrOne m1 m2 s1 s2 = some (if ds <+: cs then s1 else s1 + oneEnd cs ds) := by
  have run : ∀ (cs ds : List Int) (p q : Nat), IsStr m1 p cs → IsStr m2 q ds →
      ∃ k q', SRun (finOne m1 m2 s1)
        (fun s => do
          let x ← rd m1 s.1
          let y ← rd m2 s.2.1
          some (if !(x == y) then (s.1 + 1, s.2.1, true) else (s.1 + 1, s.2.1 + 1, false))) k (p, q, false)
        (if ds <+: cs then s1 else p + oneEnd cs ds, q', true) := by
    intro cs
    induction cs with
    | nil =>
      intro ds p q hc hd
      cases ds with
      | nil => exact ⟨0, q, .stop (by simp [finOne, hd.atEnd_nil])⟩
      | cons d ds => exact ⟨0, q, .stop (by simp [finOne, hd.atEnd_cons, hc.atEnd_nil, oneEnd])⟩
    | cons c cs ih =>
      intro ds p q hc hd
      cases ds with
      | nil => exact ⟨0, q, .stop (by simp [finOne, hd.atEnd_nil])⟩
      | cons d ds =>
        have hfin : finOne m1 m2 s1 (p, q, false) = some none := by simp [finOne, hd.atEnd_cons, hc.atEnd_cons]
        obtain ⟨hc1, _, hc3⟩ := hc.cons
        obtain ⟨hd1, _, hd3⟩ := hd.cons
        by_cases h : c = d
        · subst h
          obtain ⟨k, q', hr⟩ := ih ds (p + 1) (q + 1) hc3 hd3
          refine ⟨k + 1, q', .step (t := (p + 1, q + 1, false)) hfin (by simp [hc1, hd1]) ?_⟩
          have e : (if c :: ds <+: c :: cs then s1 else p + oneEnd (c :: cs) (c :: ds)) = (if ds <+: cs then s1 else p + 1 + oneEnd cs ds) := by
            rw [oneEnd, if_pos rfl]
            by_cases hp : ds <+: cs
            · rw [if_pos hp, if_pos (by simpa using hp)]
            · rw [if_neg hp, if_neg (by simpa using hp)]; omega
          rw [e]; exact hr
        · refine ⟨1, q, .step (t := (p + 1, q, true)) hfin (by simp [hc1, hd1, h]) (.stop ?_)⟩
          have hp : ¬ d :: ds <+: c :: cs := by
            intro hp; rw [List.cons_prefix_cons] at hp; exact h hp.1.symm
          rw [if_neg hp, oneEnd, if_neg h]
          simp [finOne]
  obtain ⟨k, q', hr⟩ := run cs ds s1 s2 h1 h2
  rw [strstrOne, sdbl_run (finOne_idem _ _ _) _ _ _ 1 (by omega) hr]
  rfl

theorem strstrPos_spec {m1 m2 : List Int} {s1 s2 : Nat} {cs ds : List Int} (h1 : IsStr m1 s1 cs) (h2 : IsStr m2 s2 ds) (hds : ds ≠ []) :
    ∃ i, strstrPos m1 m2 s1 s2 = some (s1 + i) ∧
      ((i = cs.length ∧ Cstr.FirstSub cs ds none) ∨ (i < cs.length ∧ Cstr.FirstSub cs ds (some i))) := by
  obtain ⟨d, ds', rfl⟩ := List.exists_cons_of_ne_nil hds
  have run : ∀ (cs : List Int) (p : Nat), IsStr m1 p cs →
      ∃ k i b, SRun (finFlag m1 Prod.snd Prod.fst)
        (fun s : Nat × Bool => do
          let f ← strstrOne m1 m2 s.1 s2
          if f = s.1 then some (f, true)
          else do
            let e ← atEnd m1 f
            some (if e then (f, true) else (s.1 + 1, false))) k (p, false) (p + i, b) ∧
        ((i = cs.length ∧ Cstr.FirstSub cs (d :: ds') none) ∨ (i < cs.length ∧ Cstr.FirstSub cs (d :: ds') (some i))) := by
    intro cs
    induction cs with
    | nil => intro p h; exact ⟨0, 0, _, .stop (finFlag_nil h), Or.inl ⟨rfl, fun j _ => by simp⟩⟩
    | cons c cs ih =>
      intro p h
      obtain ⟨hr, hc0, h'⟩ := h.cons
      have hone := strstrOne_eq h h2
      by_cases hp : d :: ds' <+: c :: cs
      · rw [if_pos hp] at hone
        refine ⟨1, 0, true, .step (t := (p, true)) (finFlag_cons h rfl) (by simp [hone]) (.stop (finFlag_true rfl)), ?_⟩
        exact Or.inr ⟨by simp, by simp, by simpa using hp, fun j hj => by omega⟩
      · rw [if_neg hp] at hone
        obtain ⟨o1, o2, o3⟩ := oneEnd_spec (c :: cs) (d :: ds')
        have o2 := o2 (by simp) (by simp)
        by_cases he : oneEnd (c :: cs) (d :: ds') = (c :: cs).length
        · have hlen := o3 hp he
          have hend : atEnd m1 (p + oneEnd (c :: cs) (d :: ds')) = some true := by
            rw [he, atEnd, h.get (k := (c :: cs).length) (x := 0) (by simp)]; rfl
          refine ⟨1, (c :: cs).length, true, .step (t := (p + (c :: cs).length, true)) (finFlag_cons h rfl) ?_ (.stop (finFlag_true rfl)), ?_⟩
          · simp only [hone, Option.bind_eq_bind, Option.bind_some, hend]
            rw [if_neg (by omega), he]; rfl
          · refine Or.inl ⟨rfl, fun j _ hj => ?_⟩
            cases j with
            | zero => exact hp (by simpa using hj)
            | succ j => have := hj.length_le; simp at this hlen; omega
        · have hend : atEnd m1 (p + oneEnd (c :: cs) (d :: ds')) = some false := by
            have hl : oneEnd (c :: cs) (d :: ds') < (c :: cs).length := by omega
            have hx : (c :: cs)[oneEnd (c :: cs) (d :: ds')] ≠ 0 := fun e => h.2 (e ▸ List.getElem_mem hl)
            rw [atEnd, h.get (x := (c :: cs)[oneEnd (c :: cs) (d :: ds')]) (by rw [List.getElem?_append_left hl, List.getElem?_eq_getElem hl])]
            simp [hx]
          obtain ⟨k, i, b, hrun, hi⟩ := ih (p + 1) h'
          rw [show p + 1 + i = p + (i + 1) by omega] at hrun
          refine ⟨k + 1, i + 1, b, .step (t := (p + 1, false)) (finFlag_cons h rfl) ?_ hrun, ?_⟩
          · simp only [hone, Option.bind_eq_bind, Option.bind_some, hend]
            rw [if_neg (by omega)]; rfl
          · rcases hi with ⟨h1, h2⟩ | ⟨h1, h2, h3, h4⟩
            · refine Or.inl ⟨by simp [h1], fun j hj hc => ?_⟩
              cases j with
              | zero => exact hp (by simpa using hc)
              | succ j => exact h2 j (by simpa using hj) (by simpa using hc)
            · refine Or.inr ⟨by simp; omega, by simp; omega, by simpa using h3, fun j hj hc => ?_⟩
              cases j with
              | zero => exact hp (by simpa using hc)
              | succ j => exact h4 j (by omega) (by simpa using hc)
  obtain ⟨k, i, b, hr, hi⟩ := run cs s1 h1
  refine ⟨i, ?_, hi⟩
  have hs := sdbl_run (finFlag_idem _ _ _) _ _ _ 1 (by omega) hr
  simp only [Option.bind_eq_bind] at hs
  rw [strstrPos, h2.atEnd_cons]
  simp only [Option.bind_eq_bind, Option.bind_some, Bool.false_eq_true, if_false]
  rw [hs]
  rfl

theorem findCheck_str {m : List Int} {s : Nat} {cs : List Int} (h : IsStr m s cs) (i : Nat) (hi : i ≤ cs.length) :
    findCheck m (s + i) = some (if i = cs.length then none else some (s + i)) := by
  by_cases he : i = cs.length
  · subst he
    rw [findCheck, atEnd, h.get (k := cs.length) (x := 0) (by simp)]; simp
  · have hl : i < cs.length := by omega
    have hne : cs[i] ≠ 0 := fun e => h.2 (e ▸ List.getElem_mem hl)
    rw [findCheck, atEnd, h.get (k := i) (x := cs[i]) (by rw [List.getElem?_append_left hl, List.getElem?_eq_getElem hl])]
    simp [hne, he]

end Sprout.Cstr

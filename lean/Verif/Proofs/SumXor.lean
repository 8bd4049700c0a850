import Verif.Spec.SumXor
import Verif.Props.C68

/-! # Helper lemmas for C113 -/

namespace Sprout
namespace SumXor
open Spec

theorem split3 {m : List Nat} {f l : Nat} (h : f ≤ l ∧ l ≤ m.length) :
    ∃ pre xs post, m = pre ++ xs ++ post ∧ f = pre.length ∧ l = pre.length + xs.length ∧ xs = (m.drop f).take (l - f) := by
  refine ⟨m.take f, (m.drop f).take (l - f), m.drop l, ?_, by simp; omega, by simp; omega, rfl⟩
  rw [List.append_assoc]
  have : m.drop l = (m.drop f).drop (l - f) := by rw [List.drop_drop]; congr 1; omega
  rw [this, List.take_append_drop, List.take_append_drop]

theorem process_eq (op : Nat → Nat → Nat) (s : Sum) (c : Call) (p : List Nat) (h : fed c = some p) :
    process op s c = some ⟨p.foldl op s.sum⟩ := by
  cases c with
  | byte b => simp only [fed, Option.some.injEq] at h; subst h; rfl
  | block m f l =>
    simp only [fed] at h
    split at h
    · rename_i hv
      obtain ⟨pre, xs, post, hm, hf, hl, hx⟩ := split3 hv
      rw [← hx] at h
      cases h
      simp only [process]
      rw [hm, hf, hl, (C68_accumulate op s.sum pre p post).1]; rfl
    · cases h
  | blockIn m f l =>
    simp only [fed] at h
    split at h
    · rename_i hv
      obtain ⟨pre, xs, post, hm, hf, hl, hx⟩ := split3 hv
      rw [← hx] at h
      cases h
      simp only [process]
      rw [hm, hf, hl, (C68_accumulate op s.sum pre p post).2]; rfl
    · cases h

theorem processAll_eq (op : Nat → Nat → Nat) {cs : List Call} {msg : List Nat} (h : Message cs msg) (s : Sum) :
    processAll op s cs = some ⟨msg.foldl op s.sum⟩ := by
  obtain ⟨parts, hp, rfl⟩ := h
  induction hp generalizing s with
  | nil => rfl
  | cons h1 _ ih =>
    simp only [processAll]
    rw [process_eq op s _ _ h1]
    simp only [Option.bind_eq_bind, Option.bind_some]
    rw [ih]
    simp

theorem fold_add (k : Nat) (hk : k ≤ 64) : ∀ (msg : List Nat) (s : Nat), msg.foldl add s % 2 ^ k = (s + msg.sum) % 2 ^ k
  | [], s => by simp
  | b :: bs, s => by
    rw [List.foldl_cons, fold_add k hk bs, List.sum_cons, ← Nat.add_assoc]
    unfold add
    rw [Nat.add_mod, Nat.mod_mod_of_dvd _ (Nat.pow_dvd_pow 2 hk), ← Nat.add_mod]

theorem fold_xor : ∀ (msg : List Nat) (s : Nat), msg.foldl (fun a b => a ^^^ b) s = s ^^^ msg.foldr (fun a b => a ^^^ b) 0
  | [], s => by simp
  | b :: bs, s => by
    rw [List.foldl_cons, fold_xor bs, List.foldr_cons, Nat.xor_assoc]

theorem max_toNat (k : Nat) : ((2 : Int) ^ k - 1).toNat = 2 ^ k - 1 := by
  have : (2 : Int) ^ k = ((2 ^ k : Nat) : Int) := by push_cast; rfl
  rw [this]
  have := Nat.two_pow_pos k
  omega

end SumXor
end Sprout

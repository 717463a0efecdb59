import Verif.Spec.Binding
import Verif.Props.PolMisc
import Verif.Proofs.Challenge

/-! # Lemmas on the bytes hashed into the challenges -/

set_option linter.unusedSectionVars false

namespace PoL.Binding
open Spec

variable {G1 G2 GT : Type} [AddCommGroup G1] [Module Zr G1] [AddCommGroup G2] [Module Zr G2]
  [AddCommGroup GT] [Module Zr GT]

/-- Concatenations of two equally long prefixes determine the parts. -/
theorem split {a b c d : Bytes} (hl : a.length = c.length) (h : a ++ b = c ++ d) : a = c ∧ b = d :=
  List.append_inj h hl

/-- Concatenations of encodings with a common length determine the list. -/
theorem flatMap_inj {α : Type} (f : α → Bytes) (n : ℕ) (hn : 0 < n) (hl : ∀ a, (f a).length = n)
    (hf : Function.Injective f) : ∀ l l' : List α, l.flatMap f = l'.flatMap f → l = l'
  | [], [], _ => rfl
  | [], b :: l', h => by
      have := congrArg List.length h
      simp [hl] at this
      omega
  | a :: l, [], h => by
      have := congrArg List.length h
      simp [hl] at this
      omega
  | a :: l, b :: l', h => by
      rw [List.flatMap_cons, List.flatMap_cons] at h
      obtain ⟨h1, h2⟩ := split (by rw [hl, hl]) h
      rw [hf h1, flatMap_inj f n hn hl hf l l' h2]

/-- The length of a concatenation of encodings. -/
theorem flatMap_len {α : Type} (f : α → Bytes) (n : ℕ) (hl : ∀ a, (f a).length = n) (l : List α) :
    (l.flatMap f).length = l.length * n := by
  induction l with
  | nil => simp
  | cons a l ih => rw [List.flatMap_cons, List.length_append, hl, ih, List.length_cons]; ring

theorem uint16BE_len (k : ℕ) : (Poe.uint16BE k).length = 2 := natToBE_length _ _

theorem uint16BE_inj {i j : ℕ} (hi : i < 65536) (hj : j < 65536) (h : Poe.uint16BE i = Poe.uint16BE j) : i = j := by
  have := congrArg beToNat h
  unfold Poe.uint16BE at this
  rwa [beToNat_natToBE _ _ (by omega), beToNat_natToBE _ _ (by omega), Nat.mod_eq_of_lt hi, Nat.mod_eq_of_lt hj] at this

/-- Concatenations of two-byte integers determine the integers below 65536. -/
theorem uint16s_inj : ∀ l l' : List ℕ, (∀ k ∈ l, k < 65536) → (∀ k ∈ l', k < 65536) →
    l.flatMap Poe.uint16BE = l'.flatMap Poe.uint16BE → l = l'
  | [], [], _, _, _ => rfl
  | [], b :: l', _, _, h => by
      have := congrArg List.length h
      simp only [List.flatMap_cons, List.flatMap_nil, List.length_append, List.length_nil, uint16BE_len] at this
      omega
  | a :: l, [], _, _, h => by
      have := congrArg List.length h
      simp only [List.flatMap_cons, List.flatMap_nil, List.length_append, List.length_nil, uint16BE_len] at this
      omega
  | a :: l, b :: l', hl, hl', h => by
      rw [List.flatMap_cons, List.flatMap_cons] at h
      obtain ⟨h1, h2⟩ := split (by rw [uint16BE_len, uint16BE_len]) h
      rw [uint16BE_inj (hl a (by simp)) (hl' b (by simp)) h1,
        uint16s_inj l l' (fun k hk => hl k (by simp [hk])) (fun k hk => hl' k (by simp [hk])) h2]

end PoL.Binding

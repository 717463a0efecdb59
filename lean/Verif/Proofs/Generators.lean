import Verif.Spec.Generators
import Verif.Proofs.Vec
import Mathlib.Algebra.BigOperators.Group.List.Basic

/-! Lemmas for the generators hashed to the curve. -/

namespace PoL
open Spec BP Pol

variable {G1 G2 GT : Type} [AddCommGroup G1] [Module Zr G1] [AddCommGroup G2] [Module Zr G2]
  [AddCommGroup GT] [Module Zr GT]

/-- The last space of a label is the one in front of the index. -/
theorem split_last_space : ∀ (a a' b b' : List Char), ' ' ∉ b → ' ' ∉ b' → a ++ ' ' :: b = a' ++ ' ' :: b' →
    a = a' ∧ b = b'
  | [], [], _, _, _, _, h => ⟨rfl, (List.cons.inj h).2⟩
  | [], x :: a', b, b', hb, _, h => by
      obtain ⟨-, rfl⟩ := List.cons.inj h
      exact absurd (by simp) hb
  | x :: a, [], b, b', _, hb', h => by
      obtain ⟨-, h⟩ := List.cons.inj h
      exact absurd (by rw [← h]; simp) hb'
  | x :: a, y :: a', b, b', hb, hb', h => by
      obtain ⟨rfl, h1⟩ := List.cons.inj h
      obtain ⟨rfl, h2⟩ := split_last_space a a' b b' hb hb' h1
      exact ⟨rfl, h2⟩

theorem no_space_in_digits (i : ℕ) : ' ' ∉ Nat.toDigits 10 i := fun h => by
  have := Nat.isDigit_of_mem_toDigits (by norm_num) (by norm_num) h
  exact absurd this (by decide)

theorem randGenVec_role (E : Curve G1 G2 GT) (n : ℕ) (r : Role) :
    randGenVec E n r.context = (List.range n).map fun i => pointOf E (r.label i) := rfl

theorem randGenVec_role_one (E : Curve G1 G2 GT) (r : Role) :
    (randGenVec E 1 r.context)[0]? = some (pointOf E (r.label 0)) := rfl

theorem dot_ranges (n : ℕ) (k : ℕ → Zr) (g : ℕ → G1) :
    dot ((List.range n).map k) ((List.range n).map g) = ∑ i ∈ Finset.range n, k i • g i := by
  induction n with
  | zero => simp
  | succ n ih =>
    rw [List.range_succ, List.map_append, List.map_append, dot_append _ _ _ _ (by simp), ih, Finset.sum_range_succ]
    simp

/-- Path functions do not hash to the curve. -/
theorem hexId2Path_hash (E : Curve G1 G2 GT) (hash : Bytes → G1) (fanOut : UInt16) :
    hexId2Path { E with hashToG1 := hash } fanOut = hexId2Path E fanOut := by
  with_unfolding_all rfl

end PoL

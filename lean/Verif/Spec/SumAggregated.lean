import Verif.Spec.SumTranscripts
import Mathlib.Algebra.BigOperators.Group.Finset.Basic

/-!
# Transcripts of the aggregated sum argument (specification of special soundness)
-/

namespace PoL.Sum

open BP Finset

variable {G1 : Type} [AddCommGroup G1] [Module Zr G1]

/-- What follows a challenge `τ` of the aggregated argument: `c`, `W`, and the answers to three challenges. -/
structure AggBranch (G : Type) where
  τ : Zr
  c : Zr
  W : G
  ans : Fin 3 → Answer G

/-- The scalars of a branch, without its group elements. -/
def AggBranch.scalars {G : Type} (b : AggBranch G) : AggBranch Unit := ⟨b.τ, b.c, (), fun i => (b.ans i).scalars⟩

/-- The challenges of the branch are distinct, the trees have depth `k`, and all transcripts are accepted, for the
commitments `V 0, …, V (m-1)` combined with the powers of `τ`. -/
def AggBranch.Accepted (b : AggBranch G1) (k m : ℕ) (x₀ : Zr) (w : List Zr) (F : G1) (Gs H : List G1) (U : G1)
    (V : ℕ → G1) : Prop :=
  (∀ i j, i ≠ j → (b.ans i).x ≠ (b.ans j).x) ∧
  ∀ i, (b.ans i).tree.WellFormed k ∧ (b.ans i).Accepted x₀ b.c w F Gs H U (∑ i ∈ range m, b.τ ^ i • V i) b.W

end PoL.Sum

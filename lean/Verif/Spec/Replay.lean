import Verif.Model.Pol

/-! What it takes for a liability proof to be accepted for two different leaves. -/

namespace PoL.Spec

variable {G1 : Type} [AddCommGroup G1] [Module Zr G1]

/-- Trapdoors for which two positions of a vector of less than `F` entries cannot be told apart. -/
def SpecialTrapdoor (α : Zr) (F : ℕ) : Prop := α = 0 ∨ ∃ d, 0 < d ∧ d < F ∧ α ^ d = 1

/-- The coefficient of the challenge of layer `k` in the difference of the point-proof checks for two paths. -/
def replayCoeff (α : Zr) (N : ℕ) (p₁ p₂ : List ℕ) (Ws : List G1) (k : ℕ) : G1 :=
  (α ^ (N - p₁.getD k 0) - α ^ (N - p₂.getD k 0)) • Ws.getD k 0

end PoL.Spec

import Verif.Model.Poe
import Verif.Spec.Challenges

/-!
# Challenges and transcripts of the equality proofs (specification)
-/

namespace PoL.Poe

open BP

variable {G1 G2 GT : Type} [AddCommGroup G1] [Module Zr G1] [AddCommGroup G2] [Module Zr G2]
  [AddCommGroup GT] [Module Zr GT]

/-- The folding challenges of a batch equality proof (all are inverted by the verifier). -/
def AggregatedProof.challenges (E : Curve G1 G2 GT) (pp : PP G1 G2 GT) (p : AggregatedProof G1) : List Zr :=
  match ipaParams E pp with
  | some q => ippChallenges E q p.IPP
  | none => []

/-- The verification equation of a single equality proof with the challenges `x`, `t₀`, `t₁` given, for parameters with
trapdoor `α` and size `N`. -/
def eqAccepts (E : Curve G1 G2 GT) (α : Zr) (N : ℕ) (V W : G1) (I J : ℕ) (x t₀ t₁ : Zr) (p : Proof G1) : Prop :=
  E.pair (t₀ • (x • p.V + V)) (α ^ (N - I) • E.genG2) + E.pair (t₁ • (x • p.W + W)) (α ^ (N - J) • E.genG2)
    = E.pair p.Ω E.genG2 + (p.C * (t₀ + t₁)) • E.pair (α • E.genG1) (α ^ N • E.genG2)

/-- One challenge `x` and its response `C`, followed by two pairs of challenges `(t₀,t₁)` and the final group elements
sent for them. -/
structure EqBranch (G : Type) where
  x : Zr
  C : Zr
  t₀ : Zr
  t₁ : Zr
  Ω : G
  t₀' : Zr
  t₁' : Zr
  Ω' : G

/-- The determinant of the two pairs of challenges. -/
def EqBranch.det {G : Type} (b : EqBranch G) : Zr := b.t₀ * b.t₁' - b.t₁ * b.t₀'

/-- Both transcripts of the branch are accepted. -/
def EqBranch.Accepted (E : Curve G1 G2 GT) (α : Zr) (N : ℕ) (V W : G1) (I J : ℕ) (V' W' : G1) (b : EqBranch G1) : Prop :=
  eqAccepts E α N V W I J b.x b.t₀ b.t₁ ⟨b.C, V', W', b.Ω⟩ ∧
    eqAccepts E α N V W I J b.x b.t₀' b.t₁' ⟨b.C, V', W', b.Ω'⟩

/-- What a branch says about `V`: an opening of `x·V' + V`. -/
def EqBranch.left (b : EqBranch G1) : G1 := b.det⁻¹ • (b.t₁' • b.Ω - b.t₁ • b.Ω')

/-- What a branch says about `W`. -/
def EqBranch.right (b : EqBranch G1) : G1 := b.det⁻¹ • (b.t₀ • b.Ω' - b.t₀' • b.Ω)

/-- The value extracted from two branches. -/
def extractedValue (b₁ b₂ : EqBranch G1) : Zr := (b₁.x - b₂.x)⁻¹ * (b₁.x * b₂.C - b₂.x * b₁.C)

/-- The opening of `V` extracted from two branches. -/
def extractedLeft (b₁ b₂ : EqBranch G1) : G1 := (b₁.x - b₂.x)⁻¹ • (b₁.x • b₂.left - b₂.x • b₁.left)

/-- The opening of `W` extracted from two branches. -/
def extractedRight (b₁ b₂ : EqBranch G1) : G1 := (b₁.x - b₂.x)⁻¹ • (b₁.x • b₂.right - b₂.x • b₁.right)

end PoL.Poe

import Verif.Spec.Transcripts
import Verif.Model.Sum

/-!
# Transcripts of the sum argument (specification of special soundness), and its challenges
-/

namespace PoL.Sum

open BP

variable {G1 G2 GT : Type} [AddCommGroup G1] [Module Zr G1] [AddCommGroup G2] [Module Zr G2]
  [AddCommGroup GT] [Module Zr GT]

/-- The folding challenges of a sum proof (all are inverted by the verifier). -/
def Proof.challenges [DecidableEq G1] (E : Curve G1 G2 GT) (pp : PP G1) (p : Proof G1) : List Zr :=
  match ipaParams E pp with
  | some ipaPP => ippChallenges E ipaPP p.π
  | none => []

/-- One answer of the prover after sending `c` and `W`: the challenge `x`, the scalar `ρ`, and a tree of
transcripts of the inner-product argument for the resulting statement. -/
structure Answer (G : Type) where
  x : Zr
  ρ : Zr
  tree : TTree G

/-- The same without group elements. -/
def Answer.scalars {G : Type} (a : Answer G) : Answer Unit := ⟨a.x, a.ρ, a.tree.scalars⟩

/-- All transcripts of the answer are accepted: the statement is `ρF + V + xW + <b,H>` with inner product `c·x`,
checked with the base `x₀·U`. -/
def Answer.Accepted (a : Answer G1) (x₀ c : Zr) (b : List Zr) (F : G1) (Gs H : List G1) (U V W : G1) : Prop :=
  ∀ p ∈ a.tree.paths, acceptsWith (x₀ • U) p.1
    (a.ρ • F + V + a.x • W + dot b H + (x₀ * (c * a.x)) • U) Gs H p.2.1 p.2.2

/-- Coefficients of the generators `F`, `Gs`, `H`, `U`. -/
structure Relation where
  f : Zr
  a : List Zr
  b : List Zr
  u : Zr

/-- The group element with these coefficients. -/
def Relation.eval (r : Relation) (F : G1) (Gs H : List G1) (U : G1) : G1 :=
  r.f • F + dot r.a Gs + dot r.b H + r.u • U

/-- All coefficients are zero. -/
def Relation.IsZero (r : Relation) : Prop := r.f = 0 ∧ (∀ x ∈ r.a, x = 0) ∧ (∀ x ∈ r.b, x = 0) ∧ r.u = 0

end PoL.Sum

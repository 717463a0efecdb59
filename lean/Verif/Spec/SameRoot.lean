import Verif.Spec.VerkleRun
import Verif.Spec.Liabilities
import Verif.Spec.PolChecks

/-!
# When two runs can have the same root although they differ

Three things that should not be found, each exhibited by vertices that the two runs have stored at one path they have
both passed (or, for the second, that one of them has passed).
-/

namespace PoL.Spec
open Verkle

variable {G1 G2 GT : Type} [AddCommGroup G1] [Module Zr G1] [AddCommGroup G2] [Module Zr G2]
  [AddCommGroup GT] [Module Zr GT] [DecidableEq G1]

/-- Both runs have passed `q` and store `x₁`, `x₂` there. -/
structure BothStore (E : Curve G1 G2 GT) (h₁ h₂ : List (List ℕ × ℤ)) (db₁ db₂ : Db) (q : List ℕ) (x₁ x₂ : Vertex G1) :
    Prop where
  touched₁ : touched h₁ q
  touched₂ : touched h₂ q
  stored₁ : Vertex.fromBytes E (db₁ (keyOf q)) = some x₁
  stored₂ : Vertex.fromBytes E (db₂ (keyOf q)) = some x₂

/-- What a vertex is hashed as: its commitments `V` and, above the layer over the leaves, `W`. -/
def hashedAs (E : Curve G1 G2 GT) (x : Vertex G1) : Bytes :=
  E.g1Bytes x.V ++ match x.W with
    | none => []
    | some W => E.g1Bytes W

/-- Different commitments at one path with the same hash. -/
def HashCollision (E : Curve G1 G2 GT) (h₁ h₂ : List (List ℕ × ℤ)) (db₁ db₂ : Db) : Prop :=
  ∃ q x₁ x₂, BothStore E h₁ h₂ db₁ db₂ q x₁ x₂ ∧ ¬ (x₁.V = x₂.V ∧ x₁.W = x₂.W) ∧
    ∃ d, IsHashOf E (hashedAs E x₁) d ∧ IsHashOf E (hashedAs E x₂) d

/-- A vertex with the hash zero. -/
def ZeroDigest (E : Curve G1 G2 GT) (h : List (List ℕ × ℤ)) (db : Db) : Prop :=
  ∃ q x, touched h q ∧ Vertex.fromBytes E (db (keyOf q)) = some x ∧ IsHashOf E (hashedAs E x) 0

/-- Different vectors, made of the sums or of the digests at one path, with the same commitment. -/
def CommitCollision (E : Curve G1 G2 GT) (α : Zr) (F : ℕ) (h₁ h₂ : List (List ℕ × ℤ)) (db₁ db₂ : Db) : Prop :=
  ∃ q x₁ x₂, BothStore E h₁ h₂ db₁ db₂ q x₁ x₂ ∧
    ((valuesOf F x₁ ≠ valuesOf F x₂ ∧
        PP.commit (PP.newPublicParams E α (F + 2)) (valuesOf F x₁) = PP.commit (PP.newPublicParams E α (F + 2)) (valuesOf F x₂)) ∨
      (digestsOf F x₁ ≠ digestsOf F x₂ ∧
        PP.commit (PP.newPublicParams E α (F + 2)) (digestsOf F x₁)
          = PP.commit (PP.newPublicParams E α (F + 2)) (digestsOf F x₂)))

/-- One of the three. -/
def Broken (E : Curve G1 G2 GT) (α : Zr) (F : ℕ) (h₁ h₂ : List (List ℕ × ℤ)) (db₁ db₂ : Db) : Prop :=
  HashCollision E h₁ h₂ db₁ db₂ ∨ (ZeroDigest E h₁ db₁ ∨ ZeroDigest E h₂ db₂) ∨ CommitCollision E α F h₁ h₂ db₁ db₂

end PoL.Spec

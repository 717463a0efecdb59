import Verif.Model.Bench
import Verif.Spec.PolRun
import Verif.Spec.VerkleRun
import Verif.Spec.Liabilities

/-!
# What the benchmark is expected to do
-/

namespace PoL.Bench

open Spec Pol Verkle

/-- The length of paths in a tree. -/
def treeDepth (treeType : TreeType) (fanOut : UInt16) : Option ℕ :=
  match treeType with
  | .dense => digitPathLen fanOut
  | .sparse => expectedHexPathLength fanOut.toNat

/-- All the calls of `Set` in one round, in order: the population, then the identifiers to be measured. -/
def history (treeType : TreeType) (iterations numIds : ℕ) (d : Draws) : List (Str × ℤ) :=
  populate treeType numIds d.population ++
    (List.range iterations).map fun i => (idGen treeType (d.measured i), 666)

variable {G1 G2 GT : Type} [AddCommGroup G1] [Module Zr G1] [AddCommGroup G2] [Module Zr G2]
  [AddCommGroup GT] [Module Zr GT] [DecidableEq G1] [DecidableEq GT]

/-- A round without accidents: every identifier has a path of full length, no other write touches the vertex over the
leaf of a measured identifier, and no challenge is zero. -/
structure Fortunate (E : Curve G1 G2 GT) (env : Env) (iterations numIds : ℕ) (treeType : TreeType) (d : Draws)
    (fanOut : UInt16) (id2Path : Str → Option (List ℕ)) (pp : PublicParams G1 G2 GT) (L : ℕ) : Prop where
  valid : ValidIds id2Path fanOut.toNat L (history treeType iterations numIds d)
  once : ∀ i < iterations, ∀ p, id2Path (idGen treeType (d.measured i)) = some p →
    writesBelow (byPath id2Path (history treeType iterations numIds d)) p.dropLast = 1
  sized : ∀ i < iterations, RandSized fanOut.toNat L (d.prove i)
  challenges : ∀ i < iterations, ∀ ls, (newLiabilitySet E d.α' pp memDB id2Path).sets E env (history treeType iterations numIds d)
    = some ls → NonzeroChallenges E env ls (d.prove i) (idGen treeType (d.measured i))

end PoL.Bench

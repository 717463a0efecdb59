import Verif.Spec.RangeGens
import Verif.Spec.SumAggregated
import Verif.Spec.PoeBatch
import Verif.Model.Pol

/-!
# Transcripts of a liability proof (specification of its soundness)

The three zero-knowledge arguments of a liability proof, each with the answers of a prover that is rewound; and the
opening of the amount in the last commitment.
-/

namespace PoL.Spec

open BP Finset Pol

/-- For every layer `i` a tree of the range proof; branches of the aggregated sum argument and of the batch equality proof;
the opening `π` of the amount. -/
structure LiabilityTree (A : Type) where
  range : ℕ → RTree A
  sum : ℕ → Sum.AggBranch A
  V' : ℕ → A
  W' : ℕ → A
  eq₁ : Poe.BatchBranch A
  eq₂ : Poe.BatchBranch A
  π : A

/-- The scalars of a tree, without its group elements. -/
def LiabilityTree.scalars {A : Type} (t : LiabilityTree A) : LiabilityTree Unit where
  range i := (t.range i).scalars
  sum i := (t.sum i).scalars
  V' _ := ()
  W' _ := ()
  eq₁ := t.eq₁.scalars
  eq₂ := t.eq₂.scalars
  π := ()

/-- What the code derives from the parameters by hashing: the base `Ur` of the inner-product argument in the range
proofs, the base `B` of the one in the equality proof, and the factors of the bases in the sum argument and the equality
proof. -/
structure HashedBases (A : Type) where
  Ur : A
  B : A
  xs : Zr
  xe : Zr

variable {G1 G2 GT : Type} [AddCommGroup G1] [Module Zr G1] [AddCommGroup G2] [Module Zr G2]
  [AddCommGroup GT] [Module Zr GT]

/-- The equalities between neighbouring layers of a path, padded with trivial ones. -/
def pathPairs (fanout : ℕ) (path : List ℕ) (V : ℕ → G1) : Poe.Pairs G1 where
  V k := if k + 1 < path.length then V k else 0
  W k := if k + 1 < path.length then V (k + 1) else 0
  I k := if k + 1 < path.length then path.getD k 0 else 0
  J k := if k + 1 < path.length then fanout else 0

/-- All transcripts are accepted, for the commitments `V 0, …, V (L-1)` of a path of length `L`, and the last commitment is
opened to `amount` at the end of the path. `2^k` is the number of entries, `2^κ` the padded number of equalities. -/
structure LiabilityTree.Accepted [DecidableEq GT] (E : Curve G1 G2 GT) (α : Zr) (pp : PublicParams G1 G2 GT)
    (hb : HashedBases G1) (k κ : ℕ) (path : List ℕ) (V : ℕ → G1) (amount : ℤ) (t : LiabilityTree G1) : Prop where
  range_wf : ∀ i < path.length, (t.range i).WellFormed k
  range : ∀ i < path.length, (t.range i).Accepted (rangeGens pp.RPPP hb.Ur) (2 ^ k) (V i)
  sum_distinct : ∀ i < path.length, ∀ j < path.length, i ≠ j → (t.sum i).τ ≠ (t.sum j).τ
  sum : ∀ i < path.length, (t.sum i).Accepted k path.length hb.xs pp.SAPP.b pp.SAPP.F pp.SAPP.Gs pp.SAPP.H pp.SAPP.U V
  eq_distinct : t.eq₁.x ≠ t.eq₂.x
  eq₁ : t.eq₁.Accepted E α (pp.fanout + 2) κ (pathPairs pp.fanout path V) pp.POEPP.F pp.POEPP.G pp.POEPP.H hb.B hb.xe t.V' t.W'
  eq₂ : t.eq₂.Accepted E α (pp.fanout + 2) κ (pathPairs pp.fanout path V) pp.POEPP.F pp.POEPP.G pp.POEPP.H hb.B hb.xe t.V' t.W'
  leaf : PP.verify E pp.PPPP (intToZr amount) t.π (V (path.length - 1)) (path.getD (path.length - 1) 0) = some true

/-- Coefficients of an equation that gives `δ·α^(N+1)·g1`, the element that the parameters leave out: of the
parameters `α^(j+1)·g1`, of the elements `Ω` of the equality proof, of the opening of the amount, and of that of the total. -/
structure OpeningRel where
  δ : Zr
  params : ℕ → Zr
  Ω : (ℕ → Zr) × (ℕ → Zr)
  leaf : Zr
  total : Zr

/-- The equation holds, and does not use `α^(N+1)·g1` on its left. -/
def OpeningRel.Holds (E : Curve G1 G2 GT) (α : Zr) (N : ℕ) (t : LiabilityTree G1) (πTotal : G1) (q : OpeningRel) : Prop :=
  q.params N = 0 ∧ ∑ j ∈ Finset.range (2 * N), q.params j • α ^ (j + 1) • E.genG1 + Poe.combineΩ t.eq₁ t.eq₂ q.Ω + q.leaf • t.π
    + q.total • πTotal = q.δ • α ^ (N + 1) • E.genG1

/-- What a finder of breaks of the assumptions outputs: relations among the generators of the range proof, of the sum
argument, of the equality proof; and equations for the element left out of the parameters. -/
structure Findings where
  range : List RangeRel
  sum : List Sum.Relation
  eq : List Sum.Relation
  opening : List OpeningRel

/-- Everything that was found holds. -/
structure Findings.Hold (E : Curve G1 G2 GT) (α : Zr) (pp : PublicParams G1 G2 GT) (hb : HashedBases G1) (k κ : ℕ)
    (t : LiabilityTree G1) (πTotal : G1) (f : Findings) : Prop where
  range : ∀ q ∈ f.range, q.eval (rangeGens pp.RPPP hb.Ur) (2 ^ k) = 0
  sum : ∀ q ∈ f.sum, q.a.length = 2 ^ k ∧ q.b.length = 2 ^ k ∧ q.eval pp.SAPP.F pp.SAPP.Gs pp.SAPP.H pp.SAPP.U = 0
  eq : ∀ q ∈ f.eq, q.a.length = 2 ^ κ ∧ q.b.length = 2 ^ κ ∧ q.eval pp.POEPP.F pp.POEPP.G pp.POEPP.H hb.B = 0
  opening : ∀ q ∈ f.opening, q.Holds E α (pp.fanout + 2) t πTotal

/-- Nothing that was found is non-trivial. -/
structure Findings.Trivial (k : ℕ) (f : Findings) : Prop where
  range : ∀ q ∈ f.range, q.IsZero (2 ^ k)
  sum : ∀ q ∈ f.sum, q.IsZero
  eq : ∀ q ∈ f.eq, q.IsZero
  opening : ∀ q ∈ f.opening, q.δ = 0

end PoL.Spec

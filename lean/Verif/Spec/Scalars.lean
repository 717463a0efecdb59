import Verif.Model.RawPol
import Verif.Spec.Balanced

/-!
# Specification: implementations of scalars
-/

namespace PoL.Spec

open Raw

variable {G1 G2 GT : Type} [AddCommGroup G1] [Module Zr G1] [AddCommGroup G2] [Module Zr G2]
  [AddCommGroup GT] [Module Zr GT]

/-- Every vertex that can be read from the database has reduced scalars.  True of an empty database. -/
def StoredReduced (E : Curve G1 G2 GT) (db : Verkle.Db) : Prop :=
  ∀ k (v : Raw.Vertex G1), Raw.Vertex.fromBytes E (db k) = some v →
    Reduced v.blindingFactor ∧ Reduced v.sum ∧ (∀ i x, v.values i = some x → Reduced x) ∧ ∀ i x, v.digests i = some x → Reduced x

/-- Every amount is an `int64`. -/
def Int64Amounts (hist : List (Str × ℤ)) : Prop := ∀ e ∈ hist, -2 ^ 63 ≤ e.2 ∧ e.2 < 2 ^ 63

/-- A library of scalars that adds without reducing and compares integers. -/
def lazyLib : ScalarLib where
  plus a b := a + b
  mul a b := a * b % order
  modAdd a b := (a + b) % order
  modSub a b := (a - b) % order
  inv a := canon (a : Zr)⁻¹
  pow a n := a ^ n % order
  equals a b := decide (a = b)
  bytes a := natToBE 32 a.toNat
  int a := if a < 2 ^ 63 then some a else none

/-- A library that reduces every result and compares residues. -/
def eagerLib : ScalarLib where
  plus a b := (a + b) % order
  mul a b := a * b % order
  modAdd a b := (a + b) % order
  modSub a b := (a - b) % order
  inv a := canon (a : Zr)⁻¹
  pow a n := a ^ n % order
  equals a b := decide ((a : Zr) = b)
  bytes a := zrBytes a
  int a := zrInt a

/-- Two liability proofs with the same points, the same total, and the same scalars up to multiples of the order. -/
structure SameProof (p q : Raw.LiabilityProof G1) : Prop where
  pointProofSum : (p.pointProofSum : Zr) = q.pointProofSum
  pointProof : p.pointProof = q.pointProof
  sumArgument : p.sumArgumentProof.res = q.sumArgumentProof.res
  V : p.V = q.V
  W : p.W = q.W
  digests : resV p.digests = resV q.digests
  rangeProofs : p.rangeProofs.map Raw.RangeProof.res = q.rangeProofs.map Raw.RangeProof.res
  equality : p.equalityProof.res = q.equalityProof.res
  total : p.total = q.total

end PoL.Spec

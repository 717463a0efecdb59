import Verif.Model.Pol

/-! What an accepted liability proof guarantees, check by check. -/

namespace PoL.Spec
open Pol BP

variable {G1 G2 GT : Type} [AddCommGroup G1] [Module Zr G1] [AddCommGroup G2] [Module Zr G2]
  [AddCommGroup GT] [Module Zr GT] [DecidableEq G1] [DecidableEq GT]

/-- `d` is the challenge scalar of the hash of `b`. -/
def IsHashOf (E : Curve G1 G2 GT) (b : Bytes) (d : Zr) : Prop := fieldElementFromBytes (E.sha256 b) = some d

/-- The equality statements of a path: layer `i` at `path[i]` equals layer `i+1` at `fanout`; then `padding`
trivial ones. -/
def pathEqualities (E : Curve G1 G2 GT) (pp : PublicParams G1 G2 GT) (path : List ℕ) (V : List G1) (zero : G1)
    (padding : ℕ) : Poe.Equalities G1 G2 GT where
  RO := Poe.ro E
  PP := pp.POEPP
  V := V.take (path.length - 1) ++ List.replicate padding zero
  W := (V.drop 1).take (path.length - 1) ++ List.replicate padding zero
  I := path.take (path.length - 1) ++ List.replicate padding 0
  J := List.replicate (path.length - 1) pp.fanout ++ List.replicate padding 0

/-- The conditions under which a proof is accepted for a path and a root `(V, W)`. -/
structure Accepted (E : Curve G1 G2 GT) (pp : PublicParams G1 G2 GT) (path : List ℕ) (V W : G1)
    (lp : LiabilityProof G1) : Prop where
  len_W : lp.W.length + 1 = path.length
  len_digests : lp.digests.length = path.length
  len_V : path.length ≤ lp.V.length
  root_V : lp.V[0]? = some V
  root_W : lp.W[0]? = some W
  range_proofs : ∀ i < path.length, ∃ rp C, lp.rangeProofs[i]? = some rp ∧ lp.V[i]? = some C ∧
    verifyRange E pp.RPPP rp C = some true
  inner_digests : ∀ i, 1 ≤ i → i + 1 < path.length → ∃ C D d, lp.V[i]? = some C ∧ lp.W[i]? = some D ∧
    lp.digests[i - 1]? = some d ∧ IsHashOf E (E.g1Bytes C ++ E.g1Bytes D) d
  leaf_digest : ∃ C d, lp.V[path.length - 1]? = some C ∧ lp.digests[path.length - 2]? = some d ∧
    IsHashOf E (E.g1Bytes C) d
  point_proof : pp.PPPP.verifyAggregation E (path.take (path.length - 1)) lp.W lp.pointProof lp.pointProofSum
    (PP.ro E) = some true
  sum_argument : lp.sumArgumentProof.verifyAggregated E pp.SAPP lp.V = some true
  equalities : ∃ zero padded, pp.PPPP.commit (List.replicate (pp.fanout + 2) 0) = some zero ∧
    padLoop ((path.length - 1 : ℕ) : ℤ) = some padded ∧
    (pathEqualities E pp path lp.V zero (padded - (path.length - 1 : ℕ)).toNat).verify E lp.equalityProof
      = some true
  liability : ∃ C i, lp.V.getLast? = some C ∧ path.getLast? = some i ∧
    pp.PPPP.verify E lp.total.sum lp.total.liabilityProof C i = some true

end PoL.Spec

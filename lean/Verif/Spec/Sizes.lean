import Verif.Model.Pol

/-! What there is to transmit of a proof and of the parameters: all group elements and all scalars. -/

namespace PoL.Spec
open Pol BP

variable {G1 G2 GT : Type} [AddCommGroup G1] [Module Zr G1] [AddCommGroup G2] [Module Zr G2]
  [AddCommGroup GT] [Module Zr GT]

/-- The elements of `G₁` of an inner-product proof, and its scalars. -/
def ippPoints (p : InnerProductProof G1) : List G1 := p.LRs ++ [p.P]
def ippScalars (p : InnerProductProof G1) : List Zr := [p.a, p.b, p.C]

/-- The same for a range proof. -/
def rangePoints (p : RangeProof G1) : List G1 :=
  [p.Q, p.R, p.C1, p.C2, p.W] ++ p.Δ.flatMap (fun d => [d.1, d.2.1, d.2.2]) ++ ippPoints p.ipp
def rangeScalars (p : RangeProof G1) : List Zr := [p.τ, p.ρ, p.c, p.γ, p.u] ++ ippScalars p.ipp

/-- The same for a sum argument. -/
def sumPoints (p : Sum.Proof G1) : List G1 := p.W :: ippPoints p.π
def sumScalars (p : Sum.Proof G1) : List Zr := [p.c, p.ρ] ++ ippScalars p.π

/-- The same for an equality proof. -/
def eqPoints (p : Poe.AggregatedProof G1) : List G1 := [p.U, p.V, p.Ω] ++ p.Waggr ++ p.Vaggr ++ ippPoints p.IPP
def eqScalars (p : Poe.AggregatedProof G1) : List Zr := [p.c, p.ρ] ++ ippScalars p.IPP

/-- The same for a liability proof. -/
def proofPoints (p : LiabilityProof G1) : List G1 :=
  [p.pointProof, p.total.liabilityProof] ++ p.V ++ p.W ++ sumPoints p.sumArgumentProof
    ++ p.rangeProofs.flatMap rangePoints ++ eqPoints p.equalityProof
def proofScalars (p : LiabilityProof G1) : List Zr :=
  [p.pointProofSum] ++ p.digests ++ sumScalars p.sumArgumentProof ++ p.rangeProofs.flatMap rangeScalars
    ++ eqScalars p.equalityProof

/-- The encoded length of elements of `G₁` and of scalars. -/
def encodedLength (E : Curve G1 G2 GT) (ps : List G1) (xs : List Zr) : ℕ :=
  (ps.map fun p => (E.g1Bytes p).length).sum + (xs.map fun x => (zrBytes x).length).sum

/-- The different elements of `G₁` of the parameters of a liability set; the bases that the sum argument and the
range proofs share with the commitments are listed once. -/
def paramPoints (pp : PublicParams G1 G2 GT) : List G1 :=
  pp.PPPP.G1s ++ pp.RPPP.Hs ++ pp.RPPP.Fs ++ [pp.RPPP.G, pp.RPPP.H] ++ pp.POEPP.G ++ pp.POEPP.H ++ [pp.POEPP.F]
    ++ [pp.SAPP.U, pp.SAPP.G] ++ pp.SAPP.H ++ [pp.SAPP.B]

/-- The encoded length of the parameters of a liability set. -/
def paramsLength (E : Curve G1 G2 GT) (pp : PublicParams G1 G2 GT) : ℕ :=
  ((paramPoints pp).map fun p => (E.g1Bytes p).length).sum + (pp.PPPP.G2s.map fun p => (E.g2Bytes p).length).sum
    + (E.gtBytes pp.PPPP.Gt).length

end PoL.Spec

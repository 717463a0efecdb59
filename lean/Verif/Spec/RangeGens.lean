import Verif.Spec.RangeTranscripts
import Verif.Model.Range

/-! The generators of the range proof's transcripts, in terms of the code's parameters. -/

namespace PoL.BP

variable {G1 : Type} [AddCommGroup G1] [Module Zr G1]

/-- The generators of the parameters, with the `U` of the inner-product argument. -/
def rangeGens (pp : RPPP G1) (U : G1) : RangeGens G1 where
  F := pp.F
  G := pp.G
  H := pp.H
  U := U
  Gs i := pp.Gs.getD i 0
  Hs i := pp.Hs.getD i 0
  Fs i := pp.Fs.getD i 0

end PoL.BP

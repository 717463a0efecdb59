import Verif.Spec.Shape

/-!
# Entries that are read by nobody
-/

namespace PoL.Spec
open Pol

variable {G1 : Type}

/-- `lp'` is `lp` with entries, any whatsoever, added at the end of some of its lists: further range proofs, further rounds
of the reduction and of the folding in every range proof, further rounds of folding in the sum argument and in the equality
proof.  Nothing else is touched. -/
structure Extended (lp lp' : LiabilityProof G1) : Prop where
  cut : Cut lp' lp
  V : lp'.V = lp.V
  Vaggr : lp'.equalityProof.Vaggr = lp.equalityProof.Vaggr
  Waggr : lp'.equalityProof.Waggr = lp.equalityProof.Waggr

/-- The part of a range proof that is read for `2^k` values. -/
def trimRange (k : ℕ) (rp : BP.RangeProof G1) : BP.RangeProof G1 :=
  { rp with Δ := rp.Δ.take k, ipp := { rp.ipp with LRs := rp.ipp.LRs.take (2 * (k + 6)) } }

/-- The part of a liability proof that is read, for a path of length `L` in a set of fan-out `2^k - 1`, with `2^κ` pairs of
layers after padding. -/
def trim (k κ L : ℕ) (lp : LiabilityProof G1) : LiabilityProof G1 :=
  { lp with
    rangeProofs := (lp.rangeProofs.take L).map (trimRange k)
    sumArgumentProof := { lp.sumArgumentProof with
      π := { lp.sumArgumentProof.π with LRs := lp.sumArgumentProof.π.LRs.take (2 * k) } }
    equalityProof := { lp.equalityProof with
      IPP := { lp.equalityProof.IPP with LRs := lp.equalityProof.IPP.LRs.take (2 * κ) } } }

end PoL.Spec

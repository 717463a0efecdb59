import Verif.Model.Pol

/-!
# The shape of a liability proof: how many entries its lists have

Nothing is said about the points and scalars in the lists.
-/

namespace PoL.Spec
open Pol

variable {G1 : Type}

/-- A range proof for `2^k` values has at least `k` rounds of the reduction and `k + 6` rounds of folding. -/
structure RangeShape (k : ℕ) (rp : BP.RangeProof G1) : Prop where
  reduction : k ≤ rp.Δ.length
  folding : 2 * (k + 6) ≤ rp.ipp.LRs.length

/-- An equality proof for `2^κ` pairs has at least as many entries in both of its vectors, and `κ` rounds of folding. -/
structure EqualityShape (κ : ℕ) (p : Poe.AggregatedProof G1) : Prop where
  Vaggr : 2 ^ κ ≤ p.Vaggr.length
  Waggr : 2 ^ κ ≤ p.Waggr.length
  folding : 2 * κ ≤ p.IPP.LRs.length

/-- A liability proof for a path of length `L`, in a set of fan-out `2^k - 1`, with `2^κ` pairs of layers after padding, is
long enough: a commitment and a range proof for each layer, and enough rounds everywhere. -/
structure ProofShape (k κ L : ℕ) (lp : LiabilityProof G1) : Prop where
  V : L ≤ lp.V.length
  rangeProofs : L ≤ lp.rangeProofs.length
  ranges : ∀ rp ∈ lp.rangeProofs.take L, RangeShape k rp
  sum : 2 * k ≤ lp.sumArgumentProof.π.LRs.length
  equalities : EqualityShape κ lp.equalityProof

/-- A range proof with lists cut off at the end. -/
structure RangeCut (rp rp' : BP.RangeProof G1) : Prop where
  same : rp' = { rp with Δ := rp'.Δ, ipp := { rp.ipp with LRs := rp'.ipp.LRs } }
  Δ : rp'.Δ <+: rp.Δ
  LRs : rp'.ipp.LRs <+: rp.ipp.LRs

/-- A liability proof with any of its lists cut off at the end, but for the `W`s and the digests; everything else is left
as it is. -/
structure Cut (lp lp' : LiabilityProof G1) : Prop where
  same : lp' = { lp with
    V := lp'.V
    rangeProofs := lp'.rangeProofs
    sumArgumentProof := { lp.sumArgumentProof with
      π := { lp.sumArgumentProof.π with LRs := lp'.sumArgumentProof.π.LRs } }
    equalityProof := { lp.equalityProof with
      Vaggr := lp'.equalityProof.Vaggr
      Waggr := lp'.equalityProof.Waggr
      IPP := { lp.equalityProof.IPP with LRs := lp'.equalityProof.IPP.LRs } } }
  V : lp'.V <+: lp.V
  rangeProofs : lp'.rangeProofs.length ≤ lp.rangeProofs.length
  ranges : ∀ (i : ℕ) rp rp', lp.rangeProofs[i]? = some rp → lp'.rangeProofs[i]? = some rp' → RangeCut rp rp'
  sum : lp'.sumArgumentProof.π.LRs <+: lp.sumArgumentProof.π.LRs
  Vaggr : lp'.equalityProof.Vaggr <+: lp.equalityProof.Vaggr
  Waggr : lp'.equalityProof.Waggr <+: lp.equalityProof.Waggr
  folding : lp'.equalityProof.IPP.LRs <+: lp.equalityProof.IPP.LRs

/-- A proof whose lists have no more entries than are needed. -/
structure NoSurplus (k κ L : ℕ) (lp : LiabilityProof G1) : Prop where
  V : lp.V.length ≤ L
  rangeProofs : lp.rangeProofs.length ≤ L
  ranges : ∀ rp ∈ lp.rangeProofs, rp.Δ.length ≤ k ∧ rp.ipp.LRs.length ≤ 2 * (k + 6)
  sum : lp.sumArgumentProof.π.LRs.length ≤ 2 * k
  Vaggr : lp.equalityProof.Vaggr.length ≤ 2 ^ κ
  Waggr : lp.equalityProof.Waggr.length ≤ 2 ^ κ
  folding : lp.equalityProof.IPP.LRs.length ≤ 2 * κ

end PoL.Spec

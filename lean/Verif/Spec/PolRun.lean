import Verif.Spec.PolParams
import Verif.Spec.Liabilities
import Verif.Spec.VerkleRun
import Verif.Spec.PoeTranscripts
import Verif.Spec.SumTranscripts
import Verif.Spec.Challenges

/-! Randomness and challenges of one run of `ProveLiability`. -/

namespace PoL.Spec
open Pol BP

variable {G1 G2 GT : Type} [AddCommGroup G1] [Module Zr G1] [AddCommGroup G2] [Module Zr G2]
  [AddCommGroup GT] [Module Zr GT]

/-- The prover draws as many scalars as the code does, for fan-out `F` and paths of length `L`. -/
structure RandSized (F L : ℕ) (rnd : ProveRand) : Prop where
  range : ∀ i < L, (rnd.range i).WellFormed (F + 1)
  sum : rnd.sum.w.length = F + 1
  eq : IsPadded (L - 1) rnd.eq.uην.length

/-- A new liability set of fan-out `F` for paths of length `L`, with parameters made from `α`. -/
structure NewSet (E : Curve G1 G2 GT) (α : Zr) (F L : ℕ) (ls : LiabilitySet G1 G2 GT) : Prop where
  tree : NewTree E α F ls.tree
  pp : Fits E α F L ls.pp
  memRoot : ls.memRoot = []

variable [DecidableEq G1] [DecidableEq GT]

/-- None of the challenges that get inverted in this run of `ProveLiability` is zero. -/
structure NonzeroChallenges (E : Curve G1 G2 GT) (env : Verkle.Env) (ls : LiabilitySet G1 G2 GT) (rnd : ProveRand)
    (id : Str) : Prop where
  range : ∀ n vs i v rp ipaPP, ls.tree.get E env id ls.s.db = some (some (n, vs)) → vs[i]? = some v →
    proveRangeUnchecked E ls.pp.RPPP (rnd.range i) v.V (v.valuesVec (ls.tree.fanOut + 1)) v.blindingFactor
      = some (rp, ipaPP) →
    ∀ x ∈ rangeChallenges E ls.pp.RPPP v.V rp ipaPP, x ≠ 0
  proof : ∀ n lp, ls.proveLiability E env rnd id = some (some (n, lp)) →
    (∀ y ∈ lp.sumArgumentProof.challenges E ls.pp.SAPP, y ≠ 0) ∧
    ∀ y ∈ lp.equalityProof.challenges E ls.pp.POEPP, y ≠ 0

end PoL.Spec

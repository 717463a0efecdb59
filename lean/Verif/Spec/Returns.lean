import Verif.Spec.PolRun

/-! Challenges that `ProveLiability` itself inverts. -/

namespace PoL.Spec
open Pol BP

variable {G1 G2 GT : Type} [AddCommGroup G1] [Module Zr G1] [AddCommGroup G2] [Module Zr G2]
  [AddCommGroup GT] [Module Zr GT] [DecidableEq G1] [DecidableEq GT]

/-- None of the challenges of the range proofs made in this run of `ProveLiability` is zero (`ProveRange` checks its own
inner-product proof, and a zero challenge has no inverse). -/
def RangeChallengesNonzero (E : Curve G1 G2 GT) (env : Verkle.Env) (ls : LiabilitySet G1 G2 GT) (rnd : ProveRand)
    (id : Str) : Prop :=
  ∀ n vs i v rp ipaPP, ls.tree.get E env id ls.s.db = some (some (n, vs)) → vs[i]? = some v →
    proveRangeUnchecked E ls.pp.RPPP (rnd.range i) v.V (v.valuesVec (ls.tree.fanOut + 1)) v.blindingFactor
      = some (rp, ipaPP) →
    ∀ x ∈ rangeChallenges E ls.pp.RPPP v.V rp ipaPP, x ≠ 0

end PoL.Spec

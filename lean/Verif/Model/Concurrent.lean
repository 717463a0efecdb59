import Verif.Model.Crash
import Verif.Model.Pol

/-!
# Reading while a write is running

Nothing in `pol`, `verkle` or `sparse` takes a lock.  `ProveLiability` reads the database only through `Get`
(`pol/pol.go:335`), which reads one vertex after the other, the root first (`verkle/tree.go:207-213`).  `Put` writes one
vertex after the other, the root last (`sparse/tree.go:76-81`).  Between two reads any number of writes can be made.

Simplifications: one read and one write of the database are atomic (`DB` is an interface, `verkle/tree.go:23-26`).  The
walk through the vertices in memory (`sparse/tree.go:22-40`) is one step, made before the writes: if the path being
written was there before, `Put` adds no vertex to the maps that `Get` walks through.
-/

namespace PoL.Verkle

variable {G1 G2 GT : Type} [AddCommGroup G1] [Module Zr G1] [AddCommGroup G2] [Module Zr G2]
  [AddCommGroup GT] [Module Zr GT] [DecidableEq G1] [DecidableEq GT]

/-- `verkle/tree.go:200-216` `Get` where the database is `dbs i` when vertex number `i` is read (line 209). -/
def Tree.getDuring (E : Curve G1 G2 GT) (env : Env) (t : Tree G1 G2 GT) (id : Str) (dbs : ℕ → Db) :
    Option (Option (ℤ × List (Vertex G1))) := do
  match ← (t.sparse E env).get id with
  | none => return none
  | some (n, path) =>
    let vertices ← path.zipIdx.mapM fun u => do
      let key ← (← u.1.data).str
      Vertex.fromBytes E (dbs u.2 key)
    return some (← (← n).int64, vertices)

end PoL.Verkle

namespace PoL.Pol
open Verkle

variable {G1 G2 GT : Type} [AddCommGroup G1] [Module Zr G1] [AddCommGroup G2] [Module Zr G2]
  [AddCommGroup GT] [Module Zr GT] [DecidableEq G1] [DecidableEq GT]

/-- `pol/pol.go:331-464` `ProveLiability` where the database is `dbs i` when vertex number `i` is read; everything after
the call of `Get` is as in `LiabilitySet.proveLiability`. -/
def LiabilitySet.proveLiabilityDuring (E : Curve G1 G2 GT) (env : Env) (ls : LiabilitySet G1 G2 GT) (rnd : ProveRand)
    (id : Str) (dbs : ℕ → Db) : Option (Option (ℤ × LiabilityProof G1)) := do
  let path ← ls.tree.id2Path id
  match ← ls.tree.getDuring E env id dbs with
  | none => return none
  | some (_, vs) =>
    if path.length = 0 then none
    else
      let layers ← (List.range path.length).mapM fun i => proveLayer E ls rnd path vs i
      let last ← layers.getLast?
      let (l, liabilityProof) ← ls.openForClient last.v (← path.getLast?)
      let liability ← zrInt l
      let V := layers.map fun y => y.v.V
      let W := layers.filterMap fun y => y.v.W
      let digestProofs := layers.filterMap fun y => y.v.W.map fun _ => y.π
      let digests := layers.map Layer.digest
      let tPP ← (List.range (path.length - 1)).mapM fun i => PP.ro E ls.tree.PP W i
      let pointProofSum ← Vec.innerProd (digests.take tPP.length) tPP
      let pointProof ← ls.tree.PP.aggregate W digestProofs (PP.ro E)
      let sumArgumentProof ← sumArgument E ls.pp.SAPP rnd.sum (layers.map Layer.v)
      let zeroVec := List.replicate (ls.tree.fanOut + 2) (intToZr 0)
      let zeroCommit ← ls.pp.PPPP.commit zeroVec
      let padded ← padLoop ((path.length - 1 : ℕ) : ℤ)
      let padding := (padded - (path.length - 1 : ℕ)).toNat
      let vEQ := ((layers.take (path.length - 1)).map fun y => eqVector y.v ls.tree.fanOut)
        ++ List.replicate padding zeroVec
      let wEQ := ((layers.drop 1).map fun y => eqVector y.v ls.tree.fanOut) ++ List.replicate padding zeroVec
      let equalities ← equalitiesOf E ls.pp.POEPP ls.tree.fanOut path V zeroCommit padding
      let equalityProof ← equalities.prove E rnd.eq vEQ wEQ
      return some (liability,
        { pointProofSum := pointProofSum
          pointProof := pointProof
          sumArgumentProof := sumArgumentProof
          V := V
          W := W
          digests := digests
          rangeProofs := layers.map Layer.rangeProof
          equalityProof := equalityProof
          total := { liabilityProof := liabilityProof, sum := liability } })

end PoL.Pol

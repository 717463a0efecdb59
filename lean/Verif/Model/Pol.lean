import Verif.Model.Range
import Verif.Model.Sum
import Verif.Model.Poe
import Verif.Model.Paths
import Verif.Model.Verkle

/-!
# `pol/pol.go`: liability sets

Go's `nil` pointers inside a proof are not represented; `time.Duration` results are left out.  The calls
that run in goroutines (`pol/pol.go:169-173`, `400-404`) are made in place here, as with
`ParallelismEnabled = false`; `Verif/Model/Schedule.lean` has the parallel version.
-/

namespace PoL.Pol

open BP Verkle

variable {G1 G2 GT : Type} [AddCommGroup G1] [Module Zr G1] [AddCommGroup G2] [Module Zr G2]
  [AddCommGroup GT] [Module Zr GT]

/-- `pol/pol.go:20-27` `TreeType`. -/
inductive TreeType where
  | sparse
  | dense
deriving DecidableEq

/-- `pol/pol.go:39-45` `PublicParams`. -/
structure PublicParams (G1 G2 GT : Type) where
  PPPP : PP G1 G2 GT
  SAPP : Sum.PP G1
  RPPP : RPPP G1
  POEPP : Poe.PP G1 G2 GT
  fanout : ℕ

/-- `pol/pol.go:47-49` `(*PublicParams).Size`. -/
def PublicParams.size (E : Curve G1 G2 GT) (pp : PublicParams G1 G2 GT) : ℤ :=
  (pp.RPPP.size E : ℤ) + pp.POEPP.size E + pp.SAPP.size E - (g1vBytes E pp.SAPP.Gs).length
    - (E.g1Bytes pp.SAPP.F).length - (g1vBytes E pp.RPPP.Gs).length - (E.g1Bytes pp.RPPP.F).length
    - pp.PPPP.size E

/-- The loop at `pol/pol.go:78-80`; also the number of rounds of those at `210-215` and `446-455`:
increments `m` until `uint16(m)` is a power of two. -/
def padLoop (m : ℤ) : Option ℤ := do
  if ← isPowerOfTwo (UInt16.ofNat (m % 65536).toNat) then return m
  else padLoop (m + 1)
partial_fixpoint

variable [DecidableEq G1] [DecidableEq GT]

/-- `pol/pol.go:64-101` `GeneratePublicParams`; `α` is the scalar drawn by `pp.NewPublicParams`.  A fan-out
missing in the table of path lengths reads as 0 (line 74).  Simplification: `copy` (line 96) is `take`, they
differ only if there are fewer than `n` generators. -/
def generatePublicParams (E : Curve G1 G2 GT) (α : Zr) (fanOut : UInt16) (treeType : TreeType) :
    Option ((Str → Option (List ℕ)) × PublicParams G1 G2 GT) := do
  let (m, id2Path) ← (match treeType with
    | .dense => do
      let m : ℤ := ((← digitPathLen fanOut : ℕ) : ℤ) - 1
      return (m, ← digitPath fanOut)
    | .sparse => do
      let m : ℤ := (((expectedHexPathLength fanOut.toNat).getD 0 : ℕ) : ℤ) - 1
      return (m, ← hexId2Path E fanOut) : Option (ℤ × (Str → Option (List ℕ))))
  let m ← padLoop m
  let poePP ← Poe.newPublicParams E α (fanOut + 2).toNat m.toNat
  let n := (fanOut + 1).toNat
  let SAPP ← Sum.newPublicParams E n
  let RPPP ← newRangeProofPublicParams E n
  let F ← poePP.vc.G1s[n]?
  let Gs := poePP.vc.G1s.take n
  return (id2Path,
    { fanout := fanOut.toNat
      PPPP := poePP.vc
      SAPP := { SAPP with F := F, Gs := Gs }
      RPPP := { RPPP with F := F, Gs := Gs }
      POEPP := poePP })

/-- `pol/pol.go:269-272` `TotalProof`. -/
structure TotalProof (G1 : Type) where
  liabilityProof : G1
  sum : ℤ

/-- `pol/pol.go:103-113` `LiabilityProof`. -/
structure LiabilityProof (G1 : Type) where
  /-- field `PointProofΣ` -/
  pointProofSum : Zr
  /-- field `PointProofπ` -/
  pointProof : G1
  sumArgumentProof : Sum.Proof G1
  V : List G1
  W : List G1
  digests : List Zr
  rangeProofs : List (RangeProof G1)
  equalityProof : Poe.AggregatedProof G1
  /-- field `LiabilityProof` -/
  total : TotalProof G1

/-- `pol/pol.go:115-122` `LiabilityProof.Size`. -/
def LiabilityProof.size (E : Curve G1 G2 GT) (lp : LiabilityProof G1) : ℕ :=
  let size := (zrBytes lp.pointProofSum).length + (E.g1Bytes lp.pointProof).length + lp.sumArgumentProof.size E
    + (g1vBytes E lp.V).length + (g1vBytes E lp.W).length + Vec.size lp.digests
  let size := lp.rangeProofs.foldl (fun size rp => size + rp.size E) size
  size + lp.equalityProof.size E

/-- `pol/pol.go:33-37` `LiabilitySet`, with the database.  `DB` is a `DBMemorizeRoot` (`pol/pol.go:474-477`)
around the database that `tree` uses; `memRoot` is its field `root`. -/
structure LiabilitySet (G1 G2 GT : Type) where
  tree : Verkle.Tree G1 G2 GT
  pp : PublicParams G1 G2 GT
  memRoot : Bytes
  s : State

/-- `pol/pol.go:53-62` `NewLiabilitySet`; `α` is drawn by `NewVerkleTree` for parameters that line 55
replaces.  `db` is what the database holds before. -/
def newLiabilitySet (E : Curve G1 G2 GT) (α : Zr) (pp : PublicParams G1 G2 GT) (db : Db)
    (id2Path : Str → Option (List ℕ)) : LiabilitySet G1 G2 GT :=
  let tree := newVerkleTree E α (UInt16.ofNat pp.fanout) id2Path
  { tree := { tree with PP := pp.PPPP }
    pp := pp
    memRoot := []
    s := { db := db, tick := 0 } }

/-- `pol/pol.go:479-491` `(*DBMemorizeRoot).Get`: the value, and the new field `root`. -/
def memGet (db : Db) (memRoot : Bytes) (key : Str) : Bytes × Bytes :=
  if key.length = 0 ∧ memRoot.length ≠ 0 then (memRoot, memRoot)
  else
    let val := db key
    (val, if key.length = 0 then val else memRoot)

/-- `pol/pol.go:493-498` `(*DBMemorizeRoot).Put`: the database and the new field `root`.  Nothing in the
code calls it: the tree writes to the inner database. -/
def memPut (db : Db) (memRoot : Bytes) (key : Str) (val : Bytes) : Db × Bytes :=
  (db.put key val, if key.length = 0 then val else memRoot)

namespace LiabilitySet

/-- `pol/pol.go:318-324` `Set`. -/
def set (E : Curve G1 G2 GT) (env : Env) (ls : LiabilitySet G1 G2 GT) (id : Str) (liability : ℤ) :
    Option (LiabilitySet G1 G2 GT) :=
  if liability < 0 then none
  else do
    let (tree, s) ← ls.tree.put E env id liability ls.s
    return { ls with tree := tree, s := s }

/-- A sequence of calls of `Set`. -/
def sets (E : Curve G1 G2 GT) (env : Env) (ls : LiabilitySet G1 G2 GT) (hist : List (Str × ℤ)) :
    Option (LiabilitySet G1 G2 GT) :=
  hist.foldlM (fun ls e => ls.set E env e.1 e.2) ls

/-- `pol/pol.go:326-329` `Get`; the inner `none` is the result `false`. -/
def get (E : Curve G1 G2 GT) (env : Env) (ls : LiabilitySet G1 G2 GT) (id : Str) : Option (Option ℤ) := do
  return (← ls.tree.get E env id ls.s.db).map Prod.fst

/-- `pol/pol.go:258-267` `Root`; the inner `none` is the result `nil, nil`. -/
def root (E : Curve G1 G2 GT) (ls : LiabilitySet G1 G2 GT) :
    Option (Option (G1 × Option G1) × LiabilitySet G1 G2 GT) :=
  match ls.tree.root with
  | none => some (none, ls)
  | some r => do
    let key ← (← r.data).str
    let (bytes, memRoot) := memGet ls.s.db ls.memRoot key
    let v ← Vertex.fromBytes E bytes
    return (some (v.V, v.W), { ls with memRoot := memRoot })

/-- `pol/pol.go:298-306` `openSumFromVertex`; panics if `N` is 0. -/
def openSumFromVertex (ls : LiabilitySet G1 G2 GT) (v : Vertex G1) : Option (Zr × G1) :=
  if ls.pp.PPPP.N = 0 then none
  else
    let m := v.valuesVec (ls.pp.PPPP.N - 1) ++ [v.blindingFactor]
    if m.length < 2 then none else ls.pp.PPPP.openAt (m.length - 2) m

/-- `pol/pol.go:308-316` `openForClient`; panics if `N` is 0. -/
def openForClient (ls : LiabilitySet G1 G2 GT) (v : Vertex G1) (index : ℕ) : Option (Zr × G1) :=
  if ls.pp.PPPP.N = 0 then none
  else ls.pp.PPPP.openAt index (v.valuesVec (ls.pp.PPPP.N - 1) ++ [v.blindingFactor])

/-- `pol/pol.go:279-296` `ProveTot`. -/
def proveTot (E : Curve G1 G2 GT) (ls : LiabilitySet G1 G2 GT) : Option (TotalProof G1) := do
  let v ← Vertex.fromBytes E (ls.s.db [])
  let (sum, π) ← ls.openSumFromVertex v
  let sumAsInt ← zrInt sum
  return { sum := sumAsInt, liabilityProof := π }

end LiabilitySet

/-- `pol/pol.go:274-277` `TotalProof.Verify`. -/
def TotalProof.verify (E : Curve G1 G2 GT) (tp : TotalProof G1) (pp : PublicParams G1 G2 GT) (V : G1) :
    Option Bool :=
  pp.PPPP.verify E (intToZr tp.sum) tp.liabilityProof V pp.fanout

/-- The random values drawn by `ProveLiability`: those of each range proof, of the sum argument, and of the
equality proof. -/
structure ProveRand where
  range : ℕ → RangeRand
  sum : Sum.Rand
  eq : Poe.EqsRand

/-- What one round of the loop of `ProveLiability` computes (`pol/pol.go:363-415`). -/
structure Layer (G1 : Type) where
  v : Vertex G1
  rangeProof : RangeProof G1
  digest : Zr
  π : G1

/-- One round of the loop of `ProveLiability` (`pol/pol.go:364-375`, `392-414`). -/
def proveLayer (E : Curve G1 G2 GT) (ls : LiabilitySet G1 G2 GT) (rnd : ProveRand) (path : List ℕ)
    (vs : List (Vertex G1)) (i : ℕ) : Option (Layer G1) := do
  let v ← vs[i]?
  let digests := (List.range (ls.tree.fanOut + 2)).map fun j => (v.digests (UInt16.ofNat j)).getD (intToZr 0)
  let values := v.valuesVec (ls.tree.fanOut + 1)
  let rp ← proveRange E ls.pp.RPPP (rnd.range i) v.V values v.blindingFactor
  let (digest, π) ← ls.tree.PP.openAt (← path[i]?) digests
  return { v := v, rangeProof := rp, digest := digest, π := π }

/-- The equality statements (`pol/pol.go:354-361`, `378-382`, `440-455`; the verifier builds the same at
`144-151`, `155-160`, `205-215`): entry `path[i]` of `V[i]` against entry `fanOut` of `V[i+1]`, padded with
`padding` pairs of commitments to zero. -/
def equalitiesOf (E : Curve G1 G2 GT) (POEPP : Poe.PP G1 G2 GT) (fanOut : ℕ) (path : List ℕ) (V : List G1)
    (zeroCommit : G1) (padding : ℕ) : Option (Poe.Equalities G1 G2 GT) := do
  let Vs ← (List.range (path.length - 1)).mapM fun i => V[i]?
  let Ws ← (List.range (path.length - 1)).mapM fun i => V[i + 1]?
  return { PP := POEPP
           RO := Poe.ro E
           V := Vs ++ List.replicate padding zeroCommit
           W := Ws ++ List.replicate padding zeroCommit
           I := path.take (path.length - 1) ++ List.replicate padding 0
           J := List.replicate (path.length - 1) fanOut ++ List.replicate padding 0 }

/-- The vector opened by the equality proof for one vertex (`pol/pol.go:384-389`). -/
def eqVector (v : Vertex G1) (fanOut : ℕ) : List Zr := v.valuesVec (fanOut + 1) ++ [v.blindingFactor]

/-- `pol/pol.go:331-464` `ProveLiability`, given its random values; the inner `none` is the result `false`.
An empty path panics (`make` with length -1). -/
def LiabilitySet.proveLiability (E : Curve G1 G2 GT) (env : Env) (ls : LiabilitySet G1 G2 GT) (rnd : ProveRand)
    (id : Str) : Option (Option (ℤ × LiabilityProof G1)) := do
  let path ← ls.tree.id2Path id
  match ← ls.tree.get E env id ls.s.db with
  | none => return none
  | some (_, vs) =>
    if path.length = 0 then none
    else
      let layers ← (List.range path.length).mapM fun i => proveLayer E ls rnd path vs i
      let last ← layers.getLast?
      let (l, liabilityProof) ← ls.openForClient last.v (← path.getLast?)
      let liability ← zrInt l
      let V := layers.map fun y => y.v.V
      let W := layers.filterMap fun y => y.v.W
      let digestProofs := layers.filterMap fun y => y.v.W.map fun _ => y.π
      let digests := layers.map Layer.digest
      let tPP ← (List.range (path.length - 1)).mapM fun i => PP.ro E ls.tree.PP W i
      let pointProofSum ← Vec.innerProd (digests.take tPP.length) tPP
      let pointProof ← ls.tree.PP.aggregate W digestProofs (PP.ro E)
      let sumArgumentProof ← sumArgument E ls.pp.SAPP rnd.sum (layers.map Layer.v)
      let zeroVec := List.replicate (ls.tree.fanOut + 2) (intToZr 0)
      let zeroCommit ← ls.pp.PPPP.commit zeroVec
      let padded ← padLoop ((path.length - 1 : ℕ) : ℤ)
      let padding := (padded - (path.length - 1 : ℕ)).toNat
      let vEQ := ((layers.take (path.length - 1)).map fun y => eqVector y.v ls.tree.fanOut)
        ++ List.replicate padding zeroVec
      let wEQ := ((layers.drop 1).map fun y => eqVector y.v ls.tree.fanOut) ++ List.replicate padding zeroVec
      let equalities ← equalitiesOf E ls.pp.POEPP ls.tree.fanOut path V zeroCommit padding
      let equalityProof ← equalities.prove E rnd.eq vEQ wEQ
      return some (liability,
        { pointProofSum := pointProofSum
          pointProof := pointProof
          sumArgumentProof := sumArgumentProof
          V := V
          W := W
          digests := digests
          rangeProofs := layers.map Layer.rangeProof
          equalityProof := equalityProof
          total := { liabilityProof := liabilityProof, sum := liability } })

namespace LiabilityProof

/-- `pol/pol.go:235-245` `checkCommitmentToInnerVertex`; panics if `i` is 0 or out of range. -/
def checkCommitmentToInnerVertex (E : Curve G1 G2 GT) (lp : LiabilityProof G1) (i : ℕ) : Option Bool := do
  let expectedPreviousDigest ← fieldElementFromBytes (E.sha256 (E.g1Bytes (← lp.V[i]?) ++ E.g1Bytes (← lp.W[i]?)))
  if i = 0 then none else return decide ((← lp.digests[i - 1]?) = expectedPreviousDigest)

/-- `pol/pol.go:247-256` `checkCommitmentToLeafVertex`; panics if `i` is 0 or out of range. -/
def checkCommitmentToLeafVertex (E : Curve G1 G2 GT) (lp : LiabilityProof G1) (i : ℕ) : Option Bool := do
  let expectedPreviousDigest ← fieldElementFromBytes (E.sha256 (E.g1Bytes (← lp.V[i]?)))
  if i = 0 then none else return decide ((← lp.digests[i - 1]?) = expectedPreviousDigest)

/-- The loop of `Verify` (`pol/pol.go:153-193`), from round `i`, with `rest` rounds to go of `n`; `err` says
whether a range proof has been refused.  The result `some none` is an error return. -/
def verifyLoop (E : Curve G1 G2 GT) (lp : LiabilityProof G1) (pp : PublicParams G1 G2 GT) (n : ℕ) :
    (i rest : ℕ) → (err : Bool) → Option (Option Bool)
  | _, 0, err => some (some err)
  | i, rest + 1, err => do
    if i + 1 < n ∧ lp.V.length ≤ i + 1 then none
    else
      let ok ← verifyRange E pp.RPPP (← lp.rangeProofs[i]?) (← lp.V[i]?)
      let err := err || !ok
      if i + 1 = n then
        if !(← lp.checkCommitmentToLeafVertex E i) then return none
        else lp.verifyLoop E pp n (i + 1) rest err
      else if 0 < i then
        if !(← lp.checkCommitmentToInnerVertex E i) then return none
        else lp.verifyLoop E pp n (i + 1) rest err
      else lp.verifyLoop E pp n (i + 1) rest err

/-- `pol/pol.go:124-233` `LiabilityProof.Verify`; the conversion of the path from `uint16` to `int`
(`pol/pol.go:466-472` `uint16VecToIntVec`) keeps every number, so paths are lists of natural numbers throughout. -/
def verify (E : Curve G1 G2 GT) (lp : LiabilityProof G1) (pp : PublicParams G1 G2 GT) (id : Str) (V W : G1)
    (id2path : Str → Option (List ℕ)) : Option Bool := do
  let path ← id2path id
  if lp.W.length + 1 ≠ path.length ∨ lp.digests.length ≠ path.length then return false
  else if (← lp.V[0]?) ≠ V then return false
  else if (← lp.W[0]?) ≠ W then return false
  else
    match ← lp.verifyLoop E pp path.length 0 path.length false with
    | none => return false
    | some err =>
      if !(← pp.PPPP.verifyAggregation E (path.take (path.length - 1)) lp.W lp.pointProof lp.pointProofSum (PP.ro E))
      then return false
      else if !(← lp.sumArgumentProof.verifyAggregated E pp.SAPP lp.V) then return false
      else
        let zeroCommit ← pp.PPPP.commit (List.replicate (pp.fanout + 2) (intToZr 0))
        let padded ← padLoop ((path.length - 1 : ℕ) : ℤ)
        let equalities ← equalitiesOf E pp.POEPP pp.fanout path lp.V zeroCommit
          (padded - (path.length - 1 : ℕ)).toNat
        if !(← equalities.verify E lp.equalityProof) then return false
        else if err then return false
        else
          pp.PPPP.verify E (intToZr lp.total.sum) lp.total.liabilityProof (← lp.V.getLast?) (← path.getLast?)

end LiabilityProof

end PoL.Pol

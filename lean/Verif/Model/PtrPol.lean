import Verif.Model.PtrSum
import Verif.Model.PtrPoe
import Verif.Model.Pol

/-!
# Points in memory: the tree and liability sets

The database holds bytes, so every vertex read from it is made of new points.  As in `Model/Pol.lean`, what runs in goroutines is run
in place.
-/

namespace PoL.Ptr

variable {G1 G2 GT : Type} [AddCommGroup G1] [Module Zr G1] [AddCommGroup G2] [Module Zr G2] [AddCommGroup GT] [Module Zr GT]

namespace Verkle

open PoL.Verkle

/-- A new cell for a point that may be missing (`verkle/tree.go:114-119`). -/
def newOpt : Option G1 → Run (Cell G1 G2 GT) (Option Ref)
  | none => pure none
  | some w => do return some (← new kG1 w)

/-- What a pointer points to that may be `nil` (`verkle/tree.go:135-137`, `168-170`). -/
def loadOpt : Option Ref → Run (Cell G1 G2 GT) (Option G1)
  | none => pure none
  | some w => do return some (← load kG1 w)

/-- `verkle/tree.go:99-131` `FromBytes`. -/
def fromBytes (E : Curve G1 G2 GT) (b : Bytes) : Run (Cell G1 G2 GT) (Vertex Ref) := do
  let rv ← lift (Asn1.unmarshal b)
  let V ← new kG1 (← lift (E.g1FromBytes rv.V))
  let w ← lift (if rv.W.length ≠ 0 then (E.g1FromBytes rv.W).map some else some none)
  let W ← newOpt w
  let digests ← lift (decodeMap rv.digests)
  let values ← lift (decodeMap rv.values)
  return { blindingFactor := newZrFromBytes rv.blindingFactor
           values := values
           digests := digests
           sum := newZrFromBytes rv.sum
           V := V
           W := W }

/-- The points of a vertex, as `Bytes` and `Digest` read them (`verkle/tree.go:134-139`, `165-170`). -/
def loadVertex (v : Vertex Ref) : Run (Cell G1 G2 GT) (Vertex G1) := do
  let V ← load kG1 v.V
  let W ← loadOpt v.W
  return { blindingFactor := v.blindingFactor, values := v.values, digests := v.digests, sum := v.sum, V := V, W := W }

/-- `verkle/tree.go:165-173` `Digest`. -/
def digest (E : Curve G1 G2 GT) (v : Vertex Ref) : Run (Cell G1 G2 GT) Zr := do
  lift ((← loadVertex v).digest E)

/-- `verkle/tree.go:341-350` `fetchVertex`. -/
def fetchVertex (E : Curve G1 G2 GT) (db : Db) (desc : Option Data) : Run (Cell G1 G2 GT) (Vertex Ref) := do
  let d ← lift desc
  let k ← lift d.str
  if (db k).length = 0 then crash else fromBytes E (db k)

/-- The deferred `t.DB.Put([]byte(key), v.Bytes())` (`verkle/tree.go:232-234`, `355-359`). -/
def store (E : Curve G1 G2 GT) (env : Env) (key : Str) (v : Vertex Ref) (s : State) : Run (Cell G1 G2 GT) State := do
  return PoL.Verkle.store E env key (← loadVertex v) s

/-- The loop at `verkle/tree.go:250-266`. -/
def innerLoop (E : Curve G1 G2 GT) (db : Db) : List (Option Data) → (i : ℕ) → InnerAcc → Run (Cell G1 G2 GT) InnerAcc
  | [], _, a => pure a
  | none :: t, i, a => innerLoop E db t (i + 1) { a with m := a.m ++ [intToZr 0], d := a.d ++ [intToZr 0] }
  | some desc :: t, i, a => do
    let descVertex ← fetchVertex E db (some desc)
    let digest ← digest E descVertex
    innerLoop E db t (i + 1)
      { sum := a.sum + descVertex.sum
        values := a.values.set (UInt16.ofNat i) descVertex.sum
        digests := a.digests.set (UInt16.ofNat i) digest
        m := a.m ++ [descVertex.sum]
        d := a.d ++ [digest] }

variable [DecidableEq G1]

/-- `verkle/tree.go:229-339` `updateInnerLayer`. -/
def updateInnerLayer (E : Curve G1 G2 GT) (gl : Globals) (vc : PP Ref Ref Ref) (env : Env) (key : Str) (node : Option Data)
    (descendants : List (Option Data)) (index : ℕ) (s : State) : Run (Cell G1 G2 GT) (Option Data × State) :=
  match node with
  | none => do
    let blindingFactor := env.rand s.tick
    let a ← innerLoop E s.db descendants 0 ⟨intToZr 0, .empty, .empty, [], []⟩
    let V ← PP.commit gl vc (a.m ++ [a.sum] ++ [blindingFactor])
    let W ← PP.commit gl vc (a.d ++ [intToZr 0] ++ [intToZr 0])
    return (some (.key key), ← store E env key ⟨blindingFactor, a.values, a.digests, a.sum, V, some W⟩ s)
  | some _ => do
    let v ← fetchVertex E s.db (some (.key key))
    let oldVal := (v.values (UInt16.ofNat index)).getD (intToZr 0)
    let desc ← lift descendants[index]?
    let descVertex ← fetchVertex E s.db desc
    let newVal := descVertex.sum
    let newDigest ← digest E descVertex
    let digests := v.digests.set (UInt16.ofNat index) newDigest
    let sum := updateSum v.sum oldVal newVal
    let values := v.values.set (UInt16.ofNat index) newVal
    let m := (List.range vc.N).map fun i => (values (UInt16.ofNat i)).getD (intToZr 0)
    let d ← lift ((List.range vc.N).mapM fun i =>
      if (values (UInt16.ofNat i)).isSome then digests (UInt16.ofNat i) else some (intToZr 0))
    if m.length < 2 then crash
    else do
      let V ← PP.commit gl vc ((m.set (m.length - 2) sum).set (m.length - 1) v.blindingFactor)
      let W ← PP.commit gl vc d
      return (some (.key key), ← store E env key ⟨v.blindingFactor, values, digests, sum, V, some W⟩ s)

/-- `verkle/tree.go:352-427` `updateLayerAboveLeaves`; `pp.Update` writes to `v.V`. -/
def updateLayerAboveLeaves (E : Curve G1 G2 GT) (gl : Globals) (vc : PP Ref Ref Ref) (env : Env) (key : Str)
    (node : Option Data) (descendants : List (Option Data)) (index : ℕ) (s : State) : Run (Cell G1 G2 GT) (Option Data × State) :=
  match node with
  | none => do
    let blindingFactor := env.rand s.tick
    let r ← lift (leafLoop descendants 0 (intToZr 0, .empty, []))
    let V ← PP.commit gl vc (r.2.2 ++ [r.1] ++ [blindingFactor])
    return (some (.key key), ← store E env key ⟨blindingFactor, r.2.1, .empty, r.1, V, none⟩ s)
  | some _ => do
    let v ← fetchVertex E s.db (some (.key key))
    let oldVal := (v.values (UInt16.ofNat index)).getD (intToZr 0)
    let d ← lift descendants[index]?
    let d ← lift d
    let new ← lift d.int64
    let newVal := intToZr new
    let sum := updateSum v.sum oldVal newVal
    let m := ((List.range vc.N).map fun i => (v.values (UInt16.ofNat i)).getD (intToZr 0)) ++ [sum]
    PP.update vc v.V m newVal index
    let values := v.values.set (UInt16.ofNat index) newVal
    PP.update vc v.V m sum values.size
    return (some (.key key), ← store E env key { v with sum := sum, values := values } s)

/-- `verkle/tree.go:222-227` `updateInnerVertex`: the memory is part of the state of the callback. -/
def updateInnerVertex (E : Curve G1 G2 GT) (gl : Globals) (vc : PP Ref Ref Ref) (env : Env) :
    Sparse.Update Data (State × Mem (Cell G1 G2 GT)) :=
  fun key node descendants descendantsLeaves index s => do
    let r ← (if descendantsLeaves then updateLayerAboveLeaves E gl vc env key node descendants index s.1
      else updateInnerLayer E gl vc env key node descendants index s.1) s.2
    return (r.1.1, (r.1.2, r.2))

/-- The field `Tree *sparse.Tree` (`verkle/tree.go:185`). -/
def sparse (E : Curve G1 G2 GT) (gl : Globals) (env : Env) (t : Tree Ref Ref Ref) : Sparse.Tree Data (State × Mem (Cell G1 G2 GT)) :=
  { id2Path := t.id2Path
    update := updateInnerVertex E gl t.PP env
    fanOut := t.fanOut
    root := t.root }

/-- `verkle/tree.go:218-220` `Put`. -/
def put (E : Curve G1 G2 GT) (gl : Globals) (env : Env) (t : Tree Ref Ref Ref) (id : Str) (data : ℤ) (s : State) :
    Run (Cell G1 G2 GT) (Tree Ref Ref Ref × State) := fun h => do
  let r ← (sparse E gl env t).put id (some (.amount data)) (s, h)
  return (({ t with root := r.1.root }, r.2.1), r.2.2)

/-- `verkle/tree.go:200-216` `Get`. -/
def get (E : Curve G1 G2 GT) (gl : Globals) (env : Env) (t : Tree Ref Ref Ref) (id : Str) (db : Db) :
    Run (Cell G1 G2 GT) (Option (ℤ × List (Vertex Ref))) := do
  match ← lift ((sparse E gl env t).get id) with
  | none => return none
  | some (n, path) =>
    let vertices ← path.mapM fun u => do
      let d ← lift u.data
      let key ← lift d.str
      fromBytes E (db key)
    let n ← lift n
    let n ← lift n.int64
    return some (n, vertices)

/-- `verkle/tree.go:59-80` `Vertices.SumArgument`. -/
def sumArgument (E : Curve G1 G2 GT) (gl : Globals) (pp : PoL.Sum.PP Ref) (rnd : PoL.Sum.Rand) (vs : List (Vertex Ref)) :
    Run (Cell G1 G2 GT) (PoL.Sum.Proof Ref) :=
  Sum.newAggregatedArgument E gl pp rnd (vs.map Vertex.V) (vs.map fun v => v.valuesVec pp.H.length) (vs.map Vertex.blindingFactor)

end Verkle

namespace Pol

open PoL.Pol PoL.Verkle

/-- `poe/poe.go:32-42` `NewPublicParams`. -/
def poeNewPublicParams (E : Curve G1 G2 GT) (gl : Globals) (α : Zr) (n m : ℕ) : Run (Cell G1 G2 GT) (PoL.Poe.PP Ref Ref Ref) := do
  let vc ← PP.newPublicParams E gl α n
  let G ← randGenVec E m "POE G"
  let H ← randGenVec E m "POE H"
  let F ← randGenVec E 1 "POE F"
  let F ← lift F[0]?
  return { digest := E.sha256 (g1vBytes E (← loads kG1 G) ++ g1vBytes E (← loads kG1 H) ++ E.g1Bytes (← load kG1 F) ++ vc.digest)
           G := G, H := H, F := F, vc := vc }

/-- `bp/range.go:18-32` `NewRangeProofPublicParams`. -/
def newRangeProofPublicParams (E : Curve G1 G2 GT) (n : ℕ) : Run (Cell G1 G2 GT) (PoL.BP.RPPP Ref) := do
  let G ← randGenVec E 1 "range proof G"
  let G ← lift G[0]?
  let H ← randGenVec E 1 "range proof H"
  let H ← lift H[0]?
  let F ← randGenVec E 1 "range proof F"
  let F ← lift F[0]?
  let Fs ← randGenVec E (n * (63 + 1)) "range proof Fs"
  let Hs ← randGenVec E (n * (63 + 1)) "range proof Hs"
  let Gs ← randGenVec E n "range proof Gs"
  let pp : PoL.BP.RPPP Ref := { G := G, H := H, F := F, Fs := Fs, Hs := Hs, Gs := Gs, digest := [] }
  return { pp with digest := ← BP.getDigest E pp }

variable [DecidableEq G1]

/-- `sum/sa.go:29-56` `NewPublicParams`. -/
def sumNewPublicParams (E : Curve G1 G2 GT) (gl : Globals) (n : ℕ) : Run (Cell G1 G2 GT) (PoL.Sum.PP Ref) := do
  let Gs ← randGenVec E n "sum argument Gs"
  let U ← randGenVec E 1 "IPA u"
  let U ← lift U[0]?
  let G ← randGenVec E 1 "sum argument G"
  let G ← lift G[0]?
  let F ← randGenVec E 1 "sum argument F"
  let F ← lift F[0]?
  let H ← randGenVec E n "sum argument H"
  let b ← lift (PoL.Sum.bVector n)
  let B ← BP.mulVSum gl H b
  return { digest := E.sha256 (g1vBytes E (← loads kG1 H) ++ E.g1Bytes (← load kG1 B) ++ E.g1Bytes (← load kG1 G) ++ E.g1Bytes (← load kG1 F))
           U := U, Gs := Gs, G := G, F := F, H := H, b := b, B := B }

/-- `pol/pol.go:64-101` `GeneratePublicParams`: the parameters share points. -/
def generatePublicParams (E : Curve G1 G2 GT) (gl : Globals) (α : Zr) (fanOut : UInt16) (treeType : TreeType) :
    Run (Cell G1 G2 GT) ((Str → Option (List ℕ)) × PublicParams Ref Ref Ref) := do
  let r ← lift (match treeType with
    | .dense => do
      let m : ℤ := ((← digitPathLen fanOut : ℕ) : ℤ) - 1
      return (m, ← digitPath fanOut)
    | .sparse => do
      let m : ℤ := (((expectedHexPathLength fanOut.toNat).getD 0 : ℕ) : ℤ) - 1
      return (m, ← hexId2Path E fanOut) : Option (ℤ × (Str → Option (List ℕ))))
  let m ← lift (padLoop r.1)
  let poePP ← poeNewPublicParams E gl α (fanOut + 2).toNat m.toNat
  let n := (fanOut + 1).toNat
  let SAPP ← sumNewPublicParams E gl n
  let RPPP ← newRangeProofPublicParams E n
  let F ← lift poePP.vc.G1s[n]?
  let Gs := poePP.vc.G1s.take n
  return (r.2,
    { fanout := fanOut.toNat
      PPPP := poePP.vc
      SAPP := { SAPP with F := F, Gs := Gs }
      RPPP := { RPPP with F := F, Gs := Gs }
      POEPP := poePP })

/-- `pol/pol.go:53-62` `NewLiabilitySet`; the parameters that `NewVerkleTree` makes for the tree are dropped at line 55. -/
def newLiabilitySet (E : Curve G1 G2 GT) (gl : Globals) (α : Zr) (pp : PublicParams Ref Ref Ref) (db : Db)
    (id2Path : Str → Option (List ℕ)) : Run (Cell G1 G2 GT) (LiabilitySet Ref Ref Ref) := do
  let _ ← PP.newPublicParams E gl α (UInt16.ofNat pp.fanout + 2).toNat
  return { tree := { PP := pp.PPPP, fanOut := (UInt16.ofNat pp.fanout).toNat, id2Path := id2Path, root := none }
           pp := pp
           memRoot := []
           s := { db := db, tick := 0 } }

/-- `pol/pol.go:318-324` `Set`. -/
def set (E : Curve G1 G2 GT) (gl : Globals) (env : Env) (ls : LiabilitySet Ref Ref Ref) (id : Str) (liability : ℤ) :
    Run (Cell G1 G2 GT) (LiabilitySet Ref Ref Ref) :=
  if liability < 0 then crash
  else do
    let r ← Verkle.put E gl env ls.tree id liability ls.s
    return { ls with tree := r.1, s := r.2 }

/-- A sequence of calls of `Set`. -/
def sets (E : Curve G1 G2 GT) (gl : Globals) (env : Env) (ls : LiabilitySet Ref Ref Ref) (hist : List (Str × ℤ)) :
    Run (Cell G1 G2 GT) (LiabilitySet Ref Ref Ref) :=
  hist.foldlM (fun ls e => set E gl env ls e.1 e.2) ls

/-- `pol/pol.go:326-329` `Get`. -/
def get (E : Curve G1 G2 GT) (gl : Globals) (env : Env) (ls : LiabilitySet Ref Ref Ref) (id : Str) :
    Run (Cell G1 G2 GT) (Option ℤ) := do
  return (← Verkle.get E gl env ls.tree id ls.s.db).map Prod.fst

/-- `pol/pol.go:258-267` `Root`. -/
def root (E : Curve G1 G2 GT) (ls : LiabilitySet Ref Ref Ref) :
    Run (Cell G1 G2 GT) (Option (Ref × Option Ref) × LiabilitySet Ref Ref Ref) :=
  match ls.tree.root with
  | none => pure (none, ls)
  | some r => do
    let d ← lift r.data
    let key ← lift d.str
    let g := memGet ls.s.db ls.memRoot key
    let v ← Verkle.fromBytes E g.1
    return (some (v.V, v.W), { ls with memRoot := g.2 })

/-- `pol/pol.go:298-306` `openSumFromVertex`. -/
def openSumFromVertex (gl : Globals) (ls : LiabilitySet Ref Ref Ref) (v : Vertex Ref) : Run (Cell G1 G2 GT) (Zr × Ref) :=
  if ls.pp.PPPP.N = 0 then crash
  else
    let m := v.valuesVec (ls.pp.PPPP.N - 1) ++ [v.blindingFactor]
    if m.length < 2 then crash else PP.openAt gl ls.pp.PPPP (m.length - 2) m

/-- `pol/pol.go:308-316` `openForClient`. -/
def openForClient (gl : Globals) (ls : LiabilitySet Ref Ref Ref) (v : Vertex Ref) (index : ℕ) : Run (Cell G1 G2 GT) (Zr × Ref) :=
  if ls.pp.PPPP.N = 0 then crash
  else PP.openAt gl ls.pp.PPPP index (v.valuesVec (ls.pp.PPPP.N - 1) ++ [v.blindingFactor])

/-- `pol/pol.go:279-296` `ProveTot`. -/
def proveTot (E : Curve G1 G2 GT) (gl : Globals) (ls : LiabilitySet Ref Ref Ref) : Run (Cell G1 G2 GT) (TotalProof Ref) := do
  let v ← Verkle.fromBytes E (ls.s.db [])
  let r ← openSumFromVertex gl ls v
  let sumAsInt ← lift (zrInt r.1)
  return { sum := sumAsInt, liabilityProof := r.2 }

/-- One round of the loop of `ProveLiability` (`pol/pol.go:364-375`, `392-414`). -/
def proveLayer (E : Curve G1 G2 GT) (gl : Globals) (ls : LiabilitySet Ref Ref Ref) (rnd : ProveRand) (path : List ℕ)
    (vs : List (Vertex Ref)) (i : ℕ) : Run (Cell G1 G2 GT) (Layer Ref) := do
  let v ← lift vs[i]?
  let digests := (List.range (ls.tree.fanOut + 2)).map fun j => (v.digests (UInt16.ofNat j)).getD (intToZr 0)
  let values := v.valuesVec (ls.tree.fanOut + 1)
  let rp ← BP.proveRange E gl ls.pp.RPPP (rnd.range i) v.V values v.blindingFactor
  let p ← lift path[i]?
  let o ← PP.openAt gl ls.tree.PP p digests
  return { v := v, rangeProof := rp, digest := o.1, π := o.2 }

/-- The equality statements (`pol/pol.go:144-160`, `205-215`, `354-361`, `378-382`, `440-455`): the entries of `V` and `W` are pointers
of the proof's `V`, and the padding is one pointer. -/
def equalitiesOf (POEPP : PoL.Poe.PP Ref Ref Ref) (fanOut : ℕ) (path : List ℕ) (V : List Ref)
    (zeroCommit : Ref) (padding : ℕ) : Option (PoL.Poe.Equalities Ref Ref Ref) := do
  let Vs ← (List.range (path.length - 1)).mapM fun i => V[i]?
  let Ws ← (List.range (path.length - 1)).mapM fun i => V[i + 1]?
  return { PP := POEPP
           RO := fun _ _ _ _ => none
           V := Vs ++ List.replicate padding zeroCommit
           W := Ws ++ List.replicate padding zeroCommit
           I := path.take (path.length - 1) ++ List.replicate padding 0
           J := List.replicate (path.length - 1) fanOut ++ List.replicate padding 0 }

/-- `pol/pol.go:331-464` `ProveLiability`: `V` and `W` of the proof are pointers of the vertices. -/
def proveLiability (E : Curve G1 G2 GT) (gl : Globals) (env : Env) (ls : LiabilitySet Ref Ref Ref) (rnd : ProveRand)
    (id : Str) : Run (Cell G1 G2 GT) (Option (ℤ × LiabilityProof Ref)) := do
  let path ← lift (ls.tree.id2Path id)
  match ← Verkle.get E gl env ls.tree id ls.s.db with
  | none => return none
  | some (_, vs) =>
    if path.length = 0 then crash
    else
      let layers ← (List.range path.length).mapM fun i => proveLayer E gl ls rnd path vs i
      let last ← lift layers.getLast?
      let p ← lift path.getLast?
      let o ← openForClient gl ls last.v p
      let liability ← lift (zrInt o.1)
      let V := layers.map fun y => y.v.V
      let W := layers.filterMap fun y => y.v.W
      let digestProofs := layers.filterMap fun y => y.v.W.map fun _ => y.π
      let digests := layers.map Layer.digest
      let tPP ← (List.range (path.length - 1)).mapM fun i => PP.ro E ls.tree.PP W i
      let pointProofSum ← lift (Vec.innerProd (digests.take tPP.length) tPP)
      let pointProof ← PP.aggregate E ls.tree.PP W digestProofs
      let sumArgumentProof ← Verkle.sumArgument E gl ls.pp.SAPP rnd.sum (layers.map Layer.v)
      let zeroVec := List.replicate (ls.tree.fanOut + 2) (intToZr 0)
      let zeroCommit ← PP.commit gl ls.pp.PPPP zeroVec
      let padded ← lift (padLoop ((path.length - 1 : ℕ) : ℤ))
      let padding := (padded - (path.length - 1 : ℕ)).toNat
      let vEQ := ((layers.take (path.length - 1)).map fun y => eqVector y.v ls.tree.fanOut)
        ++ List.replicate padding zeroVec
      let wEQ := ((layers.drop 1).map fun y => eqVector y.v ls.tree.fanOut) ++ List.replicate padding zeroVec
      let equalities ← lift (equalitiesOf ls.pp.POEPP ls.tree.fanOut path V zeroCommit padding)
      let equalityProof ← Poe.eqsProve E gl (PoL.Poe.ro E) equalities rnd.eq vEQ wEQ
      return some (liability,
        { pointProofSum := pointProofSum
          pointProof := pointProof
          sumArgumentProof := sumArgumentProof
          V := V
          W := W
          digests := digests
          rangeProofs := layers.map Layer.rangeProof
          equalityProof := equalityProof
          total := { liabilityProof := o.2, sum := liability } })

variable [DecidableEq GT]

/-- `pol/pol.go:274-277` `TotalProof.Verify`. -/
def totalVerify (E : Curve G1 G2 GT) (gl : Globals) (tp : TotalProof Ref) (pp : PublicParams Ref Ref Ref) (V : Ref) :
    Run (Cell G1 G2 GT) Bool :=
  PP.verify E gl pp.PPPP (intToZr tp.sum) tp.liabilityProof V pp.fanout

omit [DecidableEq GT] in
/-- `pol/pol.go:235-245` `checkCommitmentToInnerVertex`. -/
def checkInner (E : Curve G1 G2 GT) (lp : LiabilityProof Ref) (i : ℕ) : Run (Cell G1 G2 GT) Bool := do
  let v ← lift lp.V[i]?
  let w ← lift lp.W[i]?
  let expectedPreviousDigest ← lift (fieldElementFromBytes (E.sha256 (E.g1Bytes (← load kG1 v) ++ E.g1Bytes (← load kG1 w))))
  if i = 0 then crash
  else
    let d ← lift lp.digests[i - 1]?
    return decide (d = expectedPreviousDigest)

omit [DecidableEq GT] in
/-- `pol/pol.go:247-256` `checkCommitmentToLeafVertex`. -/
def checkLeaf (E : Curve G1 G2 GT) (lp : LiabilityProof Ref) (i : ℕ) : Run (Cell G1 G2 GT) Bool := do
  let v ← lift lp.V[i]?
  let expectedPreviousDigest ← lift (fieldElementFromBytes (E.sha256 (E.g1Bytes (← load kG1 v))))
  if i = 0 then crash
  else
    let d ← lift lp.digests[i - 1]?
    return decide (d = expectedPreviousDigest)

omit [DecidableEq GT] in
/-- The loop of `Verify` (`pol/pol.go:153-193`). -/
def verifyLoop (E : Curve G1 G2 GT) (gl : Globals) (lp : LiabilityProof Ref) (pp : PublicParams Ref Ref Ref) (n : ℕ) :
    (i rest : ℕ) → (err : Bool) → Run (Cell G1 G2 GT) (Option Bool)
  | _, 0, err => pure (some err)
  | i, rest + 1, err => do
    if i + 1 < n ∧ lp.V.length ≤ i + 1 then crash
    else
      let rp ← lift lp.rangeProofs[i]?
      let v ← lift lp.V[i]?
      let r ← BP.verifyRangeState E gl pp.RPPP rp v
      let err := err || !r.1
      if i + 1 = n then
        let ok ← checkLeaf E lp i
        if !ok then return none
        else verifyLoop E gl lp pp n (i + 1) rest err
      else if 0 < i then
        let ok ← checkInner E lp i
        if !ok then return none
        else verifyLoop E gl lp pp n (i + 1) rest err
      else verifyLoop E gl lp pp n (i + 1) rest err

/-- `pol/pol.go:124-233` `LiabilityProof.Verify`. -/
def verify (E : Curve G1 G2 GT) (gl : Globals) (lp : LiabilityProof Ref) (pp : PublicParams Ref Ref Ref) (id : Str) (V W : Ref)
    (id2path : Str → Option (List ℕ)) : Run (Cell G1 G2 GT) Bool := do
  let path ← lift (id2path id)
  if lp.W.length + 1 ≠ path.length ∨ lp.digests.length ≠ path.length then return false
  else
    let v0 ← lift lp.V[0]?
    if (← load (kG1 (G2 := G2) (GT := GT)) v0) ≠ (← load kG1 V) then return false
    else
      let w0 ← lift lp.W[0]?
      if (← load (kG1 (G2 := G2) (GT := GT)) w0) ≠ (← load kG1 W) then return false
      else
        match ← verifyLoop E gl lp pp path.length 0 path.length false with
        | none => return false
        | some err =>
          let ok ← PP.verifyAggregation E gl pp.PPPP (path.take (path.length - 1)) lp.W lp.pointProof lp.pointProofSum
          if !ok then return false
          else
            let ok ← Sum.verifyAggregated E gl lp.sumArgumentProof pp.SAPP lp.V
            if !ok.1 then return false
            else
              let zeroCommit ← PP.commit gl pp.PPPP (List.replicate (pp.fanout + 2) (intToZr 0))
              let padded ← lift (padLoop ((path.length - 1 : ℕ) : ℤ))
              let equalities ← lift (equalitiesOf pp.POEPP pp.fanout path lp.V zeroCommit (padded - (path.length - 1 : ℕ)).toNat)
              let ok ← Poe.eqsVerifyState E gl (PoL.Poe.ro E) equalities lp.equalityProof
              if !ok.1 then return false
              else if err then return false
              else
                let v ← lift lp.V.getLast?
                let i ← lift path.getLast?
                PP.verify E gl pp.PPPP (intToZr lp.total.sum) lp.total.liabilityProof v i

end Pol
end PoL.Ptr

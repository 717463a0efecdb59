import Verif.Model.RawArg
import Verif.Model.Pol

/-!
# Scalars as integers: the Verkle tree and the liability set

The trees, the database and the public parameters hold no scalars other than as bytes, so their types are those of the
first model.  The order in which a map is visited is the runtime's choice; it is indexed by the map of the residues.
-/

namespace PoL.Raw

open BP Verkle Pol

variable {G1 G2 GT : Type} [AddCommGroup G1] [Module Zr G1] [AddCommGroup G2] [Module Zr G2]
  [AddCommGroup GT] [Module Zr GT]

/-! ## `verkle/tree.go` -/

/-- `map[uint16]*math.Zr` (`verkle/tree.go:37-38`). -/
abbrev IntMap := UInt16 → Option ℤ

/-- The map of the first model. -/
def IntMap.res (m : IntMap) : ZrMap := fun k => (m k).map PoL.res

/-- `m[k] = x`. -/
def IntMap.set (m : IntMap) (k : UInt16) (x : ℤ) : IntMap := fun k' => if k' = k then some x else m k'

/-- `verkle/tree.go:35-42` `Vertex`. -/
structure Vertex (G1 : Type) where
  blindingFactor : ℤ
  values : IntMap
  digests : IntMap
  sum : ℤ
  V : G1
  W : Option G1

/-- The vertex of the first model. -/
def Vertex.res (v : Vertex G1) : Verkle.Vertex G1 :=
  ⟨v.blindingFactor, v.values.res, v.digests.res, v.sum, v.V, v.W⟩

/-- The entries appended (`verkle/tree.go:146-148`, `152-154`). -/
def encodeMap (S : ScalarLib) (m : IntMap) (order : List UInt16) : List Asn1.KV :=
  order.map fun k => ⟨natToBE 2 k.toNat, S.bytes ((m k).getD 0)⟩

/-- The loops at `verkle/tree.go:124-126` and `128-130`: `NewZrFromBytes` does not reduce. -/
def decodeMap (l : List Asn1.KV) : Option IntMap :=
  l.foldlM (fun m kv => do return IntMap.set m (← uint16 kv.K) (beToNat kv.V : ℤ)) fun _ => none

/-- `verkle/tree.go:133-163` `Bytes`. -/
def Vertex.bytes (S : ScalarLib) (E : Curve G1 G2 GT) (v : Vertex G1) (orderDigests orderValues : List UInt16) : Bytes :=
  Asn1.marshal
    { blindingFactor := S.bytes v.blindingFactor
      values := encodeMap S v.values orderValues
      digests := encodeMap S v.digests orderDigests
      sum := S.bytes v.sum
      V := E.g1Bytes v.V
      W := (v.W.map E.g1Bytes).getD [] }

/-- `verkle/tree.go:99-131` `FromBytes`. -/
def Vertex.fromBytes (E : Curve G1 G2 GT) (b : Bytes) : Option (Vertex G1) := do
  let rv ← Asn1.unmarshal b
  let V ← E.g1FromBytes rv.V
  let W ← if rv.W.length ≠ 0 then (E.g1FromBytes rv.W).map some else some none
  let digests ← decodeMap rv.digests
  let values ← decodeMap rv.values
  return { blindingFactor := (beToNat rv.blindingFactor : ℤ)
           values := values
           digests := digests
           sum := (beToNat rv.sum : ℤ)
           V := V
           W := W }

/-- `verkle/tree.go:165-173` `Digest`. -/
def Vertex.digest (E : Curve G1 G2 GT) (v : Vertex G1) : Option ℤ :=
  fieldElementFromBytes (E.sha256 (E.g1Bytes v.V ++ (v.W.map E.g1Bytes).getD []))

/-- `verkle/tree.go:82-97` `Values`. -/
def Vertex.valuesVec (v : Vertex G1) (n : ℕ) : List ℤ :=
  (List.range n).map fun j => if j + 1 = n then v.sum else (v.values (UInt16.ofNat j)).getD 0

/-- `verkle/tree.go:59-80` `Vertices.SumArgument`. -/
def sumArgument [DecidableEq G1] (S : ScalarLib) (E : Curve G1 G2 GT) (pp : Sum.PP G1) (rnd : Sum.Rand)
    (vs : List (Vertex G1)) : Option (SumProof G1) :=
  newAggregatedArgument S E pp rnd (vs.map Vertex.V) (vs.map fun v => v.valuesVec pp.H.length)
    (vs.map Vertex.blindingFactor)

/-- `verkle/tree.go:341-350` `fetchVertex`. -/
def fetchVertex (E : Curve G1 G2 GT) (db : Db) (desc : Option Data) : Option (Vertex G1) := do
  let k ← (← desc).str
  let b := db k
  if b.length = 0 then none else Vertex.fromBytes E b

/-- `verkle/tree.go:429-431` `updateSum`. -/
def updateSum (S : ScalarLib) (sum removed added : ℤ) : ℤ := S.modAdd sum (S.modSub added removed)

/-- The deferred `t.DB.Put([]byte(key), v.Bytes())` (`verkle/tree.go:232-234`, `355-359`). -/
def store (S : ScalarLib) (E : Curve G1 G2 GT) (env : Env) (key : Str) (v : Vertex G1) (s : State) : State :=
  { db := s.db.put key (v.bytes S E (env.orderDigests s.tick v.digests.res) (env.orderValues s.tick v.values.res))
    tick := s.tick + 1 }

/-- The variables of the loop at `verkle/tree.go:250-266`. -/
structure InnerAcc where
  sum : ℤ
  values : IntMap
  digests : IntMap
  m : List ℤ
  d : List ℤ

/-- The loop at `verkle/tree.go:250-266`: the sum is taken with `Plus`. -/
def innerLoop (S : ScalarLib) (E : Curve G1 G2 GT) (db : Db) :
    List (Option Data) → (i : ℕ) → InnerAcc → Option InnerAcc
  | [], _, a => some a
  | none :: t, i, a => innerLoop S E db t (i + 1) { a with m := a.m ++ [0], d := a.d ++ [0] }
  | some desc :: t, i, a => do
    let descVertex ← fetchVertex E db (some desc)
    let val := descVertex.sum
    let digest ← descVertex.digest E
    innerLoop S E db t (i + 1)
      { sum := S.plus a.sum val
        values := a.values.set (UInt16.ofNat i) val
        digests := a.digests.set (UInt16.ofNat i) digest
        m := a.m ++ [val]
        d := a.d ++ [digest] }

variable [DecidableEq G1] [DecidableEq GT]

/-- `verkle/tree.go:229-339` `updateInnerLayer`. -/
def updateInnerLayer (S : ScalarLib) (E : Curve G1 G2 GT) (PP : PP G1 G2 GT) (env : Env) (key : Str)
    (node : Option Data) (descendants : List (Option Data)) (index : ℕ) (s : State) : Option (Option Data × State) :=
  match node with
  | none => do
    let blindingFactor := canon (env.rand s.tick)
    let a ← innerLoop S E s.db descendants 0 ⟨0, fun _ => none, fun _ => none, [], []⟩
    let m := a.m ++ [a.sum] ++ [blindingFactor]
    let V ← ppCommit S PP m
    let d := a.d ++ [0] ++ [0]
    let W ← ppCommit S PP d
    let v : Vertex G1 := ⟨blindingFactor, a.values, a.digests, a.sum, V, some W⟩
    return (some (.key key), store S E env key v s)
  | some _ => do
    let v ← fetchVertex E s.db (some (.key key))
    let oldVal := (v.values (UInt16.ofNat index)).getD 0
    let descVertex ← fetchVertex E s.db (← descendants[index]?)
    let newVal := descVertex.sum
    let newDigest ← descVertex.digest E
    let digests := v.digests.set (UInt16.ofNat index) newDigest
    let sum := updateSum S v.sum oldVal newVal
    let values := v.values.set (UInt16.ofNat index) newVal
    let m := (List.range PP.N).map fun i => (values (UInt16.ofNat i)).getD 0
    let d ← (List.range PP.N).mapM fun i =>
      if (values (UInt16.ofNat i)).isSome then digests (UInt16.ofNat i) else some 0
    if m.length < 2 then none
    else do
      let m := (m.set (m.length - 2) sum).set (m.length - 1) v.blindingFactor
      let V ← ppCommit S PP m
      let W ← ppCommit S PP d
      let v : Vertex G1 := ⟨v.blindingFactor, values, digests, sum, V, some W⟩
      return (some (.key key), store S E env key v s)

/-- The loop at `verkle/tree.go:371-382`: the sum is taken with `Plus`. -/
def leafLoop (S : ScalarLib) : List (Option Data) → (i : ℕ) → ℤ × IntMap × List ℤ → Option (ℤ × IntMap × List ℤ)
  | [], _, a => some a
  | none :: t, i, (sum, values, m) => leafLoop S t (i + 1) (sum, values, m ++ [0])
  | some desc :: t, i, (sum, values, m) => do
    let num ← desc.int64
    leafLoop S t (i + 1) (S.plus sum num, values.set (UInt16.ofNat i) num, m ++ [num])

/-- `verkle/tree.go:352-427` `updateLayerAboveLeaves`. -/
def updateLayerAboveLeaves (S : ScalarLib) (E : Curve G1 G2 GT) (PP : PP G1 G2 GT) (env : Env) (key : Str)
    (node : Option Data) (descendants : List (Option Data)) (index : ℕ) (s : State) :
    Option (Option Data × State) :=
  match node with
  | none => do
    let blindingFactor := canon (env.rand s.tick)
    let (sum, values, m) ← leafLoop S descendants 0 (0, fun _ => none, [])
    let m := m ++ [sum] ++ [blindingFactor]
    let V ← ppCommit S PP m
    let v : Vertex G1 := ⟨blindingFactor, values, fun _ => none, sum, V, none⟩
    return (some (.key key), store S E env key v s)
  | some _ => do
    let v ← fetchVertex E s.db (some (.key key))
    let oldVal := (v.values (UInt16.ofNat index)).getD 0
    let newVal ← (← (← descendants[index]?)).int64
    let sum := updateSum S v.sum oldVal newVal
    let m := ((List.range PP.N).map fun i => (v.values (UInt16.ofNat i)).getD 0) ++ [sum]
    let V ← update PP v.V m newVal index
    let values := v.values.set (UInt16.ofNat index) newVal
    let V ← update PP V m sum (ZrMap.size values.res)
    let v : Vertex G1 := { v with sum := sum, values := values, V := V }
    return (some (.key key), store S E env key v s)

/-- `verkle/tree.go:222-227` `updateInnerVertex`. -/
def updateInnerVertex (S : ScalarLib) (E : Curve G1 G2 GT) (PP : PP G1 G2 GT) (env : Env) : Sparse.Update Data State :=
  fun key node descendants descendantsLeaves index s =>
    if descendantsLeaves then updateLayerAboveLeaves S E PP env key node descendants index s
    else updateInnerLayer S E PP env key node descendants index s

/-- `verkle/tree.go:218-220` `Put`. -/
def put (S : ScalarLib) (E : Curve G1 G2 GT) (env : Env) (t : Verkle.Tree G1 G2 GT) (id : Str) (data : ℤ) (s : State) :
    Option (Verkle.Tree G1 G2 GT × State) := do
  let st : Sparse.Tree Data State := ⟨t.id2Path, updateInnerVertex S E t.PP env, t.fanOut, t.root⟩
  let (t', s) ← st.put id (some (.amount data)) s
  return ({ t with root := t'.root }, s)

/-- `verkle/tree.go:200-216` `Get`. -/
def treeGet (E : Curve G1 G2 GT) (env : Env) (t : Verkle.Tree G1 G2 GT) (id : Str) (db : Db) :
    Option (Option (ℤ × List (Vertex G1))) := do
  match ← (t.sparse E env).get id with
  | none => return none
  | some (n, path) =>
    let vertices ← path.mapM fun u => do
      let key ← (← u.data).str
      Vertex.fromBytes E (db key)
    return some (← (← n).int64, vertices)

/-! ## `pol/pol.go` -/

/-- `pol/pol.go:318-324` `Set`. -/
def set (S : ScalarLib) (E : Curve G1 G2 GT) (env : Env) (ls : LiabilitySet G1 G2 GT) (id : Str) (liability : ℤ) :
    Option (LiabilitySet G1 G2 GT) :=
  if liability < 0 then none
  else do
    let (tree, s) ← put S E env ls.tree id liability ls.s
    return { ls with tree := tree, s := s }

/-- A sequence of calls of `Set`. -/
def sets (S : ScalarLib) (E : Curve G1 G2 GT) (env : Env) (ls : LiabilitySet G1 G2 GT) (hist : List (Str × ℤ)) :
    Option (LiabilitySet G1 G2 GT) :=
  hist.foldlM (fun ls e => set S E env ls e.1 e.2) ls

/-- `pol/pol.go:103-113` `LiabilityProof`. -/
structure LiabilityProof (G1 : Type) where
  pointProofSum : ℤ
  pointProof : G1
  sumArgumentProof : SumProof G1
  V : List G1
  W : List G1
  digests : List ℤ
  rangeProofs : List (RangeProof G1)
  equalityProof : AggregatedProof G1
  total : TotalProof G1

/-- The proof of the first model. -/
def LiabilityProof.res (p : LiabilityProof G1) : Pol.LiabilityProof G1 :=
  { pointProofSum := p.pointProofSum, pointProof := p.pointProof, sumArgumentProof := p.sumArgumentProof.res, V := p.V,
    W := p.W, digests := resV p.digests, rangeProofs := p.rangeProofs.map RangeProof.res,
    equalityProof := p.equalityProof.res, total := p.total }

/-- `pol/pol.go:258-267` `Root`. -/
def root (E : Curve G1 G2 GT) (ls : LiabilitySet G1 G2 GT) :
    Option (Option (G1 × Option G1) × LiabilitySet G1 G2 GT) :=
  match ls.tree.root with
  | none => some (none, ls)
  | some r => do
    let key ← (← r.data).str
    let (bytes, memRoot) := memGet ls.s.db ls.memRoot key
    let v ← Vertex.fromBytes E bytes
    return (some (v.V, v.W), { ls with memRoot := memRoot })

/-- `pol/pol.go:298-306` `openSumFromVertex`. -/
def openSumFromVertex (S : ScalarLib) (ls : LiabilitySet G1 G2 GT) (v : Vertex G1) : Option (ℤ × G1) :=
  if ls.pp.PPPP.N = 0 then none
  else
    let m := v.valuesVec (ls.pp.PPPP.N - 1) ++ [v.blindingFactor]
    if m.length < 2 then none else openAt S ls.pp.PPPP (m.length - 2) m

/-- `pol/pol.go:308-316` `openForClient`. -/
def openForClient (S : ScalarLib) (ls : LiabilitySet G1 G2 GT) (v : Vertex G1) (index : ℕ) : Option (ℤ × G1) :=
  if ls.pp.PPPP.N = 0 then none
  else openAt S ls.pp.PPPP index (v.valuesVec (ls.pp.PPPP.N - 1) ++ [v.blindingFactor])

/-- `pol/pol.go:279-296` `ProveTot`. -/
def proveTot (S : ScalarLib) (E : Curve G1 G2 GT) (ls : LiabilitySet G1 G2 GT) : Option (TotalProof G1) := do
  let v ← Vertex.fromBytes E (ls.s.db [])
  let (sum, π) ← openSumFromVertex S ls v
  let sumAsInt ← S.int sum
  return { sum := sumAsInt, liabilityProof := π }

/-- `pol/pol.go:274-277` `TotalProof.Verify`: `NewZrFromInt` of an `int64`. -/
def totVerify (E : Curve G1 G2 GT) (tp : TotalProof G1) (pp : PublicParams G1 G2 GT) (V : G1) : Option Bool :=
  ppVerify E pp.PPPP tp.sum tp.liabilityProof V pp.fanout

/-- What one round of the loop of `ProveLiability` computes (`pol/pol.go:363-415`). -/
structure Layer (G1 : Type) where
  v : Vertex G1
  rangeProof : RangeProof G1
  digest : ℤ
  π : G1

/-- One round of the loop of `ProveLiability` (`pol/pol.go:364-375`, `392-414`). -/
def proveLayer (S : ScalarLib) (E : Curve G1 G2 GT) (ls : LiabilitySet G1 G2 GT) (rnd : ProveRand) (path : List ℕ)
    (vs : List (Vertex G1)) (i : ℕ) : Option (Layer G1) := do
  let v ← vs[i]?
  let digests := (List.range (ls.tree.fanOut + 2)).map fun j => (v.digests (UInt16.ofNat j)).getD 0
  let values := v.valuesVec (ls.tree.fanOut + 1)
  let rp ← proveRange S E ls.pp.RPPP (rnd.range i) v.V values v.blindingFactor
  let (digest, π) ← openAt S ls.tree.PP (← path[i]?) digests
  return { v := v, rangeProof := rp, digest := digest, π := π }

/-- The vector opened by the equality proof for one vertex (`pol/pol.go:384-389`). -/
def eqVector (v : Vertex G1) (fanOut : ℕ) : List ℤ := v.valuesVec (fanOut + 1) ++ [v.blindingFactor]

/-- `pol/pol.go:331-464` `ProveLiability`. -/
def proveLiability (S : ScalarLib) (E : Curve G1 G2 GT) (env : Env) (ls : LiabilitySet G1 G2 GT) (rnd : ProveRand)
    (id : Str) : Option (Option (ℤ × LiabilityProof G1)) := do
  let path ← ls.tree.id2Path id
  match ← treeGet E env ls.tree id ls.s.db with
  | none => return none
  | some (_, vs) =>
    if path.length = 0 then none
    else
      let layers ← (List.range path.length).mapM fun i => proveLayer S E ls rnd path vs i
      let last ← layers.getLast?
      let (l, liabilityProof) ← openForClient S ls last.v (← path.getLast?)
      let liability ← S.int l
      let V := layers.map fun y => y.v.V
      let W := layers.filterMap fun y => y.v.W
      let digestProofs := layers.filterMap fun y => y.v.W.map fun _ => y.π
      let digests := layers.map Layer.digest
      let tPP ← (List.range (path.length - 1)).mapM fun i => ppRo E ls.tree.PP W i
      let pointProofSum ← Vec.innerProd S (digests.take tPP.length) tPP
      let pointProof ← aggregate ls.tree.PP W digestProofs (ppRo E)
      let sumArgumentProof ← sumArgument S E ls.pp.SAPP rnd.sum (layers.map Layer.v)
      let zeroVec := List.replicate (ls.tree.fanOut + 2) (0 : ℤ)
      let zeroCommit ← ppCommit S ls.pp.PPPP zeroVec
      let padded ← padLoop ((path.length - 1 : ℕ) : ℤ)
      let padding := (padded - (path.length - 1 : ℕ)).toNat
      let vEQ := ((layers.take (path.length - 1)).map fun y => eqVector y.v ls.tree.fanOut)
        ++ List.replicate padding zeroVec
      let wEQ := ((layers.drop 1).map fun y => eqVector y.v ls.tree.fanOut) ++ List.replicate padding zeroVec
      let equalities ← equalitiesOf E ls.pp.POEPP ls.tree.fanOut path V zeroCommit padding
      let equalityProof ← eqsProve S E equalities rnd.eq vEQ wEQ
      return some (liability,
        { pointProofSum := pointProofSum
          pointProof := pointProof
          sumArgumentProof := sumArgumentProof
          V := V
          W := W
          digests := digests
          rangeProofs := layers.map Layer.rangeProof
          equalityProof := equalityProof
          total := { liabilityProof := liabilityProof, sum := liability } })

namespace LiabilityProof

/-- `pol/pol.go:235-245` `checkCommitmentToInnerVertex`: the digest is compared with `Equals`. -/
def checkCommitmentToInnerVertex (S : ScalarLib) (E : Curve G1 G2 GT) (lp : LiabilityProof G1) (i : ℕ) : Option Bool := do
  let expectedPreviousDigest ← fieldElementFromBytes (E.sha256 (E.g1Bytes (← lp.V[i]?) ++ E.g1Bytes (← lp.W[i]?)))
  if i = 0 then none else return S.equals (← lp.digests[i - 1]?) expectedPreviousDigest

/-- `pol/pol.go:247-256` `checkCommitmentToLeafVertex`: the digest is compared with `Equals`. -/
def checkCommitmentToLeafVertex (S : ScalarLib) (E : Curve G1 G2 GT) (lp : LiabilityProof G1) (i : ℕ) : Option Bool := do
  let expectedPreviousDigest ← fieldElementFromBytes (E.sha256 (E.g1Bytes (← lp.V[i]?)))
  if i = 0 then none else return S.equals (← lp.digests[i - 1]?) expectedPreviousDigest

/-- The loop of `Verify` (`pol/pol.go:153-193`). -/
def verifyLoop (S : ScalarLib) (E : Curve G1 G2 GT) (lp : LiabilityProof G1) (pp : PublicParams G1 G2 GT) (n : ℕ) :
    (i rest : ℕ) → (err : Bool) → Option (Option Bool)
  | _, 0, err => some (some err)
  | i, rest + 1, err => do
    if i + 1 < n ∧ lp.V.length ≤ i + 1 then none
    else
      let ok ← verifyRange S E pp.RPPP (← lp.rangeProofs[i]?) (← lp.V[i]?)
      let err := err || !ok
      if i + 1 = n then
        if !(← lp.checkCommitmentToLeafVertex S E i) then return none
        else lp.verifyLoop S E pp n (i + 1) rest err
      else if 0 < i then
        if !(← lp.checkCommitmentToInnerVertex S E i) then return none
        else lp.verifyLoop S E pp n (i + 1) rest err
      else lp.verifyLoop S E pp n (i + 1) rest err

/-- `pol/pol.go:124-233` `LiabilityProof.Verify`. -/
def verify (S : ScalarLib) (E : Curve G1 G2 GT) (lp : LiabilityProof G1) (pp : PublicParams G1 G2 GT) (id : Str) (V W : G1)
    (id2path : Str → Option (List ℕ)) : Option Bool := do
  let path ← id2path id
  if lp.W.length + 1 ≠ path.length ∨ lp.digests.length ≠ path.length then return false
  else if (← lp.V[0]?) ≠ V then return false
  else if (← lp.W[0]?) ≠ W then return false
  else
    match ← lp.verifyLoop S E pp path.length 0 path.length false with
    | none => return false
    | some err =>
      if !(← verifyAggregation E pp.PPPP (path.take (path.length - 1)) lp.W lp.pointProof lp.pointProofSum (ppRo E))
      then return false
      else if !(← lp.sumArgumentProof.verifyAggregated S E pp.SAPP lp.V) then return false
      else
        let zeroCommit ← ppCommit S pp.PPPP (List.replicate (pp.fanout + 2) (0 : ℤ))
        let padded ← padLoop ((path.length - 1 : ℕ) : ℤ)
        let equalities ← equalitiesOf E pp.POEPP pp.fanout path lp.V zeroCommit
          (padded - (path.length - 1 : ℕ)).toNat
        if !(← eqsVerify S E equalities lp.equalityProof) then return false
        else if err then return false
        else
          ppVerify E pp.PPPP lp.total.sum lp.total.liabilityProof (← lp.V.getLast?) (← path.getLast?)

end LiabilityProof

end PoL.Raw

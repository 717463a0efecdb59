import Verif.Model.Asn1
import Verif.Model.Sparse
import Verif.Model.PointProofs
import Verif.Model.Sum

/-!
# `verkle/tree.go`: the Verkle tree
-/

namespace PoL.Verkle

variable {G1 G2 GT : Type} [AddCommGroup G1] [Module Zr G1] [AddCommGroup G2] [Module Zr G2]
  [AddCommGroup GT] [Module Zr GT]

/-- `map[uint16]*math.Zr` (`verkle/tree.go:37-38`); `none` for a missing key. -/
abbrev ZrMap := UInt16 → Option Zr

namespace ZrMap

/-- `make(map[uint16]*math.Zr)`. -/
def empty : ZrMap := fun _ => none

/-- `m[k] = x`. -/
def set (m : ZrMap) (k : UInt16) (x : Zr) : ZrMap := fun k' => if k' = k then some x else m k'

/-- `len(m)`. -/
def size (m : ZrMap) : ℕ := (List.range 65536).countP fun i => (m (UInt16.ofNat i)).isSome

end ZrMap

/-- `verkle/tree.go:35-42` `Vertex`; `W` is `none` for `nil`. -/
structure Vertex (G1 : Type) where
  blindingFactor : Zr
  values : ZrMap
  digests : ZrMap
  sum : Zr
  V : G1
  W : Option G1

/-- What the runtime chooses: the scalars returned by `c.NewRandomZr` and the orders in which `range`
visits the keys of a map, both indexed by the number of vertices written so far. -/
structure Env where
  /-- the scalar drawn at `verkle/tree.go:238` or `verkle/tree.go:363` -/
  rand : ℕ → Zr
  /-- the order of `range v.Digests` (`verkle/tree.go:145`) -/
  orderDigests : ℕ → ZrMap → List UInt16
  /-- the order of `range v.values` (`verkle/tree.go:151`) -/
  orderValues : ℕ → ZrMap → List UInt16

/-- What Go guarantees of a `range` over a map: every key once. -/
structure Env.Lawful (env : Env) : Prop where
  digests_nodup : ∀ t m, (env.orderDigests t m).Nodup
  digests_mem : ∀ t m k, k ∈ env.orderDigests t m ↔ (m k).isSome
  values_nodup : ∀ t m, (env.orderValues t m).Nodup
  values_mem : ∀ t m k, k ∈ env.orderValues t m ↔ (m k).isSome

/-- `binary.BigEndian.PutUint16` and the entry appended (`verkle/tree.go:146-148`, `152-154`). -/
def encodeMap (m : ZrMap) (order : List UInt16) : List Asn1.KV :=
  order.map fun k => ⟨natToBE 2 k.toNat, zrBytes ((m k).getD 0)⟩

/-- `binary.BigEndian.Uint16` (`verkle/tree.go:125`): panics (index) on fewer than two bytes. -/
def uint16 : Bytes → Option UInt16
  | a :: b :: _ => some (UInt16.ofNat (beToNat [a, b]))
  | _ => none

/-- The loops at `verkle/tree.go:124-126` and `128-130`. -/
def decodeMap (l : List Asn1.KV) : Option ZrMap :=
  l.foldlM (fun m kv => do return ZrMap.set m (← uint16 kv.K) (newZrFromBytes kv.V)) ZrMap.empty

namespace Vertex

/-- `verkle/tree.go:133-163` `Bytes`, with the orders in which the two maps are visited. -/
def bytes (E : Curve G1 G2 GT) (v : Vertex G1) (orderDigests orderValues : List UInt16) : Bytes :=
  Asn1.marshal
    { blindingFactor := zrBytes v.blindingFactor
      values := encodeMap v.values orderValues
      digests := encodeMap v.digests orderDigests
      sum := zrBytes v.sum
      V := E.g1Bytes v.V
      W := (v.W.map E.g1Bytes).getD [] }

/-- `verkle/tree.go:99-131` `FromBytes`: panics on malformed input. -/
def fromBytes (E : Curve G1 G2 GT) (b : Bytes) : Option (Vertex G1) := do
  let rv ← Asn1.unmarshal b
  let V ← E.g1FromBytes rv.V
  let W ← if rv.W.length ≠ 0 then (E.g1FromBytes rv.W).map some else some none
  let digests ← decodeMap rv.digests
  let values ← decodeMap rv.values
  return { blindingFactor := newZrFromBytes rv.blindingFactor
           values := values
           digests := digests
           sum := newZrFromBytes rv.sum
           V := V
           W := W }

/-- `verkle/tree.go:165-173` `Digest`. -/
def digest (E : Curve G1 G2 GT) (v : Vertex G1) : Option Zr :=
  fieldElementFromBytes (E.sha256 (E.g1Bytes v.V ++ (v.W.map E.g1Bytes).getD []))

/-- `verkle/tree.go:82-97` `Values`.  Simplification: the code's loop counter is a `uint16`, so for
`n ≥ 65536` the code does something else; every call in the code has `n ≤ 65535`. -/
def valuesVec (v : Vertex G1) (n : ℕ) : List Zr :=
  (List.range n).map fun j =>
    if j + 1 = n then v.sum else (v.values (UInt16.ofNat j)).getD (intToZr 0)

end Vertex

/-- `verkle/tree.go:59-80` `Vertices.SumArgument` (lines 66-77 are the loop of `Values`). -/
def sumArgument [DecidableEq G1] (E : Curve G1 G2 GT) (pp : Sum.PP G1) (rnd : Sum.Rand)
    (vs : List (Vertex G1)) : Option (Sum.Proof G1) :=
  Sum.newAggregatedArgument E pp rnd (vs.map Vertex.V) (vs.map fun v => v.valuesVec pp.H.length)
    (vs.map Vertex.blindingFactor)

/-- The data of a vertex of the underlying tree: an `int64` at a leaf (`verkle/tree.go:218-220`), the
database key above (`verkle/tree.go:284`, `338`, `392`, `426`). -/
inductive Data where
  | amount (n : ℤ)
  | key (k : Str)
deriving DecidableEq

/-- The type assertion `data.(string)`. -/
def Data.str : Data → Option Str
  | .key k => some k
  | .amount _ => none

/-- The type assertion `data.(int64)`. -/
def Data.int64 : Data → Option ℤ
  | .amount n => some n
  | .key _ => none

/-- The database (`verkle/tree.go:23-26`): missing keys give the empty slice, and `nil` and the empty key
are the same key. -/
abbrev Db := Str → Bytes

/-- What the callback changes: the database, and the number of vertices written, which selects the entries
of `Env`. -/
structure State where
  db : Db
  tick : ℕ

/-- `DB.Put`. -/
def Db.put (db : Db) (k : Str) (b : Bytes) : Db := fun k' => if k' = k then b else db k'

/-- `verkle/tree.go:341-350` `fetchVertex`. -/
def fetchVertex (E : Curve G1 G2 GT) (db : Db) (desc : Option Data) : Option (Vertex G1) := do
  let k ← (← desc).str
  let b := db k
  if b.length = 0 then none else Vertex.fromBytes E b

/-- `verkle/tree.go:429-431` `updateSum`. -/
def updateSum (sum removed added : Zr) : Zr := sum + (added - removed)

/-- The deferred `t.DB.Put([]byte(key), v.Bytes())` (`verkle/tree.go:232-234`, `355-359`).
The code also runs it when the function panics; this is in `Model/Recover.lean`. -/
def store (E : Curve G1 G2 GT) (env : Env) (key : Str) (v : Vertex G1) (s : State) : State :=
  { db := s.db.put key (v.bytes E (env.orderDigests s.tick v.digests) (env.orderValues s.tick v.values))
    tick := s.tick + 1 }

/-- The variables of the loop at `verkle/tree.go:250-266`. -/
structure InnerAcc where
  sum : Zr
  values : ZrMap
  digests : ZrMap
  m : List Zr
  d : List Zr

/-- The loop at `verkle/tree.go:250-266`. -/
def innerLoop (E : Curve G1 G2 GT) (db : Db) : List (Option Data) → (i : ℕ) → InnerAcc → Option InnerAcc
  | [], _, a => some a
  | none :: t, i, a => innerLoop E db t (i + 1) { a with m := a.m ++ [intToZr 0], d := a.d ++ [intToZr 0] }
  | some desc :: t, i, a => do
    let descVertex ← fetchVertex E db (some desc)
    let val := descVertex.sum
    let digest ← descVertex.digest E
    innerLoop E db t (i + 1)
      { sum := a.sum + val
        values := a.values.set (UInt16.ofNat i) val
        digests := a.digests.set (UInt16.ofNat i) digest
        m := a.m ++ [val]
        d := a.d ++ [digest] }

variable [DecidableEq G1] [DecidableEq GT]

/-- `verkle/tree.go:229-339` `updateInnerLayer`.  A missing digest beside a present value (line 314) leaves
`nil` in `d`, on which `Commit` panics. -/
def updateInnerLayer (E : Curve G1 G2 GT) (PP : PP G1 G2 GT) (env : Env) (key : Str) (node : Option Data)
    (descendants : List (Option Data)) (index : ℕ) (s : State) : Option (Option Data × State) :=
  match node with
  | none => do
    let blindingFactor := env.rand s.tick
    let a ← innerLoop E s.db descendants 0 ⟨intToZr 0, .empty, .empty, [], []⟩
    let m := a.m ++ [a.sum] ++ [blindingFactor]
    let V ← PP.commit m
    let d := a.d ++ [intToZr 0] ++ [intToZr 0]
    let W ← PP.commit d
    let v : Vertex G1 := ⟨blindingFactor, a.values, a.digests, a.sum, V, some W⟩
    return (some (.key key), store E env key v s)
  | some _ => do
    let v ← fetchVertex E s.db (some (.key key))
    let oldVal := (v.values (UInt16.ofNat index)).getD (intToZr 0)
    let descVertex ← fetchVertex E s.db (← descendants[index]?)
    let newVal := descVertex.sum
    let newDigest ← descVertex.digest E
    let digests := v.digests.set (UInt16.ofNat index) newDigest
    let sum := updateSum v.sum oldVal newVal
    let values := v.values.set (UInt16.ofNat index) newVal
    let m := (List.range PP.N).map fun i => (values (UInt16.ofNat i)).getD (intToZr 0)
    let d ← (List.range PP.N).mapM fun i =>
      if (values (UInt16.ofNat i)).isSome then digests (UInt16.ofNat i) else some (intToZr 0)
    if m.length < 2 then none
    else do
      let m := (m.set (m.length - 2) sum).set (m.length - 1) v.blindingFactor
      let V ← PP.commit m
      let W ← PP.commit d
      let v : Vertex G1 := ⟨v.blindingFactor, values, digests, sum, V, some W⟩
      return (some (.key key), store E env key v s)

/-- The loop at `verkle/tree.go:371-382`: sum, values, m. -/
def leafLoop : List (Option Data) → (i : ℕ) → Zr × ZrMap × List Zr → Option (Zr × ZrMap × List Zr)
  | [], _, a => some a
  | none :: t, i, (sum, values, m) => leafLoop t (i + 1) (sum, values, m ++ [intToZr 0])
  | some desc :: t, i, (sum, values, m) => do
    let num := intToZr (← desc.int64)
    leafLoop t (i + 1) (sum + num, values.set (UInt16.ofNat i) num, m ++ [num])

/-- `verkle/tree.go:352-427` `updateLayerAboveLeaves`.  `m` is not changed between the two calls of
`pp.Update`, and the second one is at index `len(v.values)`, counted after line 421. -/
def updateLayerAboveLeaves (E : Curve G1 G2 GT) (PP : PP G1 G2 GT) (env : Env) (key : Str)
    (node : Option Data) (descendants : List (Option Data)) (index : ℕ) (s : State) :
    Option (Option Data × State) :=
  match node with
  | none => do
    let blindingFactor := env.rand s.tick
    let (sum, values, m) ← leafLoop descendants 0 (intToZr 0, .empty, [])
    let m := m ++ [sum] ++ [blindingFactor]
    let V ← PP.commit m
    let v : Vertex G1 := ⟨blindingFactor, values, .empty, sum, V, none⟩
    return (some (.key key), store E env key v s)
  | some _ => do
    let v ← fetchVertex E s.db (some (.key key))
    let oldVal := (v.values (UInt16.ofNat index)).getD (intToZr 0)
    let new ← (← (← descendants[index]?)).int64
    let newVal := intToZr new
    let sum := updateSum v.sum oldVal newVal
    let m := ((List.range PP.N).map fun i => (v.values (UInt16.ofNat i)).getD (intToZr 0)) ++ [sum]
    let V ← PP.update v.V m newVal index
    let values := v.values.set (UInt16.ofNat index) newVal
    let V ← PP.update V m sum values.size
    let v : Vertex G1 := { v with sum := sum, values := values, V := V }
    return (some (.key key), store E env key v s)

/-- `verkle/tree.go:222-227` `updateInnerVertex`. -/
def updateInnerVertex (E : Curve G1 G2 GT) (PP : PP G1 G2 GT) (env : Env) : Sparse.Update Data State :=
  fun key node descendants descendantsLeaves index s =>
    if descendantsLeaves then updateLayerAboveLeaves E PP env key node descendants index s
    else updateInnerLayer E PP env key node descendants index s

/-- `verkle/tree.go:28-33` `Tree`; the database is in `State`, `depth` is never used. -/
structure Tree (G1 G2 GT : Type) where
  PP : PP G1 G2 GT
  fanOut : ℕ
  id2Path : Str → Option (List ℕ)
  root : Option (Sparse.Vertex Data)

/-- `verkle/tree.go:175-188` `NewVerkleTree`; `α` is the scalar drawn by `pp.NewPublicParams`; the sum
`fanOut + 2` is a `uint16`. -/
def newVerkleTree (E : Curve G1 G2 GT) (α : Zr) (fanOut : UInt16) (id2Path : Str → Option (List ℕ)) :
    Tree G1 G2 GT :=
  { PP := PoL.PP.newPublicParams E α (fanOut + 2).toNat
    fanOut := fanOut.toNat
    id2Path := id2Path
    root := none }

namespace Tree

/-- The field `Tree *sparse.Tree`, with the callback set at `verkle/tree.go:185`. -/
def sparse (E : Curve G1 G2 GT) (env : Env) (t : Tree G1 G2 GT) : Sparse.Tree Data State :=
  { id2Path := t.id2Path
    update := updateInnerVertex E t.PP env
    fanOut := t.fanOut
    root := t.root }

/-- `verkle/tree.go:218-220` `Put`. -/
def put (E : Curve G1 G2 GT) (env : Env) (t : Tree G1 G2 GT) (id : Str) (data : ℤ) (s : State) :
    Option (Tree G1 G2 GT × State) := do
  let (t', s) ← (t.sparse E env).put id (some (.amount data)) s
  return ({ t with root := t'.root }, s)

/-- A sequence of calls of `Put`. -/
def puts (E : Curve G1 G2 GT) (env : Env) (t : Tree G1 G2 GT) (hist : List (Str × ℤ)) (s : State) :
    Option (Tree G1 G2 GT × State) :=
  hist.foldlM (fun ts e => ts.1.put E env e.1 e.2 ts.2) (t, s)

/-- `verkle/tree.go:200-216` `Get`: the inner `none` is the result `false`; panics if the data is not of the
expected type or a vertex is not in the database. -/
def get (E : Curve G1 G2 GT) (env : Env) (t : Tree G1 G2 GT) (id : Str) (db : Db) :
    Option (Option (ℤ × List (Vertex G1))) := do
  match ← (t.sparse E env).get id with
  | none => return none
  | some (n, path) =>
    let vertices ← path.mapM fun u => do
      let key ← (← u.data).str
      Vertex.fromBytes E (db key)
    return some (← (← n).int64, vertices)

end Tree

/-! ### Serialization (`sparse/tree.go:97-117`, `verkle/tree.go:190-198`) -/

/-- `asn1.Marshal(RawVertex{…})` (`sparse/tree.go:98-101`). -/
def rawVertexBytes (path : Str) (vertex : Bytes) : Bytes :=
  Asn1.sequence (Asn1.printable (strBytes (String.ofList path)) ++ Asn1.octets vertex)

/-- `binary.BigEndian.PutUint32(header, uint32(len(bytes)))` on a header of 32 bytes
(`sparse/tree.go:107-108`). -/
def header (len : ℕ) : Bytes := natToBE 4 (len % 4294967296) ++ List.replicate 28 0

/-- `sparse/tree.go:97-117` `Vertex.Serialize`: the bytes written to `out`.  Simplification: the
descendants are visited in the order of the model's list; in Go the order is arbitrary. -/
def serializeVertex {D : Type} (vertexToBytes : Option D → Bytes) : Str → Sparse.Vertex D → Bytes
  | path, .mk _ data desc =>
    let bytes := rawVertexBytes path (vertexToBytes data)
    header bytes.length ++ bytes ++
      (desc.attach.flatMap fun e => serializeVertex vertexToBytes (Sparse.childKey path e.1.1) e.1.2)
termination_by _ v => sizeOf v
decreasing_by
  have h1 := List.sizeOf_lt_of_mem e.2
  have h2 : sizeOf e.1.2 < sizeOf e.1 := by cases e.1; simp
  simp; omega

/-- The function given to `Serialize` at `verkle/tree.go:191-197`: the data of a vertex is an amount or a
key, never a `*Vertex`, so the type assertion fails and the result is `nil`. -/
def vertexToBytes : Option Data → Bytes
  | none => []
  | some (.amount _) => []
  | some (.key _) => []

/-- `verkle/tree.go:190-198` `Serialize`: panics (`nil` dereference) on an empty tree. -/
def Tree.serialize (t : Tree G1 G2 GT) : Option Bytes := do
  let root ← t.root
  return serializeVertex vertexToBytes [] root

end PoL.Verkle

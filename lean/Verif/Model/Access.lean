import Verif.Model.Pol

/-! The calls of the database a liability set makes.  `verkle.DB` (`verkle/tree.go:23-26`) is an interface the
caller implements, so the calls are observable.  The functions of `Model/Verkle.lean` and `Model/Pol.lean` that use
the database are written here once more, appending every call of `Get` and `Put` to a list. -/

namespace PoL.Trace
open Verkle Pol

/-- A call of the database (`verkle/tree.go:23-26`): `Get` or `Put`, and the key.  The bytes stored are in `Db`. -/
inductive Access where
  | get (k : Str)
  | put (k : Str)
deriving DecidableEq

/-- The state of the callback, and the calls made. -/
abbrev Traced := State × List Access

variable {G1 G2 GT : Type} [AddCommGroup G1] [Module Zr G1] [AddCommGroup G2] [Module Zr G2]
  [AddCommGroup GT] [Module Zr GT]

/-- `verkle/tree.go:341-350` `fetchVertex`. -/
def fetchVertex (E : Curve G1 G2 GT) (db : Db) (desc : Option Data) (tr : List Access) : Option (Vertex G1 × List Access) := do
  let k ← (← desc).str
  let b := db k
  let tr := tr ++ [.get k]
  if b.length = 0 then none else return (← Vertex.fromBytes E b, tr)

/-- The deferred `t.DB.Put([]byte(key), v.Bytes())` (`verkle/tree.go:232-234`, `355-359`). -/
def store (E : Curve G1 G2 GT) (env : Env) (key : Str) (v : Vertex G1) (s : State) (tr : List Access) : Traced :=
  (Verkle.store E env key v s, tr ++ [.put key])

/-- The loop at `verkle/tree.go:250-266`. -/
def innerLoop (E : Curve G1 G2 GT) (db : Db) :
    List (Option Data) → (i : ℕ) → InnerAcc → List Access → Option (InnerAcc × List Access)
  | [], _, a, tr => some (a, tr)
  | none :: t, i, a, tr => innerLoop E db t (i + 1) { a with m := a.m ++ [intToZr 0], d := a.d ++ [intToZr 0] } tr
  | some desc :: t, i, a, tr => do
    let (descVertex, tr) ← fetchVertex E db (some desc) tr
    let val := descVertex.sum
    let digest ← descVertex.digest E
    innerLoop E db t (i + 1)
      { sum := a.sum + val
        values := a.values.set (UInt16.ofNat i) val
        digests := a.digests.set (UInt16.ofNat i) digest
        m := a.m ++ [val]
        d := a.d ++ [digest] } tr

variable [DecidableEq G1] [DecidableEq GT]

/-- `verkle/tree.go:229-339` `updateInnerLayer`. -/
def updateInnerLayer (E : Curve G1 G2 GT) (PP : PP G1 G2 GT) (env : Env) (key : Str) (node : Option Data)
    (descendants : List (Option Data)) (index : ℕ) (s : Traced) : Option (Option Data × Traced) :=
  match node with
  | none => do
    let blindingFactor := env.rand s.1.tick
    let (a, tr) ← innerLoop E s.1.db descendants 0 ⟨intToZr 0, .empty, .empty, [], []⟩ s.2
    let m := a.m ++ [a.sum] ++ [blindingFactor]
    let V ← PP.commit m
    let d := a.d ++ [intToZr 0] ++ [intToZr 0]
    let W ← PP.commit d
    let v : Vertex G1 := ⟨blindingFactor, a.values, a.digests, a.sum, V, some W⟩
    return (some (.key key), store E env key v s.1 tr)
  | some _ => do
    let (v, tr) ← fetchVertex E s.1.db (some (.key key)) s.2
    let oldVal := (v.values (UInt16.ofNat index)).getD (intToZr 0)
    let (descVertex, tr) ← fetchVertex E s.1.db (← descendants[index]?) tr
    let newVal := descVertex.sum
    let newDigest ← descVertex.digest E
    let digests := v.digests.set (UInt16.ofNat index) newDigest
    let sum := updateSum v.sum oldVal newVal
    let values := v.values.set (UInt16.ofNat index) newVal
    let m := (List.range PP.N).map fun i => (values (UInt16.ofNat i)).getD (intToZr 0)
    let d ← (List.range PP.N).mapM fun i =>
      if (values (UInt16.ofNat i)).isSome then digests (UInt16.ofNat i) else some (intToZr 0)
    if m.length < 2 then none
    else do
      let m := (m.set (m.length - 2) sum).set (m.length - 1) v.blindingFactor
      let V ← PP.commit m
      let W ← PP.commit d
      let v : Vertex G1 := ⟨v.blindingFactor, values, digests, sum, V, some W⟩
      return (some (.key key), store E env key v s.1 tr)

/-- `verkle/tree.go:352-427` `updateLayerAboveLeaves`. -/
def updateLayerAboveLeaves (E : Curve G1 G2 GT) (PP : PP G1 G2 GT) (env : Env) (key : Str)
    (node : Option Data) (descendants : List (Option Data)) (index : ℕ) (s : Traced) :
    Option (Option Data × Traced) :=
  match node with
  | none => do
    let blindingFactor := env.rand s.1.tick
    let (sum, values, m) ← leafLoop descendants 0 (intToZr 0, .empty, [])
    let m := m ++ [sum] ++ [blindingFactor]
    let V ← PP.commit m
    let v : Vertex G1 := ⟨blindingFactor, values, .empty, sum, V, none⟩
    return (some (.key key), store E env key v s.1 s.2)
  | some _ => do
    let (v, tr) ← fetchVertex E s.1.db (some (.key key)) s.2
    let oldVal := (v.values (UInt16.ofNat index)).getD (intToZr 0)
    let new ← (← (← descendants[index]?)).int64
    let newVal := intToZr new
    let sum := updateSum v.sum oldVal newVal
    let m := ((List.range PP.N).map fun i => (v.values (UInt16.ofNat i)).getD (intToZr 0)) ++ [sum]
    let V ← PP.update v.V m newVal index
    let values := v.values.set (UInt16.ofNat index) newVal
    let V ← PP.update V m sum values.size
    let v : Vertex G1 := { v with sum := sum, values := values, V := V }
    return (some (.key key), store E env key v s.1 tr)

/-- `verkle/tree.go:222-227` `updateInnerVertex`. -/
def updateInnerVertex (E : Curve G1 G2 GT) (PP : PP G1 G2 GT) (env : Env) : Sparse.Update Data Traced :=
  fun key node descendants descendantsLeaves index s =>
    if descendantsLeaves then updateLayerAboveLeaves E PP env key node descendants index s
    else updateInnerLayer E PP env key node descendants index s

/-- `verkle/tree.go:218-220` `Put`; the callback set at line 185 is the one above. -/
def put (E : Curve G1 G2 GT) (env : Env) (t : Tree G1 G2 GT) (id : Str) (data : ℤ) (s : Traced) :
    Option (Tree G1 G2 GT × Traced) := do
  let sparse : Sparse.Tree Data Traced :=
    { id2Path := t.id2Path, update := updateInnerVertex E t.PP env, fanOut := t.fanOut, root := t.root }
  let (t', s) ← sparse.put id (some (.amount data)) s
  return ({ t with root := t'.root }, s)

/-- The loop of `Get` (`verkle/tree.go:207-213`) over the vertices passed. -/
def readLoop (E : Curve G1 G2 GT) (db : Db) : List (Sparse.Vertex Data) → List Access → Option (List (Vertex G1) × List Access)
  | [], tr => some ([], tr)
  | u :: us, tr => do
    let key ← (← u.data).str
    let tr := tr ++ [.get key]
    let v ← Vertex.fromBytes E (db key)
    let (vs, tr) ← readLoop E db us tr
    return (v :: vs, tr)

/-- `verkle/tree.go:200-216` `Get`. -/
def treeGet (E : Curve G1 G2 GT) (env : Env) (t : Tree G1 G2 GT) (id : Str) (db : Db) (tr : List Access) :
    Option (Option (ℤ × List (Vertex G1)) × List Access) := do
  match ← (t.sparse E env).get id with
  | none => return (none, tr)
  | some (n, path) =>
    let (vertices, tr) ← readLoop E db path tr
    return (some (← (← n).int64, vertices), tr)

/-- `pol/pol.go:318-324` `Set`. -/
def set (E : Curve G1 G2 GT) (env : Env) (ls : LiabilitySet G1 G2 GT) (id : Str) (liability : ℤ) (tr : List Access) :
    Option (LiabilitySet G1 G2 GT × List Access) :=
  if liability < 0 then none
  else do
    let (tree, s, tr) ← put E env ls.tree id liability (ls.s, tr)
    return ({ ls with tree := tree, s := s }, tr)

/-- A sequence of calls of `Set` (`pol/pol.go:318-324`). -/
def sets (E : Curve G1 G2 GT) (env : Env) (ls : LiabilitySet G1 G2 GT) (hist : List (Str × ℤ)) (tr : List Access) :
    Option (LiabilitySet G1 G2 GT × List Access) :=
  hist.foldlM (fun x e => set E env x.1 e.1 e.2 x.2) (ls, tr)

/-- `pol/pol.go:326-329` `Get`. -/
def get (E : Curve G1 G2 GT) (env : Env) (ls : LiabilitySet G1 G2 GT) (id : Str) (tr : List Access) :
    Option (Option ℤ × List Access) := do
  let (r, tr) ← treeGet E env ls.tree id ls.s.db tr
  return (r.map Prod.fst, tr)

/-- `pol/pol.go:479-491` `(*DBMemorizeRoot).Get`: it calls the database at line 484 only. -/
def memGet (db : Db) (memRoot : Bytes) (key : Str) (tr : List Access) : Bytes × Bytes × List Access :=
  if key.length = 0 ∧ memRoot.length ≠ 0 then (memRoot, memRoot, tr)
  else
    let val := db key
    (val, if key.length = 0 then val else memRoot, tr ++ [.get key])

/-- `pol/pol.go:258-267` `Root`. -/
def root (E : Curve G1 G2 GT) (ls : LiabilitySet G1 G2 GT) (tr : List Access) :
    Option (Option (G1 × Option G1) × LiabilitySet G1 G2 GT × List Access) :=
  match ls.tree.root with
  | none => some (none, ls, tr)
  | some r => do
    let key ← (← r.data).str
    let (bytes, memRoot, tr) := memGet ls.s.db ls.memRoot key tr
    let v ← Vertex.fromBytes E bytes
    return (some (v.V, v.W), { ls with memRoot := memRoot }, tr)

/-- `pol/pol.go:279-296` `ProveTot`: line 280 is the only use of the database. -/
def proveTot (E : Curve G1 G2 GT) (ls : LiabilitySet G1 G2 GT) (tr : List Access) : Option (TotalProof G1 × List Access) := do
  let v ← Vertex.fromBytes E (ls.s.db [])
  let tr := tr ++ [.get []]
  let (sum, π) ← ls.openSumFromVertex v
  let sumAsInt ← zrInt sum
  return ({ sum := sumAsInt, liabilityProof := π }, tr)

/-- `pol/pol.go:331-464` `ProveLiability`: line 333 is the only use of the database; what the function returns is in
`Model/Pol.lean`. -/
def proveLiability (E : Curve G1 G2 GT) (env : Env) (ls : LiabilitySet G1 G2 GT) (rnd : ProveRand) (id : Str)
    (tr : List Access) : Option (Option (ℤ × LiabilityProof G1) × List Access) := do
  let (_, tr) ← treeGet E env ls.tree id ls.s.db tr
  return (← ls.proveLiability E env rnd id, tr)

end PoL.Trace

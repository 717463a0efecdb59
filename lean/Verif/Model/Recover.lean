import Verif.Model.Pol

/-!
# What a panicking `Put` leaves behind

In the other files a call that panics is `none`.  A caller can recover from the panic and go on; the tree and
the database then are what the call left behind.  Here every call has a result that is `none` if it panics, and
the state it leaves.  C89 shows that these functions return what those of the other files return, so only the
state after a panic is new.
-/

namespace PoL.Sparse

variable {D σ : Type}

/-- `Tree.UpdateInnerVertex` (`sparse/tree.go:17`): the result, `none` for a panic, and the state left. -/
abbrev UpdateR (D σ : Type) := Str → Option D → List (Option D) → Bool → ℕ → σ → Option (Option D) × σ

/-- What a call leaves behind: whether it returned, the vertex and the state. -/
structure Left (V σ : Type) where
  ok : Bool
  vertex : V
  state : σ

/-- The assignment at `sparse/tree.go:77` for a vertex with key `key`, data `data` and descendants `desc`: on a
panic of `rawData` or of the callback the data stays. -/
def assignR (fanOut : ℕ) (upd : UpdateR D σ) (key : Str) (data : Option D) (desc : List (ℕ × Vertex D))
    (leaves : Bool) (p : ℕ) (s : σ) : Left (Vertex D) σ :=
  match rawData desc fanOut with
  | none => ⟨false, .mk key data desc, s⟩
  | some raw =>
    match upd key data raw leaves p s with
    | (none, s') => ⟨false, .mk key data desc, s'⟩
    | (some d, s') => ⟨true, .mk key d desc, s'⟩

/-- One round of the loop at `sparse/tree.go:76-81`, at vertex `v` after the rounds below it left `r` at its
child `p`: if these panicked, the loop does not get here; the vertices created by the descent stay. -/
def roundR (fanOut : ℕ) (upd : UpdateR D σ) (v : Vertex D) (leaves : Bool) (p : ℕ) (r : Left (Vertex D) σ) :
    Left (Vertex D) σ :=
  if r.ok then assignR fanOut upd v.key v.data (descSet v.desc p r.vertex) leaves p r.state
  else ⟨false, .mk v.key v.data (descSet v.desc p r.vertex), r.state⟩

/-- The body of `Put` below the root (`sparse/tree.go:51-81`), like `putAt`. -/
def putAtR (fanOut : ℕ) (upd : UpdateR D σ) (data : Option D) :
    (path : List ℕ) → (pathString : Str) → Vertex D → σ → Left (Vertex D) σ
  | [], _, v, s => ⟨true, .mk v.key data v.desc, s⟩
  | p :: rest, pathString, v, s =>
    roundR fanOut upd v rest.isEmpty p
      (putAtR fanOut upd data rest (childKey pathString p)
        ((descGet v.desc p).getD (.mk (childKey pathString p) none [])) s)

end PoL.Sparse

namespace PoL.Verkle
open Sparse

variable {G1 G2 GT : Type} [AddCommGroup G1] [Module Zr G1] [AddCommGroup G2] [Module Zr G2]
  [AddCommGroup GT] [Module Zr GT]

/-- A panic after which nothing is written: the deferred function at `verkle/tree.go:232-234`, `355-359` panics
itself, because `v` or `v.V` is `nil` (`Bytes`, `verkle/tree.go:133-163`).  A scalar may have been drawn. -/
def panicked (s : State) : Option (Option Data) × State := (none, { s with tick := s.tick + 1 })

/-- A panic after which the deferred function writes `v`. -/
def panickedWith (E : Curve G1 G2 GT) (env : Env) (key : Str) (v : Vertex G1) (s : State) :
    Option (Option Data) × State := (none, store E env key v s)

/-- A return, after which the deferred function writes `v`. -/
def returned (E : Curve G1 G2 GT) (env : Env) (key : Str) (v : Vertex G1) (s : State) :
    Option (Option Data) × State := (some (some (.key key)), store E env key v s)

variable [DecidableEq G1] [DecidableEq GT]

/-- `verkle/tree.go:298-336`, after the child's sum and digest were found: `v` is changed in place, so on a panic the
deferred function writes what was changed so far.  A panic of the second `Commit` (line 335) leaves the old `W`. -/
def writeInnerR (E : Curve G1 G2 GT) (PP : PP G1 G2 GT) (env : Env) (key : Str) (index : ℕ) (v : Vertex G1)
    (newVal newDigest : Zr) (s : State) : Option (Option Data) × State :=
  let digests := v.digests.set (UInt16.ofNat index) newDigest
  let sum := updateSum v.sum ((v.values (UInt16.ofNat index)).getD (intToZr 0)) newVal
  let values := v.values.set (UInt16.ofNat index) newVal
  let m := (List.range PP.N).map fun i => (values (UInt16.ofNat i)).getD (intToZr 0)
  let d := (List.range PP.N).mapM fun i =>
    if (values (UInt16.ofNat i)).isSome then digests (UInt16.ofNat i) else some (intToZr 0)
  if PP.N < 2 then panickedWith E env key ⟨v.blindingFactor, values, digests, sum, v.V, v.W⟩ s
  else
    match PP.commit ((m.set (m.length - 2) sum).set (m.length - 1) v.blindingFactor) with
    | none => panickedWith E env key ⟨v.blindingFactor, values, digests, sum, v.V, v.W⟩ s
    | some V =>
      match d.bind PP.commit with
      | none => panickedWith E env key ⟨v.blindingFactor, values, digests, sum, V, v.W⟩ s
      | some W => returned E env key ⟨v.blindingFactor, values, digests, sum, V, some W⟩ s

/-- What line 294 and lines 296-297 of `verkle/tree.go` read of the child: its sum and its digest. -/
def childOf (E : Curve G1 G2 GT) (db : Db) (descendants : List (Option Data)) (index : ℕ) : Option (Zr × Zr) := do
  let descVertex ← fetchVertex E db (← descendants[index]?)
  return (descVertex.sum, ← descVertex.digest E)

/-- `verkle/tree.go:229-339` `updateInnerLayer`.  With `node = nil` every panic comes before `v.V` is set (line 275:
the second `Commit` has as many entries as the first, and panics only if the first does). -/
def updateInnerLayerR (E : Curve G1 G2 GT) (PP : PP G1 G2 GT) (env : Env) (key : Str) (node : Option Data)
    (descendants : List (Option Data)) (index : ℕ) (s : State) : Option (Option Data) × State :=
  match node with
  | none =>
    match innerLoop E s.db descendants 0 ⟨intToZr 0, .empty, .empty, [], []⟩ with
    | none => panicked s
    | some a =>
      match PP.commit (a.m ++ [a.sum] ++ [env.rand s.tick]), PP.commit (a.d ++ [intToZr 0] ++ [intToZr 0]) with
      | some V, some W => returned E env key ⟨env.rand s.tick, a.values, a.digests, a.sum, V, some W⟩ s
      | _, _ => panicked s
  | some _ =>
    match fetchVertex E s.db (some (.key key)) with
    | none => panicked s
    | some v =>
      match childOf E s.db descendants index with
      | none => panickedWith E env key v s
      | some c => writeInnerR E PP env key index v c.1 c.2 s

/-- `verkle/tree.go:403-424`, after the new amount was found; `v` is changed in place. -/
def writeLeafR (E : Curve G1 G2 GT) (PP : PP G1 G2 GT) (env : Env) (key : Str) (index : ℕ) (v : Vertex G1)
    (newVal : Zr) (s : State) : Option (Option Data) × State :=
  let sum := updateSum v.sum ((v.values (UInt16.ofNat index)).getD (intToZr 0)) newVal
  let m := ((List.range PP.N).map fun i => (v.values (UInt16.ofNat i)).getD (intToZr 0)) ++ [sum]
  let values := v.values.set (UInt16.ofNat index) newVal
  match PP.update v.V m newVal index with
  | none => panickedWith E env key { v with sum := sum } s
  | some V =>
    match PP.update V m sum values.size with
    | none => panickedWith E env key { v with sum := sum, values := values, V := V } s
    | some V' => returned E env key { v with sum := sum, values := values, V := V' } s

/-- `verkle/tree.go:352-427` `updateLayerAboveLeaves`. -/
def updateLayerAboveLeavesR (E : Curve G1 G2 GT) (PP : PP G1 G2 GT) (env : Env) (key : Str) (node : Option Data)
    (descendants : List (Option Data)) (index : ℕ) (s : State) : Option (Option Data) × State :=
  match node with
  | none =>
    match leafLoop descendants 0 (intToZr 0, .empty, []) with
    | none => panicked s
    | some a =>
      match PP.commit (a.2.2 ++ [a.1] ++ [env.rand s.tick]) with
      | none => panicked s
      | some V => returned E env key ⟨env.rand s.tick, a.2.1, .empty, a.1, V, none⟩ s
  | some _ =>
    match fetchVertex E s.db (some (.key key)) with
    | none => panicked s
    | some v =>
      match descendants[index]?.join.bind Data.int64 with
      | none => panickedWith E env key v s
      | some new => writeLeafR E PP env key index v (intToZr new) s

/-- `verkle/tree.go:222-227` `updateInnerVertex`. -/
def updateInnerVertexR (E : Curve G1 G2 GT) (PP : PP G1 G2 GT) (env : Env) : UpdateR Data State :=
  fun key node descendants descendantsLeaves index s =>
    if descendantsLeaves then updateLayerAboveLeavesR E PP env key node descendants index s
    else updateInnerLayerR E PP env key node descendants index s

/-- `verkle/tree.go:218-220` `Put` (`sparse/tree.go:42-82`): whether it returned, and the tree and the state left.
A panic of `ID2Path` (line 43) comes before anything is changed. -/
def Tree.putR (E : Curve G1 G2 GT) (env : Env) (t : Tree G1 G2 GT) (id : Str) (data : ℤ) (s : State) :
    Left (Tree G1 G2 GT) State :=
  match t.id2Path id with
  | none => ⟨false, t, s⟩
  | some path =>
    let r := putAtR t.fanOut (updateInnerVertexR E t.PP env) (some (.amount data)) path []
      (t.root.getD (.mk [] none [])) s
    ⟨r.ok, { t with root := some r.vertex }, r.state⟩

end PoL.Verkle

namespace PoL.Pol
open Sparse Verkle

variable {G1 G2 GT : Type} [AddCommGroup G1] [Module Zr G1] [AddCommGroup G2] [Module Zr G2]
  [AddCommGroup GT] [Module Zr GT] [DecidableEq G1] [DecidableEq GT]

/-- `pol/pol.go:318-324` `Set`: whether it returned, and the set left. -/
def LiabilitySet.setR (E : Curve G1 G2 GT) (env : Env) (ls : LiabilitySet G1 G2 GT) (id : Str) (liability : ℤ) :
    Bool × LiabilitySet G1 G2 GT :=
  if liability < 0 then (false, ls)
  else
    let r := ls.tree.putR E env id liability ls.s
    (r.ok, { ls with tree := r.vertex, s := r.state })

/-- The set left by a sequence of calls of `Set`, recovering from every panic. -/
def LiabilitySet.attempts (E : Curve G1 G2 GT) (env : Env) (ls : LiabilitySet G1 G2 GT) (hist : List (Str × ℤ)) :
    LiabilitySet G1 G2 GT :=
  hist.foldl (fun ls e => (ls.setR E env e.1 e.2).2) ls

end PoL.Pol

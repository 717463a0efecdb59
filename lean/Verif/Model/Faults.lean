import Verif.Model.Recover

/-!
# Databases that fail inside a call

In the other files the database answers every call.  Here its calls can fail inside a `Set`: a `Get` that fails
gives no bytes or panics, a `Put` that fails panics and writes nothing.  Which calls fail is a parameter; it can be
different for every `Set`.  The caller recovers from the panics and goes on, as in `Model/Recover.lean`.
-/

namespace PoL.Verkle
open Sparse

variable {G1 G2 GT : Type} [AddCommGroup G1] [Module Zr G1] [AddCommGroup G2] [Module Zr G2]
  [AddCommGroup GT] [Module Zr GT] [DecidableEq G1] [DecidableEq GT]

/-- The calls of the `DB` (`verkle/tree.go:23-26`) that fail during one `Put`: `reads key k` for the `Get` of `k` in
the callback for the vertex with key `key` (`verkle/tree.go:341-350`), `write key` for its `Put` (`verkle/tree.go:233`,
`357`).  A callback reads no key twice, and a `Put` calls it once for every vertex on the path, so every call of the
database can fail on its own. -/
structure Faults where
  reads : Str → Str → Bool
  write : Str → Bool

/-- No call fails. -/
def Faults.none : Faults := ⟨fun _ _ => false, fun _ => false⟩

/-- What the callback for `key` gets from the database: no bytes for a `Get` that fails.  `fetchVertex` panics on no
bytes (`verkle/tree.go:344-346`), so it makes no difference whether the `Get` panics itself. -/
def Faults.hide (f : Faults) (key : Str) (db : Db) : Db := fun k => if f.reads key k then [] else db k

/-- The database after the callback: where the callback left what it was given, it has not written, and the database
is what it was before. -/
def overlay (db given left : Db) : Db := fun k => if left k = given k then db k else left k

/-- `verkle/tree.go:222-227` `updateInnerVertex` over a database whose calls can fail.  A panicking `Put` in the
deferred function (`verkle/tree.go:232-234`, `355-359`) is a panic of the callback. -/
def updateFaulty (E : Curve G1 G2 GT) (PP : PP G1 G2 GT) (env : Env) (f : Faults) : UpdateR Data State :=
  fun key node descendants descendantsLeaves index s =>
    let r := updateInnerVertexR E PP env key node descendants descendantsLeaves index ⟨f.hide key s.db, s.tick⟩
    if f.write key then (.none, ⟨s.db, r.2.tick⟩)
    else (r.1, ⟨overlay s.db (f.hide key s.db) r.2.db, r.2.tick⟩)

/-- `verkle/tree.go:218-220` `Put` (`sparse/tree.go:42-82`) over such a database: whether it returned, and the tree
and the state left. -/
def Tree.putF (E : Curve G1 G2 GT) (env : Env) (f : Faults) (t : Tree G1 G2 GT) (id : Str) (data : ℤ) (s : State) :
    Left (Tree G1 G2 GT) State :=
  match t.id2Path id with
  | none => ⟨false, t, s⟩
  | some path =>
    let r := putAtR t.fanOut (updateFaulty E t.PP env f) (some (.amount data)) path []
      (t.root.getD (.mk [] none [])) s
    ⟨r.ok, { t with root := some r.vertex }, r.state⟩

end PoL.Verkle

namespace PoL.Pol
open Sparse Verkle

variable {G1 G2 GT : Type} [AddCommGroup G1] [Module Zr G1] [AddCommGroup G2] [Module Zr G2]
  [AddCommGroup GT] [Module Zr GT] [DecidableEq G1] [DecidableEq GT]

/-- A call of `Set`: the calls of the database that fail during it, the identifier and the amount. -/
structure Attempt where
  faults : Faults
  id : Str
  amount : ℤ

/-- `pol/pol.go:318-324` `Set`: whether it returned, and the set left. -/
def LiabilitySet.setF (E : Curve G1 G2 GT) (env : Env) (ls : LiabilitySet G1 G2 GT) (a : Attempt) :
    Bool × LiabilitySet G1 G2 GT :=
  if a.amount < 0 then (false, ls)
  else
    let r := ls.tree.putF E env a.faults a.id a.amount ls.s
    (r.ok, { ls with tree := r.vertex, s := r.state })

/-- Calls of `Set` one after the other, recovering from every panic: which of them returned, and the set left. -/
def LiabilitySet.setsF (E : Curve G1 G2 GT) (env : Env) (ls : LiabilitySet G1 G2 GT) :
    List Attempt → List Bool × LiabilitySet G1 G2 GT
  | [] => ([], ls)
  | a :: as =>
    let r := ls.setF E env a
    let rs := r.2.setsF E env as
    (r.1 :: rs.1, rs.2)

end PoL.Pol

import Verif.Model.Recover

/-!
# Databases that answer anything

In the other files the database gives back what was written, or nothing.  Here it gives whatever bytes it likes: `answers n` is what
the `n`-th callback reads, key by key.  A callback reads no key twice, so this covers every database, also one that answers
differently each time, or looks at what is written before it answers.  What is written is not kept.
-/

namespace PoL.Verkle
open Sparse

variable {G1 G2 GT : Type} [AddCommGroup G1] [Module Zr G1] [AddCommGroup G2] [Module Zr G2]
  [AddCommGroup GT] [Module Zr GT] [DecidableEq G1] [DecidableEq GT]

/-- `verkle/tree.go:222-227` `updateInnerVertex`, reading (`verkle/tree.go:341-350`) what the database answers.  The state: how many
random values were drawn, and how many callbacks there were. -/
def updateHostile (E : Curve G1 G2 GT) (PP : PP G1 G2 GT) (env : Env) (answers : ℕ → Db) : Update Data (ℕ × ℕ) :=
  fun key node descendants descendantsLeaves index s => do
    let r ← updateInnerVertex E PP env key node descendants descendantsLeaves index ⟨answers s.2, s.1⟩
    return (r.1, r.2.tick, s.2 + 1)

/-- `verkle/tree.go:218-220` `Put` (`sparse/tree.go:42-82`) over such a database. -/
def Tree.putH (E : Curve G1 G2 GT) (env : Env) (answers : ℕ → Db) (t : Tree G1 G2 GT) (id : Str) (data : ℤ) (s : ℕ × ℕ) :
    Option (Tree G1 G2 GT × ℕ × ℕ) := do
  let path ← t.id2Path id
  let r ← putAt t.fanOut (updateHostile E t.PP env answers) (some (.amount data)) path [] (t.root.getD (.mk [] none [])) s
  return ({ t with root := some r.1 }, r.2)

/-- What a database does that may also fail: its answers, and whether it panics on a `Put` (a panic on a `Get` has the effect of an
answer without bytes, on which `fetchVertex` panics, `verkle/tree.go:344-346`). -/
structure Hostile where
  answers : ℕ → Db
  fails : ℕ → Bool

/-- `verkle/tree.go:222-227` `updateInnerVertex` over such a database, with panics as in `Model/Recover.lean`. -/
def updateHostileR (E : Curve G1 G2 GT) (PP : PP G1 G2 GT) (env : Env) (d : Hostile) : UpdateR Data (ℕ × ℕ) :=
  fun key node descendants descendantsLeaves index s =>
    let r := updateInnerVertexR E PP env key node descendants descendantsLeaves index ⟨d.answers s.2, s.1⟩
    (if d.fails s.2 then none else r.1, r.2.tick, s.2 + 1)

/-- `verkle/tree.go:218-220` `Put` (`sparse/tree.go:42-82`) over such a database: whether it returned, and the tree and the state
left. -/
def Tree.putHR (E : Curve G1 G2 GT) (env : Env) (d : Hostile) (t : Tree G1 G2 GT) (id : Str) (data : ℤ) (s : ℕ × ℕ) :
    Left (Tree G1 G2 GT) (ℕ × ℕ) :=
  match t.id2Path id with
  | none => ⟨false, t, s⟩
  | some path =>
    let r := putAtR t.fanOut (updateHostileR E t.PP env d) (some (.amount data)) path [] (t.root.getD (.mk [] none [])) s
    ⟨r.ok, { t with root := some r.vertex }, r.state⟩

end PoL.Verkle

namespace PoL.Pol
open Sparse Verkle

variable {G1 G2 GT : Type} [AddCommGroup G1] [Module Zr G1] [AddCommGroup G2] [Module Zr G2]
  [AddCommGroup GT] [Module Zr GT] [DecidableEq G1] [DecidableEq GT]

/-- `pol/pol.go:318-324` `Set` over such a database. -/
def LiabilitySet.setH (E : Curve G1 G2 GT) (env : Env) (answers : ℕ → Db) (ls : LiabilitySet G1 G2 GT) (id : Str) (liability : ℤ)
    (n : ℕ) : Option (LiabilitySet G1 G2 GT × ℕ) :=
  if liability < 0 then none
  else do
    let r ← ls.tree.putH E env answers id liability (ls.s.tick, n)
    return ({ ls with tree := r.1, s := { ls.s with tick := r.2.1 } }, r.2.2)

/-- A sequence of calls of `Set` (`pol/pol.go:318-324`). -/
def LiabilitySet.setsH (E : Curve G1 G2 GT) (env : Env) (answers : ℕ → Db) (ls : LiabilitySet G1 G2 GT) (n : ℕ)
    (hist : List (Str × ℤ)) : Option (LiabilitySet G1 G2 GT × ℕ) :=
  hist.foldlM (fun r e => r.1.setH E env answers e.1 e.2 r.2) (ls, n)

/-- The set with another database: what a call of `Get`, `Root`, `ProveTot` or `ProveLiability` (`pol/pol.go:258-464`), which read no
key twice, works with if the database answers `db`. -/
def LiabilitySet.withDb (ls : LiabilitySet G1 G2 GT) (db : Db) : LiabilitySet G1 G2 GT := { ls with s := { ls.s with db := db } }

/-- `pol/pol.go:318-324` `Set` over a database that may also fail: whether it returned, the set left, and the number of callbacks. -/
def LiabilitySet.setHR (E : Curve G1 G2 GT) (env : Env) (d : Hostile) (ls : LiabilitySet G1 G2 GT) (id : Str) (liability : ℤ)
    (n : ℕ) : Bool × LiabilitySet G1 G2 GT × ℕ :=
  if liability < 0 then (false, ls, n)
  else
    let r := ls.tree.putHR E env d id liability (ls.s.tick, n)
    (r.ok, { ls with tree := r.vertex, s := { ls.s with tick := r.state.1 } }, r.state.2)

/-- The set left by a sequence of calls of `Set` (`pol/pol.go:318-324`), recovering from every panic, and the number of callbacks. -/
def LiabilitySet.attemptsH (E : Curve G1 G2 GT) (env : Env) (d : Hostile) (ls : LiabilitySet G1 G2 GT) (n : ℕ)
    (hist : List (Str × ℤ)) : LiabilitySet G1 G2 GT × ℕ :=
  hist.foldl (fun r e => (r.1.setHR E env d e.1 e.2 r.2).2) (ls, n)

end PoL.Pol

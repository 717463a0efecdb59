import Verif.Spec.Session

/-!
# A database that loses values

A database answers a key that it does not have with no bytes (`bench/main.go:426-435`, `450-452`).  Here it may lose any value
at any time between two calls.
-/

namespace PoL.Pol

open Spec Verkle

variable {G1 G2 GT : Type} [AddCommGroup G1] [Module Zr G1] [AddCommGroup G2] [Module Zr G2] [AddCommGroup GT] [Module Zr GT]
  [DecidableEq G1] [DecidableEq GT]

/-- A call, or the loss of the value of a key: `Get` gives no bytes from then on, until the key is written again
(`bench/main.go:431-433`). -/
inductive LossyCall where
  | call (c : ApiCall)
  | lose (key : Str)

/-- The database without the value of a key (`bench/main.go:426-435`). -/
def loseKey (db : Db) (key : Str) : Db := db.put key []

/-- Calls one after the other, with losses in between (`pol/pol.go:258-464`). -/
def lossyCalls (E : Curve G1 G2 GT) (env : Env) (s : Held G1 G2 GT) : List LossyCall → Option (Held G1 G2 GT × List Seen)
  | [] => some (s, [])
  | .call c :: cs => do
    let r ← apiCall E env s c
    let t ← lossyCalls E env r.1 cs
    return (t.1, r.2 :: t.2)
  | .lose key :: cs =>
    lossyCalls E env { s with ls := { s.ls with s := { s.ls.s with db := loseKey s.ls.s.db key } } } cs

/-- Parameters, a new set, and calls (`pol/pol.go:53-101`). -/
def lossySession (E : Curve G1 G2 GT) (env : Env) (α α' : Zr) (fanOut : UInt16) (treeType : TreeType) (db : Db)
    (cs : List LossyCall) : Option (Held G1 G2 GT × List Seen) := do
  let r ← generatePublicParams E α fanOut treeType
  lossyCalls E env ⟨newLiabilitySet E α' r.2 db r.1, r.2, r.1, [], [], []⟩ cs

end PoL.Pol

import Verif.Spec.Session

/-!
# A database that keeps only the first bytes of a value

A write that is interrupted, or a file that is cut, can leave the first bytes of a value (`verkle/tree.go:23-26` says nothing
about it).  Here this may happen to any value at any time between two calls.
-/

namespace PoL.Pol

open Spec Verkle

variable {G1 G2 GT : Type} [AddCommGroup G1] [Module Zr G1] [AddCommGroup G2] [Module Zr G2] [AddCommGroup GT] [Module Zr GT]
  [DecidableEq G1] [DecidableEq GT]

/-- A call, or a cut: of the value of a key only the first `n` bytes are left (none for `n = 0`), until the key is written
again (`verkle/tree.go:23-26`). -/
inductive CutCall where
  | call (c : ApiCall)
  | cut (key : Str) (n : ℕ)

/-- The database with a value cut after `n` bytes (`verkle/tree.go:23-26`). -/
def cutKey (db : Db) (key : Str) (n : ℕ) : Db := db.put key ((db key).take n)

/-- Calls one after the other, with cuts in between (`pol/pol.go:258-464`). -/
def cutCalls (E : Curve G1 G2 GT) (env : Env) (s : Held G1 G2 GT) : List CutCall → Option (Held G1 G2 GT × List Seen)
  | [] => some (s, [])
  | .call c :: cs => do
    let r ← apiCall E env s c
    let t ← cutCalls E env r.1 cs
    return (t.1, r.2 :: t.2)
  | .cut key n :: cs =>
    cutCalls E env { s with ls := { s.ls with s := { s.ls.s with db := cutKey s.ls.s.db key n } } } cs

/-- Parameters, a new set, and calls (`pol/pol.go:53-101`). -/
def cutSession (E : Curve G1 G2 GT) (env : Env) (α α' : Zr) (fanOut : UInt16) (treeType : TreeType) (db : Db)
    (cs : List CutCall) : Option (Held G1 G2 GT × List Seen) := do
  let r ← generatePublicParams E α fanOut treeType
  cutCalls E env ⟨newLiabilitySet E α' r.2 db r.1, r.2, r.1, [], [], []⟩ cs

end PoL.Pol

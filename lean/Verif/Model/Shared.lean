import Verif.Model.Pol

/-!
# Two liability sets over one database

`NewLiabilitySet` keeps the database it is given (`pol/pol.go:53-62`), and the keys under which vertices are stored are made of
their paths only (`sparse/tree.go:55-61`), so two sets over one database use the same keys.
-/

namespace PoL.Pol

open Verkle

variable {G1 G2 GT : Type} [AddCommGroup G1] [Module Zr G1] [AddCommGroup G2] [Module Zr G2] [AddCommGroup GT] [Module Zr GT]
  [DecidableEq G1] [DecidableEq GT]

/-- Two sets and the database of both (`pol/pol.go:33-37`); the field `s` of the sets is not used. -/
structure Shared (G1 G2 GT : Type) where
  a : LiabilitySet G1 G2 GT
  b : LiabilitySet G1 G2 GT
  s : State

/-- The first set, with the database as it is. -/
def Shared.setA (x : Shared G1 G2 GT) : LiabilitySet G1 G2 GT := { x.a with s := x.s }

/-- The second set, with the database as it is. -/
def Shared.setB (x : Shared G1 G2 GT) : LiabilitySet G1 G2 GT := { x.b with s := x.s }

/-- `pol/pol.go:318-324` `Set`, called on the first set (`true`) or on the second one. -/
def Shared.set (E : Curve G1 G2 GT) (env : Env) (x : Shared G1 G2 GT) (e : Bool × Str × ℤ) : Option (Shared G1 G2 GT) :=
  if e.1 then do
    let ls ← x.setA.set E env e.2.1 e.2.2
    return { a := ls, b := x.b, s := ls.s }
  else do
    let ls ← x.setB.set E env e.2.1 e.2.2
    return { a := x.a, b := ls, s := ls.s }

/-- Calls of `Set` on the two sets, in any order. -/
def Shared.sets (E : Curve G1 G2 GT) (env : Env) (x : Shared G1 G2 GT) (es : List (Bool × Str × ℤ)) : Option (Shared G1 G2 GT) :=
  es.foldlM (Shared.set E env) x

end PoL.Pol

import Verif.Model.Verkle

/-!
# The database while a write is running

Every call of the callback of the Verkle tree writes to the database exactly once, at its very end: the deferred
`tree.DB.Put` of `verkle/tree.go:232-234` and the deferred function of `verkle/tree.go:355-359`.  `Put` of the generic
tree makes one such call per vertex passed, the deepest first (`sparse/tree.go:76-81`).  Stopping the process between
two calls leaves the database as it is after the calls made so far.

Simplification: one write to the database is atomic (`DB.Put` is an interface method, `verkle/tree.go:23-26`).
-/

namespace PoL.Sparse

/-- The same callback, which also writes down the state after every call (`sparse/tree.go:76-81`). -/
def snapshots {D σ : Type} (upd : Update D σ) : Update D (σ × List σ) :=
  fun key node children leaves index s => do
    let (d, s') ← upd key node children leaves index s.1
    return (d, (s', s.2 ++ [s']))

end PoL.Sparse

namespace PoL.Verkle

variable {G1 G2 GT : Type} [AddCommGroup G1] [Module Zr G1] [AddCommGroup G2] [Module Zr G2]
  [AddCommGroup GT] [Module Zr GT] [DecidableEq G1] [DecidableEq GT]

/-- The states in which `Put` (`verkle/tree.go:218-220`, `sparse/tree.go:42-82`) leaves the database if the process
stops: entry `k` is the state after `k` writes. -/
def Tree.crashStates (E : Curve G1 G2 GT) (env : Env) (t : Tree G1 G2 GT) (id : Str) (n : ℤ) (s : State) :
    Option (List State) := do
  let path ← t.id2Path id
  let (_, (_, l)) ← Sparse.putAt t.fanOut (Sparse.snapshots (updateInnerVertex E t.PP env)) (some (.amount n)) path []
    (t.root.getD (.mk [] none [])) (s, [s])
  return l

end PoL.Verkle

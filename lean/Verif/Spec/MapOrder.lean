import Verif.Spec.Session

/-! Databases with the same vertices (specification). -/

namespace PoL.Spec
open Verkle Pol

variable {G1 G2 GT : Type} [AddCommGroup G1] [Module Zr G1] [AddCommGroup G2] [Module Zr G2]
  [AddCommGroup GT] [Module Zr GT] [DecidableEq G1] [DecidableEq GT]

/-- The two values are both missing or both present, and read as the same vertex. -/
structure SameValue (E : Curve G1 G2 GT) (b b' : Bytes) : Prop where
  missing : b.length = 0 ↔ b'.length = 0
  vertex : Verkle.Vertex.fromBytes E b = Verkle.Vertex.fromBytes E b'

/-- The databases hold the same vertices. -/
def SameVertices (E : Curve G1 G2 GT) (db db' : Db) : Prop := ∀ k, SameValue E (db k) (db' k)

/-- The callers hold the same: the same roots and proofs, sets with the same tree in memory, and databases with the same vertices. -/
structure SameHeld (E : Curve G1 G2 GT) (p q : Held G1 G2 GT) : Prop where
  tree : p.ls.tree = q.ls.tree
  setPP : p.ls.pp = q.ls.pp
  memRoot : SameValue E p.ls.memRoot q.ls.memRoot
  writes : p.ls.s.tick = q.ls.s.tick
  db : SameVertices E p.ls.s.db q.ls.s.db
  pp : p.pp = q.pp
  id2Path : p.id2Path = q.id2Path
  roots : p.roots = q.roots
  totals : p.totals = q.totals
  proofs : p.proofs = q.proofs

end PoL.Spec

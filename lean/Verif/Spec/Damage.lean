import Verif.Model.Damage

/-! Sessions whose database cuts values short (specification). -/

namespace PoL.Spec

open Pol Verkle

/-- The calls, without the cuts. -/
def uncutCalls (cs : List CutCall) : List ApiCall := cs.filterMap fun c => match c with
  | .call c => some c
  | .cut _ _ => none

/-- Every value of the second database is the beginning of the value of the first. -/
def CutSome (db db' : Db) : Prop := ∀ k, db' k <+: db k

/-- The remembered root is a beginning of the other, and there is none if there is none in the other. -/
structure CutRoot (b b' : Bytes) : Prop where
  pre : b' <+: b
  empty : b = [] ↔ b' = []

/-- The callers hold the same, but values of the second database are cut short. -/
structure SameButCut {G1 G2 GT : Type} (p q : Held G1 G2 GT) : Prop where
  tree : p.ls.tree = q.ls.tree
  setPP : p.ls.pp = q.ls.pp
  memRoot : CutRoot p.ls.memRoot q.ls.memRoot
  writes : p.ls.s.tick = q.ls.s.tick
  db : CutSome p.ls.s.db q.ls.s.db
  pp : p.pp = q.pp
  id2Path : p.id2Path = q.id2Path
  roots : p.roots = q.roots
  totals : p.totals = q.totals
  proofs : p.proofs = q.proofs

end PoL.Spec

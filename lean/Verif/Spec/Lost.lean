import Verif.Model.Lost

/-! Sessions whose database loses values (specification). -/

namespace PoL.Spec

open Pol Verkle

/-- The calls, without the losses. -/
def callsOf (cs : List LossyCall) : List ApiCall := cs.filterMap fun c => match c with
  | .call c => some c
  | .lose _ => none

/-- The second database is the first one without some of its values. -/
def MissingSome (db db' : Db) : Prop := ∀ k, db' k = [] ∨ db' k = db k

/-- The callers hold the same, but the second database lacks some values. -/
structure SameButMissing {G1 G2 GT : Type} (p q : Held G1 G2 GT) : Prop where
  tree : p.ls.tree = q.ls.tree
  setPP : p.ls.pp = q.ls.pp
  memRoot : p.ls.memRoot = q.ls.memRoot
  writes : p.ls.s.tick = q.ls.s.tick
  db : MissingSome p.ls.s.db q.ls.s.db
  pp : p.pp = q.pp
  id2Path : p.id2Path = q.id2Path
  roots : p.roots = q.roots
  totals : p.totals = q.totals
  proofs : p.proofs = q.proofs

end PoL.Spec

import Verif.Model.Access
import Verif.Spec.Liabilities
import Verif.Spec.Tree

/-! Which calls of the database a call on a liability set makes, by the paths alone. -/

namespace PoL.Spec
open PoL.Trace

open Classical in
/-- A vertex is read if a write has passed it. -/
noncomputable def readPassed (h : List (List ℕ × ℤ)) (q : List ℕ) : List Access :=
  if touched h q then [.get (keyOf q)] else []

/-- A write along `p` after the writes `h`: from the deepest vertex of the path that is not a leaf up to the root, each
vertex is read if it is there already, then the vertex below it on the path is read unless that is the leaf, then the
vertex is written. -/
noncomputable def writeAccesses (h : List (List ℕ × ℤ)) (p : List ℕ) : List Access :=
  (List.range p.length).reverse.flatMap fun i =>
    readPassed h (p.take i) ++
    (if i + 1 < p.length then [.get (keyOf (p.take (i + 1)))] else []) ++
    [.put (keyOf (p.take i))]

open Classical in
/-- A read along `p`: every vertex of the path but the leaf, from the root down, if the leaf has been written. -/
noncomputable def readAccesses (h : List (List ℕ × ℤ)) (p : List ℕ) : List Access :=
  if touched h p then (List.range p.length).map fun i => .get (keyOf (p.take i)) else []

/-- A sequence of writes: each one after those before it. -/
noncomputable def historyAccesses (h : List (List ℕ × ℤ)) : List Access :=
  (List.range h.length).flatMap fun i => writeAccesses (h.take i) (((h[i]?).map Prod.fst).getD [])

/-- The keys written, in order. -/
def putKeys (tr : List Access) : List Str := tr.filterMap fun
  | .put k => some k
  | .get _ => none

/-- The keys read, in order. -/
def getKeys (tr : List Access) : List Str := tr.filterMap fun
  | .get k => some k
  | .put _ => none

end PoL.Spec

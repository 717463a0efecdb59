import Verif.Model.Base

/-!
# `sparse/tree.go:15-129`: the generic tree

`interface{}` values are `Option D`, `none` being `nil`.  A path component is a natural number.

The Go tree is a structure of vertices linked in both directions and changed in place.  Every vertex is
reached by exactly one path from the root (only `Put` creates vertices), so the model uses an inductive
tree; following `Parent` upwards after the descent is the return from the recursive calls.  `Model/Linked.lean` has the
vertices with their pointers, and C78 shows that both do the same.
-/

namespace PoL.Sparse

/-- `sparse/tree.go:85-90` `Vertex`.  `desc` is the map `Descendants` as a list of entries; `Parent` is
left out, see above. -/
inductive Vertex (D : Type) where
  | mk (key : Str) (data : Option D) (desc : List (ℕ × Vertex D))

namespace Vertex
variable {D : Type}

def key : Vertex D → Str
  | mk k _ _ => k

def data : Vertex D → Option D
  | mk _ d _ => d

def desc : Vertex D → List (ℕ × Vertex D)
  | mk _ _ ds => ds

end Vertex

/-- Lookup in a Go map (`v.Descendants[p]`, `sparse/tree.go:34`, `sparse/tree.go:60`). -/
def descGet {α : Type} : List (ℕ × α) → ℕ → Option α
  | [], _ => none
  | (k, u) :: t, p => if k = p then some u else descGet t p

/-- Assignment to a Go map (`v.Descendants[p] = …`, `sparse/tree.go:61`). -/
def descSet {α : Type} : List (ℕ × α) → ℕ → α → List (ℕ × α)
  | [], p, u => [(p, u)]
  | (k, w) :: t, p, u => if k = p then (p, u) :: t else (k, w) :: descSet t p u

variable {D σ : Type}

/-- `sparse/tree.go:123-129` `rawData`: panics (index) if a descendant's index is not below `size`. -/
def rawData (desc : List (ℕ × Vertex D)) (size : ℕ) : Option (List (Option D)) :=
  if desc.any (fun e => decide (size ≤ e.1)) then none
  else some ((List.range size).map fun i => (descGet desc i).bind Vertex.data)

/-- `Tree.UpdateInnerVertex` (`sparse/tree.go:17`): key, node, descendants, whether they are leaves, index
changed.  The callback may read and change a state `σ` (for the Verkle tree: the database and the source of
randomness) and may panic. -/
abbrev Update (D σ : Type) := Str → Option D → List (Option D) → Bool → ℕ → σ → Option (Option D × σ)

/-- `fmt.Sprintf("%s.%d", pathString, p)` (`sparse/tree.go:56`). -/
def childKey (pathString : Str) (p : ℕ) : Str := pathString ++ '.' :: Nat.toDigits 10 p

/-- The body of `Put` below the root (`sparse/tree.go:51-81`).  Descent (55-68): create the missing
vertices; then 70: set the leaf's data; then, returning (76-81): call the callback on every vertex passed,
deepest first. -/
def putAt (fanOut : ℕ) (upd : Update D σ) (data : Option D) :
    (path : List ℕ) → (pathString : Str) → Vertex D → σ → Option (Vertex D × σ)
  | [], _, v, s => some (.mk v.key data v.desc, s)
  | p :: rest, pathString, v, s => do
    let pathString := childKey pathString p
    let child := (descGet v.desc p).getD (.mk pathString none [])
    let (child, s) ← putAt fanOut upd data rest pathString child s
    let desc := descSet v.desc p child
    let raw ← rawData desc fanOut
    let (d, s) ← upd v.key v.data raw rest.isEmpty p s
    return (.mk v.key d desc, s)

/-- The walk of `Get` (`sparse/tree.go:30-39`): data at the end of the path and the vertices passed. -/
def getAt : (path : List ℕ) → Vertex D → Option (Option D × List (Vertex D))
  | [], v => some (v.data, [])
  | p :: rest, v =>
    match descGet v.desc p with
    | none => none
    | some u =>
      match getAt rest u with
      | none => none
      | some (d, vs) => some (d, v :: vs)

/-- `sparse/tree.go:15-20` `Tree` (`root` is `none` for `nil`). -/
structure Tree (D σ : Type) where
  id2Path : Str → Option (List ℕ)
  update : Update D σ
  fanOut : ℕ
  root : Option (Vertex D)

namespace Tree

/-- `sparse/tree.go:22-40` `Get`: the inner `none` is the result `false`. -/
def get (t : Tree D σ) (id : Str) : Option (Option (Option D × List (Vertex D))) := do
  let path ← t.id2Path id
  match t.root with
  | none => return none
  | some v => return getAt path v

/-- `sparse/tree.go:42-82` `Put`. -/
def put (t : Tree D σ) (id : Str) (data : Option D) (s : σ) : Option (Tree D σ × σ) := do
  let path ← t.id2Path id
  let root := t.root.getD (.mk [] none [])
  let (root, s) ← putAt t.fanOut t.update data path [] root s
  return ({ t with root := some root }, s)

/-- A sequence of calls of `Put`. -/
def puts (t : Tree D σ) (hist : List (Str × Option D)) (s : σ) : Option (Tree D σ × σ) :=
  hist.foldlM (fun ts e => ts.1.put e.1 e.2 ts.2) (t, s)

end Tree
end PoL.Sparse

import Verif.Model.Sparse

/-!
# `sparse/tree.go:15-129` with its pointers

`Model/Sparse.lean` uses an inductive tree.  Here is the same code with vertices in a memory that are changed in place and
linked in both directions, and with the loops of the code: down through `Descendants`, up through `Parent`.
A pointer is an index into the list of vertices allocated so far.
-/

namespace PoL.Linked
open Sparse

/-- `sparse/tree.go:85-90` `Vertex`; `nil` pointers are `none`. -/
structure Cell (D : Type) where
  key : Str
  data : Option D
  desc : List (ℕ × ℕ)
  parent : Option ℕ

/-- The vertices allocated so far. -/
abbrev Heap (D : Type) := List (Cell D)

variable {D σ : Type}

/-- The loop at `sparse/tree.go:55-68`.  Replacing an empty map by a new one (57-59) changes nothing that can be seen. -/
def descend : (path : List ℕ) → (pathString : Str) → (v : ℕ) → Heap D → Option (ℕ × Heap D)
  | [], _, v, h => some (v, h)
  | p :: path, pathString, v, h => do
    let pathString := childKey pathString p
    let c ← h[v]?
    match descGet c.desc p with
    | some u => descend path pathString u h
    | none =>
      let u := h.length
      let h := h ++ [⟨pathString, none, [], some v⟩]
      descend path pathString u (h.set v { c with desc := descSet c.desc p u })

/-- `sparse/tree.go:123-129` `rawData`. -/
def rawData (h : Heap D) (desc : List (ℕ × ℕ)) (size : ℕ) : Option (List (Option D)) :=
  if desc.any (fun e => decide (size ≤ e.1)) then none
  else (List.range size).mapM fun i =>
    match descGet desc i with
    | none => some none
    | some u => (h[u]?).map Cell.data

/-- The loop at `sparse/tree.go:74-81`.  `path[i]` for `i` from `len(path)-1` down is the list `path.reverse` from its
front; going on beyond its end is the panic of `path[-1]`. -/
def ascend (fanOut : ℕ) (upd : Update D σ) : (revPath : List ℕ) → (v : Option ℕ) → (leaves : Bool) → Heap D → σ →
    Option (Heap D × σ)
  | _, none, _, h, s => some (h, s)
  | [], some _, _, _, _ => none
  | x :: revPath, some v, leaves, h, s => do
    let c ← h[v]?
    let raw ← rawData h c.desc fanOut
    let (d, s) ← upd c.key c.data raw leaves x s
    ascend fanOut upd revPath c.parent false (h.set v { c with data := d }) s

/-- `sparse/tree.go:15-20` `Tree`, with the memory its vertices are in. -/
structure Tree (D σ : Type) where
  id2Path : Str → Option (List ℕ)
  update : Update D σ
  fanOut : ℕ
  root : Option ℕ
  heap : Heap D

namespace Tree

/-- `sparse/tree.go:45-51`: the root, which is allocated if there is none. -/
def getRoot (t : Tree D σ) : ℕ × Heap D :=
  match t.root with
  | some r => (r, t.heap)
  | none => (t.heap.length, t.heap ++ [⟨[], none, [], none⟩])

/-- `sparse/tree.go:42-82` `Put`. -/
def put (t : Tree D σ) (id : Str) (data : Option D) (s : σ) : Option (Tree D σ × σ) := do
  let path ← t.id2Path id
  let (root, h) := t.getRoot
  let (v, h) ← descend path [] root h
  let c ← h[v]?
  let h := h.set v { c with data := data }
  let (h, s) ← ascend t.fanOut t.update path.reverse c.parent true h s
  return ({ t with root := some root, heap := h }, s)

/-- A sequence of calls of `Put`. -/
def puts (t : Tree D σ) (hist : List (Str × Option D)) (s : σ) : Option (Tree D σ × σ) :=
  hist.foldlM (fun ts e => ts.1.put e.1 e.2 ts.2) (t, s)

/-- The loop of `Get` (`sparse/tree.go:31-38`) from vertex `v`: the inner `none` is the result `false`. -/
def walk (h : Heap D) : (path : List ℕ) → (v : ℕ) → Option (Option (Option D × List ℕ))
  | [], v => do
    let c ← h[v]?
    return some (c.data, [])
  | p :: path, v => do
    let c ← h[v]?
    match descGet c.desc p with
    | none => return none
    | some u =>
      match ← walk h path u with
      | none => return none
      | some (d, vs) => return some (d, v :: vs)

/-- `sparse/tree.go:22-40` `Get`. -/
def get (t : Tree D σ) (id : Str) : Option (Option (Option D × List ℕ)) := do
  let path ← t.id2Path id
  match t.root with
  | none => return none
  | some v => walk t.heap path v

end Tree
end PoL.Linked

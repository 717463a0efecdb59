import Verif.Model.Pol

/-!
# Several `Set` calls at once

Nothing in `pol`, `verkle` or `sparse` takes a lock.  `Put` sets the amount at the leaf (`sparse/tree.go:70`) and then calls
`UpdateInnerVertex` for one vertex after the other, the root last (`sparse/tree.go:76-81`).  Each of these calls reads its
vertex and the vertex of the changed child from the database (`verkle/tree.go:287`, `294`, `395`) and writes its vertex at
its end, in the deferred function (`verkle/tree.go:232-234`, `355-359`).  Here several such calls run at once, and the reads
and writes of different calls of `Put` come in any order.

Simplifications: everything that one call of `UpdateInnerVertex` does before the deferred write is one step, the write is
another; setting the amount at the leaf is a step of its own.  All paths were written to before, so that `Put` adds no
vertex and the callback always finds one (`verkle/tree.go:287`, `395`); the key it returns is the data that its vertex has
already (`verkle/tree.go:338`, `426`), so line 77 of `sparse/tree.go` changes nothing in memory.  Under the Go memory model
unsynchronised accesses to the vertices in memory are data races; they are left out here.
-/

namespace PoL.Verkle

variable {G1 G2 GT : Type} [AddCommGroup G1] [Module Zr G1] [AddCommGroup G2] [Module Zr G2]
  [AddCommGroup GT] [Module Zr GT] [DecidableEq G1] [DecidableEq GT]

/-- The vertex in memory that `Put`'s loop reaches along `path` (`sparse/tree.go:51-68`), all vertices being there. -/
def vertexAt : List ℕ → Sparse.Vertex Data → Option (Sparse.Vertex Data)
  | [], v => some v
  | p :: rest, v => (Sparse.descGet v.desc p).bind (vertexAt rest)

/-- `sparse/tree.go:51-70`: the data at the end of the path is replaced, all vertices being there. -/
def setLeaf (data : Data) : List ℕ → Sparse.Vertex Data → Sparse.Vertex Data
  | [], v => .mk v.key (some data) v.desc
  | p :: rest, v => match Sparse.descGet v.desc p with
    | none => v
    | some u => .mk v.key v.data (Sparse.descSet v.desc p (setLeaf data rest u))

/-- A running `Put`: its path and amount, whether the leaf has been set (`sparse/tree.go:70`), how many vertices it has
written (the variable `v` of `sparse/tree.go:72-81` is `done` levels above the layer over the leaves), and what the callback
that is running will write in its deferred function. -/
structure Writer where
  path : List ℕ
  amount : ℤ
  started : Bool
  done : ℕ
  pending : Option (Str × Bytes)

/-- The running calls, the vertices in memory and the database. -/
structure Running where
  writers : List Writer
  root : Sparse.Vertex Data
  s : State

/-- What happens next: writer `i` sets its leaf; the callback that it has to call next is called and runs up to its deferred
function; this deferred function runs. -/
inductive Event where
  | sets (i : ℕ)
  | reads (i : ℕ)
  | writes (i : ℕ)

/-- One event.  `none`: there is no such event now, or the call panics. -/
def Running.step (E : Curve G1 G2 GT) (PP : PP G1 G2 GT) (env : Env) (fanOut : ℕ) (r : Running) : Event → Option Running
  | .sets i => do
    let w ← r.writers[i]?
    if w.started then none
    else
      -- `sparse/tree.go:70`
      return { r with writers := r.writers.set i { w with started := true }
                      root := setLeaf (.amount w.amount) w.path r.root }
  | .reads i => do
    let w ← r.writers[i]?
    -- `sparse/tree.go:76`: the loop goes on until it is past the root
    if w.started = false ∨ w.pending.isSome ∨ w.path.length ≤ w.done then none
    else
      -- `sparse/tree.go:75-80`: `i` counts down from the end of the path
      let d := w.path.length - 1 - w.done
      let v ← vertexAt (w.path.take d) r.root
      let descendants ← Sparse.rawData v.desc fanOut
      let index ← w.path[d]?
      let (_, s') ← updateInnerVertex E PP env v.key v.data descendants (decide (w.done = 0)) index r.s
      return { r with writers := r.writers.set i { w with pending := some (v.key, s'.db v.key) }
                      s := { r.s with tick := s'.tick } }
  | .writes i => do
    let w ← r.writers[i]?
    let (key, bytes) ← w.pending
    return { r with writers := r.writers.set i { w with done := w.done + 1, pending := none }
                    s := { r.s with db := r.s.db.put key bytes } }

/-- A sequence of events. -/
def Running.run (E : Curve G1 G2 GT) (PP : PP G1 G2 GT) (env : Env) (fanOut : ℕ) (r : Running) (events : List Event) :
    Option Running := events.foldlM (Running.step E PP env fanOut) r

/-- Calls of `Put` for all the given paths and amounts, none of which has done anything. -/
def Running.start (news : List (List ℕ × ℤ)) (root : Sparse.Vertex Data) (s : State) : Running where
  writers := news.map fun e => { path := e.1, amount := e.2, started := false, done := 0, pending := none }
  root := root
  s := s

/-- All calls have returned. -/
def Running.ended (r : Running) : Prop := ∀ w ∈ r.writers, w.started = true ∧ w.done = w.path.length ∧ w.pending = none

end PoL.Verkle

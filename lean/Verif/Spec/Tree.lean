import Verif.Model.Sparse

/-! What a tree of values is expected to do, in terms of paths. -/

namespace PoL.Spec
open Sparse

/-- The key of a vertex: its path written with a dot before every component. -/
def keyOf (path : List ℕ) : Str := path.flatMap fun p => '.' :: Nat.toDigits 10 p

/-- The value last written under key `k`. -/
def lastPut {K V : Type} [DecidableEq K] (hist : List (K × V)) (k : K) : Option V :=
  (hist.reverse.find? fun e => decide (e.1 = k)).map Prod.snd

variable {D : Type}

/-- The data found by walking from the root along `q`; `none` if there is no such vertex. -/
def dataAt (root : Option (Vertex D)) (q : List ℕ) : Option D :=
  (root.bind (getAt q)).bind Prod.fst

/-- Is there a vertex at `q`? -/
def present (root : Option (Vertex D)) (q : List ℕ) : Prop := (root.bind (getAt q)).isSome

/-- One call of the update callback. -/
structure Call (D : Type) where
  key : Str
  node : Option D
  children : List (Option D)
  leaves : Bool
  index : ℕ

/-- The same callback, which also writes down its calls. -/
def recording {σ : Type} (upd : Update D σ) : Update D (σ × List (Call D)) :=
  fun key node children leaves index s => do
    let (d, s') ← upd key node children leaves index s.1
    return (d, (s', s.2 ++ [⟨key, node, children, leaves, index⟩]))

/-- The calls a `Put` at path `p` has to make: one for every proper prefix of the path, the longest first. -/
def expectedCalls (before after : Option (Vertex D)) (fanOut : ℕ) (p : List ℕ) : List (Call D) :=
  (List.range p.length).reverse.map fun k =>
    { key := keyOf (p.take k)
      node := dataAt before (p.take k)
      children := (List.range fanOut).map fun i => dataAt after (p.take k ++ [i])
      leaves := decide (k + 1 = p.length)
      index := p.getD k 0 }

end PoL.Spec

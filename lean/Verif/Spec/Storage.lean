import Verif.Spec.Liabilities
import Mathlib.Data.Nat.Digits.Defs
import Mathlib.Data.Finset.Union

/-! How much a liability set keeps in its database, in terms of the paths written only. -/

namespace PoL.Spec

/-- The paths of the vertices above the leaves: the proper prefixes of the paths written. -/
def storedPaths (h : List (List ℕ × ℤ)) : Finset (List ℕ) :=
  (h.map Prod.fst).toFinset.biUnion fun p => (Finset.range p.length).image p.take

/-- The number of children of the vertex at `q`. -/
def childCount (h : List (List ℕ × ℤ)) (q : List ℕ) : ℕ :=
  (((h.map Prod.fst).toFinset.filter fun p => q <+: p).image fun p => p.getD q.length 0).card

/-- The number of bytes of a DER value with `n` bytes of content: one for the tag, one for the length, further ones if
it is 128 or more. -/
def derSize (n : ℕ) : ℕ := if n < 128 then n + 2 else n + 2 + (Nat.digits 256 n).length

/-- The number of bytes of a map with `c` entries: each has a key of 2 and a value of 32 bytes. -/
def mapSize (c : ℕ) : ℕ := derSize (c * derSize (derSize 2 + derSize 32))

/-- The number of bytes stored for a vertex with `c` children, if points take `g` bytes.  Vertices over the leaves have
no digests and no second commitment. -/
def vertexSize (g c : ℕ) (overLeaves : Bool) : ℕ :=
  derSize (derSize 32 + mapSize c + mapSize (if overLeaves then 0 else c) + derSize 32 + derSize g
    + derSize (if overLeaves then 0 else g))

end PoL.Spec

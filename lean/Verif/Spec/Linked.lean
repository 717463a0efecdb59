import Verif.Model.Linked

/-! # When linked vertices form a tree -/

namespace PoL.Spec
open Sparse Linked

variable {D : Type}

mutual
/-- The vertices reached from `ptr` form the tree `v`, all of them are in `S`, none is reached twice, and each has the
one above it as its parent (`ptr` itself has `par`). -/
inductive IsTree (h : Heap D) : Option ℕ → ℕ → Sparse.Vertex D → Set ℕ → Prop
  | mk {par : Option ℕ} {ptr : ℕ} {k : Str} {d : Option D} {pds : List (ℕ × ℕ)} {ds : List (ℕ × Sparse.Vertex D)}
      {S T : Set ℕ} (cell : h[ptr]? = some ⟨k, d, pds, par⟩) (mem : ptr ∈ S) (sub : T ⊆ S) (out : ptr ∉ T)
      (below : AreTrees h ptr pds ds T) : IsTree h par ptr (.mk k d ds) S
/-- The same for the descendants of `par`. -/
inductive AreTrees (h : Heap D) : ℕ → List (ℕ × ℕ) → List (ℕ × Sparse.Vertex D) → Set ℕ → Prop
  | nil {par : ℕ} {S : Set ℕ} : AreTrees h par [] [] S
  | cons {par i u : ℕ} {v : Sparse.Vertex D} {pds : List (ℕ × ℕ)} {ds : List (ℕ × Sparse.Vertex D)} {S T T' : Set ℕ}
      (first : IsTree h (some par) u v T) (others : AreTrees h par pds ds T') (sub : T ⊆ S) (sub' : T' ⊆ S)
      (apart : Disjoint T T') : AreTrees h par ((i, u) :: pds) ((i, v) :: ds) S
end

end PoL.Spec

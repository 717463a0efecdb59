import Verif.Spec.Transcripts
import Verif.Spec.Multilinear

/-!
# Transcripts of the iterated reduction (specification of special soundness)
-/

namespace PoL.BP

variable {G1 : Type} [AddCommGroup G1] [Module Zr G1]

/-- The verifier of the reduction with its challenges given: `rounds` lists the challenge and the pair
`(A,B)` of every round; `u` is the claimed final value. -/
def irAccepts : (rounds : List (Zr × G1 × G1)) → (V : G1) → (G : List G1) → (u : Zr) → Prop
  | [], V, G, u => ∃ g0, G = [g0] ∧ u • g0 = V
  | (x, A, B) :: rs, V, G, u => irAccepts rs (V + x • A + x⁻¹ • B) (halvesG 1 x⁻¹ G) u

/-- A tree of transcripts: four challenges in every round. -/
inductive ITree (G : Type) where
  | leaf (u : Zr)
  | node (A B : G) (x₁ x₂ x₃ x₄ : Zr) (t₁ t₂ t₃ t₄ : ITree G)

/-- All transcripts of the tree, root to leaf. -/
def ITree.paths {G : Type} : ITree G → List (List (Zr × G × G) × Zr)
  | .leaf u => [([], u)]
  | .node A B x₁ x₂ x₃ x₄ t₁ t₂ t₃ t₄ =>
    t₁.paths.map (fun p => ((x₁, A, B) :: p.1, p.2)) ++ t₂.paths.map (fun p => ((x₂, A, B) :: p.1, p.2))
    ++ t₃.paths.map (fun p => ((x₃, A, B) :: p.1, p.2)) ++ t₄.paths.map (fun p => ((x₄, A, B) :: p.1, p.2))

/-- Depth `k`, challenges non-zero, the four challenges at every node distinct. -/
def ITree.WellFormed {G : Type} : ITree G → ℕ → Prop
  | .leaf _, 0 => True
  | .node _ _ x₁ x₂ x₃ x₄ t₁ t₂ t₃ t₄, k + 1 =>
    [x₁, x₂, x₃, x₄].Nodup ∧ x₁ ≠ 0 ∧ x₂ ≠ 0 ∧ x₃ ≠ 0 ∧ x₄ ≠ 0 ∧
      t₁.WellFormed k ∧ t₂.WellFormed k ∧ t₃.WellFormed k ∧ t₄.WellFormed k
  | _, _ => False

/-- The scalars of a tree, without its group elements. -/
def ITree.scalars {G : Type} : ITree G → ITree Unit
  | .leaf u => .leaf u
  | .node _ _ x₁ x₂ x₃ x₄ t₁ t₂ t₃ t₄ =>
    .node () () x₁ x₂ x₃ x₄ t₁.scalars t₂.scalars t₃.scalars t₄.scalars

end PoL.BP

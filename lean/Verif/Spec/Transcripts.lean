import Verif.Spec.Challenges
import Verif.Lib.Dot

/-!
# Transcripts of the folding rounds (specification of special soundness)
-/

namespace PoL.BP

variable {G1 : Type} [AddCommGroup G1] [Module Zr G1]

/-- `s·left + t·right` of a vector of `2n` group elements. -/
def halvesG (s t : Zr) (g : List G1) : List G1 :=
  List.zipWith (fun l r => s • l + t • r) (g.take (g.length / 2)) (g.drop (g.length / 2))

/-- The verifier of the folding rounds with its challenges given: `rounds` lists the challenge and the
pair `(L,R)` of every round. -/
def acceptsWith (U : G1) : (rounds : List (Zr × G1 × G1)) → (P : G1) → (g h : List G1) → (a b : Zr) → Prop
  | [], P, g, h, a, b => ∃ g0 h0, g = [g0] ∧ h = [h0] ∧ P = a • g0 + b • h0 + (a * b) • U
  | (x, L, R) :: rs, P, g, h, a, b =>
    acceptsWith U rs (x ^ 2 • L + P + (x ^ 2)⁻¹ • R) (halvesG x⁻¹ x g) (halvesG x x⁻¹ h) a b

/-- The rounds of a proof: its challenges next to its pairs `(L,R)`. -/
def roundsOf : List Zr → List G1 → List (Zr × G1 × G1)
  | x :: xs, L :: R :: t => (x, L, R) :: roundsOf xs t
  | _, _ => []

/-- A tree of transcripts: the prover is rewound to answer four challenges in every round. -/
inductive TTree (G : Type) where
  | leaf (a b : Zr)
  | node (L R : G) (x₁ x₂ x₃ x₄ : Zr) (t₁ t₂ t₃ t₄ : TTree G)

/-- All transcripts of the tree, root to leaf. -/
def TTree.paths {G : Type} : TTree G → List (List (Zr × G × G) × Zr × Zr)
  | .leaf a b => [([], a, b)]
  | .node L R x₁ x₂ x₃ x₄ t₁ t₂ t₃ t₄ =>
    t₁.paths.map (fun p => ((x₁, L, R) :: p.1, p.2)) ++ t₂.paths.map (fun p => ((x₂, L, R) :: p.1, p.2))
    ++ t₃.paths.map (fun p => ((x₃, L, R) :: p.1, p.2)) ++ t₄.paths.map (fun p => ((x₄, L, R) :: p.1, p.2))

/-- Depth `k`, challenges non-zero, the four squares at every node distinct. -/
def TTree.WellFormed {G : Type} : TTree G → ℕ → Prop
  | .leaf _ _, 0 => True
  | .node _ _ x₁ x₂ x₃ x₄ t₁ t₂ t₃ t₄, k + 1 =>
    [x₁ ^ 2, x₂ ^ 2, x₃ ^ 2, x₄ ^ 2].Nodup ∧ x₁ ≠ 0 ∧ x₂ ≠ 0 ∧ x₃ ≠ 0 ∧ x₄ ≠ 0 ∧
      t₁.WellFormed k ∧ t₂.WellFormed k ∧ t₃.WellFormed k ∧ t₄.WellFormed k
  | _, _ => False

/-- The scalars of a tree, without its group elements. -/
def TTree.scalars {G : Type} : TTree G → TTree Unit
  | .leaf a b => .leaf a b
  | .node _ _ x₁ x₂ x₃ x₄ t₁ t₂ t₃ t₄ =>
    .node () () x₁ x₂ x₃ x₄ t₁.scalars t₂.scalars t₃.scalars t₄.scalars

/-- Coefficients of the generators `g`, `h`, `U`. -/
structure Rep where
  a : List Zr
  b : List Zr
  c : Zr

/-- The group element with these coefficients. -/
def Rep.eval (r : Rep) (g h : List G1) (U : G1) : G1 := dot r.a g + dot r.b h + r.c • U

/-- All coefficients are zero. -/
def Rep.IsZero (r : Rep) : Prop := (∀ x ∈ r.a, x = 0) ∧ (∀ x ∈ r.b, x = 0) ∧ r.c = 0

end PoL.BP

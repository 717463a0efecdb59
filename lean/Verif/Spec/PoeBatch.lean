import Verif.Spec.Transcripts
import Verif.Spec.SumTranscripts
import Verif.Spec.PoeTranscripts

/-!
# Transcripts of the batch equality proof (specification of special soundness)

The interactive protocol behind `Equalities` of `poe/poe.go`, for `m` pairs `(V k, I k)`, `(W k, J k)`: the prover sends
`V'`, `W'` (vectors); receives `x`; sends `U`, `Y`; receives `t0`, `t1` (vectors); sends `Ω`, `c`, `ρ` and runs the
inner-product argument.
-/

namespace PoL.Poe

open BP Finset

variable {G1 G2 GT : Type} [AddCommGroup G1] [Module Zr G1] [AddCommGroup G2] [Module Zr G2]
  [AddCommGroup GT] [Module Zr GT]

/-- The pairs of a batch: commitments and indices. -/
structure Pairs (G : Type) where
  V : ℕ → G
  W : ℕ → G
  I : ℕ → ℕ
  J : ℕ → ℕ

/-- The answer to the challenges `t0`, `t1`. -/
structure BatchAnswer (G : Type) where
  t0 : ℕ → Zr
  t1 : ℕ → Zr
  Ω : G
  c : Zr
  ρ : Zr
  tree : TTree G

/-- What follows a challenge `x`: `U`, `Y`, and the answers `0, …, n-1` to different challenges. -/
structure BatchBranch (G : Type) where
  x : Zr
  U : G
  Y : G
  n : ℕ
  ans : ℕ → BatchAnswer G

/-- The vector that the verifier takes the inner product with. -/
def BatchAnswer.weights {G : Type} (a : BatchAnswer G) (m : ℕ) : List Zr := (List.range m).map fun k => a.t0 k + a.t1 k

/-- The pairing equation of the verifier. -/
def BatchAnswer.Opens (E : Curve G1 G2 GT) (α : Zr) (N m : ℕ) (s : Pairs G1) (V' W' : ℕ → G1) (x : Zr)
    (a : BatchAnswer G1) : Prop :=
  ∑ k ∈ range m, E.pair (a.t0 k • (s.V k + x • V' k)) (α ^ (N - s.I k) • E.genG2)
    + ∑ k ∈ range m, E.pair (a.t1 k • (s.W k + x • W' k)) (α ^ (N - s.J k) • E.genG2)
    = E.pair a.Ω E.genG2 + E.pair (a.c • α • E.genG1) (α ^ N • E.genG2)

/-- All transcripts of the answer are accepted; the inner-product argument is checked with the base `x₀·B`. -/
def BatchAnswer.Accepted (E : Curve G1 G2 GT) (α : Zr) (N m : ℕ) (s : Pairs G1) (F : G1) (G H : List G1) (B : G1) (x₀ : Zr)
    (V' W' : ℕ → G1) (x : Zr) (U Y : G1) (a : BatchAnswer G1) : Prop :=
  a.Opens E α N m s V' W' x ∧
  ∀ p ∈ a.tree.paths, acceptsWith (x₀ • B) p.1
    (a.ρ • F + x • U + Y + dot (a.weights m) H + (x₀ * a.c) • B) G H p.2.1 p.2.2

/-- No non-zero affine function vanishes at all challenges of the branch. -/
def BatchBranch.Independent {G : Type} (b : BatchBranch G) (m : ℕ) : Prop :=
  ∀ (c0 c1 : ℕ → Zr) (d : Zr),
    (∀ j < b.n, ∑ k ∈ range m, (c0 k * (b.ans j).t0 k + c1 k * (b.ans j).t1 k) + d = 0) →
    d = 0 ∧ ∀ k < m, c0 k = 0 ∧ c1 k = 0

/-- The scalars of an answer, without its group elements. -/
def BatchAnswer.scalars {G : Type} (a : BatchAnswer G) : BatchAnswer Unit :=
  ⟨a.t0, a.t1, (), a.c, a.ρ, a.tree.scalars⟩

/-- The scalars of a branch, without its group elements. -/
def BatchBranch.scalars {G : Type} (b : BatchBranch G) : BatchBranch Unit :=
  ⟨b.x, (), (), b.n, fun j => (b.ans j).scalars⟩

/-- The challenges are independent, the trees have depth `κ`, and all transcripts are accepted. -/
def BatchBranch.Accepted (E : Curve G1 G2 GT) (α : Zr) (N κ : ℕ) (s : Pairs G1) (F : G1) (G H : List G1) (B : G1) (x₀ : Zr)
    (V' W' : ℕ → G1) (b : BatchBranch G1) : Prop :=
  b.Independent (2 ^ κ) ∧ ∀ j < b.n, (b.ans j).tree.WellFormed κ ∧
    (b.ans j).Accepted E α N (2 ^ κ) s F G H B x₀ V' W' b.x b.U b.Y

/-- The combination of the group elements `Ω` of two branches with the given coefficients. -/
def combineΩ (b₁ b₂ : BatchBranch G1) (l : (ℕ → Zr) × (ℕ → Zr)) : G1 :=
  ∑ j ∈ range b₁.n, l.1 j • (b₁.ans j).Ω + ∑ j ∈ range b₂.n, l.2 j • (b₂.ans j).Ω

/-- The pairs of a batch statement of the code. -/
def pairsOf (e : Equalities G1 G2 GT) : Pairs G1 :=
  ⟨fun k => e.V.getD k 0, fun k => e.W.getD k 0, fun k => e.I.getD k 0, fun k => e.J.getD k 0⟩

/-- The answer sent in a batch proof of the code, given the challenges (without the inner-product argument). -/
def answerOf (p : AggregatedProof G1) (ts : List Zr) : BatchAnswer G1 :=
  ⟨fun k => ts.getD (2 * k) 0, fun k => ts.getD (2 * k + 1) 0, p.Ω, p.c, p.ρ, .leaf 0 0⟩

end PoL.Poe

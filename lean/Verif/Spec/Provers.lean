import Verif.Spec.SumTranscripts
import Mathlib.Data.Set.Card

/-!
# Interactive provers (specification of the soundness error)

A prover of the interactive argument, without bounds on its computing power: its messages as functions of the challenges.
-/

namespace PoL

namespace BP

variable {G1 : Type} [AddCommGroup G1] [Module Zr G1]

/-- A prover of the folding rounds: it stops with the final scalars, or sends a pair `(L,R)` and goes on in a way that depends
on the challenge. -/
inductive Prover (G : Type) where
  | stop (a b : Zr)
  | round (L R : G) (next : Zr → Prover G)

/-- The transcript for the given challenges.  A prover that wants another challenge after the last one sends zeros. -/
def Prover.answer {G : Type} : Prover G → List Zr → List (Zr × G × G) × Zr × Zr
  | .stop a b, _ => ([], a, b)
  | .round _ _ _, [] => ([], 0, 0)
  | .round L R next, x :: xs => ((x, L, R) :: ((next x).answer xs).1, ((next x).answer xs).2)

/-- The sequences of `k` non-zero challenges for which the prover is accepted. -/
def Prover.wins (p : Prover G1) (k : ℕ) (U P : G1) (g h : List G1) : Set (List Zr) :=
  {xs | xs.length = k ∧ 0 ∉ xs ∧ acceptsWith U (p.answer xs).1 P g h (p.answer xs).2.1 (p.answer xs).2.2}

/-- All transcripts of the tree are transcripts of the prover. -/
def TTree.Of {G : Type} (t : TTree G) (p : Prover G) : Prop := ∀ q ∈ t.paths, p.answer (q.1.map Prod.fst) = q

end BP

namespace Sum

open BP

variable {G1 : Type} [AddCommGroup G1] [Module Zr G1]

/-- A prover of the sum argument: `c`, `W`, and after the challenge `ρ` and the folding rounds. -/
structure Prover (G : Type) where
  c : Zr
  W : G
  next : Zr → Zr × BP.Prover G

/-- The challenges (`x`, then `k` non-zero ones) for which the prover is accepted. -/
def Prover.wins (p : Prover G1) (k : ℕ) (x₀ : Zr) (b : List Zr) (F : G1) (Gs H : List G1) (U V : G1) : Set (Zr × List Zr) :=
  {c | c.2 ∈ (p.next c.1).2.wins k (x₀ • U)
    ((p.next c.1).1 • F + V + c.1 • p.W + dot b H + (x₀ * (p.c * c.1)) • U) Gs H}

/-- The answer is one of the prover. -/
def Answer.Of {G : Type} (a : Answer G) (p : Prover G) : Prop := a.ρ = (p.next a.x).1 ∧ a.tree.Of (p.next a.x).2

end Sum
end PoL

import Verif.Spec.RangeProvers
import Verif.Spec.LiabilityTranscripts

/-!
# Interactive provers of the aggregated sum argument, the batch equality proof and liability proofs (specification of the
soundness error)
-/

namespace PoL

open Finset

variable {G1 G2 GT : Type} [AddCommGroup G1] [Module Zr G1] [AddCommGroup G2] [Module Zr G2]
  [AddCommGroup GT] [Module Zr GT]

namespace Sum

/-- A prover of the aggregated sum argument: a prover of the sum argument for every challenge `τ`. -/
abbrev AggProver (G : Type) := Zr → Prover G

/-- The challenges (`τ`, `x`, then `k` non-zero ones) for which the prover is accepted, for the commitments
`V 0, …, V (m-1)`. -/
def AggProver.wins (p : AggProver G1) (k m : ℕ) (x₀ : Zr) (w : List Zr) (F : G1) (Gs H : List G1) (U : G1) (V : ℕ → G1) :
    Set (Zr × Zr × List Zr) :=
  {q | q.2 ∈ (p q.1).wins k x₀ w F Gs H U (∑ i ∈ range m, q.1 ^ i • V i)}

/-- The branch is one of the prover. -/
def AggBranch.Of {G : Type} (b : AggBranch G) (p : AggProver G) : Prop :=
  b.c = (p b.τ).c ∧ b.W = (p b.τ).W ∧ ∀ i, (b.ans i).Of (p b.τ)

/-- The number of the challenges. -/
def aggTotal (k : ℕ) : ℚ := (order : ℚ) ^ 2 * ((order : ℚ) - 1) ^ k

/-- The soundness error for `m` commitments. -/
def aggError (k m : ℕ) : ℚ := ((m : ℚ) + 1) / order + 6 * k / (order - 1)

end Sum

namespace Poe

/-- A prover of the batch equality proof for `m` pairs: its messages as functions of the challenges made before them. -/
structure BatchProver (G : Type) (m : ℕ) where
  V' : ℕ → G
  W' : ℕ → G
  U : (x : Zr) → G
  Y : (x : Zr) → G
  Ω : (x : Zr) → (t0 t1 : Fin m → Zr) → G
  c : (x : Zr) → (t0 t1 : Fin m → Zr) → Zr
  ρ : (x : Zr) → (t0 t1 : Fin m → Zr) → Zr
  ipa : (x : Zr) → (t0 t1 : Fin m → Zr) → BP.Prover G

/-- The challenges of the batch equality proof, in the order in which they are made. -/
structure BatchCh (m : ℕ) where
  x : Zr
  t0 : Fin m → Zr
  t1 : Fin m → Zr
  /-- of the rounds of the inner-product argument -/
  xs : List Zr

/-- A vector, continued with zeros. -/
def pad {m : ℕ} (t : Fin m → Zr) (k : ℕ) : Zr := if h : k < m then t ⟨k, h⟩ else 0

/-- The answer of the prover to the challenges, with the given tree for the inner-product argument. -/
def BatchProver.answer {G : Type} {m : ℕ} (p : BatchProver G m) (x : Zr) (t0 t1 : Fin m → Zr) (t : BP.TTree G) : BatchAnswer G where
  t0 := pad t0
  t1 := pad t1
  Ω := p.Ω x t0 t1
  c := p.c x t0 t1
  ρ := p.ρ x t0 t1
  tree := t

/-- The challenges for which the prover is accepted. -/
def BatchProver.wins {κ : ℕ} (p : BatchProver G1 (2 ^ κ)) (E : Curve G1 G2 GT) (α : Zr) (N : ℕ) (s : Pairs G1) (F : G1)
    (G H : List G1) (B : G1) (x₀ : Zr) : Set (BatchCh (2 ^ κ)) :=
  {q | (p.answer q.x q.t0 q.t1 (.leaf 0 0)).Opens E α N (2 ^ κ) s p.V' p.W' q.x ∧
    q.xs ∈ (p.ipa q.x q.t0 q.t1).wins κ (x₀ • B) (p.ρ q.x q.t0 q.t1 • F + q.x • p.U q.x + p.Y q.x
      + dot ((List.range (2 ^ κ)).map fun k => pad q.t0 k + pad q.t1 k) H + (x₀ * p.c q.x q.t0 q.t1) • B) G H}

/-- The branch is one of the prover. -/
def BatchBranch.Of {G : Type} {m : ℕ} (b : BatchBranch G) (p : BatchProver G m) : Prop :=
  b.U = p.U b.x ∧ b.Y = p.Y b.x ∧ ∀ j < b.n, ∃ t0 t1 : Fin m → Zr,
    b.ans j = p.answer b.x t0 t1 (b.ans j).tree ∧ (b.ans j).tree.Of (p.ipa b.x t0 t1)

/-- The number of the challenges for `2^κ` pairs. -/
def batchTotal (κ : ℕ) : ℚ := (order : ℚ) ^ (2 * 2 ^ κ + 1) * ((order : ℚ) - 1) ^ κ

/-- The soundness error for `2^κ` pairs. -/
def batchError (κ : ℕ) : ℚ := 2 / order + 6 * κ / (order - 1)

end Poe

namespace Spec

open BP Pol

/-- A prover of a liability proof: a prover of the range proof for every layer, one of the aggregated sum argument, one of
the batch equality proof; and the opening of the amount. -/
structure LiabilityProver (A : Type) (κ : ℕ) where
  range : ℕ → RangeProver A
  sum : Sum.AggProver A
  eq : Poe.BatchProver A (2 ^ κ)
  π : A

/-- All transcripts of the tree are transcripts of the prover (for a path of length `L`). -/
structure LiabilityTree.Of {A : Type} {κ : ℕ} (t : LiabilityTree A) (p : LiabilityProver A κ) (L : ℕ) : Prop where
  range : ∀ i < L, (t.range i).Of (p.range i)
  sum : ∀ i < L, (t.sum i).Of p.sum
  V' : t.V' = p.eq.V'
  W' : t.W' = p.eq.W'
  eq₁ : t.eq₁.Of p.eq
  eq₂ : t.eq₂.Of p.eq
  π : t.π = p.π

/-- Each argument of the prover is accepted for more than its soundness error of the challenges, for the commitments
`V 0, …, V (L-1)` of a path of length `L`; and the last commitment is opened to `amount` at the end of the path. -/
structure LiabilityProver.Convincing [DecidableEq GT] (E : Curve G1 G2 GT) (α : Zr) (pp : PublicParams G1 G2 GT)
    (hb : HashedBases G1) (k κ : ℕ) (path : List ℕ) (V : ℕ → G1) (amount : ℤ) (p : LiabilityProver G1 κ) : Prop where
  range : ∀ i < path.length,
    rangeError k < (((p.range i).wins (rangeGens pp.RPPP hb.Ur) k (V i)).ncard : ℚ) / rangeTotal k
  sum : Sum.aggError k path.length
    < ((p.sum.wins k path.length hb.xs pp.SAPP.b pp.SAPP.F pp.SAPP.Gs pp.SAPP.H pp.SAPP.U V).ncard : ℚ) / Sum.aggTotal k
  eq : Poe.batchError κ < ((p.eq.wins E α (pp.fanout + 2) (pathPairs pp.fanout path V) pp.POEPP.F pp.POEPP.G pp.POEPP.H hb.B
    hb.xe).ncard : ℚ) / Poe.batchTotal κ
  leaf : PP.verify E pp.PPPP (intToZr amount) p.π (V (path.length - 1)) (path.getD (path.length - 1) 0) = some true

end Spec
end PoL

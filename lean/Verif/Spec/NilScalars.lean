import Verif.Model.NilScalars

/-!
# What may be put in the place of nil scalars and parts, and which of them count
-/

namespace PoL.Spec

variable {G1 : Type}

/-- `x` is what the pointer points to, or the pointer is `nil`. -/
def OrNil {α : Type} (o : Option α) (x : α) : Prop := ∀ y, o = some y → y = x

/-- The proof `p` is `n` with scalars in the places of the `nil`s. -/
structure IppFilled (n : Nil.Ipp G1) (p : BP.InnerProductProof G1) : Prop where
  LRs : n.LRs = p.LRs
  a : OrNil n.a p.a
  b : OrNil n.b p.b

/-- See `IppFilled`. -/
structure RangeFilled (n : Nil.Range G1) (p : BP.RangeProof G1) : Prop where
  Δ : n.Δ = p.Δ
  u : OrNil n.u p.u
  W : n.W = p.W
  γ : OrNil n.γ p.γ
  ipp : ∀ m, n.ipp = some m → IppFilled m p.ipp
  c : OrNil n.c p.c
  Q : n.Q = p.Q
  R : n.R = p.R
  C1 : n.C1 = p.C1
  C2 : n.C2 = p.C2
  τ : OrNil n.τ p.τ
  ρ : OrNil n.ρ p.ρ

/-- See `IppFilled`. -/
structure SumFilled (n : Nil.SumProof G1) (p : Sum.Proof G1) : Prop where
  W : n.W = p.W
  c : OrNil n.c p.c
  ρ : OrNil n.ρ p.ρ
  π : ∀ m, n.π = some m → IppFilled m p.π

/-- See `IppFilled`. -/
structure AggFilled (n : Nil.Agg G1) (p : Poe.AggregatedProof G1) : Prop where
  IPP : ∀ m, n.IPP = some m → IppFilled m p.IPP
  c : OrNil n.c p.c
  ρ : OrNil n.ρ p.ρ
  U : n.U = p.U
  V : n.V = p.V
  Ω : n.Ω = p.Ω
  Waggr : n.Waggr = p.Waggr
  Vaggr : n.Vaggr = p.Vaggr

/-- See `IppFilled`. -/
structure LpFilled (n : Nil.Lp G1) (p : Pol.LiabilityProof G1) : Prop where
  pointProofSum : OrNil n.pointProofSum p.pointProofSum
  pointProof : n.pointProof = p.pointProof
  sumArgumentProof : ∀ m, n.sumArgumentProof = some m → SumFilled m p.sumArgumentProof
  V : n.V = p.V
  W : n.W = p.W
  digests : List.Forall₂ OrNil n.digests p.digests
  rangeProofs : List.Forall₂ (fun o q => ∀ m, o = some m → RangeFilled m q) n.rangeProofs p.rangeProofs
  equalityProof : ∀ m, n.equalityProof = some m → AggFilled m p.equalityProof
  total : n.total = p.total

/-- Nothing that counts is `nil`. -/
structure IppWhole (n : Nil.Ipp G1) : Prop where
  a : n.a ≠ none
  b : n.b ≠ none

/-- See `IppWhole`. -/
structure RangeWhole (n : Nil.Range G1) : Prop where
  u : n.u ≠ none
  γ : n.γ ≠ none
  ipp : ∃ m, n.ipp = some m ∧ IppWhole m
  c : n.c ≠ none
  τ : n.τ ≠ none
  ρ : n.ρ ≠ none

/-- See `IppWhole`. -/
structure SumWhole (n : Nil.SumProof G1) : Prop where
  c : n.c ≠ none
  ρ : n.ρ ≠ none
  π : ∃ m, n.π = some m ∧ IppWhole m

/-- See `IppWhole`. -/
structure AggWhole (n : Nil.Agg G1) : Prop where
  IPP : ∃ m, n.IPP = some m ∧ IppWhole m
  c : n.c ≠ none
  ρ : n.ρ ≠ none

/-- See `IppWhole`, for a path of length `L`: the first `L` range proofs count, and the first `L-1` digests. -/
structure LpWhole (L : ℕ) (n : Nil.Lp G1) : Prop where
  pointProofSum : n.pointProofSum ≠ none
  sumArgumentProof : ∃ m, n.sumArgumentProof = some m ∧ SumWhole m
  digests : ∀ i, i + 1 < L → n.digests[i]? ≠ some none
  rangeProofs : ∀ i < L, ∀ o, n.rangeProofs[i]? = some o → ∃ m, o = some m ∧ RangeWhole m
  equalityProof : ∃ m, n.equalityProof = some m ∧ AggWhole m

end PoL.Spec

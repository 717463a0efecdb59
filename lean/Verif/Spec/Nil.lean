import Verif.Spec.Pointers

/-!
# Specification: proofs with nil pointers
-/

namespace PoL.Spec

open Ptr

variable {G1 G2 GT : Type}

/-- The pointer `r` is `nil`. -/
def IsNil (h : Mem (Cell G1 G2 GT)) (r : Ref) : Prop := h.cells[r.addr]? = some .nil

/-- The memory `h'` is `h` with something in the place of some of the `nil`s. -/
structure Filled (h h' : Mem (Cell G1 G2 GT)) : Prop where
  cells : List.Forall₂ (fun c c' => c = .nil ∨ c = c') h.cells h'.cells
  written : h.written = h'.written

/-- The points of an inner-product proof with `k` rounds that count: `P` is written before it is read, and what is beyond the
rounds is not read. -/
def roundPoints (p : BP.InnerProductProof Ref) (k : ℕ) : List Ref := p.LRs.take (2 * k)

/-- The points of a range proof for vectors of length `2 ^ k`, with `k'` rounds in its inner-product proof, that count. -/
def rangeProofPoints (p : BP.RangeProof Ref) (k k' : ℕ) : List Ref :=
  [p.W, p.Q, p.R, p.C1, p.C2] ++ (p.Δ.take k).flatMap (fun t => [t.1, t.2.1, t.2.2]) ++ roundPoints p.ipp k'

/-- Numbers of rounds: of the reduction and the inner-product proof in a range proof, of the inner-product proofs in the sum argument
and in the proof of equality. -/
structure Rounds where
  reduction : ℕ
  range : ℕ
  sum : ℕ
  equality : ℕ

/-- The numbers of rounds that the lengths of the parameters ask for. -/
structure RoundsOf (pp : Pol.PublicParams Ref Ref Ref) (k : Rounds) : Prop where
  reduction : pp.RPPP.Gs.length = 2 ^ k.reduction
  range : pp.RPPP.Hs.length = 2 ^ k.range
  sum : pp.SAPP.Gs.length = 2 ^ k.sum
  equality : pp.POEPP.G.length = 2 ^ k.equality

/-- The points of a proof of a liability that count, for a path of length `n`. -/
def liabilityPoints (lp : Pol.LiabilityProof Ref) (n : ℕ) (k : Rounds) : List Ref :=
  [lp.pointProof, lp.total.liabilityProof] ++ lp.V ++ lp.W ++
  (lp.rangeProofs.take n).flatMap (fun p => rangeProofPoints p k.reduction k.range) ++
  [lp.sumArgumentProof.W] ++ roundPoints lp.sumArgumentProof.π k.sum ++
  [lp.equalityProof.U, lp.equalityProof.V, lp.equalityProof.Ω] ++ lp.equalityProof.Vaggr ++ lp.equalityProof.Waggr ++
  roundPoints lp.equalityProof.IPP k.equality

end PoL.Spec

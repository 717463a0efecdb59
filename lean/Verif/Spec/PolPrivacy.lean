import Verif.Spec.PolChecks
import Verif.Spec.PolRun
import Verif.Spec.Privacy

/-! # Vocabulary of the privacy statements on liability proofs -/

namespace PoL.Spec
open Pol BP

variable {G1 G2 GT : Type} [AddCommGroup G1] [Module Zr G1] [AddCommGroup G2] [Module Zr G2]
  [AddCommGroup GT] [Module Zr GT]

/-- The random values of one run of `ProveLiability`, for fan-out `F` and paths of length `L`: as many scalars as the code
draws.  The entries for rounds that do not take place are fixed. -/
structure Drawn (F L : ℕ) (rnd : ProveRand) : Prop where
  range : ∀ i < L, (rnd.range i).WellFormed (F + 1)
  unused : ∀ i, L ≤ i → rnd.range i = ⟨[], 0, 0, 0, [], [], 0, 0⟩
  sum : rnd.sum.w.length = F + 1
  eq : IsPadded (L - 1) rnd.eq.uην.length

/-- The scalars drawn by a run of `Set`: those numbered from `t0` to `t0 + n`.  The others are fixed. -/
def Blinding (t0 n : ℕ) (ρ : ℕ → Zr) : Prop := ∀ k, k < t0 ∨ t0 + n ≤ k → ρ k = 0

/-- What is given away about a liability set: the result of `Root`, the proof of the total if it is published, and
what the calls of `ProveLiability` return. -/
structure View (G1 : Type) (k : ℕ) where
  root : Option (G1 × Option G1)
  total : Option (TotalProof G1)
  proofs : Fin k → Option (Option (ℤ × LiabilityProof G1))

variable [DecidableEq G1] [DecidableEq GT]

/-- A run that writes a history, publishes the root, possibly proves the total, and answers a number of requests for
liability proofs.  `r` holds the random values: those of the writes and those of each proof. -/
def observe (E : Curve G1 G2 GT) (env : Verkle.Env) (ls : LiabilitySet G1 G2 GT) (hist : List (Str × ℤ)) {k : ℕ}
    (ids : Fin k → Str) (withTotal : Bool) (r : (ℕ → Zr) × (Fin k → ProveRand)) : Option (View G1 k) :=
  (ls.sets E { env with rand := r.1 } hist).bind fun ls1 =>
  (ls1.root E).bind fun rl =>
  (if withTotal then (rl.2.proveTot E).map some else some none).bind fun total =>
  some ⟨rl.1, total, fun i => rl.2.proveLiability E { env with rand := r.1 } (r.2 i) (ids i)⟩

/-- The challenges of a liability proof that multiply the masks are not zero: `x` and `z` of each range proof, `x` of the
sum argument, `x` of the equality proof. -/
structure MasksNonzero (E : Curve G1 G2 GT) (pp : PublicParams G1 G2 GT) (path : List ℕ) (lp : LiabilityProof G1) : Prop where
  range : ∀ (i : ℕ) (rp : RangeProof G1) (V : G1), lp.rangeProofs[i]? = some rp → lp.V[i]? = some V → ∃ x y0 y1 z,
    rangeProofRO1 E pp.RPPP V rp.W rp.Q = some x ∧ x ≠ 0 ∧
    rangeY E pp.RPPP rp.Q rp.R x 0 = some y0 ∧ rangeY E pp.RPPP rp.Q rp.R x 1 = some y1 ∧
    computeZ E pp.RPPP rp.C1 rp.C2 rp.Q rp.R (zrBytes y0) (zrBytes y1) = some z ∧ z ≠ 0
  sum : ∃ t x, Sum.createHVZKChallenge E lp.V lp.V.length = some t ∧
    Sum.randomOracleCVW E lp.sumArgumentProof.c (dot t lp.V) lp.sumArgumentProof.W = some x ∧ x ≠ 0
  eq : ∃ (zero : G1) (M : ℕ) (e : Poe.Equalities G1 G2 GT) (x : Zr),
    pp.PPPP.commit (List.replicate (pp.fanout + 2) 0) = some zero ∧
    padLoop ((path.length - 1 : ℕ) : ℤ) = some ((M : ℕ) : ℤ) ∧
    e = pathEqualities E pp path lp.V zero (M - (path.length - 1)) ∧
    e.RO (lp.equalityProof.Vaggr ++ lp.equalityProof.Waggr ++ e.V ++ e.W) [] e.PP.digest 1 = some [x] ∧ x ≠ 0

end PoL.Spec

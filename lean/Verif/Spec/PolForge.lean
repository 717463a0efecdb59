import Verif.Model.Pol
import Verif.Spec.Challenges
import Verif.Spec.PoeTranscripts
import Verif.Spec.SumTranscripts

/-! A dishonest prover of liabilities.  It uses the functions of the library, but chooses the contents of the
layers freely. -/

namespace PoL.Pol
open BP

/-- What one layer of a proof is made from: the values followed by their sum, the blinding factor. -/
structure Src where
  values : List Zr
  bf : Zr

/-- The vector a layer commits to. -/
def Src.vec (s : Src) : List Zr := s.values ++ [s.bf]

variable {G1 G2 GT : Type} [AddCommGroup G1] [Module Zr G1] [AddCommGroup G2] [Module Zr G2]
  [AddCommGroup GT] [Module Zr GT] [DecidableEq G1] [DecidableEq GT]

/-- The dishonest prover: given a path, layers `l` (at least as many as the path is long), vectors `ds` for the
commitments `W` (one less than the path is long), and the amount to claim.  Its digests are the hashes of the
layers, whatever `ds` says. -/
def forge (E : Curve G1 G2 GT) (pp : PublicParams G1 G2 GT) (rnd : ProveRand) (path : List ℕ) (l : List Src)
    (ds : List (List Zr)) (m : ℤ) : Option (LiabilityProof G1) := do
  let V ← l.mapM fun s => pp.PPPP.commit s.vec
  let W ← ds.mapM fun d => pp.PPPP.commit d
  let hashes ← (List.range (path.length - 1)).mapM fun i => do
    fieldElementFromBytes (E.sha256 (E.g1Bytes (← V[i + 1]?) ++ ((W[i + 1]?).map E.g1Bytes).getD []))
  let rangeProofs ← (List.range path.length).mapM fun i => do
    let s ← l[i]?
    proveRange E pp.RPPP (rnd.range i) (← V[i]?) s.values s.bf
  let opens ← (List.range (path.length - 1)).mapM fun i => do
    pp.PPPP.openAt (← path[i]?) (← ds[i]?)
  let ts ← (List.range (path.length - 1)).mapM fun i => PP.ro E pp.PPPP W i
  let pointProofSum ← Vec.innerProd (opens.map Prod.fst) ts
  let pointProof ← pp.PPPP.aggregate W (opens.map Prod.snd) (PP.ro E)
  let sumArgumentProof ← Sum.newAggregatedArgument E pp.SAPP rnd.sum V (l.map Src.values) (l.map Src.bf)
  let zeroVec := List.replicate (pp.fanout + 2) (0 : Zr)
  let zeroCommit ← pp.PPPP.commit zeroVec
  let padded ← padLoop ((path.length - 1 : ℕ) : ℤ)
  let padding := (padded - (path.length - 1 : ℕ)).toNat
  let equalities ← equalitiesOf E pp.POEPP pp.fanout path V zeroCommit padding
  let equalityProof ← equalities.prove E rnd.eq
    ((l.take (path.length - 1)).map Src.vec ++ List.replicate padding zeroVec)
    (((l.drop 1).take (path.length - 1)).map Src.vec ++ List.replicate padding zeroVec)
  let (_, π) ← pp.PPPP.openAt (path.getLastD 0) (← l.getLast?).vec
  return { pointProofSum := pointProofSum
           pointProof := pointProof
           sumArgumentProof := sumArgumentProof
           V := V
           W := W
           digests := hashes ++ [0]
           rangeProofs := rangeProofs
           equalityProof := equalityProof
           total := { liabilityProof := π, sum := m } }

/-- None of the challenges that get inverted in this run of `forge` is zero. -/
structure ForgeChallenges (E : Curve G1 G2 GT) (pp : PublicParams G1 G2 GT) (rnd : ProveRand) (path : List ℕ)
    (l : List Src) (ds : List (List Zr)) (m : ℤ) : Prop where
  range : ∀ i s V rp ipaPP, l[i]? = some s → pp.PPPP.commit s.vec = some V →
    proveRangeUnchecked E pp.RPPP (rnd.range i) V s.values s.bf = some (rp, ipaPP) →
    ∀ x ∈ rangeChallenges E pp.RPPP V rp ipaPP, x ≠ 0
  proof : ∀ lp, forge E pp rnd path l ds m = some lp →
    (∀ y ∈ lp.sumArgumentProof.challenges E pp.SAPP, y ≠ 0) ∧
    ∀ y ∈ lp.equalityProof.challenges E pp.POEPP, y ≠ 0

/-- A layer with the amount `x` at position `i`, nothing elsewhere, sum `x`. -/
def spike (F : ℕ) (x : Zr) (i : ℕ) : Src := ⟨(List.range F).map (fun j => if j = i then x else 0) ++ [x], 0⟩

/-- The layers of the forgery: the real root; below it, layers that pass all of the amount at the first position
of the path on; and one layer too many, with the amount `m` to be claimed. -/
def forgedLayers (F : ℕ) (path : List ℕ) (root : Src) (m : ℤ) : List Src :=
  root :: (path.drop 1).map (spike F (root.values.getD (path.getD 0 0) 0)) ++ [spike F (intToZr m) (path.getLastD 0)]

/-- The vectors for the commitments `W` of the forgery: the real one of the root, and zeros. -/
def forgedDigests (F : ℕ) (path : List ℕ) (d0 : List Zr) : List (List Zr) :=
  d0 :: List.replicate (path.length - 2) (List.replicate (F + 2) 0)

end PoL.Pol

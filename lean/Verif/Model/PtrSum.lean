import Verif.Model.PtrRange
import Verif.Model.Sum

/-!
# Points in memory: the sum argument
-/

namespace PoL.Ptr.Sum

open PoL.Sum

variable {G1 G2 GT : Type} [AddCommGroup G1] [Module Zr G1] [AddCommGroup G2] [Module Zr G2] [AddCommGroup GT] [Module Zr GT]

/-- `sum/sa.go:90-103` `createHVZKChallenge`. -/
def createHVZKChallenge (E : Curve G1 G2 GT) (V : List Ref) (m : ℕ) : Run (Cell G1 G2 GT) (List Zr) := do
  let V ← loads kG1 V
  lift (PoL.Sum.createHVZKChallenge E V m)

/-- `sum/sa.go:175-183` `randomOracleCVW`. -/
def randomOracleCVW (E : Curve G1 G2 GT) (c : Zr) (V W : Ref) : Run (Cell G1 G2 GT) Zr := do
  let V ← load kG1 V
  let W ← load kG1 W
  lift (PoL.Sum.randomOracleCVW E c V W)

/-- The parameters of the inner-product argument (`sum/sa.go:159-165`, `sum/sa.go:193-199`). -/
def ipaParams (E : Curve G1 G2 GT) (pp : Sum.PP Ref) : Run (Cell G1 G2 GT) (BP.PP Ref) :=
  BP.setupDigest E { digest := [], G := pp.Gs, H := pp.H, U := pp.U }

variable [DecidableEq G1]

/-- `sum/sa.go:118-135` `NewCommitment`. -/
def newCommitment (gl : Globals) (pp : Sum.PP Ref) (v : List Zr) (r : Zr) : Run (Cell G1 G2 GT) (Argument Ref) := do
  let V ← mulBy kG1 pp.F r
  addTo kG1 V (← BP.mulVSum gl pp.Gs v)
  let v0 ← lift v[0]?
  let n := v.length
  let sum := ((v.take (n - 1)).drop 1).foldl (· + ·) v0
  let last ← lift v[n - 1]?
  if last ≠ sum then crash else return { V := V }

/-- `sum/sa.go:137-173` `NewArgument`.  The point `P` (152-155) is computed and not used. -/
def newArgument (E : Curve G1 G2 GT) (gl : Globals) (pp : Sum.PP Ref) (rnd : Rand) (V : Ref) (v : List Zr) (r : Zr) :
    Run (Cell G1 G2 GT) (Argument Ref × Proof Ref) := do
  let w := rnd.w
  let rPrime := rnd.rPrime
  let W ← mulBy kG1 pp.F rPrime
  addTo kG1 W (← BP.mulVSum gl pp.Gs w)
  let c ← lift (Vec.innerProd w pp.b)
  let x ← randomOracleCVW E c V W
  let rPrimeX := rPrime * x
  let ρNeg := r + rPrimeX
  let ρ := negZr ρNeg
  let P ← mulBy kG1 pp.F ρ
  addTo kG1 P V
  addTo kG1 P (← mulBy kG1 W x)
  addTo kG1 P pp.B
  let ipaPP ← ipaParams E pp
  let a ← lift (Vec.add v (Vec.mul w x))
  let b := pp.b
  let ipa ← BP.newInnerProdArgument ipaPP a b
  let π ← BP.InnerProdArgument.prove E ipa
  return ({ V := V }, { π := π, W := W, c := c, ρ := ρ })

/-- `sum/sa.go:185-204` `(*Proof).Verify`, with the proof as the call leaves it. -/
def verifyState (E : Curve G1 G2 GT) (p : Proof Ref) (pp : Sum.PP Ref) (a : Argument Ref) : Run (Cell G1 G2 GT) (Bool × Proof Ref) := do
  let x ← randomOracleCVW E p.c a.V p.W
  let P ← mulBy kG1 pp.F p.ρ
  addTo kG1 P a.V
  addTo kG1 P (← mulBy kG1 p.W x)
  addTo kG1 P pp.B
  let ipaPP ← ipaParams E pp
  let p := { p with π := { p.π with C := p.c * x, P := P } }
  return (← BP.InnerProductProof.verify E p.π ipaPP, p)

/-- `sum/sa.go:109-116` `(*Proof).VerifyAggregated`. -/
def verifyAggregated (E : Curve G1 G2 GT) (gl : Globals) (p : Proof Ref) (pp : Sum.PP Ref) (V : List Ref) :
    Run (Cell G1 G2 GT) (Bool × Proof Ref) := do
  let t ← createHVZKChallenge E V V.length
  let VAggr ← BP.mulVSum gl V t
  verifyState E p pp { V := VAggr }

/-- `sum/sa.go:70-88` `NewAggregatedArgument`. -/
def newAggregatedArgument (E : Curve G1 G2 GT) (gl : Globals) (pp : Sum.PP Ref) (rnd : Rand) (V : List Ref) (v : List (List Zr))
    (r : List Zr) : Run (Cell G1 G2 GT) (Proof Ref) := do
  let t ← createHVZKChallenge E V v.length
  let v0 ← lift v[0]?
  let vAggr ← lift ((List.range v0.length).mapM fun i => do
    let vi ← v.mapM fun vj => vj[i]?
    Vec.innerProd vi t)
  let rAggr ← lift (Vec.innerProd r t)
  let VAggr ← BP.mulVSum gl V t
  let p ← newArgument E gl pp rnd VAggr vAggr rAggr
  return p.2

end PoL.Ptr.Sum

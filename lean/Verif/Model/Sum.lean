import Verif.Model.InnerProd

/-!
# `sum/sa.go`: the sum argument
-/

namespace PoL.Sum

open BP

variable {G1 G2 GT : Type} [AddCommGroup G1] [Module Zr G1] [AddCommGroup G2] [Module Zr G2]
  [AddCommGroup GT] [Module Zr GT]

/-- `sum/sa.go:16-24` `PP`. -/
structure PP (G1 : Type) where
  digest : Bytes
  U : G1
  Gs : List G1
  G : G1
  F : G1
  H : List G1
  b : List Zr
  B : G1

/-- `sum/sa.go:26-28` `(*PP).Size`. -/
def PP.size (E : Curve G1 G2 GT) (pp : PP G1) : ℕ :=
  (E.g1Bytes pp.U).length + (g1vBytes E pp.Gs).length + (E.g1Bytes pp.G).length
    + (E.g1Bytes pp.F).length + (g1vBytes E pp.H).length + (E.g1Bytes pp.B).length

/-- The vector `b` (`sum/sa.go:37-43`): ones, and minus one last; panics (index) for `n = 0`. -/
def bVector (n : ℕ) : Option (List Zr) :=
  if n = 0 then none
  else some ((List.replicate n (intToZr 1)).set (n - 1) (negZr (intToZr 1)))

/-- `sum/sa.go:59-61` `Argument`. -/
structure Argument (G1 : Type) where
  V : G1

/-- `sum/sa.go:63-68` `Proof`; the fields `c`, `ρ`, `π` are unexported in the source. -/
structure Proof (G1 : Type) where
  W : G1
  c : Zr
  ρ : Zr
  π : InnerProductProof G1

/-- `sum/sa.go:105-107` `(*Proof).Size`. -/
def Proof.size (E : Curve G1 G2 GT) (p : Proof G1) : ℕ :=
  (zrBytes p.c).length + (E.g1Bytes p.W).length + (zrBytes p.ρ).length

/-- `sum/sa.go:90-103` `createHVZKChallenge`; the loop is the one of `PowerSeries`. -/
def createHVZKChallenge (E : Curve G1 G2 GT) (V : List G1) (m : ℕ) : Option (List Zr) := do
  let τ ← fieldElementFromBytes (E.sha256 (g1vBytes E V))
  return powerSeriesLoop τ m (intToZr 1)

/-- `sum/sa.go:175-183` `randomOracleCVW`. -/
def randomOracleCVW (E : Curve G1 G2 GT) (c : Zr) (V W : G1) : Option Zr :=
  fieldElementFromBytes (E.sha256 (zrBytes c ++ E.g1Bytes V ++ E.g1Bytes W))

variable [DecidableEq G1]

/-- `sum/sa.go:30-57` `NewPublicParams`. -/
def newPublicParams (E : Curve G1 G2 GT) (n : ℕ) : Option (PP G1) := do
  let Gs := randGenVec E n "sum argument Gs"
  let U ← (randGenVec E 1 "IPA u")[0]?
  let G ← (randGenVec E 1 "sum argument G")[0]?
  let F ← (randGenVec E 1 "sum argument F")[0]?
  let H := randGenVec E n "sum argument H"
  let b ← bVector n
  let B ← Gv.sum (← Gv.mulV H b)
  return { digest := E.sha256 (g1vBytes E H ++ E.g1Bytes B ++ E.g1Bytes G ++ E.g1Bytes F)
           U := U, Gs := Gs, G := G, F := F, H := H, b := b, B := B }

/-- The parameters of the inner-product argument (`sum/sa.go:159-165`, `sum/sa.go:193-199`). -/
def ipaParams (E : Curve G1 G2 GT) (pp : PP G1) : Option (BP.PP G1) :=
  setupDigest E { digest := [], G := pp.Gs, H := pp.H, U := pp.U }

/-- `sum/sa.go:118-135` `NewCommitment`: panics on a length mismatch, on the empty vector, and if the last
entry is not the sum of the others.  (For a vector of length 1 the loop compares the entry with itself.) -/
def newCommitment (pp : PP G1) (v : List Zr) (r : Zr) : Option (Argument G1) := do
  let V := r • pp.F
  let V := V + (← Gv.sum (← Gv.mulV pp.Gs v))
  let v0 ← v[0]?
  let n := v.length
  let sum := ((v.take (n - 1)).drop 1).foldl (· + ·) v0
  let last ← v[n - 1]?
  if last ≠ sum then none else return { V := V }

/-- The random values drawn by `NewArgument` (`sum/sa.go:140`). -/
structure Rand where
  w : List Zr
  rPrime : Zr

/-- `sum/sa.go:137-173` `NewArgument`, given its random values. -/
def newArgument (E : Curve G1 G2 GT) (pp : PP G1) (rnd : Rand) (V : G1) (v : List Zr) (r : Zr) :
    Option (Argument G1 × Proof G1) := do
  let w := rnd.w
  let rPrime := rnd.rPrime
  let W := rPrime • pp.F + (← Gv.sum (← Gv.mulV pp.Gs w))
  let c ← Vec.innerProd w pp.b
  let x ← randomOracleCVW E c V W
  let rPrimeX := rPrime * x
  let ρNeg := r + rPrimeX
  let ρ := negZr ρNeg
  let ipaPP ← ipaParams E pp
  let a ← Vec.add v (Vec.mul w x)
  let b := pp.b
  let ipa ← newInnerProdArgument ipaPP a b
  let π ← ipa.prove E
  return ({ V := V }, { π := π, W := W, c := c, ρ := ρ })

/-- `sum/sa.go:185-204` `(*Proof).Verify`.  Returns the verdict and the proof as the call leaves it
(lines 201-202 overwrite two fields of `proof.π`). -/
def Proof.verifyState (E : Curve G1 G2 GT) (p : Proof G1) (pp : PP G1) (a : Argument G1) :
    Option (Bool × Proof G1) := do
  let x ← randomOracleCVW E p.c a.V p.W
  let P := p.ρ • pp.F + a.V + x • p.W + pp.B
  let ipaPP ← ipaParams E pp
  let p := { p with π := { p.π with C := p.c * x, P := P } }
  return (← p.π.verify E ipaPP, p)

/-- The verdict of `Verify`. -/
def Proof.verify (E : Curve G1 G2 GT) (p : Proof G1) (pp : PP G1) (a : Argument G1) : Option Bool :=
  (p.verifyState E pp a).map Prod.fst

/-- `sum/sa.go:109-116` `(*Proof).VerifyAggregated`. -/
def Proof.verifyAggregated (E : Curve G1 G2 GT) (p : Proof G1) (pp : PP G1) (V : List G1) : Option Bool := do
  let t ← createHVZKChallenge E V V.length
  let VAggr ← Gv.sum (← Gv.mulV V t)
  p.verify E pp { V := VAggr }

/-- `sum/sa.go:70-88` `NewAggregatedArgument`, given the random values of `NewArgument`.  Panics (index) if
there is no vector or a vector is shorter than the first. -/
def newAggregatedArgument (E : Curve G1 G2 GT) (pp : PP G1) (rnd : Rand) (V : List G1) (v : List (List Zr))
    (r : List Zr) : Option (Proof G1) := do
  let t ← createHVZKChallenge E V v.length
  let v0 ← v[0]?
  let vAggr ← (List.range v0.length).mapM fun i => do
    let vi ← v.mapM fun vj => vj[i]?
    Vec.innerProd vi t
  let rAggr ← Vec.innerProd r t
  let VAggr ← Gv.sum (← Gv.mulV V t)
  let (_, proof) ← newArgument E pp rnd VAggr vAggr rAggr
  return proof

end PoL.Sum

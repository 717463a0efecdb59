import Verif.Model.Raw

/-!
# Scalars as integers: commitments, range proofs, sum arguments, equality proofs

Random scalars are reduced (`NewRandomZr`), so the random values are those of the first model.
-/

namespace PoL.Raw

open BP

variable {G1 G2 GT : Type} [AddCommGroup G1] [Module Zr G1] [AddCommGroup G2] [Module Zr G2]
  [AddCommGroup GT] [Module Zr GT] [DecidableEq G1] [DecidableEq GT]

/-! ## `pp/pointproofs.go` -/

/-- `pp/pointproofs.go:25-61` `NewPublicParams`, with `PowMod` for the powers. -/
def newPublicParams (S : ScalarLib) (E : Curve G1 G2 GT) (α : Zr) (N : ℕ) : PoL.PP G1 G2 GT :=
  let g1α := fun i : ℕ => res (S.pow (canon α) i) • E.genG1
  let g2α := fun i : ℕ => res (S.pow (canon α) i) • E.genG2
  PP.setupDigest E
    { digest := []
      N := N
      G1s := (List.range N).map (fun k => g1α (k + 1))
        ++ [E.genG1]
        ++ (List.range (N - 1)).map (fun k => g1α (N + 2 + k))
      G2s := (List.range N).map (fun k => g2α (k + 1))
      Gt := res (S.pow (canon α) (N + 1)) • E.genGt }

/-- `pp/pointproofs.go:79-90` `Commit`. -/
def ppCommit (S : ScalarLib) (pp : PoL.PP G1 G2 GT) (m : List ℤ) : Option G1 :=
  if m.length ≠ pp.N then none
  else do
    let powersOfAlpha ← (List.range pp.N).mapM fun i => pp.G1s[i]?
    Gv.sum (← mulV S powersOfAlpha m)

/-- `pp/pointproofs.go:92-114` `Open`. -/
def openAt (S : ScalarLib) (pp : PoL.PP G1 G2 GT) (i : ℕ) (m : List ℤ) : Option (ℤ × G1) :=
  if i ≥ pp.N then none
  else do
    let shift := pp.N - i
    let js := (List.range pp.N).filter fun j0 => j0 + 1 ≠ i + 1
    let elements ← js.mapM fun j0 => pp.G1s[shift + (j0 + 1) - 1]?
    let exponents ← js.mapM fun j0 => m[j0 + 1 - 1]?
    let π ← Gv.sum (← mulV S elements exponents)
    let mi ← m[i]?
    return (mi, π)

/-- `pp/pointproofs.go:116-125` `Verify`. -/
def ppVerify (E : Curve G1 G2 GT) (pp : PoL.PP G1 G2 GT) (mi : ℤ) (π C : G1) (i : ℕ) : Option Bool :=
  if pp.N < i + 1 then none
  else do
    let g2 ← pp.G2s[pp.N - i - 1]?
    let left ← pairProd E [C] [g2]
    let right ← pairProd E [π] [E.genG2]
    let right := right + res mi • pp.Gt
    return decide (left = right)

/-- `pp/pointproofs.go:127-132` `Update`. -/
def update (pp : PoL.PP G1 G2 GT) (C : G1) (m : List ℤ) (mi : ℤ) (i : ℕ) : Option G1 := do
  let g ← pp.G1s[i]?
  let prevG := res (← m[i]?) • g
  let nextG := res mi • g
  return C - prevG + nextG

/-- `pp/pointproofs.go:170-180` `RO`. -/
def ppRo (E : Curve G1 G2 GT) (pp : PoL.PP G1 G2 GT) (cs : List G1) (i : ℕ) : Option ℤ :=
  fieldElementFromBytes (E.sha256 (PP.roInput E pp cs i))

/-- `pp/pointproofs.go:134-145` `Aggregate`. -/
def aggregate (pp : PoL.PP G1 G2 GT) (commitments proofs : List G1)
    (RO : PoL.PP G1 G2 GT → List G1 → ℕ → Option ℤ) : Option G1 :=
  if proofs.length ≠ commitments.length then none
  else do
    let π ← (List.range proofs.length).mapM fun j => do
      return res (← RO pp commitments j) • (← proofs[j]?)
    Gv.sum π

/-- `pp/pointproofs.go:147-168` `VerifyAggregation`. -/
def verifyAggregation (E : Curve G1 G2 GT) (pp : PoL.PP G1 G2 GT) (indices : List ℕ) (commitments : List G1)
    (π : G1) (sig : ℤ) (RO : PoL.PP G1 G2 GT → List G1 → ℕ → Option ℤ) : Option Bool := do
  let exponents ← (List.range indices.length).mapM fun i => RO pp commitments i
  let g2s ← indices.mapM fun i => if pp.N < i + 1 then none else pp.G2s[pp.N - i - 1]?
  let left ← pairProd E commitments (← mulv2 g2s exponents)
  let πg2 ← pairProd E [π] [E.genG2]
  let right := res sig • pp.Gt + πg2
  return decide (right = left)

/-! ## `bp/range.go` -/

/-- `bp/range.go:55-64` `RangeProof`. -/
structure RangeProof (G1 : Type) where
  Δ : List (G1 × G1 × G1)
  u : ℤ
  W : G1
  γ : ℤ
  c : ℤ
  ipp : InnerProductProof G1
  Q : G1
  R : G1
  C1 : G1
  C2 : G1
  τ : ℤ
  ρ : ℤ

/-- The proof of the first model. -/
def RangeProof.res (p : RangeProof G1) : BP.RangeProof G1 :=
  { Δ := p.Δ, u := p.u, W := p.W, γ := p.γ, c := p.c, ipp := p.ipp.res, Q := p.Q, R := p.R, C1 := p.C1, C2 := p.C2,
    τ := p.τ, ρ := p.ρ }

/-- `bp/range.go:314-320` `expand`. -/
def expand (x : ℤ) (n : ℕ) : List ℤ := List.replicate n x

/-- The loop computing `f` (`bp/range.go:105-109`, `bp/range.go:202-206`). -/
def rangeF (S : ScalarLib) (n : ℕ) (xs : List ℤ) : Option (List ℤ) :=
  (List.range n).mapM fun i => do
    let iBits ← bitDecomposition i (n - 1)
    Vec.product S (← Vec.powBitVec xs iBits)

/-- `bp/range.go:302-312` `computeD`. -/
def computeD (S : ScalarLib) (n m : ℕ) (f : List ℤ) (x : ℤ) : Option (List ℤ) := do
  let d ← (List.range n).mapM fun i => do
    let fi ← f[i]?
    return (List.range m).map fun j => S.mul (pow2 S j) fi
  return d.flatten ++ Vec.mul S f x

/-- `bp/range.go:335-343` `rangeProofRO1`. -/
def rangeProofRO1 (E : Curve G1 G2 GT) (pp : RPPP G1) (V W Q : G1) : Option ℤ :=
  fieldElementFromBytes (E.sha256 (pp.getDigest E ++ E.g1Bytes V ++ E.g1Bytes W ++ E.g1Bytes Q))

/-- The challenges `y0`, `y1` (`bp/range.go:113-120`, `bp/range.go:216-223`): `x.Bytes()` is hashed. -/
def rangeY (S : ScalarLib) (E : Curve G1 G2 GT) (pp : RPPP G1) (Q R : G1) (x : ℤ) (tag : UInt8) : Option ℤ :=
  fieldElementFromBytes (randomOracle E Q R ([tag] ++ pp.getDigest E ++ S.bytes x))

/-- `bp/range.go:291-300` `computeZ`. -/
def computeZ (E : Curve G1 G2 GT) (pp : RPPP G1) (C1 C2 Q R : G1) (y0 y1 : Bytes) : Option ℤ :=
  fieldElementFromBytes
    (randomOracle E Q R (pp.getDigest E ++ E.g1Bytes C1 ++ E.g1Bytes C2 ++ y0 ++ y1))

/-- `bp/range.go:280-289` `computeP`. -/
def computeP (S : ScalarLib) (pp : RPPP G1) (ρ : ℤ) (Q R : G1) (z : ℤ) (y1v : List ℤ) (n m : ℕ) (Fprime : List G1)
    (d : List ℤ) (y1 : ℤ) : Option G1 := do
  let P := PoL.res ρ • pp.F
  let P := P + Q
  let P := P + PoL.res z • R
  let P := P + (← Gv.sum (← mulV S (← sliceTo pp.Hs (n * m)) y1v))
  let P := P + (← Gv.sum (← mulV S Fprime (Vec.mul S d (S.mul y1 y1))))
  let P := P + (← Gv.sum (← mulV S (← sliceTo pp.Fs (n * m)) y1v))
  return P

/-- `bp/range.go:81-160` `VerifyRange`, the verdict. -/
def verifyRange (S : ScalarLib) (E : Curve G1 G2 GT) (pp : RPPP G1) (rp : RangeProof G1) (V : G1) :
    Option Bool := do
  let m := 63
  let n := pp.Gs.length
  let x ← rangeProofRO1 E pp V rp.W rp.Q
  let U := PoL.res rp.γ • pp.F + V + PoL.res x • rp.W
  let ppRdx ← rangeRdxPP E pp
  match ← iterativeVerify S E ppRdx U rp.Δ rp.u with
  | none => return false
  | some (xs, u) =>
    let xs := xs.reverse
    let f ← rangeF S n xs
    let d ← computeD S n m f x
    let y0 ← rangeY S E pp rp.Q rp.R x 0
    let y1 ← rangeY S E pp rp.Q rp.R x 1
    let y0v := powerSeries S (n * m) y0
    let y1v := Vec.mul S (expand 1 (n * m)) y1
    let z ← computeZ E pp rp.C1 rp.C2 rp.Q rp.R (S.bytes y0) (S.bytes y1)
    let y0Inverse := S.inv y0
    let Fprime ← mulV S pp.Fs (powerSeries S pp.Fs.length y0Inverse)
    let ipaPP ← rangeIpaPP E pp Fprime
    let P ← computeP S pp rp.ρ rp.Q rp.R z y1v n m Fprime d y1
    if !(← { rp.ipp with C := rp.c, P := P }.verify S E ipaPP) then return false
    else
      let β1 ← Vec.innerProd S (expand 1 (n * m)) y0v
      let β2 ← Vec.innerProd S (expand 1 (n * m)) y0v
      let β3 ← Vec.innerProd S (expand 1 (n * m)) (← sliceTo d (n * m))
      let c0 := S.plus (S.plus (S.mul β3 (S.mul (S.mul y1 y1) y1)) (S.mul (S.mul y1 y1) (S.plus u β2))) (S.mul β1 y1)
      let left := PoL.res z • rp.C1 + PoL.res (S.mul z z) • rp.C2 + PoL.res c0 • pp.G
      let right := PoL.res rp.c • pp.G + PoL.res rp.τ • pp.H
      return decide (left = right)

/-- `bp/range.go:162-258,264-277` `ProveRange` without the self-check. -/
def proveRangeUnchecked (S : ScalarLib) (E : Curve G1 G2 GT) (pp : RPPP G1) (rnd : RangeRand) (V : G1) (v : List ℤ)
    (r : ℤ) : Option (RangeProof G1 × BP.PP G1) := do
  let n := pp.Gs.length
  let m := 63
  let w := rnd.w.map canon
  let rPrime := canon rnd.rPrime
  let W := PoL.res rPrime • pp.F + (← Gv.sum (← mulV S pp.Gs w))
  let vBits := intsToZr (Vec.vbits S v m) ++ w
  let wCaret ← Vec.sub S (expand 1 (n * m)) (← sliceTo vBits (n * m))
  let ν := canon rnd.ν
  let η := canon rnd.η
  let Q := PoL.res ν • pp.F + (← Gv.sum (← mulV S pp.Hs vBits))
    + (← Gv.sum (← mulV S (← sliceTo pp.Fs (n * m)) wCaret))
  let x ← rangeProofRO1 E pp V W Q
  let γ := negZr S (S.plus r (S.mul x rPrime))
  let U := PoL.res γ • pp.F + V + PoL.res x • W
  let ppRdx ← rangeRdxPP E pp
  let wRdx ← Vec.add S v (Vec.mul S w x)
  let (Δ, xs, u) ← iterativeReduce S E ppRdx wRdx U
  let xs := xs.reverse
  let f ← rangeF S n xs
  let d ← computeD S n m f x
  let s := rnd.s.map canon
  let t := rnd.t.map canon
  let R := PoL.res η • pp.F + (← Gv.sum (← mulV S pp.Hs s))
    + (← Gv.sum (← mulV S (← sliceTo pp.Fs (n * m)) t))
  let y0 ← rangeY S E pp Q R x 0
  let y1 ← rangeY S E pp Q R x 1
  let y0v := powerSeries S (n * m) y0
  let y1v := Vec.mul S (expand 1 (n * m)) y1
  let zeros := expand 0 n
  let aPrime ← Vec.add S vBits (y1v ++ zeros)
  let b1 ← Vec.add S (Vec.mul S d (S.mul y1 y1)) (Vec.mul S (y0v ++ zeros) y1)
  let bPrime ← Vec.add S b1 ((← Vec.hadamardProd S wCaret y0v) ++ zeros)
  let c1 ← Vec.innerProd S (← sliceTo aPrime (n * m)) (← Vec.hadamardProd S y0v t)
  let c1 := S.plus c1 (← Vec.innerProd S s bPrime)
  let c2 ← Vec.innerProd S (← sliceTo s (n * m)) (← Vec.hadamardProd S y0v t)
  let τ1 := canon rnd.τ1
  let τ2 := canon rnd.τ2
  let C1 := PoL.res c1 • pp.G + PoL.res τ1 • pp.H
  let C2 := PoL.res c2 • pp.G + PoL.res τ2 • pp.H
  let z ← computeZ E pp C1 C2 Q R (S.bytes y0) (S.bytes y1)
  let ρ := negZr S (S.plus ν (S.mul η z))
  let τ := S.plus (S.mul τ1 z) (S.mul τ2 (S.mul z z))
  let y0Inverse := S.inv y0
  let Fprime ← mulV S pp.Fs (powerSeries S pp.Fs.length y0Inverse)
  let a ← Vec.add S aPrime (Vec.mul S s z)
  let b ← Vec.add S bPrime (Vec.mul S ((← Vec.hadamardProd S y0v t) ++ zeros) z)
  let c ← Vec.innerProd S a b
  let ipaPP ← rangeIpaPP E pp Fprime
  let ipa ← newInnerProdArgument S ipaPP a b
  let ipp ← ipa.prove S E
  return ({ ρ := ρ, τ := τ, C1 := C1, C2 := C2, γ := γ, c := c, Δ := Δ, u := u, Q := Q, R := R,
            W := W, ipp := ipp }, ipaPP)

/-- `bp/range.go:162-278` `ProveRange`. -/
def proveRange (S : ScalarLib) (E : Curve G1 G2 GT) (pp : RPPP G1) (rnd : RangeRand) (V : G1) (v : List ℤ) (r : ℤ) :
    Option (RangeProof G1) := do
  let (rp, ipaPP) ← proveRangeUnchecked S E pp rnd V v r
  if !(← rp.ipp.verify S E ipaPP) then none else return rp

/-! ## `sum/sa.go` -/

/-- `sum/sa.go:63-68` `Proof`. -/
structure SumProof (G1 : Type) where
  W : G1
  c : ℤ
  ρ : ℤ
  π : InnerProductProof G1

/-- The proof of the first model. -/
def SumProof.res (p : SumProof G1) : Sum.Proof G1 := { W := p.W, c := p.c, ρ := p.ρ, π := p.π.res }

/-- `sum/sa.go:90-103` `createHVZKChallenge`. -/
def createHVZKChallenge (S : ScalarLib) (E : Curve G1 G2 GT) (V : List G1) (m : ℕ) : Option (List ℤ) := do
  let τ ← fieldElementFromBytes (E.sha256 (g1vBytes E V))
  return powerSeriesLoop S τ m 1

/-- `sum/sa.go:175-183` `randomOracleCVW`: `c.Bytes()` is hashed. -/
def randomOracleCVW (S : ScalarLib) (E : Curve G1 G2 GT) (c : ℤ) (V W : G1) : Option ℤ :=
  fieldElementFromBytes (E.sha256 (S.bytes c ++ E.g1Bytes V ++ E.g1Bytes W))

/-- `sum/sa.go:118-135` `NewCommitment`: the sum is not reduced before it is compared. -/
def newCommitment (S : ScalarLib) (pp : Sum.PP G1) (v : List ℤ) (r : ℤ) : Option (Sum.Argument G1) := do
  let V := PoL.res r • pp.F
  let V := V + (← Gv.sum (← mulV S pp.Gs v))
  let v0 ← v[0]?
  let n := v.length
  let sum := ((v.take (n - 1)).drop 1).foldl S.plus v0
  let last ← v[n - 1]?
  if !S.equals last sum then none else return { V := V }

/-- `sum/sa.go:137-173` `NewArgument`.  The vector `pp.b` has entries 1 and `NegZr(1)`, which are reduced. -/
def newArgument (S : ScalarLib) (E : Curve G1 G2 GT) (pp : Sum.PP G1) (rnd : Sum.Rand) (V : G1) (v : List ℤ) (r : ℤ) :
    Option (Sum.Argument G1 × SumProof G1) := do
  let w := rnd.w.map canon
  let rPrime := canon rnd.rPrime
  let W := PoL.res rPrime • pp.F + (← Gv.sum (← mulV S pp.Gs w))
  let c ← Vec.innerProd S w (pp.b.map canon)
  let x ← randomOracleCVW S E c V W
  let rPrimeX := S.mul rPrime x
  let ρNeg := S.plus r rPrimeX
  let ρ := negZr S ρNeg
  let ipaPP ← Sum.ipaParams E pp
  let a ← Vec.add S v (Vec.mul S w x)
  let b := pp.b.map canon
  let ipa ← newInnerProdArgument S ipaPP a b
  let π ← ipa.prove S E
  return ({ V := V }, { π := π, W := W, c := c, ρ := ρ })

/-- `sum/sa.go:185-204` `(*Proof).Verify`, the verdict. -/
def SumProof.verify (S : ScalarLib) (E : Curve G1 G2 GT) (p : SumProof G1) (pp : Sum.PP G1) (a : Sum.Argument G1) :
    Option Bool := do
  let x ← randomOracleCVW S E p.c a.V p.W
  let P := PoL.res p.ρ • pp.F + a.V + PoL.res x • p.W + pp.B
  let ipaPP ← Sum.ipaParams E pp
  { p.π with C := S.mul p.c x, P := P }.verify S E ipaPP

/-- `sum/sa.go:109-116` `(*Proof).VerifyAggregated`. -/
def SumProof.verifyAggregated (S : ScalarLib) (E : Curve G1 G2 GT) (p : SumProof G1) (pp : Sum.PP G1) (V : List G1) :
    Option Bool := do
  let t ← createHVZKChallenge S E V V.length
  let VAggr ← Gv.sum (← mulV S V t)
  p.verify S E pp { V := VAggr }

/-- `sum/sa.go:70-88` `NewAggregatedArgument`. -/
def newAggregatedArgument (S : ScalarLib) (E : Curve G1 G2 GT) (pp : Sum.PP G1) (rnd : Sum.Rand) (V : List G1)
    (v : List (List ℤ)) (r : List ℤ) : Option (SumProof G1) := do
  let t ← createHVZKChallenge S E V v.length
  let v0 ← v[0]?
  let vAggr ← (List.range v0.length).mapM fun i => do
    let vi ← v.mapM fun vj => vj[i]?
    Vec.innerProd S vi t
  let rAggr ← Vec.innerProd S r t
  let VAggr ← Gv.sum (← mulV S V t)
  let (_, proof) ← newArgument S E pp rnd VAggr vAggr rAggr
  return proof

/-! ## `poe/poe.go` -/

/-- `poe/poe.go:60-65` `AggregatedProof`. -/
structure AggregatedProof (G1 : Type) where
  IPP : InnerProductProof G1
  c : ℤ
  ρ : ℤ
  U : G1
  V : G1
  Ω : G1
  Waggr : List G1
  Vaggr : List G1

/-- The proof of the first model. -/
def AggregatedProof.res (p : AggregatedProof G1) : Poe.AggregatedProof G1 :=
  { IPP := p.IPP.res, c := p.c, ρ := p.ρ, U := p.U, V := p.V, Ω := p.Ω, Waggr := p.Waggr, Vaggr := p.Vaggr }

/-- The field `RO`; `poe/poe.go:257-277` `RO` reduces its results. -/
def callRO (RO : Poe.ROFun G1) (gs : List G1) (integers : List ℕ) (digest : Bytes) (n : ℕ) : Option (List ℤ) :=
  (RO gs integers digest n).map fun xs => xs.map canon

/-- `poe/poe.go:71-127` `(*Equalities).Verify`, the verdict. -/
def eqsVerify (S : ScalarLib) (E : Curve G1 G2 GT) (e : Poe.Equalities G1 G2 GT) (p : AggregatedProof G1) :
    Option Bool := do
  let groupElements := p.Vaggr ++ p.Waggr ++ e.V ++ e.W
  let x ← (← callRO e.RO groupElements [] e.PP.digest 1)[0]?
  let m := e.V.length
  let groupElements := groupElements ++ [p.U] ++ [p.V]
  let ts ← callRO e.RO groupElements [] e.PP.digest (2 * m)
  let g2sV ← Poe.selectG2 e.PP e.I m
  let g2sW ← Poe.selectG2 e.PP e.J m
  let num1 ← pairProd E (← mulV S (← Gv.add e.V (gMul p.Vaggr x)) (← Vec.evens ts)) g2sV
  let num2 ← pairProd E (← mulV S (← Gv.add e.W (gMul p.Waggr x)) (← Vec.odds ts)) g2sW
  let numerator := num1 + num2
  let den1 ← pairProd E [p.Ω] [E.genG2]
  let den2 ← pairProd E [PoL.res p.c • (← e.PP.vc.G1s[0]?)] [← Poe.fromEnd e.PP.vc.G2s 0]
  let denominator := den1 + den2
  if numerator ≠ denominator then return false
  else
    let b ← Vec.add S (← Vec.evens ts) (← Vec.odds ts)
    let P := PoL.res p.ρ • e.PP.F + PoL.res x • p.U + p.V + (← Gv.sum (← mulV S e.PP.H b))
    let bpPP ← Poe.ipaParams E e.PP
    { p.IPP with C := p.c, P := P }.verify S E bpPP

/-- What the loop of `Prove` computes for one pair (`poe/poe.go:149-172`). -/
def proveStep (S : ScalarLib) (pp : PoL.PP G1 G2 GT) (n : ℕ) (u η ν : ℤ) (I J : ℕ) (v w : List ℤ) :
    Option (G1 × G1 × G1 × G1 × G1 × G1) := do
  if n = 0 then none
  else
    let Vk := PoL.res u • (← pp.G1s[I]?) + PoL.res ν • (← pp.G1s[n - 1]?)
    let ΩVk := PoL.res ν • (← Poe.fromEnd pp.G1s I)
    let Wk := PoL.res u • (← pp.G1s[J]?) + PoL.res η • (← pp.G1s[n - 1]?)
    let ΩWk := PoL.res η • (← Poe.fromEnd pp.G1s J)
    let (_, ΩVppk) ← openAt S pp I v
    let (_, ΩWppk) ← openAt S pp J w
    return (Vk, Wk, ΩVk, ΩWk, ΩVppk, ΩWppk)

/-- `poe/poe.go:131-236` `(*Equalities).Prove`. -/
def eqsProve (S : ScalarLib) (E : Curve G1 G2 GT) (e : Poe.Equalities G1 G2 GT) (rnd : Poe.EqsRand)
    (vs ws : List (List ℤ)) : Option (AggregatedProof G1) := do
  let m := e.V.length
  if e.W.length ≠ m then none
  else if vs.length ≠ m then none
  else if ws.length ≠ m then none
  else
    let n := (← vs[0]?).length
    let steps ← (List.range m).mapM fun k => do
      let (u, η, ν) ← rnd.uην[k]?
      proveStep S e.PP.vc n (canon u) (canon η) (canon ν) (← e.I[k]?) (← e.J[k]?) (← vs[k]?) (← ws[k]?)
    let u := (rnd.uην.take m).map fun t => canon t.1
    let Vaggr := steps.map fun s => s.1
    let Waggr := steps.map fun s => s.2.1
    let Ωv := steps.map fun s => s.2.2.1
    let Ωw := steps.map fun s => s.2.2.2.1
    let ΩvPP := steps.map fun s => s.2.2.2.2.1
    let ΩwPP := steps.map fun s => s.2.2.2.2.2
    let groupElements := Vaggr ++ Waggr ++ e.V ++ e.W
    let x ← (← callRO e.RO groupElements [] e.PP.digest 1)[0]?
    let v ← (List.range m).mapM fun i => do (← vs[i]?)[← e.I[i]?]?
    let U := PoL.res (canon rnd.r1) • e.PP.F + (← Gv.sum (← mulV S e.PP.G u))
    let V := PoL.res (canon rnd.r2) • e.PP.F + (← Gv.sum (← mulV S e.PP.G v))
    let groupElements := groupElements ++ [U] ++ [V]
    let ts ← callRO e.RO groupElements [] e.PP.digest (2 * m)
    let Ω1 ← Gv.sum (← mulV S (← Gv.add ΩvPP (gMul Ωv x)) (← Vec.evens ts))
    let Ω := Ω1 + (← Gv.sum (← mulV S (← Gv.add ΩwPP (gMul Ωw x)) (← Vec.odds ts)))
    let a ← Vec.add S (Vec.mul S u x) v
    let b ← Vec.add S (← Vec.evens ts) (← Vec.odds ts)
    let ρ := negZr S (S.plus (S.mul (canon rnd.r1) x) (canon rnd.r2))
    let P := PoL.res ρ • e.PP.F + PoL.res x • U + V + (← Gv.sum (← mulV S e.PP.H b))
    let bpPP ← Poe.ipaParams E e.PP
    let ipa ← newInnerProdArgument S bpPP a b
    let ipp ← { ipa with P := P }.prove S E
    return { IPP := ipp, ρ := ρ, V := V, U := U, Ω := Ω, Vaggr := Vaggr, Waggr := Waggr, c := ipp.C }

/-- `poe/poe.go:301-306` `Proof`. -/
structure EqProof (G1 : Type) where
  C : ℤ
  V : G1
  W : G1
  Ω : G1

/-- The proof of the first model. -/
def EqProof.res (p : EqProof G1) : Poe.Proof G1 := { C := p.C, V := p.V, W := p.W, Ω := p.Ω }

/-- `poe/poe.go:308-341` `(*Equality).Verify`. -/
def eqVerify (S : ScalarLib) (E : Curve G1 G2 GT) (e : Poe.Equality G1 G2 GT) (p : EqProof G1) : Option Bool := do
  let x ← (← callRO e.RO [e.V, e.W, p.V, p.W] [] e.PP.digest 1)[0]?
  let g := E.genG1
  let ts ← callRO e.RO [e.V, e.W, PoL.res x • p.V, PoL.res x • p.W, PoL.res p.C • g] [e.I, e.J] e.PP.digest 2
  let t0 ← ts[0]?
  let t1 ← ts[1]?
  let VVx := PoL.res t0 • (PoL.res x • p.V + e.V)
  let WWx := PoL.res t1 • (PoL.res x • p.W + e.W)
  let r ← pairProd E [VVx] [← Poe.fromEnd e.PP.vc.G2s e.I]
  let l ← pairProd E [WWx] [← Poe.fromEnd e.PP.vc.G2s e.J]
  let numerator := r + l
  let l ← pairProd E [p.Ω] [E.genG2]
  let r := PoL.res (S.mul p.C (S.plus t0 t1)) • (← pairProd E [← e.PP.vc.G1s[0]?] [← Poe.fromEnd e.PP.vc.G2s 0])
  let denominator := l + r
  return decide (numerator = denominator)

/-- `poe/poe.go:345-406` `(*Equality).Prove`: the entries are compared as they are. -/
def eqProve (S : ScalarLib) (E : Curve G1 G2 GT) (e : Poe.Equality G1 G2 GT) (u η ν : Zr) (v w : List ℤ) :
    Option (EqProof G1) := do
  let vI ← v[e.I]?
  let wJ ← w[e.J]?
  if !S.equals vI wJ then none
  else if v.length ≠ w.length then none
  else
    let n := v.length
    let u := canon u
    let η := canon η
    let ν := canon ν
    let V := PoL.res u • (← e.PP.vc.G1s[e.I]?) + PoL.res ν • (← e.PP.vc.G1s[n - 1]?)
    let ΩV := PoL.res ν • (← Poe.fromEnd e.PP.vc.G1s e.I)
    let W := PoL.res u • (← e.PP.vc.G1s[e.J]?) + PoL.res η • (← e.PP.vc.G1s[n - 1]?)
    let ΩW := PoL.res η • (← Poe.fromEnd e.PP.vc.G1s e.J)
    let x ← (← callRO e.RO [e.V, e.W, V, W] [] e.PP.digest 1)[0]?
    let c := S.plus vI (S.mul u x)
    let ts ← callRO e.RO [e.V, e.W, PoL.res x • V, PoL.res x • W, PoL.res c • E.genG1] [e.I, e.J] e.PP.digest 2
    let t0 ← ts[0]?
    let t1 ← ts[1]?
    let (_, ΩVpp) ← openAt S e.PP.vc e.I v
    let (_, ΩWpp) ← openAt S e.PP.vc e.J w
    let ΩV := PoL.res t0 • (PoL.res x • ΩV + ΩVpp)
    let ΩW := PoL.res t1 • (PoL.res x • ΩW + ΩWpp)
    return { Ω := ΩV + ΩW, V := V, W := W, C := c }

end PoL.Raw

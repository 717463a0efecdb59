import Verif.Model.Pol

/-!
# Proofs with nil scalars and nil structures

Whoever makes a proof may leave a scalar or a part of it out, so that the pointer in its place is `nil`.  Here every pointer in a proof to
a scalar (`*math.Zr`) or to a part (`*bp.RangeProof`, `*bp.InnerProductProof`, `*sum.Proof`, `*poe.AggregatedProof`) is an option; a use of
`nil` panics where the source uses it, which may be after an error was returned.  Simplifications: points are values (`nil` points have a
model of their own, `Model/Ptr.lean`); range proofs are checked one after the other (`ParallelismEnabled` false); the fields `P` and `C` of
an inner-product proof are not among the fields, because all callers overwrite them before they are read.
-/

namespace PoL.Nil

open BP

variable {G1 G2 GT : Type} [AddCommGroup G1] [Module Zr G1] [AddCommGroup G2] [Module Zr G2]
  [AddCommGroup GT] [Module Zr GT]

/-- `bp/innerprod.go:57-62` `InnerProductProof`, with `nil` scalars; without the overwritten `P` and `C`. -/
structure Ipp (G1 : Type) where
  LRs : List G1
  a : Option Zr
  b : Option Zr

/-- `bp/range.go:55-64` `RangeProof`, with `nil` scalars. -/
structure Range (G1 : Type) where
  Δ : List (G1 × G1 × G1)
  u : Option Zr
  W : G1
  γ : Option Zr
  /-- field `Π` in the source -/
  ipp : Option (Ipp G1)
  c : Option Zr
  Q : G1
  R : G1
  C1 : G1
  C2 : G1
  τ : Option Zr
  ρ : Option Zr

/-- `sum/sa.go:63-68` `Proof`, with `nil` scalars. -/
structure SumProof (G1 : Type) where
  W : G1
  c : Option Zr
  ρ : Option Zr
  π : Option (Ipp G1)

/-- `poe/poe.go:60-65` `AggregatedProof`, with `nil` scalars. -/
structure Agg (G1 : Type) where
  IPP : Option (Ipp G1)
  c : Option Zr
  ρ : Option Zr
  U : G1
  V : G1
  Ω : G1
  Waggr : List G1
  Vaggr : List G1

/-- `pol/pol.go:103-113` `LiabilityProof`, with `nil` scalars and parts. -/
structure Lp (G1 : Type) where
  pointProofSum : Option Zr
  pointProof : G1
  sumArgumentProof : Option (SumProof G1)
  V : List G1
  W : List G1
  digests : List (Option Zr)
  rangeProofs : List (Option (Range G1))
  equalityProof : Option (Agg G1)
  total : Pol.TotalProof G1

variable [DecidableEq G1]

/-- `bp/innerprod.go:139-163` `verify`: the scalars `a` and `b` are used in the last round (lines 142-144). -/
def ippLoop (E : Curve G1 G2 GT) (pp : BP.PP G1) (P : G1) (g h LRs : List G1) (a b : Option Zr) : Option Bool :=
  if g.length = 1 then do
    let a ← a
    let b ← b
    let g0 ← g[0]?
    let h0 ← h[0]?
    let expectedP := (a * b) • pp.U + a • g0 + b • h0
    return decide (expectedP = P)
  else
    match LRs with
    | L :: R :: LRs' =>
      match computeNextParams E L R pp g h P with
      | none => none
      | some np => ippLoop E pp np.P np.g np.h LRs' a b
    | _ => none

/-- `bp/innerprod.go:134-137` `(*InnerProductProof).Verify`, for the `P` and `C` that the caller has stored in the proof; `C` is used in
`bp/innerprod.go:112`. -/
def Ipp.verify (E : Curve G1 G2 GT) (ipp : Ipp G1) (pp : BP.PP G1) (P : G1) (C : Option Zr) : Option Bool := do
  let C ← C
  let (pp', P) ← computeInstanceSpecificParams E pp P C
  ippLoop E pp' P pp'.G pp'.H ipp.LRs ipp.a ipp.b

/-- Loop of `IterativeVerify` (`bp/ir.go:25-51`): `vFinal` is used after the last round (line 49), when errors may have been returned. -/
def iterLoop (E : Curve G1 G2 GT) (digest : Bytes) (vFinal : Option Zr) (n : ℕ) (G : List G1) (prevV : G1) (Δ : List (G1 × G1 × G1))
    (finalV : Option G1) (xs : List Zr) : Option (Option (List Zr × Zr)) :=
  if hn : n = 0 then do
    let g0 ← G[0]?
    let v ← vFinal
    let fV ← finalV
    if v • g0 = fV then return some (xs, v) else return none
  else
    match Δ with
    | [] => none
    | (A, B, V) :: Δ' => do
      let x ← irChallenge E digest A B prevV
      let shouldBeV := x • A + x⁻¹ • B + prevV
      if V ≠ shouldBeV then return none
      else
        let G' ← Gv.add (← sliceTo G n) (Gv.mul (← sliceFrom G n) x⁻¹)
        iterLoop E digest vFinal (n / 2) G' V Δ' (some V) (xs ++ [x])
termination_by n
decreasing_by omega

/-- `bp/ir.go:11-55` `IterativeVerify`. -/
def iterativeVerify (E : Curve G1 G2 GT) (pp : BP.PP G1) (prevV : G1) (Δ : List (G1 × G1 × G1)) (vFinal : Option Zr) :
    Option (Option (List Zr × Zr)) := do
  let n := pp.G.length
  if !(← isPowerOfTwo (UInt16.ofNat n)) then none
  else iterLoop E pp.digest vFinal (n / 2) pp.G prevV Δ none []

/-- `bp/range.go:81-160` `VerifyRange`: `γ` is used in line 89, `u` in the reduction, `Π` in line 136, `ρ` in `computeP` (line 281), `c` and
the scalars of `Π` in its verification, `τ` after it (line 153). -/
def verifyRange (E : Curve G1 G2 GT) (pp : RPPP G1) (rp : Range G1) (V : G1) : Option Bool := do
  let m := 63
  let n := pp.Gs.length
  let x ← rangeProofRO1 E pp V rp.W rp.Q
  let γ ← rp.γ
  let U := γ • pp.F + V + x • rp.W
  let ppRdx ← rangeRdxPP E pp
  match ← Nil.iterativeVerify E ppRdx U rp.Δ rp.u with
  | none => return false
  | some (xs, u) =>
    let xs := Vec.reverse xs
    let f ← rangeF n xs
    let d ← computeD n m f x
    let y0 ← rangeY E pp rp.Q rp.R x 0
    let y1 ← rangeY E pp rp.Q rp.R x 1
    let y0v := powerSeries (n * m) y0
    let y1v := Vec.mul (expand (intToZr 1) (n * m)) y1
    let z ← computeZ E pp rp.C1 rp.C2 rp.Q rp.R (zrBytes y0) (zrBytes y1)
    let y0Inverse := y0⁻¹
    let Fprime ← Gv.mulV pp.Fs (powerSeries pp.Fs.length y0Inverse)
    let ipaPP ← rangeIpaPP E pp Fprime
    let ipp ← rp.ipp
    let ρ ← rp.ρ
    let P ← computeP pp ρ rp.Q rp.R z y1v n m Fprime d y1
    if !(← ipp.verify E ipaPP P rp.c) then return false
    else
      let β1 ← Vec.innerProd (expand (intToZr 1) (n * m)) y0v
      let β2 ← Vec.innerProd (expand (intToZr 1) (n * m)) y0v
      let β3 ← Vec.innerProd (expand (intToZr 1) (n * m)) (← sliceTo d (n * m))
      let c0 := β3 * (y1 * y1 * y1) + y1 * y1 * (u + β2) + β1 * y1
      let left := z • rp.C1 + (z * z) • rp.C2 + c0 • pp.G
      let c ← rp.c
      let τ ← rp.τ
      let right := c • pp.G + τ • pp.H
      return decide (left = right)

/-- `sum/sa.go:185-205` `(*Proof).Verify` behind `sum/sa.go:109-116` `VerifyAggregated`: `c`, `ρ` and `π` are all used before anything is
checked. -/
def SumProof.verifyAggregated (E : Curve G1 G2 GT) (p : SumProof G1) (pp : Sum.PP G1) (V : List G1) : Option Bool := do
  let t ← Sum.createHVZKChallenge E V V.length
  let VAggr ← Gv.sum (← Gv.mulV V t)
  let c ← p.c
  let x ← Sum.randomOracleCVW E c VAggr p.W
  let ρ ← p.ρ
  let P := ρ • pp.F + VAggr + x • p.W + pp.B
  let ipaPP ← Sum.ipaParams E pp
  let π ← p.π
  π.verify E ipaPP P (some (c * x))

variable [DecidableEq GT]

/-- `poe/poe.go:71-127` `(*Equalities).Verify`: `c` is used in line 102, `ρ` and `IPP` after the check of line 104. -/
def Agg.verify (E : Curve G1 G2 GT) (e : Poe.Equalities G1 G2 GT) (p : Agg G1) : Option Bool := do
  let groupElements := p.Vaggr ++ p.Waggr ++ e.V ++ e.W
  let x ← (← e.RO groupElements [] e.PP.digest 1)[0]?
  let m := e.V.length
  let groupElements := groupElements ++ [p.U] ++ [p.V]
  let ts ← e.RO groupElements [] e.PP.digest (2 * m)
  let g2sV ← Poe.selectG2 e.PP e.I m
  let g2sW ← Poe.selectG2 e.PP e.J m
  let num1 ← pairProd E (← Gv.mulV (← Gv.add e.V (Gv.mul p.Vaggr x)) (← Vec.evens ts)) g2sV
  let num2 ← pairProd E (← Gv.mulV (← Gv.add e.W (Gv.mul p.Waggr x)) (← Vec.odds ts)) g2sW
  let numerator := num1 + num2
  let den1 ← pairProd E [p.Ω] [E.genG2]
  let c ← p.c
  let den2 ← pairProd E [c • (← e.PP.vc.G1s[0]?)] [← Poe.fromEnd e.PP.vc.G2s 0]
  let denominator := den1 + den2
  if numerator ≠ denominator then return false
  else
    let b ← Vec.add (← Vec.evens ts) (← Vec.odds ts)
    let ρ ← p.ρ
    let P := ρ • e.PP.F + x • p.U + p.V + (← Gv.sum (← Gv.mulV e.PP.H b))
    let bpPP ← Poe.ipaParams E e.PP
    let IPP ← p.IPP
    IPP.verify E bpPP P (some c)

/-- `pol/pol.go:235-245` `checkCommitmentToInnerVertex`. -/
def Lp.checkInner (E : Curve G1 G2 GT) (lp : Lp G1) (i : ℕ) : Option Bool := do
  let expectedPreviousDigest ← fieldElementFromBytes (E.sha256 (E.g1Bytes (← lp.V[i]?) ++ E.g1Bytes (← lp.W[i]?)))
  if i = 0 then none else
    let d ← lp.digests[i - 1]?
    let d ← d
    return decide (d = expectedPreviousDigest)

/-- `pol/pol.go:247-256` `checkCommitmentToLeafVertex`. -/
def Lp.checkLeaf (E : Curve G1 G2 GT) (lp : Lp G1) (i : ℕ) : Option Bool := do
  let expectedPreviousDigest ← fieldElementFromBytes (E.sha256 (E.g1Bytes (← lp.V[i]?)))
  if i = 0 then none else
    let d ← lp.digests[i - 1]?
    let d ← d
    return decide (d = expectedPreviousDigest)

/-- The loop of `Verify` (`pol/pol.go:153-193`). -/
def Lp.verifyLoop (E : Curve G1 G2 GT) (lp : Lp G1) (pp : Pol.PublicParams G1 G2 GT) (n : ℕ) :
    (i rest : ℕ) → (err : Bool) → Option (Option Bool)
  | _, 0, err => some (some err)
  | i, rest + 1, err => do
    if i + 1 < n ∧ lp.V.length ≤ i + 1 then none
    else
      let rp ← lp.rangeProofs[i]?
      let v ← lp.V[i]?
      let rp ← rp
      let ok ← verifyRange E pp.RPPP rp v
      let err := err || !ok
      if i + 1 = n then
        if !(← lp.checkLeaf E i) then return none
        else lp.verifyLoop E pp n (i + 1) rest err
      else if 0 < i then
        if !(← lp.checkInner E i) then return none
        else lp.verifyLoop E pp n (i + 1) rest err
      else lp.verifyLoop E pp n (i + 1) rest err

/-- `pol/pol.go:124-233` `LiabilityProof.Verify`. -/
def Lp.verify (E : Curve G1 G2 GT) (lp : Lp G1) (pp : Pol.PublicParams G1 G2 GT) (id : Str) (V W : G1)
    (id2path : Str → Option (List ℕ)) : Option Bool := do
  let path ← id2path id
  if lp.W.length + 1 ≠ path.length ∨ lp.digests.length ≠ path.length then return false
  else if (← lp.V[0]?) ≠ V then return false
  else if (← lp.W[0]?) ≠ W then return false
  else
    match ← lp.verifyLoop E pp path.length 0 path.length false with
    | none => return false
    | some err =>
      let s ← lp.pointProofSum
      if !(← pp.PPPP.verifyAggregation E (path.take (path.length - 1)) lp.W lp.pointProof s (PP.ro E)) then return false
      else
        let sa ← lp.sumArgumentProof
        if !(← sa.verifyAggregated E pp.SAPP lp.V) then return false
        else
          let zeroCommit ← pp.PPPP.commit (List.replicate (pp.fanout + 2) (intToZr 0))
          let padded ← Pol.padLoop ((path.length - 1 : ℕ) : ℤ)
          let equalities ← Pol.equalitiesOf E pp.POEPP pp.fanout path lp.V zeroCommit
            (padded - (path.length - 1 : ℕ)).toNat
          let ep ← lp.equalityProof
          if !(← ep.verify E equalities) then return false
          else if err then return false
          else
            pp.PPPP.verify E (intToZr lp.total.sum) lp.total.liabilityProof (← lp.V.getLast?) (← path.getLast?)

end PoL.Nil

import Verif.Model.PtrBp

/-!
# Points in memory: range proofs
-/

namespace PoL.Ptr.BP

open PoL.BP

variable {G1 G2 GT : Type} [AddCommGroup G1] [Module Zr G1] [AddCommGroup G2] [Module Zr G2] [AddCommGroup GT] [Module Zr GT]

/-- `bp/range.go:38-53` `Digest`. -/
def getDigest (E : Curve G1 G2 GT) (pp : RPPP Ref) : Run (Cell G1 G2 GT) Bytes :=
  if pp.digest.length ≠ 0 then pure pp.digest
  else do
    let G ← load kG1 pp.G
    let H ← load kG1 pp.H
    let F ← load kG1 pp.F
    let Gs ← loads kG1 pp.Gs
    let Hs ← loads kG1 pp.Hs
    let Fs ← loads kG1 pp.Fs
    return E.sha256 (E.g1Bytes G ++ E.g1Bytes H ++ E.g1Bytes F ++ g1vBytes E Gs ++ g1vBytes E Hs ++ g1vBytes E Fs)

/-- `bp/range.go:335-343` `rangeProofRO1`. -/
def rangeProofRO1 (E : Curve G1 G2 GT) (pp : RPPP Ref) (V W Q : Ref) : Run (Cell G1 G2 GT) Zr := do
  let d ← getDigest E pp
  let V ← load kG1 V
  let W ← load kG1 W
  let Q ← load kG1 Q
  lift (fieldElementFromBytes (E.sha256 (d ++ E.g1Bytes V ++ E.g1Bytes W ++ E.g1Bytes Q)))

/-- The challenges `y0`, `y1` (`bp/range.go:113-120`, `bp/range.go:216-223`). -/
def rangeY (E : Curve G1 G2 GT) (pp : RPPP Ref) (Q R : Ref) (x : Zr) (tag : UInt8) : Run (Cell G1 G2 GT) Zr := do
  let d ← getDigest E pp
  let o ← randomOracle E Q R ([tag] ++ d ++ zrBytes x)
  lift (fieldElementFromBytes o)

/-- `bp/range.go:291-300` `computeZ`. -/
def computeZ (E : Curve G1 G2 GT) (pp : RPPP Ref) (C1 C2 Q R : Ref) (y0 y1 : Bytes) : Run (Cell G1 G2 GT) Zr := do
  let d ← getDigest E pp
  let C1 ← load kG1 C1
  let C2 ← load kG1 C2
  let o ← randomOracle E Q R (d ++ E.g1Bytes C1 ++ E.g1Bytes C2 ++ y0 ++ y1)
  lift (fieldElementFromBytes o)

variable [DecidableEq G1]

/-- `g.MulV(v).Sum()` -/
def mulVSum (gl : Globals) (g : List Ref) (v : List Zr) : Run (Cell G1 G2 GT) Ref := do
  Gv.sum kG1 (← Gv.mulV kG1 gl.zeroG1 g v)

/-- `bp/range.go:280-289` `computeP`. -/
def computeP (gl : Globals) (pp : RPPP Ref) (ρ : Zr) (Q R : Ref) (z : Zr) (y1v : List Zr) (n m : ℕ) (Fprime : List Ref) (d : List Zr)
    (y1 : Zr) : Run (Cell G1 G2 GT) Ref := do
  let P ← mulBy kG1 pp.F ρ
  addTo kG1 P Q
  addTo kG1 P (← mulBy kG1 R z)
  addTo kG1 P (← mulVSum gl (← lift (sliceTo pp.Hs (n * m))) y1v)
  addTo kG1 P (← mulVSum gl Fprime (Vec.mul d (y1 * y1)))
  addTo kG1 P (← mulVSum gl (← lift (sliceTo pp.Fs (n * m))) y1v)
  return P

omit [DecidableEq G1] in
/-- The parameters of the iterated reduction (`bp/range.go:93-97`, `bp/range.go:192-196`). -/
def rangeRdxPP (E : Curve G1 G2 GT) (pp : RPPP Ref) : Run (Cell G1 G2 GT) (BP.PP Ref) := do
  let u ← randGenVec E 1 "U range proof"
  setupDigest E { digest := [], G := pp.Gs, H := [], U := ← lift u[0]? }

omit [DecidableEq G1] in
/-- The parameters of the inner-product argument (`bp/range.go:127-134`, `bp/range.go:249-254`). -/
def rangeIpaPP (E : Curve G1 G2 GT) (pp : RPPP Ref) (Fprime : List Ref) : Run (Cell G1 G2 GT) (BP.PP Ref) := do
  let u ← randGenVec E 1 "u"
  setupDigest E { digest := [], G := pp.Hs, H := Fprime, U := ← lift u[0]? }

/-- `bp/range.go:81-160` `VerifyRange`, with the proof as the call leaves it. -/
def verifyRangeState (E : Curve G1 G2 GT) (gl : Globals) (pp : RPPP Ref) (rp : RangeProof Ref) (V : Ref) :
    Run (Cell G1 G2 GT) (Bool × RangeProof Ref) := do
  let m := 63
  let n := pp.Gs.length
  let x ← rangeProofRO1 E pp V rp.W rp.Q
  let U ← mulBy kG1 pp.F rp.γ
  addTo kG1 U V
  addTo kG1 U (← mulBy kG1 rp.W x)
  let ppRdx ← rangeRdxPP E pp
  match ← iterativeVerify E ppRdx U rp.Δ rp.u with
  | none => return (false, rp)
  | some (xs, u) =>
    let xs := Vec.reverse xs
    let f ← lift (rangeF n xs)
    let d ← lift (computeD n m f x)
    let y0 ← rangeY E pp rp.Q rp.R x 0
    let y1 ← rangeY E pp rp.Q rp.R x 1
    let y0v := powerSeries (n * m) y0
    let y1v := Vec.mul (expand (intToZr 1) (n * m)) y1
    let z ← computeZ E pp rp.C1 rp.C2 rp.Q rp.R (zrBytes y0) (zrBytes y1)
    let y0Inverse := y0⁻¹
    let Fprime ← Gv.mulV kG1 gl.zeroG1 pp.Fs (powerSeries pp.Fs.length y0Inverse)
    let ipaPP ← rangeIpaPP E pp Fprime
    let P ← computeP gl pp rp.ρ rp.Q rp.R z y1v n m Fprime d y1
    let rp := { rp with ipp := { rp.ipp with C := rp.c, P := P } }
    if !(← InnerProductProof.verify E rp.ipp ipaPP) then return (false, rp)
    else
      let β1 ← lift (Vec.innerProd (expand (intToZr 1) (n * m)) y0v)
      let β2 ← lift (Vec.innerProd (expand (intToZr 1) (n * m)) y0v)
      let dm ← lift (sliceTo d (n * m))
      let β3 ← lift (Vec.innerProd (expand (intToZr 1) (n * m)) dm)
      let c0 := β3 * (y1 * y1 * y1) + y1 * y1 * (u + β2) + β1 * y1
      let left ← mulBy kG1 rp.C1 z
      addTo kG1 left (← mulBy kG1 rp.C2 (z * z))
      addTo kG1 left (← mulBy kG1 pp.G c0)
      let right ← mulBy kG1 pp.G rp.c
      addTo kG1 right (← mulBy kG1 pp.H rp.τ)
      return (decide ((← load (kG1 (G1 := G1) (G2 := G2) (GT := GT)) left) = (← load kG1 right)), rp)

/-- `bp/range.go:162-258,264-277` `ProveRange` without the self-check. -/
def proveRangeUnchecked (E : Curve G1 G2 GT) (gl : Globals) (pp : RPPP Ref) (rnd : RangeRand) (V : Ref) (v : List Zr) (r : Zr) :
    Run (Cell G1 G2 GT) (RangeProof Ref × BP.PP Ref) := do
  let n := pp.Gs.length
  let m := 63
  let w := rnd.w
  let rPrime := rnd.rPrime
  let W ← mulBy kG1 pp.F rPrime
  addTo kG1 W (← mulVSum gl pp.Gs w)
  let vBits := intsToZr (Vec.vbits v m) ++ w
  let vb ← lift (sliceTo vBits (n * m))
  let wCaret ← lift (Vec.sub (expand (intToZr 1) (n * m)) vb)
  let ν := rnd.ν
  let η := rnd.η
  let Q ← mulBy kG1 pp.F ν
  addTo kG1 Q (← mulVSum gl pp.Hs vBits)
  addTo kG1 Q (← mulVSum gl (← lift (sliceTo pp.Fs (n * m))) wCaret)
  let x ← rangeProofRO1 E pp V W Q
  let γ := negZr (r + x * rPrime)
  let U ← mulBy kG1 pp.F γ
  addTo kG1 U V
  addTo kG1 U (← mulBy kG1 W x)
  let ppRdx ← rangeRdxPP E pp
  let wRdx ← lift (Vec.add v (Vec.mul w x))
  let red ← iterativeReduce E gl ppRdx wRdx U
  let xs := Vec.reverse red.2.1
  let f ← lift (rangeF n xs)
  let d ← lift (computeD n m f x)
  let s := rnd.s
  let t := rnd.t
  let R ← mulBy kG1 pp.F η
  addTo kG1 R (← mulVSum gl pp.Hs s)
  addTo kG1 R (← mulVSum gl (← lift (sliceTo pp.Fs (n * m))) t)
  let y0 ← rangeY E pp Q R x 0
  let y1 ← rangeY E pp Q R x 1
  let y0v := powerSeries (n * m) y0
  let y1v := Vec.mul (expand (intToZr 1) (n * m)) y1
  let zeros := expand (intToZr 0) n
  let aPrime ← lift (Vec.add vBits (Vec.concat y1v zeros))
  let b1 ← lift (Vec.add (Vec.mul d (y1 * y1)) (Vec.mul (Vec.concat y0v zeros) y1))
  let wy ← lift (Vec.hadamardProd wCaret y0v)
  let bPrime ← lift (Vec.add b1 (Vec.concat wy zeros))
  let ap ← lift (sliceTo aPrime (n * m))
  let y0t ← lift (Vec.hadamardProd y0v t)
  let c1 ← lift (Vec.innerProd ap y0t)
  let sb ← lift (Vec.innerProd s bPrime)
  let c1 := c1 + sb
  let sp ← lift (sliceTo s (n * m))
  let y0t ← lift (Vec.hadamardProd y0v t)
  let c2 ← lift (Vec.innerProd sp y0t)
  let τ1 := rnd.τ1
  let τ2 := rnd.τ2
  let C1 ← mulBy kG1 pp.G c1
  let C2 ← mulBy kG1 pp.G c2
  addTo kG1 C1 (← mulBy kG1 pp.H τ1)
  addTo kG1 C2 (← mulBy kG1 pp.H τ2)
  let z ← computeZ E pp C1 C2 Q R (zrBytes y0) (zrBytes y1)
  let ρ := negZr (ν + η * z)
  let τ := τ1 * z + τ2 * (z * z)
  let y0Inverse := y0⁻¹
  let Fprime ← Gv.mulV kG1 gl.zeroG1 pp.Fs (powerSeries pp.Fs.length y0Inverse)
  let a ← lift (Vec.add aPrime (Vec.mul s z))
  let y0t ← lift (Vec.hadamardProd y0v t)
  let b ← lift (Vec.add bPrime (Vec.mul (Vec.concat y0t zeros) z))
  let c ← lift (Vec.innerProd a b)
  let ipaPP ← rangeIpaPP E pp Fprime
  let ipa ← newInnerProdArgument ipaPP a b
  let ipp ← InnerProdArgument.prove E ipa
  return ({ ρ := ρ, τ := τ, C1 := C1, C2 := C2, γ := γ, c := c, Δ := red.1, u := red.2.2, Q := Q, R := R,
            W := W, ipp := ipp }, ipaPP)

/-- `bp/range.go:162-278` `ProveRange`. -/
def proveRange (E : Curve G1 G2 GT) (gl : Globals) (pp : RPPP Ref) (rnd : RangeRand) (V : Ref) (v : List Zr) (r : Zr) :
    Run (Cell G1 G2 GT) (RangeProof Ref) := do
  let p ← proveRangeUnchecked E gl pp rnd V v r
  if !(← InnerProductProof.verify E p.1.ipp p.2) then crash else return p.1

end PoL.Ptr.BP

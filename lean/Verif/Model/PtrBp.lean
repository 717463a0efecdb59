import Verif.Model.Ptr
import Verif.Model.Range

/-!
# Points in memory: inner-product argument, iterated reduction, range proofs

As `Verif/Model/InnerProd.lean`, `IterReduce.lean` and `Range.lean`, with pointers (see `Ptr.lean`).  The calls that change a point are
written as in the source; computations with scalars and bytes are those of the other files.
-/

namespace PoL.Ptr.BP

open PoL.BP

variable {G1 G2 GT : Type} [AddCommGroup G1] [Module Zr G1] [AddCommGroup G2] [Module Zr G2] [AddCommGroup GT] [Module Zr GT]

/-- The bytes hashed by `setupDigest` (`bp/innerprod.go:36-42`). -/
def digestInput (E : Curve G1 G2 GT) (pp : BP.PP Ref) : Run (Cell G1 G2 GT) Bytes := do
  let parts ← (List.range pp.G.length).mapM fun i => do
    let gi ← load kG1 (← lift pp.G[i]?)
    if pp.H.length > 0 then
      let hi ← load kG1 (← lift pp.H[i]?)
      return E.g1Bytes gi ++ E.g1Bytes hi
    else return E.g1Bytes gi
  return E.g1Bytes (← load kG1 pp.U) ++ parts.flatten

/-- `bp/innerprod.go:34-48` `setupDigest`, `RecomputeDigest`. -/
def setupDigest (E : Curve G1 G2 GT) (pp : BP.PP Ref) : Run (Cell G1 G2 GT) (BP.PP Ref) := do
  return { pp with digest := E.sha256 (← digestInput E pp) }

/-- `bp/innerprod.go:80-100` `commit`. -/
def commit (pp : BP.PP Ref) (a b : List Zr) (withU : Bool) : Run (Cell G1 G2 GT) Ref :=
  if a.length ≠ b.length then crash
  else match a, b, pp.G, pp.H with
    | a0 :: as, b0 :: bs, g0 :: gs, h0 :: hs =>
      if gs.length < as.length ∨ hs.length < as.length then crash
      else do
        let gAcc ← mulBy kG1 g0 a0
        let hAcc ← mulBy kG1 h0 b0
        ((as.zip gs).zip (bs.zip hs)).forM fun e => do
          addTo kG1 gAcc (← mulBy kG1 e.1.2 e.1.1)
          addTo kG1 hAcc (← mulBy kG1 e.2.2 e.2.1)
        addTo kG1 gAcc hAcc
        if withU then
          let c ← lift (Vec.innerProd a b)
          addTo kG1 gAcc (← mulBy kG1 pp.U c)
        return gAcc
    | _, _, _, _ => crash

/-- `bp/innerprod.go:68-78` `NewInnerProdArgument`. -/
def newInnerProdArgument (pp : BP.PP Ref) (a b : List Zr) : Run (Cell G1 G2 GT) (InnerProdArgument Ref) := do
  let C ← lift (Vec.innerProd a b)
  let P ← commit pp a b false
  return { pp := pp, a := a, b := b, C := C, P := P }

/-- `bp/innerprod.go:102-117` `computeInstanceSpecificParams`. -/
def computeInstanceSpecificParams (E : Curve G1 G2 GT) (pp : BP.PP Ref) (P : Ref) (c : Zr) : Run (Cell G1 G2 GT) (BP.PP Ref × Ref) := do
  let x ← lift (fieldElementFromBytes (E.sha256 (instanceHashInput pp P)))
  let P ← copy kG1 P
  addTo kG1 P (← mulBy kG1 pp.U (x * c))
  let U ← mulBy kG1 pp.U x
  let newPP ← setupDigest E { pp with U := U }
  return (newPP, P)

/-- `bp/innerprod.go:246-253` `randomOracle`. -/
def randomOracle (E : Curve G1 G2 GT) (L R : Ref) (x : Bytes) : Run (Cell G1 G2 GT) Bytes := do
  return PoL.BP.randomOracle E (← load kG1 L) (← load kG1 R) x

/-- `bp/innerprod.go:216-244` `computeNextParams`. -/
def computeNextParams (E : Curve G1 G2 GT) (L R : Ref) (pp : BP.PP Ref) (g h : List Ref) (P : Ref) :
    Run (Cell G1 G2 GT) (NextParams Ref) := do
  let n := g.length / 2
  let digest ← randomOracle E L R pp.digest
  let x ← lift (fieldElementFromBytes digest)
  let xInverse := x⁻¹
  let gl ← Gv.mul kG1 (← lift (sliceTo g n)) xInverse
  let gr ← Gv.mul kG1 (← lift (sliceFrom g n)) x
  let nextG ← Gv.add kG1 gl gr
  let hl ← Gv.mul kG1 (← lift (sliceTo h n)) x
  let hr ← Gv.mul kG1 (← lift (sliceFrom h n)) xInverse
  let nextH ← Gv.add kG1 hl hr
  let xSquare := x * x
  let xSquareInv := xSquare⁻¹
  let L2 ← mulBy kG1 L xSquare
  let R2 ← mulBy kG1 R xSquareInv
  let nextP ← copy kG1 L2
  addTo kG1 nextP P
  addTo kG1 nextP R2
  return { x := x, xInverse := xInverse, g := nextG, h := nextH, P := nextP }

variable [DecidableEq G1]

/-- `bp/innerprod.go:139-163` `verify`. -/
def verifyLoop (E : Curve G1 G2 GT) (pp : BP.PP Ref) (P : Ref) (g h LRs : List Ref) (a b : Zr) : Run (Cell G1 G2 GT) Bool :=
  if g.length = 1 then do
    let expectedP ← mulBy kG1 pp.U (a * b)
    addTo kG1 expectedP (← mulBy kG1 (← lift g[0]?) a)
    addTo kG1 expectedP (← mulBy kG1 (← lift h[0]?) b)
    return decide ((← load (kG1 (G1 := G1) (G2 := G2) (GT := GT)) expectedP) = (← load kG1 P))
  else
    match LRs with
    | L :: R :: LRs' => do
      let np ← computeNextParams E L R pp g h P
      verifyLoop E pp np.P np.g np.h LRs' a b
    | _ => crash

/-- `bp/innerprod.go:134-137` `(*InnerProductProof).Verify`. -/
def InnerProductProof.verify (E : Curve G1 G2 GT) (ipp : InnerProductProof Ref) (pp : BP.PP Ref) : Run (Cell G1 G2 GT) Bool := do
  let r ← computeInstanceSpecificParams E pp ipp.P ipp.C
  verifyLoop E r.1 r.2 r.1.G r.1.H ipp.LRs ipp.a ipp.b

omit [DecidableEq G1] in
/-- `bp/innerprod.go:165-208` `prove`.  `fuel` bounds the depth of the recursion: the length of `g` is enough, as it halves.
With empty generators `a[:n].Exp(g[n:])` panics (index), hence the guard. -/
def proveLoop (E : Curve G1 G2 GT) (fuel : ℕ) (pp : BP.PP Ref) (a b : List Zr) (P : Ref) (g h : List Ref) :
    Run (Cell G1 G2 GT) (List Ref × Zr × Zr) :=
  if g.length ≠ h.length then crash
  else if g.length = 1 then do
    return ([], ← lift a[0]?, ← lift b[0]?)
  else if g.length = 0 then crash
  else match fuel with
    | 0 => crash
    | fuel + 1 => do
      let n := g.length / 2
      let aL ← lift (sliceTo a n)
      let aR ← lift (sliceFrom a n)
      let bL ← lift (sliceTo b n)
      let bR ← lift (sliceFrom b n)
      let cL ← lift (Vec.innerProd aL bR)
      let cR ← lift (Vec.innerProd aR bL)
      let L ← exp kG1 aL (← lift (sliceFrom g n))
      let Lh ← exp kG1 bR (← lift (sliceTo h n))
      addTo kG1 L Lh
      addTo kG1 L (← mulBy kG1 pp.U cL)
      let R ← exp kG1 aR (← lift (sliceTo g n))
      let Rh ← exp kG1 bL (← lift (sliceFrom h n))
      addTo kG1 R Rh
      addTo kG1 R (← mulBy kG1 pp.U cR)
      let np ← computeNextParams E L R pp g h P
      let a' ← lift (Vec.add (Vec.mul aL np.x) (Vec.mul aR np.xInverse))
      let b' ← lift (Vec.add (Vec.mul bL np.xInverse) (Vec.mul bR np.x))
      let r ← proveLoop E fuel pp a' b' np.P np.g np.h
      return ([L, R] ++ r.1, r.2)

omit [DecidableEq G1] in
/-- `bp/innerprod.go:119-132` `(*InnerProdArgument).Prove`: the proof has the pointer `P` of the argument. -/
def InnerProdArgument.prove (E : Curve G1 G2 GT) (ipa : InnerProdArgument Ref) : Run (Cell G1 G2 GT) (InnerProductProof Ref) := do
  let s ← computeInstanceSpecificParams E ipa.pp ipa.P ipa.C
  let r ← proveLoop E ipa.pp.G.length s.1 ipa.a ipa.b s.2 ipa.pp.G ipa.pp.H
  return { C := ipa.C, P := ipa.P, LRs := r.1, a := r.2.1, b := r.2.2 }

omit [DecidableEq G1] in
/-- The round challenge (`bp/ir.go:27`, `bp/ir.go:74`). -/
def irChallenge (E : Curve G1 G2 GT) (digest : Bytes) (A B V : Ref) : Run (Cell G1 G2 GT) Zr := do
  let o ← randomOracle E A B digest
  lift (fieldElementFromBytes (appendVToChallenge E o (← load kG1 V)))

/-- Loop of `IterativeVerify` (`bp/ir.go:25-51`). -/
def iterVerifyLoop (E : Curve G1 G2 GT) (digest : Bytes) (vFinal : Zr) (n : ℕ) (G : List Ref) (prevV : Ref)
    (Δ : List (Ref × Ref × Ref)) (finalV : Option Ref) (xs : List Zr) : Run (Cell G1 G2 GT) (Option (List Zr × Zr)) :=
  if hn : n = 0 then do
    let g ← mulBy kG1 (← lift G[0]?) vFinal
    let fV ← lift finalV
    if (← load (kG1 (G1 := G1) (G2 := G2) (GT := GT)) g) = (← load kG1 fV) then return some (xs, vFinal) else return none
  else
    match Δ with
    | [] => crash
    | (A, B, V) :: Δ' => do
      let x ← irChallenge E digest A B prevV
      let shouldBeV ← mulBy kG1 A x
      let Bx ← mulBy kG1 B x⁻¹
      addTo kG1 shouldBeV Bx
      addTo kG1 shouldBeV prevV
      if (← load (kG1 (G1 := G1) (G2 := G2) (GT := GT)) V) ≠ (← load kG1 shouldBeV) then return none
      else
        let GL ← lift (sliceTo G n)
        let GR ← Gv.mul kG1 (← lift (sliceFrom G n)) x⁻¹
        let G' ← Gv.add kG1 GL GR
        iterVerifyLoop E digest vFinal (n / 2) G' V Δ' (some V) (xs ++ [x])
termination_by n
decreasing_by omega

/-- `bp/ir.go:11-55` `IterativeVerify`. -/
def iterativeVerify (E : Curve G1 G2 GT) (pp : BP.PP Ref) (prevV : Ref) (Δ : List (Ref × Ref × Ref)) (vFinal : Zr) :
    Run (Cell G1 G2 GT) (Option (List Zr × Zr)) := do
  let n := pp.G.length
  if !(← lift (isPowerOfTwo (UInt16.ofNat n))) then crash
  else iterVerifyLoop E pp.digest vFinal (n / 2) pp.G prevV Δ none []

/-- Loop of `IterativeReduce` (`bp/ir.go:69-88`). -/
def iterReduceLoop (E : Curve G1 G2 GT) (gl : Globals) (digest : Bytes) (n : ℕ) (G : List Ref) (v : List Zr) (V : Ref)
    (Δ : List (Ref × Ref × Ref)) (xs : List Zr) : Run (Cell G1 G2 GT) (List (Ref × Ref × Ref) × List Zr × Zr) :=
  if _hn : n = 0 then
    match v with
    | [v0] => pure (Δ, xs, v0)
    | _ => crash
  else do
    let GL ← lift (sliceTo G n)
    let GR ← lift (sliceFrom G n)
    let vL ← lift (sliceTo v n)
    let vR ← lift (sliceFrom v n)
    let A ← Gv.sum kG1 (← Gv.mulV kG1 gl.zeroG1 GL vR)
    let B ← Gv.sum kG1 (← Gv.mulV kG1 gl.zeroG1 GR vL)
    let x ← irChallenge E digest A B V
    let G' ← Gv.add kG1 GL (← Gv.mul kG1 GR x⁻¹)
    let v' ← lift (Vec.add vL (Vec.mul vR x))
    let V' ← Gv.sum kG1 (← Gv.mulV kG1 gl.zeroG1 G' v')
    iterReduceLoop E gl digest (n / 2) G' v' V' (Δ ++ [(A, B, V')]) (xs ++ [x])
termination_by n
decreasing_by omega

/-- `bp/ir.go:57-89` `IterativeReduce`. -/
def iterativeReduce (E : Curve G1 G2 GT) (gl : Globals) (pp : BP.PP Ref) (v : List Zr) (V : Ref) :
    Run (Cell G1 G2 GT) (List (Ref × Ref × Ref) × List Zr × Zr) := do
  let n := pp.G.length
  if !(← lift (isPowerOfTwo (UInt16.ofNat n))) then crash
  else iterReduceLoop E gl pp.digest (n / 2) pp.G v V [] []

end PoL.Ptr.BP

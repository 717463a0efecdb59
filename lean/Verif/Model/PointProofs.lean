import Verif.Model.Common

/-!
# `pp/pointproofs.go`: the vector commitment
-/

namespace PoL

variable {G1 G2 GT : Type} [AddCommGroup G1] [Module Zr G1] [AddCommGroup G2] [Module Zr G2]
  [AddCommGroup GT] [Module Zr GT]

/-- `pp/pointproofs.go:17-23` `PP`. -/
structure PP (G1 G2 GT : Type) where
  digest : Bytes
  N : ℕ
  G1s : List G1
  G2s : List G2
  Gt : GT

namespace PP

/-- `pp/pointproofs.go:67-77` `SetupDigest`. -/
def setupDigest (E : Curve G1 G2 GT) (pp : PP G1 G2 GT) : PP G1 G2 GT :=
  { pp with digest := E.sha256 (pp.G1s.flatMap E.g1Bytes ++ pp.G2s.flatMap E.g2Bytes ++ E.gtBytes pp.Gt) }

/-- `pp/pointproofs.go:25-61` `NewPublicParams`; `α` is the scalar drawn at line 26.  The loops at 41-43,
48-50 and 52-54 run over the exponents `1..N`, `N+2..2N` and `1..N`. -/
def newPublicParams (E : Curve G1 G2 GT) (α : Zr) (N : ℕ) : PP G1 G2 GT :=
  let g1α := fun i : ℕ => α ^ i • E.genG1
  let g2α := fun i : ℕ => α ^ i • E.genG2
  setupDigest E
    { digest := []
      N := N
      G1s := (List.range N).map (fun k => g1α (k + 1))
        ++ [E.genG1]
        ++ (List.range (N - 1)).map (fun k => g1α (N + 2 + k))
      G2s := (List.range N).map (fun k => g2α (k + 1))
      Gt := α ^ (N + 1) • E.genGt }

/-- `pp/pointproofs.go:63-65` `Size`. -/
def size (E : Curve G1 G2 GT) (pp : PP G1 G2 GT) : ℕ :=
  (g1vBytes E pp.G1s).length + (g2vBytes E pp.G2s).length + (E.gtBytes pp.Gt).length

variable [DecidableEq G1] [DecidableEq GT]

/-- `pp/pointproofs.go:79-90` `Commit`: panics on a length mismatch. -/
def commit (pp : PP G1 G2 GT) (m : List Zr) : Option G1 :=
  if m.length ≠ pp.N then none
  else do
    let powersOfAlpha ← (List.range pp.N).mapM fun i => pp.G1s[i]?
    Gv.sum (← Gv.mulV powersOfAlpha m)

/-- `pp/pointproofs.go:92-114` `Open`: panics if `i ≥ N` or `m` is too short.  The loop variable `j` of
the code (from 1) is `j0 + 1` here. -/
def openAt (pp : PP G1 G2 GT) (i : ℕ) (m : List Zr) : Option (Zr × G1) :=
  if i ≥ pp.N then none
  else do
    let shift := pp.N - i
    let js := (List.range pp.N).filter fun j0 => j0 + 1 ≠ i + 1
    let elements ← js.mapM fun j0 => pp.G1s[shift + (j0 + 1) - 1]?
    let exponents ← js.mapM fun j0 => m[j0 + 1 - 1]?
    let π ← Gv.sum (← Gv.mulV elements exponents)
    let mi ← m[i]?
    return (mi, π)

/-- `pp/pointproofs.go:116-125` `Verify`: panics (index) if `i ≥ N`. -/
def verify (E : Curve G1 G2 GT) (pp : PP G1 G2 GT) (mi : Zr) (π C : G1) (i : ℕ) : Option Bool :=
  if pp.N < i + 1 then none
  else do
    let g2 ← pp.G2s[pp.N - i - 1]?
    let left ← pairProd E [C] [g2]
    let right ← pairProd E [π] [E.genG2]
    let right := right + mi • pp.Gt
    return decide (left = right)

/-- `pp/pointproofs.go:127-132` `Update`: returns the new value of `C`; panics (index) out of range. -/
def update (pp : PP G1 G2 GT) (C : G1) (m : List Zr) (mi : Zr) (i : ℕ) : Option G1 := do
  let g ← pp.G1s[i]?
  let prevG := (← m[i]?) • g
  let nextG := mi • g
  return C - prevG + nextG

/-- `pp/pointproofs.go:134-145` `Aggregate`. -/
def aggregate (pp : PP G1 G2 GT) (commitments proofs : List G1)
    (RO : PP G1 G2 GT → List G1 → ℕ → Option Zr) : Option G1 :=
  if proofs.length ≠ commitments.length then none
  else do
    let π ← (List.range proofs.length).mapM fun j => do
      return (← RO pp commitments j) • (← proofs[j]?)
    Gv.sum π

/-- `pp/pointproofs.go:147-168` `VerifyAggregation`. -/
def verifyAggregation (E : Curve G1 G2 GT) (pp : PP G1 G2 GT) (indices : List ℕ) (commitments : List G1)
    (π : G1) (sig : Zr) (RO : PP G1 G2 GT → List G1 → ℕ → Option Zr) : Option Bool := do
  let exponents ← (List.range indices.length).mapM fun i => RO pp commitments i
  let g2s ← indices.mapM fun i => if pp.N < i + 1 then none else pp.G2s[pp.N - i - 1]?
  let left ← pairProd E commitments (← Gv.mulv2 g2s exponents)
  let πg2 ← pairProd E [π] [E.genG2]
  let right := sig • pp.Gt + πg2
  return decide (right = left)

/-- The hash input of `RO` (`pp/pointproofs.go:171-176`). -/
def roInput (E : Curve G1 G2 GT) (pp : PP G1 G2 GT) (cs : List G1) (i : ℕ) : Bytes :=
  pp.digest ++ [UInt8.ofNat i] ++ cs.flatMap E.g1Bytes

/-- `pp/pointproofs.go:170-180` `RO`. -/
def ro (E : Curve G1 G2 GT) (pp : PP G1 G2 GT) (cs : List G1) (i : ℕ) : Option Zr :=
  fieldElementFromBytes (E.sha256 (roInput E pp cs i))

end PP
end PoL

import Verif.Model.Common

/-!
# `bp/innerprod.go`: the inner-product argument
-/

namespace PoL

variable {G1 G2 GT : Type} [AddCommGroup G1] [Module Zr G1] [AddCommGroup G2] [Module Zr G2]
  [AddCommGroup GT] [Module Zr GT]

/-- The slice expression `l[:n]`: panics if `n` exceeds the length.
Simplification: capacity is taken to be the length. -/
def sliceTo {α : Type} (l : List α) (n : ℕ) : Option (List α) :=
  if n ≤ l.length then some (l.take n) else none

/-- The slice expression `l[n:]`: panics if `n` exceeds the length. -/
def sliceFrom {α : Type} (l : List α) (n : ℕ) : Option (List α) :=
  if n ≤ l.length then some (l.drop n) else none

namespace BP

/-- `bp/innerprod.go:11-16` `PP`. -/
structure PP (G1 : Type) where
  digest : Bytes
  G : List G1
  H : List G1
  U : G1

/-- The bytes hashed by `setupDigest` (`bp/innerprod.go:36-42`): `U`, then `G[i]`, `H[i]` alternating
(`H[i]` only if `H` is non-empty; panics (index) if `H` is shorter than `G`). -/
def digestInput (E : Curve G1 G2 GT) (pp : PP G1) : Option Bytes := do
  let parts ← (List.range pp.G.length).mapM fun i => do
    let gi ← pp.G[i]?
    if pp.H.length > 0 then
      let hi ← pp.H[i]?
      return E.g1Bytes gi ++ E.g1Bytes hi
    else return E.g1Bytes gi
  return E.g1Bytes pp.U ++ parts.flatten

/-- `bp/innerprod.go:34-48` `setupDigest`, `RecomputeDigest`. -/
def setupDigest (E : Curve G1 G2 GT) (pp : PP G1) : Option (PP G1) := do
  return { pp with digest := E.sha256 (← digestInput E pp) }

/-- `bp/innerprod.go:30-32` `PP.Size`: the encoded lengths of both vectors of bases and of `U`.  Nothing calls it. -/
def PP.size (E : Curve G1 G2 GT) (pp : PP G1) : ℕ :=
  (g1vBytes E pp.G).length + (g1vBytes E pp.H).length + (E.g1Bytes pp.U).length

/-- `bp/innerprod.go:18-28` `NewPublicParams`. -/
def newPublicParams (E : Curve G1 G2 GT) (n : ℕ) : Option (PP G1) := do
  let U ← (randGenVec E 1 "u")[0]?
  setupDigest E { digest := [], G := randGenVec E n "g", H := randGenVec E n "h", U := U }

/-- `bp/innerprod.go:50-55` `InnerProdArgument`. -/
structure InnerProdArgument (G1 : Type) where
  pp : PP G1
  a : List Zr
  b : List Zr
  C : Zr
  P : G1

/-- `bp/innerprod.go:57-62` `InnerProductProof`. -/
structure InnerProductProof (G1 : Type) where
  LRs : List G1
  a : Zr
  b : Zr
  P : G1
  C : Zr

/-- `bp/innerprod.go:64-66` `Size`. -/
def InnerProductProof.size (E : Curve G1 G2 GT) (ipp : InnerProductProof G1) : ℕ :=
  (g1vBytes E ipp.LRs).length + (zrBytes ipp.a).length + (zrBytes ipp.b).length
    + (E.g1Bytes ipp.P).length + (zrBytes ipp.C).length

/-- `bp/innerprod.go:80-100` `commit`; `withU` is `u != nil`.  Panics if the scalar vectors differ in
length or are empty, or if `G` or `H` is shorter than them. -/
def commit (pp : PP G1) (a b : List Zr) (withU : Bool) : Option G1 :=
  if a.length ≠ b.length then none
  else if a.length = 0 ∨ pp.G.length < a.length ∨ pp.H.length < a.length then none
  else do
    let gAcc := (List.zipWith (fun x g => x • g) a pp.G).foldl (· + ·) 0
    let hAcc := (List.zipWith (fun x h => x • h) b pp.H).foldl (· + ·) 0
    let gAcc := gAcc + hAcc
    if withU then return gAcc + (← Vec.innerProd a b) • pp.U else return gAcc

/-- `bp/innerprod.go:68-78` `NewInnerProdArgument`. -/
def newInnerProdArgument (pp : PP G1) (a b : List Zr) : Option (InnerProdArgument G1) := do
  let C ← Vec.innerProd a b
  let P ← commit pp a b false
  return { pp := pp, a := a, b := b, C := C, P := P }

/-- The hash input of the first challenge (`bp/innerprod.go:105-107`).  Line 107 is
`hashPreImage = append(pp.Digest)`, which discards the bytes of `P` appended at line 106. -/
def instanceHashInput (pp : PP G1) (_P : G1) : Bytes := pp.digest

/-- `bp/innerprod.go:102-117` `computeInstanceSpecificParams`. -/
def computeInstanceSpecificParams (E : Curve G1 G2 GT) (pp : PP G1) (P : G1) (c : Zr) :
    Option (PP G1 × G1) := do
  let x ← fieldElementFromBytes (E.sha256 (instanceHashInput pp P))
  let P' := P + (x * c) • pp.U
  let newPP ← setupDigest E { pp with U := x • pp.U }
  return (newPP, P')

/-- `bp/innerprod.go:246-253` `randomOracle`. -/
def randomOracle (E : Curve G1 G2 GT) (L R : G1) (x : Bytes) : Bytes :=
  E.sha256 (E.g1Bytes L ++ E.g1Bytes R ++ x)

/-- `bp/innerprod.go:210-214` `nextParams`. -/
structure NextParams (G1 : Type) where
  x : Zr
  xInverse : Zr
  g : List G1
  h : List G1
  P : G1

/-- `bp/innerprod.go:216-244` `computeNextParams`.  `InvModP` of zero leaves zero, as does `⁻¹`. -/
def computeNextParams (E : Curve G1 G2 GT) (L R : G1) (pp : PP G1) (g h : List G1) (P : G1) :
    Option (NextParams G1) := do
  let n := g.length / 2
  let x ← fieldElementFromBytes (randomOracle E L R pp.digest)
  let xInverse := x⁻¹
  let nextG ← Gv.hadamardProd (Gv.mul (← sliceTo g n) xInverse) (Gv.mul (← sliceFrom g n) x)
  let nextH ← Gv.hadamardProd (Gv.mul (← sliceTo h n) x) (Gv.mul (← sliceFrom h n) xInverse)
  let xSquare := x * x
  let xSquareInv := xSquare⁻¹
  let L2 := xSquare • L
  let R2 := xSquareInv • R
  return { x := x, xInverse := xInverse, g := nextG, h := nextH, P := L2 + P + R2 }

variable [DecidableEq G1]

/-- `bp/innerprod.go:139-163` `verify` (protocol 2, verifier): recursion on the list of `(L,R)` pairs.
Panics (index) if pairs are missing; surplus pairs are ignored. -/
def verifyLoop (E : Curve G1 G2 GT) (pp : PP G1) (P : G1) (g h LRs : List G1) (a b : Zr) :
    Option Bool :=
  if g.length = 1 then do
    let g0 ← g[0]?
    let h0 ← h[0]?
    let expectedP := (a * b) • pp.U + a • g0 + b • h0
    return decide (expectedP = P)
  else
    match LRs with
    | L :: R :: LRs' =>
      match computeNextParams E L R pp g h P with
      | none => none
      | some np => verifyLoop E pp np.P np.g np.h LRs' a b
    | _ => none

/-- `bp/innerprod.go:134-137` `(*InnerProductProof).Verify`. -/
def InnerProductProof.verify (E : Curve G1 G2 GT) (ipp : InnerProductProof G1) (pp : PP G1) :
    Option Bool := do
  let (pp', P) ← computeInstanceSpecificParams E pp ipp.P ipp.C
  verifyLoop E pp' P pp'.G pp'.H ipp.LRs ipp.a ipp.b

omit [DecidableEq G1] in
theorem computeNextParams_g_length {E : Curve G1 G2 GT} {L R : G1} {pp : PP G1} {g h : List G1}
    {P : G1} {np : NextParams G1} (hnp : computeNextParams E L R pp g h P = some np) :
    np.g.length = g.length / 2 := by
  simp only [computeNextParams, Option.bind_eq_bind, Option.pure_def, sliceTo, sliceFrom,
    Gv.hadamardProd] at hnp
  rw [if_pos (by omega), if_pos (by omega)] at hnp
  simp only [Option.bind_eq_some_iff, Option.bind_some] at hnp
  obtain ⟨x, -, ng, hng, -, -, -, -, nh, -, hr⟩ := hnp
  cases hr
  have hlt : ¬ (Gv.mul (List.drop (g.length / 2) g) x).length
      < (Gv.mul (List.take (g.length / 2) g) x⁻¹).length := by
    simp only [Gv.mul, List.length_map, List.length_take, List.length_drop]; omega
  rw [if_neg hlt] at hng
  cases hng
  simp only [Gv.mul, List.length_zipWith, List.length_map, List.length_take, List.length_drop]
  omega

/-- `bp/innerprod.go:165-208` `prove` (protocol 2, prover): returns the `(L,R)` pairs, flattened, and the
final `a`, `b`.  With empty generators `a[:n].Exp(g[n:])` panics (index), hence the guard. -/
def proveLoop (E : Curve G1 G2 GT) (pp : PP G1) (a b : List Zr) (P : G1) (g h : List G1) :
    Option (List G1 × Zr × Zr) :=
  if g.length ≠ h.length then none
  else if g.length = 1 then do
    return ([], ← a[0]?, ← b[0]?)
  else if g.length = 0 then none
  else
    let n := g.length / 2
    match (do
        let aL ← sliceTo a n
        let aR ← sliceFrom a n
        let bL ← sliceTo b n
        let bR ← sliceFrom b n
        let cL ← Vec.innerProd aL bR
        let cR ← Vec.innerProd aR bL
        let Lg ← Vec.exp aL (← sliceFrom g n)
        let Lh ← Vec.exp bR (← sliceTo h n)
        let L := Lg + Lh + cL • pp.U
        let Rg ← Vec.exp aR (← sliceTo g n)
        let Rh ← Vec.exp bL (← sliceFrom h n)
        let R := Rg + Rh + cR • pp.U
        return (aL, aR, bL, bR, L, R) : Option _) with
    | none => none
    | some (aL, aR, bL, bR, L, R) =>
      match _hnp : computeNextParams E L R pp g h P with
      | none => none
      | some np => do
        let a' ← Vec.add (Vec.mul aL np.x) (Vec.mul aR np.xInverse)
        let b' ← Vec.add (Vec.mul bL np.xInverse) (Vec.mul bR np.x)
        let (LRs, ab) ← proveLoop E pp a' b' np.P np.g np.h
        return ([L, R] ++ LRs, ab)
termination_by g.length
decreasing_by
  have := computeNextParams_g_length _hnp
  omega

/-- `bp/innerprod.go:119-132` `(*InnerProdArgument).Prove`. -/
def InnerProdArgument.prove (E : Curve G1 G2 GT) (ipa : InnerProdArgument G1) :
    Option (InnerProductProof G1) := do
  let (pp, P) ← computeInstanceSpecificParams E ipa.pp ipa.P ipa.C
  let (LRs, a, b) ← proveLoop E pp ipa.a ipa.b P ipa.pp.G ipa.pp.H
  return { C := ipa.C, P := ipa.P, LRs := LRs, a := a, b := b }

end BP
end PoL

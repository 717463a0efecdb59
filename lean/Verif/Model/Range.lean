import Verif.Model.IterReduce

/-!
# `bp/range.go`: range proofs
-/

namespace PoL.BP

variable {G1 G2 GT : Type} [AddCommGroup G1] [Module Zr G1] [AddCommGroup G2] [Module Zr G2]
  [AddCommGroup GT] [Module Zr GT]

/-- `bp/range.go:12-16` `RangeProofPublicParams`. -/
structure RPPP (G1 : Type) where
  G : G1
  H : G1
  F : G1
  Gs : List G1
  Hs : List G1
  Fs : List G1
  digest : Bytes

/-- The bytes hashed by `Digest` (`bp/range.go:43-49`). -/
def RPPP.digestInput (E : Curve G1 G2 GT) (pp : RPPP G1) : Bytes :=
  E.g1Bytes pp.G ++ E.g1Bytes pp.H ++ E.g1Bytes pp.F ++ g1vBytes E pp.Gs ++ g1vBytes E pp.Hs
    ++ g1vBytes E pp.Fs

/-- `bp/range.go:38-53` `Digest`: the cached digest, if there is one.
Simplification: the caching itself (line 51) is not a state change here; it is made explicit where the
parameters are created (`newRangeProofPublicParams`). -/
def RPPP.getDigest (E : Curve G1 G2 GT) (pp : RPPP G1) : Bytes :=
  if pp.digest.length ≠ 0 then pp.digest else E.sha256 (pp.digestInput E)

/-- `bp/range.go:18-32` `NewRangeProofPublicParams`. -/
def newRangeProofPublicParams (E : Curve G1 G2 GT) (n : ℕ) : Option (RPPP G1) := do
  let m := 63
  let pp : RPPP G1 :=
    { G := ← (randGenVec E 1 "range proof G")[0]?
      H := ← (randGenVec E 1 "range proof H")[0]?
      F := ← (randGenVec E 1 "range proof F")[0]?
      Fs := randGenVec E (n * (m + 1)) "range proof Fs"
      Hs := randGenVec E (n * (m + 1)) "range proof Hs"
      Gs := randGenVec E n "range proof Gs"
      digest := [] }
  return { pp with digest := pp.getDigest E }

/-- `bp/range.go:34-36` `(*RangeProofPublicParams).Size`. -/
def RPPP.size (E : Curve G1 G2 GT) (pp : RPPP G1) : ℕ :=
  (g1vBytes E pp.Gs).length + (g1vBytes E pp.Hs).length + (g1vBytes E pp.Fs).length
    + (E.g1Bytes pp.G).length + (E.g1Bytes pp.H).length + (E.g1Bytes pp.F).length

/-- `bp/range.go:55-64` `RangeProof`. -/
structure RangeProof (G1 : Type) where
  Δ : List (G1 × G1 × G1)
  u : Zr
  W : G1
  γ : Zr
  /-- field `Π` in the source -/
  ipp : InnerProductProof G1
  c : Zr
  Q : G1
  R : G1
  C1 : G1
  C2 : G1
  τ : Zr
  ρ : Zr

/-- `bp/range.go:66-79` `(*RangeProof).Size`. -/
def RangeProof.size (E : Curve G1 G2 GT) (rp : RangeProof G1) : ℕ :=
  let size := (zrBytes rp.τ).length + (zrBytes rp.ρ).length + (E.g1Bytes rp.Q).length
    + (E.g1Bytes rp.R).length + (E.g1Bytes rp.C1).length + (E.g1Bytes rp.C2).length
  let size := size + (zrBytes rp.c).length
  let size := size + rp.ipp.size E
  let size := size + (zrBytes rp.γ).length
  let size := size + (E.g1Bytes rp.W).length
  let size := size + (zrBytes rp.u).length
  rp.Δ.foldl (fun size d => size + (E.g1Bytes d.1).length + (E.g1Bytes d.2.1).length
    + (E.g1Bytes d.2.2).length) size

/-- `bp/range.go:314-320` `expand`. -/
def expand (x : Zr) (n : ℕ) : List Zr := List.replicate n x

/-- `bp/range.go:322-333` `bitDecomposition`: the bits of `n`, least significant first, in as many entries
as `max` has bits (`bits.Len16` is `Nat.size`); panics (index) if `n` has more. -/
def bitDecomposition (n max : ℕ) : Option (List ℕ) :=
  let bitNum := Nat.size max
  let bs := bitsLoop n
  if bs.length ≤ bitNum then some (bs ++ List.replicate (bitNum - bs.length) 0) else none

/-- The loop computing `f` (`bp/range.go:105-109`, `bp/range.go:202-206`), given the reversed challenges.
Simplification: `uint16(n)` is `n` (the caller has panicked for larger `n`). -/
def rangeF (n : ℕ) (xs : List Zr) : Option (List Zr) :=
  (List.range n).mapM fun i => do
    let iBits ← bitDecomposition i (n - 1)
    Vec.product (← Vec.powBitVec xs iBits)

/-- `bp/range.go:302-312` `computeD`. -/
def computeD (n m : ℕ) (f : List Zr) (x : Zr) : Option (List Zr) := do
  let d ← (List.range n).mapM fun i => do
    let fi ← f[i]?
    return (List.range m).map fun j => pow2 j * fi
  return d.flatten ++ Vec.mul f x

/-- `bp/range.go:335-343` `rangeProofRO1`. -/
def rangeProofRO1 (E : Curve G1 G2 GT) (pp : RPPP G1) (V W Q : G1) : Option Zr :=
  fieldElementFromBytes (E.sha256 (pp.getDigest E ++ E.g1Bytes V ++ E.g1Bytes W ++ E.g1Bytes Q))

/-- The challenges `y0`, `y1` (`bp/range.go:113-120`, `bp/range.go:216-223`): `tag` is the first byte. -/
def rangeY (E : Curve G1 G2 GT) (pp : RPPP G1) (Q R : G1) (x : Zr) (tag : UInt8) : Option Zr :=
  fieldElementFromBytes (randomOracle E Q R ([tag] ++ pp.getDigest E ++ zrBytes x))

/-- `bp/range.go:291-300` `computeZ`. -/
def computeZ (E : Curve G1 G2 GT) (pp : RPPP G1) (C1 C2 Q R : G1) (y0 y1 : Bytes) : Option Zr :=
  fieldElementFromBytes
    (randomOracle E Q R (pp.getDigest E ++ E.g1Bytes C1 ++ E.g1Bytes C2 ++ y0 ++ y1))

variable [DecidableEq G1]

/-- `bp/range.go:280-289` `computeP`. -/
def computeP (pp : RPPP G1) (ρ : Zr) (Q R : G1) (z : Zr) (y1v : List Zr) (n m : ℕ) (Fprime : List G1)
    (d : List Zr) (y1 : Zr) : Option G1 := do
  let P := ρ • pp.F
  let P := P + Q
  let P := P + z • R
  let P := P + (← Gv.sum (← Gv.mulV (← sliceTo pp.Hs (n * m)) y1v))
  let P := P + (← Gv.sum (← Gv.mulV Fprime (Vec.mul d (y1 * y1))))
  let P := P + (← Gv.sum (← Gv.mulV (← sliceTo pp.Fs (n * m)) y1v))
  return P

/-- The parameters of the iterated reduction (`bp/range.go:93-97`, `bp/range.go:192-196`). -/
def rangeRdxPP (E : Curve G1 G2 GT) (pp : RPPP G1) : Option (PP G1) := do
  setupDigest E { digest := [], G := pp.Gs, H := [], U := ← (randGenVec E 1 "U range proof")[0]? }

/-- The parameters of the inner-product argument (`bp/range.go:127-134`, `bp/range.go:249-254`). -/
def rangeIpaPP (E : Curve G1 G2 GT) (pp : RPPP G1) (Fprime : List G1) : Option (PP G1) := do
  setupDigest E { digest := [], G := pp.Hs, H := Fprime, U := ← (randGenVec E 1 "u")[0]? }

/-- `bp/range.go:81-160` `VerifyRange`.  Returns the verdict and the proof as the call leaves it (lines
136-137 overwrite two fields of `rp.Π`). -/
def verifyRangeState (E : Curve G1 G2 GT) (pp : RPPP G1) (rp : RangeProof G1) (V : G1) :
    Option (Bool × RangeProof G1) := do
  let m := 63
  let n := pp.Gs.length
  let x ← rangeProofRO1 E pp V rp.W rp.Q
  let U := rp.γ • pp.F + V + x • rp.W
  let ppRdx ← rangeRdxPP E pp
  match ← iterativeVerify E ppRdx U rp.Δ rp.u with
  | none => return (false, rp)
  | some (xs, u) =>
    let xs := Vec.reverse xs
    let f ← rangeF n xs
    let d ← computeD n m f x
    let y0 ← rangeY E pp rp.Q rp.R x 0
    let y1 ← rangeY E pp rp.Q rp.R x 1
    let y0v := powerSeries (n * m) y0
    let y1v := Vec.mul (expand (intToZr 1) (n * m)) y1
    let z ← computeZ E pp rp.C1 rp.C2 rp.Q rp.R (zrBytes y0) (zrBytes y1)
    let y0Inverse := y0⁻¹
    let Fprime ← Gv.mulV pp.Fs (powerSeries pp.Fs.length y0Inverse)
    let ipaPP ← rangeIpaPP E pp Fprime
    let P ← computeP pp rp.ρ rp.Q rp.R z y1v n m Fprime d y1
    let rp := { rp with ipp := { rp.ipp with C := rp.c, P := P } }
    if !(← rp.ipp.verify E ipaPP) then return (false, rp)
    else
      let β1 ← Vec.innerProd (expand (intToZr 1) (n * m)) y0v
      let β2 ← Vec.innerProd (expand (intToZr 1) (n * m)) y0v
      let β3 ← Vec.innerProd (expand (intToZr 1) (n * m)) (← sliceTo d (n * m))
      let c0 := β3 * (y1 * y1 * y1) + y1 * y1 * (u + β2) + β1 * y1
      let left := z • rp.C1 + (z * z) • rp.C2 + c0 • pp.G
      let right := rp.c • pp.G + rp.τ • pp.H
      return (decide (left = right), rp)

/-- The verdict of `VerifyRange`. -/
def verifyRange (E : Curve G1 G2 GT) (pp : RPPP G1) (rp : RangeProof G1) (V : G1) : Option Bool :=
  (verifyRangeState E pp rp V).map Prod.fst

/-- The random values drawn by `ProveRange` (`bp/range.go:168`, 178, 210, 232), in order. -/
structure RangeRand where
  w : List Zr
  rPrime : Zr
  ν : Zr
  η : Zr
  s : List Zr
  t : List Zr
  τ1 : Zr
  τ2 : Zr

/-- `common/math.go:101-113` `RandVec(n)` returns `n` scalars.  Simplification: the scalars are given, whatever they are;
that the source of randomness cannot be obtained (a panic) is left out. -/
def RangeRand.WellFormed (rnd : RangeRand) (n : ℕ) : Prop :=
  rnd.w.length = n ∧ rnd.s.length = n * 63 + n ∧ rnd.t.length = n * 63

/-- `bp/range.go:162-258,264-277` `ProveRange` without the self-check, given its random values.  Also
returns the parameters of the inner-product argument. -/
def proveRangeUnchecked (E : Curve G1 G2 GT) (pp : RPPP G1) (rnd : RangeRand) (V : G1) (v : List Zr)
    (r : Zr) : Option (RangeProof G1 × PP G1) := do
  let n := pp.Gs.length
  let m := 63
  let w := rnd.w
  let rPrime := rnd.rPrime
  let W := rPrime • pp.F + (← Gv.sum (← Gv.mulV pp.Gs w))
  let vBits := intsToZr (Vec.vbits v m) ++ w
  let wCaret ← Vec.sub (expand (intToZr 1) (n * m)) (← sliceTo vBits (n * m))
  let ν := rnd.ν
  let η := rnd.η
  let Q := ν • pp.F + (← Gv.sum (← Gv.mulV pp.Hs vBits))
    + (← Gv.sum (← Gv.mulV (← sliceTo pp.Fs (n * m)) wCaret))
  let x ← rangeProofRO1 E pp V W Q
  let γ := negZr (r + x * rPrime)
  let U := γ • pp.F + V + x • W
  let ppRdx ← rangeRdxPP E pp
  let wRdx ← Vec.add v (Vec.mul w x)
  let (Δ, xs, u) ← iterativeReduce E ppRdx wRdx U
  let xs := Vec.reverse xs
  let f ← rangeF n xs
  let d ← computeD n m f x
  let s := rnd.s
  let t := rnd.t
  let R := η • pp.F + (← Gv.sum (← Gv.mulV pp.Hs s))
    + (← Gv.sum (← Gv.mulV (← sliceTo pp.Fs (n * m)) t))
  let y0 ← rangeY E pp Q R x 0
  let y1 ← rangeY E pp Q R x 1
  let y0v := powerSeries (n * m) y0
  let y1v := Vec.mul (expand (intToZr 1) (n * m)) y1
  let zeros := expand (intToZr 0) n
  let aPrime ← Vec.add vBits (Vec.concat y1v zeros)
  let b1 ← Vec.add (Vec.mul d (y1 * y1)) (Vec.mul (Vec.concat y0v zeros) y1)
  let bPrime ← Vec.add b1 (Vec.concat (← Vec.hadamardProd wCaret y0v) zeros)
  let c1 ← Vec.innerProd (← sliceTo aPrime (n * m)) (← Vec.hadamardProd y0v t)
  let c1 := c1 + (← Vec.innerProd s bPrime)
  let c2 ← Vec.innerProd (← sliceTo s (n * m)) (← Vec.hadamardProd y0v t)
  let τ1 := rnd.τ1
  let τ2 := rnd.τ2
  let C1 := c1 • pp.G + τ1 • pp.H
  let C2 := c2 • pp.G + τ2 • pp.H
  let z ← computeZ E pp C1 C2 Q R (zrBytes y0) (zrBytes y1)
  let ρ := negZr (ν + η * z)
  let τ := τ1 * z + τ2 * (z * z)
  let y0Inverse := y0⁻¹
  let Fprime ← Gv.mulV pp.Fs (powerSeries pp.Fs.length y0Inverse)
  let a ← Vec.add aPrime (Vec.mul s z)
  let b ← Vec.add bPrime (Vec.mul (Vec.concat (← Vec.hadamardProd y0v t) zeros) z)
  let c ← Vec.innerProd a b
  let ipaPP ← rangeIpaPP E pp Fprime
  let ipa ← newInnerProdArgument ipaPP a b
  let ipp ← ipa.prove E
  return ({ ρ := ρ, τ := τ, C1 := C1, C2 := C2, γ := γ, c := c, Δ := Δ, u := u, Q := Q, R := R,
            W := W, ipp := ipp }, ipaPP)

/-- `bp/range.go:162-278` `ProveRange`: panics if its own inner-product proof is not accepted (260-262). -/
def proveRange (E : Curve G1 G2 GT) (pp : RPPP G1) (rnd : RangeRand) (V : G1) (v : List Zr) (r : Zr) :
    Option (RangeProof G1) := do
  let (rp, ipaPP) ← proveRangeUnchecked E pp rnd V v r
  if !(← rp.ipp.verify E ipaPP) then none else return rp

end PoL.BP

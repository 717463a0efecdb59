import Verif.Model.InnerProd
import Verif.Model.PointProofs

/-!
# `poe/poe.go`: proofs of equality of committed entries
-/

namespace PoL.Poe

open BP

variable {G1 G2 GT : Type} [AddCommGroup G1] [Module Zr G1] [AddCommGroup G2] [Module Zr G2]
  [AddCommGroup GT] [Module Zr GT]

/-- `poe/poe.go:21-26` `PP`. -/
structure PP (G1 G2 GT : Type) where
  digest : Bytes
  G : List G1
  H : List G1
  F : G1
  /-- field `PP` in the source -/
  vc : PoL.PP G1 G2 GT

/-- `poe/poe.go:28-30` `(*PP).Size`. -/
def PP.size (E : Curve G1 G2 GT) (pp : PP G1 G2 GT) : ℕ :=
  (g1vBytes E pp.G).length + (g1vBytes E pp.H).length + (E.g1Bytes pp.F).length + pp.vc.size E

/-- `poe/poe.go:44-51` `SetupDigest`. -/
def PP.setupDigest (E : Curve G1 G2 GT) (pp : PP G1 G2 GT) : PP G1 G2 GT :=
  { pp with digest := E.sha256 (g1vBytes E pp.G ++ g1vBytes E pp.H ++ E.g1Bytes pp.F ++ pp.vc.digest) }

/-- `poe/poe.go:32-42` `NewPublicParams`; `α` is drawn by `pp.NewPublicParams`. -/
def newPublicParams (E : Curve G1 G2 GT) (α : Zr) (n m : ℕ) : Option (PP G1 G2 GT) := do
  let pp : PP G1 G2 GT :=
    { digest := []
      vc := PoL.PP.newPublicParams E α n
      G := randGenVec E m "POE G"
      H := randGenVec E m "POE H"
      F := ← (randGenVec E 1 "POE F")[0]? }
  return pp.setupDigest E

/-- `binary.BigEndian.PutUint16(buff, uint16(n))` (`poe/poe.go:260-261`, `poe/poe.go:291-292`). -/
def uint16BE (n : ℕ) : Bytes := natToBE 2 (n % 65536)

/-- `poe/poe.go:284-299` `compressParameters`. -/
def compressParameters (E : Curve G1 G2 GT) (gs : List G1) (integers : List ℕ) (ppDigest : Bytes) : Bytes :=
  E.sha256 (gs.flatMap E.g1Bytes ++ integers.flatMap uint16BE ++ ppDigest)

/-- The type of the field `RO` of `Equalities` and `Equality` (`poe/poe.go:54`, `poe/poe.go:251`). -/
abbrev ROFun (G1 : Type) := List G1 → List ℕ → Bytes → ℕ → Option (List Zr)

/-- `poe/poe.go:257-277` `RO`. -/
def ro (E : Curve G1 G2 GT) : ROFun G1 := fun gs integers ppDigest n =>
  (List.range n).mapM fun i =>
    fieldElementFromBytes (E.hmac (compressParameters E gs integers ppDigest) (uint16BE i))

/-- `poe/poe.go:53-58` `Equalities`. -/
structure Equalities (G1 G2 GT : Type) where
  RO : ROFun G1
  PP : PP G1 G2 GT
  V : List G1
  W : List G1
  I : List ℕ
  J : List ℕ

/-- `poe/poe.go:60-65` `AggregatedProof`. -/
structure AggregatedProof (G1 : Type) where
  IPP : InnerProductProof G1
  c : Zr
  ρ : Zr
  U : G1
  V : G1
  Ω : G1
  Waggr : List G1
  Vaggr : List G1

/-- `poe/poe.go:67-69` `(*AggregatedProof).Size`. -/
def AggregatedProof.size (E : Curve G1 G2 GT) (ap : AggregatedProof G1) : ℕ :=
  ap.IPP.size E + (zrBytes ap.c).length + (zrBytes ap.ρ).length + (E.g1Bytes ap.U).length
    + (E.g1Bytes ap.V).length + (E.g1Bytes ap.Ω).length + (g1vBytes E ap.Waggr).length
    + (g1vBytes E ap.Vaggr).length

/-- The expression `l[len(l)-1-i]`: panics (index) if `i` is too large. -/
def fromEnd {α : Type} (l : List α) (i : ℕ) : Option α :=
  if i < l.length then l[l.length - 1 - i]? else none

/-- The parameters of the inner-product argument (`poe/poe.go:116-122`, `poe/poe.go:212-217`). -/
def ipaParams (E : Curve G1 G2 GT) (pp : PP G1 G2 GT) : Option (BP.PP G1) := do
  BP.setupDigest E { digest := [], G := pp.G, H := pp.H, U := ← (randGenVec E 1 "u")[0]? }

variable [DecidableEq G1] [DecidableEq GT]

/-- The loops of `Verify` choosing powers in `G2` (`poe/poe.go:88-96`): entry `k` is
`G2s[n-1-idx[k]]`. -/
def selectG2 (pp : PP G1 G2 GT) (idx : List ℕ) (m : ℕ) : Option (List G2) :=
  (List.range m).mapM fun k => do
    let i ← idx[k]?
    if pp.vc.N < i + 1 then none else pp.vc.G2s[pp.vc.N - 1 - i]?

/-- `poe/poe.go:71-127` `(*Equalities).Verify`.  Returns the verdict and the proof as the call leaves it
(lines 124-125 overwrite two fields of `proof.IPP`). -/
def Equalities.verifyState (E : Curve G1 G2 GT) (e : Equalities G1 G2 GT) (p : AggregatedProof G1) :
    Option (Bool × AggregatedProof G1) := do
  let groupElements := p.Vaggr ++ p.Waggr ++ e.V ++ e.W
  let x ← (← e.RO groupElements [] e.PP.digest 1)[0]?
  let m := e.V.length
  let groupElements := groupElements ++ [p.U] ++ [p.V]
  let ts ← e.RO groupElements [] e.PP.digest (2 * m)
  let g2sV ← selectG2 e.PP e.I m
  let g2sW ← selectG2 e.PP e.J m
  let num1 ← pairProd E (← Gv.mulV (← Gv.add e.V (Gv.mul p.Vaggr x)) (← Vec.evens ts)) g2sV
  let num2 ← pairProd E (← Gv.mulV (← Gv.add e.W (Gv.mul p.Waggr x)) (← Vec.odds ts)) g2sW
  let numerator := num1 + num2
  let den1 ← pairProd E [p.Ω] [E.genG2]
  let den2 ← pairProd E [p.c • (← e.PP.vc.G1s[0]?)] [← fromEnd e.PP.vc.G2s 0]
  let denominator := den1 + den2
  if numerator ≠ denominator then return (false, p)
  else
    let b ← Vec.add (← Vec.evens ts) (← Vec.odds ts)
    let P := p.ρ • e.PP.F + x • p.U + p.V + (← Gv.sum (← Gv.mulV e.PP.H b))
    let bpPP ← ipaParams E e.PP
    let p := { p with IPP := { p.IPP with C := p.c, P := P } }
    return (← p.IPP.verify E bpPP, p)

/-- The verdict of `(*Equalities).Verify`. -/
def Equalities.verify (E : Curve G1 G2 GT) (e : Equalities G1 G2 GT) (p : AggregatedProof G1) : Option Bool :=
  (e.verifyState E p).map Prod.fst

/-- The random values drawn by `(*Equalities).Prove` (`poe/poe.go:149`, 184): one triple `(u,η,ν)` per pair,
and `r1`, `r2`. -/
structure EqsRand where
  uην : List (Zr × Zr × Zr)
  r1 : Zr
  r2 : Zr

/-- What the loop of `Prove` computes for one pair (`poe/poe.go:149-172`): the entries of `Vaggr`, `Waggr`, `Ωv`, `Ωw`,
`ΩvPP`, `ΩwPP`. -/
def proveStep (pp : PoL.PP G1 G2 GT) (n : ℕ) (u η ν : Zr) (I J : ℕ) (v w : List Zr) :
    Option (G1 × G1 × G1 × G1 × G1 × G1) := do
  if n = 0 then none
  else
    let Vk := u • (← pp.G1s[I]?) + ν • (← pp.G1s[n - 1]?)
    let ΩVk := ν • (← fromEnd pp.G1s I)
    let Wk := u • (← pp.G1s[J]?) + η • (← pp.G1s[n - 1]?)
    let ΩWk := η • (← fromEnd pp.G1s J)
    let (_, ΩVppk) ← pp.openAt I v
    let (_, ΩWppk) ← pp.openAt J w
    return (Vk, Wk, ΩVk, ΩWk, ΩVppk, ΩWppk)

/-- `poe/poe.go:131-236` `(*Equalities).Prove`, given its random values; lengths are checked as in
`validateInputLength` (`poe/poe.go:238-248`). -/
def Equalities.prove (E : Curve G1 G2 GT) (e : Equalities G1 G2 GT) (rnd : EqsRand) (vs ws : List (List Zr)) :
    Option (AggregatedProof G1) := do
  let m := e.V.length
  if e.W.length ≠ m then none
  else if vs.length ≠ m then none
  else if ws.length ≠ m then none
  else
    let n := (← vs[0]?).length
    let steps ← (List.range m).mapM fun k => do
      let (u, η, ν) ← rnd.uην[k]?
      proveStep e.PP.vc n u η ν (← e.I[k]?) (← e.J[k]?) (← vs[k]?) (← ws[k]?)
    let u := (rnd.uην.take m).map fun t => t.1
    let Vaggr := steps.map fun s => s.1
    let Waggr := steps.map fun s => s.2.1
    let Ωv := steps.map fun s => s.2.2.1
    let Ωw := steps.map fun s => s.2.2.2.1
    let ΩvPP := steps.map fun s => s.2.2.2.2.1
    let ΩwPP := steps.map fun s => s.2.2.2.2.2
    let groupElements := Vaggr ++ Waggr ++ e.V ++ e.W
    let x ← (← e.RO groupElements [] e.PP.digest 1)[0]?
    let v ← (List.range m).mapM fun i => do (← vs[i]?)[← e.I[i]?]?
    let U := rnd.r1 • e.PP.F + (← Gv.sum (← Gv.mulV e.PP.G u))
    let V := rnd.r2 • e.PP.F + (← Gv.sum (← Gv.mulV e.PP.G v))
    let groupElements := groupElements ++ [U] ++ [V]
    let ts ← e.RO groupElements [] e.PP.digest (2 * m)
    let Ω1 ← Gv.sum (← Gv.mulV (← Gv.add ΩvPP (Gv.mul Ωv x)) (← Vec.evens ts))
    let Ω := Ω1 + (← Gv.sum (← Gv.mulV (← Gv.add ΩwPP (Gv.mul Ωw x)) (← Vec.odds ts)))
    let a ← Vec.add (Vec.mul u x) v
    let b ← Vec.add (← Vec.evens ts) (← Vec.odds ts)
    let ρ := negZr (rnd.r1 * x + rnd.r2)
    let P := ρ • e.PP.F + x • U + V + (← Gv.sum (← Gv.mulV e.PP.H b))
    let bpPP ← ipaParams E e.PP
    let ipa ← newInnerProdArgument bpPP a b
    let ipp ← { ipa with P := P }.prove E
    return { IPP := ipp, ρ := ρ, V := V, U := U, Ω := Ω, Vaggr := Vaggr, Waggr := Waggr, c := ipp.C }

/-- `poe/poe.go:250-255` `Equality`. -/
structure Equality (G1 G2 GT : Type) where
  RO : ROFun G1
  PP : PP G1 G2 GT
  V : G1
  W : G1
  I : ℕ
  J : ℕ

/-- `poe/poe.go:301-306` `Proof`. -/
structure Proof (G1 : Type) where
  C : Zr
  V : G1
  W : G1
  Ω : G1

/-- `poe/poe.go:308-341` `(*Equality).Verify`. -/
def Equality.verify (E : Curve G1 G2 GT) (e : Equality G1 G2 GT) (p : Proof G1) : Option Bool := do
  let x ← (← e.RO [e.V, e.W, p.V, p.W] [] e.PP.digest 1)[0]?
  let g := E.genG1
  let ts ← e.RO [e.V, e.W, x • p.V, x • p.W, p.C • g] [e.I, e.J] e.PP.digest 2
  let t0 ← ts[0]?
  let t1 ← ts[1]?
  let VVx := t0 • (x • p.V + e.V)
  let WWx := t1 • (x • p.W + e.W)
  let r ← pairProd E [VVx] [← fromEnd e.PP.vc.G2s e.I]
  let l ← pairProd E [WWx] [← fromEnd e.PP.vc.G2s e.J]
  let numerator := r + l
  let l ← pairProd E [p.Ω] [E.genG2]
  let r := (p.C * (t0 + t1)) • (← pairProd E [← e.PP.vc.G1s[0]?] [← fromEnd e.PP.vc.G2s 0])
  let denominator := l + r
  return decide (numerator = denominator)

/-- `poe/poe.go:345-406` `(*Equality).Prove`, given its random values `u`, `η`, `ν`.  Panics if an index is out of
range, if the entries differ, or if the lengths differ. -/
def Equality.prove (E : Curve G1 G2 GT) (e : Equality G1 G2 GT) (u η ν : Zr) (v w : List Zr) :
    Option (Proof G1) := do
  let vI ← v[e.I]?
  let wJ ← w[e.J]?
  if vI ≠ wJ then none
  else if v.length ≠ w.length then none
  else
    let n := v.length
    let V := u • (← e.PP.vc.G1s[e.I]?) + ν • (← e.PP.vc.G1s[n - 1]?)
    let ΩV := ν • (← fromEnd e.PP.vc.G1s e.I)
    let W := u • (← e.PP.vc.G1s[e.J]?) + η • (← e.PP.vc.G1s[n - 1]?)
    let ΩW := η • (← fromEnd e.PP.vc.G1s e.J)
    let x ← (← e.RO [e.V, e.W, V, W] [] e.PP.digest 1)[0]?
    let c := vI + u * x
    let ts ← e.RO [e.V, e.W, x • V, x • W, c • E.genG1] [e.I, e.J] e.PP.digest 2
    let t0 ← ts[0]?
    let t1 ← ts[1]?
    let (_, ΩVpp) ← e.PP.vc.openAt e.I v
    let (_, ΩWpp) ← e.PP.vc.openAt e.J w
    let ΩV := t0 • (x • ΩV + ΩVpp)
    let ΩW := t1 • (x • ΩW + ΩWpp)
    return { Ω := ΩV + ΩW, V := V, W := W, C := c }

end PoL.Poe

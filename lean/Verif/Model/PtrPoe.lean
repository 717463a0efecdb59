import Verif.Model.PtrRange
import Verif.Model.Poe

/-!
# Points in memory: proofs of equality

The field `RO` of `Equalities` and `Equality` is a parameter here: it takes the points that the pointers given to it point to.
-/

namespace PoL.Ptr.Poe

open PoL.Poe

variable {G1 G2 GT : Type} [AddCommGroup G1] [Module Zr G1] [AddCommGroup G2] [Module Zr G2] [AddCommGroup GT] [Module Zr GT]

/-- A call of the field `RO` (`poe/poe.go:54`, `poe/poe.go:251`). -/
def callRO (RO : ROFun G1) (gs : List Ref) (integers : List ℕ) (digest : Bytes) (n : ℕ) : Run (Cell G1 G2 GT) (List Zr) := do
  let gs ← loads kG1 gs
  lift (RO gs integers digest n)

/-- The parameters of the inner-product argument (`poe/poe.go:116-122`, `poe/poe.go:212-217`). -/
def ipaParams (E : Curve G1 G2 GT) (pp : Poe.PP Ref Ref Ref) : Run (Cell G1 G2 GT) (BP.PP Ref) := do
  let u ← randGenVec E 1 "u"
  BP.setupDigest E { digest := [], G := pp.G, H := pp.H, U := ← lift u[0]? }

/-- The loops of `Verify` choosing powers in `G2` (`poe/poe.go:88-96`). -/
def selectG2 (pp : Poe.PP Ref Ref Ref) (idx : List ℕ) (m : ℕ) : Option (List Ref) :=
  (List.range m).mapM fun k => do
    let i ← idx[k]?
    if pp.vc.N < i + 1 then none else pp.vc.G2s[pp.vc.N - 1 - i]?

variable [DecidableEq G1] [DecidableEq GT]

/-- `poe/poe.go:71-127` `(*Equalities).Verify`, with the proof as the call leaves it. -/
def eqsVerifyState (E : Curve G1 G2 GT) (gl : Globals) (RO : ROFun G1) (e : Equalities Ref Ref Ref) (p : AggregatedProof Ref) :
    Run (Cell G1 G2 GT) (Bool × AggregatedProof Ref) := do
  let groupElements := p.Vaggr ++ p.Waggr ++ e.V ++ e.W
  let x ← lift (← callRO RO groupElements [] e.PP.digest 1)[0]?
  let m := e.V.length
  let groupElements := groupElements ++ [p.U] ++ [p.V]
  let ts ← callRO RO groupElements [] e.PP.digest (2 * m)
  let g2sV ← lift (selectG2 e.PP e.I m)
  let g2sW ← lift (selectG2 e.PP e.J m)
  let vs ← Gv.add kG1 e.V (← Gv.mul kG1 p.Vaggr x)
  let vs ← Gv.mulV kG1 gl.zeroG1 vs (← lift (Vec.evens ts))
  let numerator ← pairProd E vs g2sV
  let ws ← Gv.add kG1 e.W (← Gv.mul kG1 p.Waggr x)
  let ws ← Gv.mulV kG1 gl.zeroG1 ws (← lift (Vec.odds ts))
  addTo kGt numerator (← pairProd E ws g2sW)
  let denominator ← pairProd E [p.Ω] [← copy kG2 gl.genG2]
  let g ← mulBy kG1 (← lift e.PP.vc.G1s[0]?) p.c
  addTo kGt denominator (← pairProd E [g] [← lift (fromEnd e.PP.vc.G2s 0)])
  if (← load (kGt (G1 := G1) (G2 := G2) (GT := GT)) numerator) ≠ (← load kGt denominator) then return (false, p)
  else
    let ev ← lift (Vec.evens ts)
    let od ← lift (Vec.odds ts)
    let b ← lift (Vec.add ev od)
    let P ← mulBy kG1 e.PP.F p.ρ
    addTo kG1 P (← mulBy kG1 p.U x)
    addTo kG1 P p.V
    addTo kG1 P (← BP.mulVSum gl e.PP.H b)
    let bpPP ← ipaParams E e.PP
    let p := { p with IPP := { p.IPP with C := p.c, P := P } }
    return (← BP.InnerProductProof.verify E p.IPP bpPP, p)

omit [DecidableEq GT] in
/-- What the loop of `Prove` computes for one pair (`poe/poe.go:149-172`). -/
def proveStep (gl : Globals) (pp : PP Ref Ref Ref) (n : ℕ) (u η ν : Zr) (I J : ℕ) (v w : List Zr) :
    Run (Cell G1 G2 GT) (Ref × Ref × Ref × Ref × Ref × Ref) := do
  if n = 0 then crash
  else
    let Vk ← mulBy kG1 (← lift pp.G1s[I]?) u
    addTo kG1 Vk (← mulBy kG1 (← lift pp.G1s[n - 1]?) ν)
    let ΩVk ← mulBy kG1 (← lift (fromEnd pp.G1s I)) ν
    let Wk ← mulBy kG1 (← lift pp.G1s[J]?) u
    addTo kG1 Wk (← mulBy kG1 (← lift pp.G1s[n - 1]?) η)
    let ΩWk ← mulBy kG1 (← lift (fromEnd pp.G1s J)) η
    let ΩVppk ← PP.openAt gl pp I v
    let ΩWppk ← PP.openAt gl pp J w
    return (Vk, Wk, ΩVk, ΩWk, ΩVppk.2, ΩWppk.2)

omit [DecidableEq GT] in
/-- `poe/poe.go:131-236` `(*Equalities).Prove`. -/
def eqsProve (E : Curve G1 G2 GT) (gl : Globals) (RO : ROFun G1) (e : Equalities Ref Ref Ref) (rnd : EqsRand) (vs ws : List (List Zr)) :
    Run (Cell G1 G2 GT) (AggregatedProof Ref) := do
  let m := e.V.length
  if e.W.length ≠ m then crash
  else if vs.length ≠ m then crash
  else if ws.length ≠ m then crash
  else
    let v0 ← lift vs[0]?
    let n := v0.length
    let steps ← (List.range m).mapM fun k => do
      let t ← lift rnd.uην[k]?
      let i ← lift e.I[k]?
      let j ← lift e.J[k]?
      let v ← lift vs[k]?
      let w ← lift ws[k]?
      proveStep gl e.PP.vc n t.1 t.2.1 t.2.2 i j v w
    let u := (rnd.uην.take m).map fun t => t.1
    let Vaggr := steps.map fun s => s.1
    let Waggr := steps.map fun s => s.2.1
    let Ωv := steps.map fun s => s.2.2.1
    let Ωw := steps.map fun s => s.2.2.2.1
    let ΩvPP := steps.map fun s => s.2.2.2.2.1
    let ΩwPP := steps.map fun s => s.2.2.2.2.2
    let groupElements := Vaggr ++ Waggr ++ e.V ++ e.W
    let x ← lift (← callRO RO groupElements [] e.PP.digest 1)[0]?
    let v ← lift ((List.range m).mapM fun i => do (← vs[i]?)[← e.I[i]?]?)
    let U ← mulBy kG1 e.PP.F rnd.r1
    addTo kG1 U (← BP.mulVSum gl e.PP.G u)
    let V ← mulBy kG1 e.PP.F rnd.r2
    addTo kG1 V (← BP.mulVSum gl e.PP.G v)
    let groupElements := groupElements ++ [U] ++ [V]
    let ts ← callRO RO groupElements [] e.PP.digest (2 * m)
    let ωv ← Gv.add kG1 ΩvPP (← Gv.mul kG1 Ωv x)
    let ev ← lift (Vec.evens ts)
    let Ω ← BP.mulVSum gl ωv ev
    let ωw ← Gv.add kG1 ΩwPP (← Gv.mul kG1 Ωw x)
    let od ← lift (Vec.odds ts)
    addTo kG1 Ω (← BP.mulVSum gl ωw od)
    let a ← lift (Vec.add (Vec.mul u x) v)
    let ev ← lift (Vec.evens ts)
    let od ← lift (Vec.odds ts)
    let b ← lift (Vec.add ev od)
    let ρ := negZr (rnd.r1 * x + rnd.r2)
    let P ← mulBy kG1 e.PP.F ρ
    addTo kG1 P (← mulBy kG1 U x)
    addTo kG1 P V
    addTo kG1 P (← BP.mulVSum gl e.PP.H b)
    let bpPP ← ipaParams E e.PP
    let ipa ← BP.newInnerProdArgument bpPP a b
    let ipp ← BP.InnerProdArgument.prove E { ipa with P := P }
    return { IPP := ipp, ρ := ρ, V := V, U := U, Ω := Ω, Vaggr := Vaggr, Waggr := Waggr, c := ipp.C }

/-- `poe/poe.go:308-341` `(*Equality).Verify`. -/
def eqVerify (E : Curve G1 G2 GT) (gl : Globals) (RO : ROFun G1) (e : Equality Ref Ref Ref) (p : Proof Ref) : Run (Cell G1 G2 GT) Bool := do
  let x ← lift (← callRO RO [e.V, e.W, p.V, p.W] [] e.PP.digest 1)[0]?
  let g ← copy kG1 gl.genG1
  let Vx ← mulBy kG1 p.V x
  let Wx ← mulBy kG1 p.W x
  let gC ← mulBy kG1 g p.C
  let ts ← callRO RO [e.V, e.W, Vx, Wx, gC] [e.I, e.J] e.PP.digest 2
  let t0 ← lift ts[0]?
  let t1 ← lift ts[1]?
  let VVx ← mulBy kG1 p.V x
  addTo kG1 VVx e.V
  let VVx ← mulBy kG1 VVx t0
  let WWx ← mulBy kG1 p.W x
  addTo kG1 WWx e.W
  let WWx ← mulBy kG1 WWx t1
  let numerator ← pairProd E [VVx] [← lift (fromEnd e.PP.vc.G2s e.I)]
  let l ← pairProd E [WWx] [← lift (fromEnd e.PP.vc.G2s e.J)]
  addTo kGt numerator l
  let l ← pairProd E [p.Ω] [← copy kG2 gl.genG2]
  let g0 ← lift e.PP.vc.G1s[0]?
  let r ← pairProd E [g0] [← lift (fromEnd e.PP.vc.G2s 0)]
  let r ← mulBy kGt r (p.C * (t0 + t1))
  addTo kGt l r
  return decide ((← load (kGt (G1 := G1) (G2 := G2) (GT := GT)) numerator) = (← load kGt l))

omit [DecidableEq GT] in
/-- `poe/poe.go:345-406` `(*Equality).Prove`. -/
def eqProve (gl : Globals) (RO : ROFun G1) (e : Equality Ref Ref Ref) (u η ν : Zr) (v w : List Zr) :
    Run (Cell G1 G2 GT) (Proof Ref) := do
  let vI ← lift v[e.I]?
  let wJ ← lift w[e.J]?
  if vI ≠ wJ then crash
  else if v.length ≠ w.length then crash
  else
    let n := v.length
    let V ← mulBy kG1 (← lift e.PP.vc.G1s[e.I]?) u
    addTo kG1 V (← mulBy kG1 (← lift e.PP.vc.G1s[n - 1]?) ν)
    let ΩV ← mulBy kG1 (← lift (fromEnd e.PP.vc.G1s e.I)) ν
    let W ← mulBy kG1 (← lift e.PP.vc.G1s[e.J]?) u
    addTo kG1 W (← mulBy kG1 (← lift e.PP.vc.G1s[n - 1]?) η)
    let ΩW ← mulBy kG1 (← lift (fromEnd e.PP.vc.G1s e.J)) η
    let x ← lift (← callRO RO [e.V, e.W, V, W] [] e.PP.digest 1)[0]?
    let g ← copy kG1 gl.genG1
    let c := vI + u * x
    let Vx ← mulBy kG1 V x
    let Wx ← mulBy kG1 W x
    let gc ← mulBy kG1 g c
    let ts ← callRO RO [e.V, e.W, Vx, Wx, gc] [e.I, e.J] e.PP.digest 2
    let t0 ← lift ts[0]?
    let t1 ← lift ts[1]?
    let ΩVpp ← PP.openAt gl e.PP.vc e.I v
    let ΩWpp ← PP.openAt gl e.PP.vc e.J w
    let ΩV ← mulBy kG1 ΩV x
    addTo kG1 ΩV ΩVpp.2
    let ΩV ← mulBy kG1 ΩV t0
    let ΩW ← mulBy kG1 ΩW x
    addTo kG1 ΩW ΩWpp.2
    let ΩW ← mulBy kG1 ΩW t1
    addTo kG1 ΩV ΩW
    return { Ω := ΩV, V := V, W := W, C := c }

end PoL.Ptr.Poe

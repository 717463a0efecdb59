import Verif.Model.InnerProd

/-!
# `bp/ir.go`: the iterated reduction
-/

namespace PoL.BP

variable {G1 G2 GT : Type} [AddCommGroup G1] [Module Zr G1] [AddCommGroup G2] [Module Zr G2]
  [AddCommGroup GT] [Module Zr GT]

/-- `bp/ir.go:97-103` `appendVToChallenge`. -/
def appendVToChallenge (E : Curve G1 G2 GT) (x : Bytes) (V : G1) : Bytes :=
  E.sha256 (x ++ E.g1Bytes V)

/-- The round challenge (`bp/ir.go:27`, `bp/ir.go:74`). -/
def irChallenge (E : Curve G1 G2 GT) (digest : Bytes) (A B V : G1) : Option Zr :=
  fieldElementFromBytes (appendVToChallenge E (randomOracle E A B digest) V)

variable [DecidableEq G1]

/-- Loop of `IterativeVerify` (`bp/ir.go:25-51`); `n` is half the current length.  Returns `none` for a
panic (missing entry of `Δ`), `some none` for an error, otherwise the challenges. `finalV` is the last
accepted `V` (nil before the first round). -/
def iterVerifyLoop (E : Curve G1 G2 GT) (digest : Bytes) (vFinal : Zr) (n : ℕ) (G : List G1)
    (prevV : G1) (Δ : List (G1 × G1 × G1)) (finalV : Option G1) (xs : List Zr) :
    Option (Option (List Zr × Zr)) :=
  if hn : n = 0 then do
    let g0 ← G[0]?
    let fV ← finalV
    if vFinal • g0 = fV then return some (xs, vFinal) else return none
  else
    match Δ with
    | [] => none
    | (A, B, V) :: Δ' => do
      let x ← irChallenge E digest A B prevV
      let shouldBeV := x • A + x⁻¹ • B + prevV
      if V ≠ shouldBeV then return none
      else
        let G' ← Gv.add (← sliceTo G n) (Gv.mul (← sliceFrom G n) x⁻¹)
        iterVerifyLoop E digest vFinal (n / 2) G' V Δ' (some V) (xs ++ [x])
termination_by n
decreasing_by omega

/-- `bp/ir.go:11-55` `IterativeVerify`: panics unless the number of generators is a power of two. -/
def iterativeVerify (E : Curve G1 G2 GT) (pp : PP G1) (prevV : G1) (Δ : List (G1 × G1 × G1))
    (vFinal : Zr) : Option (Option (List Zr × Zr)) := do
  let n := pp.G.length
  if !(← isPowerOfTwo (UInt16.ofNat n)) then none
  else iterVerifyLoop E pp.digest vFinal (n / 2) pp.G prevV Δ none []

/-- Loop of `IterativeReduce` (`bp/ir.go:69-88`). -/
def iterReduceLoop (E : Curve G1 G2 GT) (digest : Bytes) (n : ℕ) (G : List G1) (v : List Zr) (V : G1)
    (Δ : List (G1 × G1 × G1)) (xs : List Zr) : Option (List (G1 × G1 × G1) × List Zr × Zr) :=
  if _hn : n = 0 then
    match v with
    | [v0] => some (Δ, xs, v0)
    | _ => none
  else do
    let GL ← sliceTo G n
    let GR ← sliceFrom G n
    let vL ← sliceTo v n
    let vR ← sliceFrom v n
    let A ← Gv.sum (← Gv.mulV GL vR)
    let B ← Gv.sum (← Gv.mulV GR vL)
    let x ← irChallenge E digest A B V
    let G' ← Gv.add GL (Gv.mul GR x⁻¹)
    let v' ← Vec.add vL (Vec.mul vR x)
    let V' ← Gv.sum (← Gv.mulV G' v')
    iterReduceLoop E digest (n / 2) G' v' V' (Δ ++ [(A, B, V')]) (xs ++ [x])
termination_by n
decreasing_by omega

/-- `bp/ir.go:57-89` `IterativeReduce`: panics unless the number of generators is a power of two. -/
def iterativeReduce (E : Curve G1 G2 GT) (pp : PP G1) (v : List Zr) (V : G1) :
    Option (List (G1 × G1 × G1) × List Zr × Zr) := do
  let n := pp.G.length
  if !(← isPowerOfTwo (UInt16.ofNat n)) then none
  else iterReduceLoop E pp.digest (n / 2) pp.G v V [] []

end PoL.BP

import Verif.Model.Range
import Verif.Model.Sum
import Verif.Model.Poe

/-!
# Scalars as integers

The library's `*math.Zr` holds an integer that need not be reduced modulo the group order.  This second model has the
scalars as integers, with whatever reduction the library does or does not do; C102 and C103 compare it with the first one.
A group element forgets how its exponent was represented, so the groups are the same as in the first model, and so are
the functions that handle group elements only.
-/

namespace PoL

/-- The methods of `*math.Zr` (and `c.ModAdd`, `c.ModSub`) that the code calls, on integers: `Plus`, `Mul`,
`ModAdd(·,·,GroupOrder)`, `ModSub(·,·,GroupOrder)`, `InvModP(GroupOrder)`, `PowMod(NewZrFromInt(n))`, `Equals`, `Bytes`,
`Int`.  `Mod(GroupOrder)` is Go's `big.Int.Mod`, which is `%` on integers; `NewZrFromInt` and `NewZrFromBytes` are the
integer itself. -/
structure ScalarLib where
  plus : ℤ → ℤ → ℤ
  mul : ℤ → ℤ → ℤ
  modAdd : ℤ → ℤ → ℤ
  modSub : ℤ → ℤ → ℤ
  inv : ℤ → ℤ
  pow : ℤ → ℕ → ℤ
  equals : ℤ → ℤ → Bool
  bytes : ℤ → Bytes
  int : ℤ → Option ℤ

/-- An integer that is its own residue. -/
def Reduced (x : ℤ) : Prop := 0 ≤ x ∧ x < order

/-- What is assumed of the library: results have the right residues; a sum that needs no reduction is exact; `ModAdd` and
`ModSub` reduce; `Equals` holds of equal integers and of no integers with different residues; on reduced integers
`Bytes` and `Int` are the functions of the first model.  Nothing is said about `Bytes` and `Int` of other integers, nor
about what `Equals` answers for different integers with the same residue. -/
structure ScalarLib.Lawful (S : ScalarLib) : Prop where
  plus_res : ∀ a b, ((S.plus a b : ℤ) : Zr) = a + b
  plus_small : ∀ a b : ℤ, 0 ≤ a → 0 ≤ b → a + b < order → S.plus a b = a + b
  mul_res : ∀ a b, ((S.mul a b : ℤ) : Zr) = a * b
  modAdd_res : ∀ a b, ((S.modAdd a b : ℤ) : Zr) = a + b
  modAdd_red : ∀ a b, Reduced (S.modAdd a b)
  modSub_res : ∀ a b, ((S.modSub a b : ℤ) : Zr) = a - b
  modSub_red : ∀ a b, Reduced (S.modSub a b)
  inv_res : ∀ a, ((S.inv a : ℤ) : Zr) = (a : Zr)⁻¹
  pow_res : ∀ a n, ((S.pow a n : ℤ) : Zr) = (a : Zr) ^ n
  equals_refl : ∀ a, S.equals a a = true
  equals_res : ∀ a b, S.equals a b = true → (a : Zr) = b
  bytes_red : ∀ a, Reduced a → S.bytes a = zrBytes a
  int_red : ∀ a, Reduced a → S.int a = zrInt a

/-- The reduced integer of a residue: what `FieldElementFromBytes` and `NewRandomZr` return. -/
def canon (x : Zr) : ℤ := (x.val : ℤ)

/-- The residue of an integer. -/
abbrev res (x : ℤ) : Zr := (x : Zr)

/-- The residues of a vector. -/
abbrev resV (v : List ℤ) : List Zr := v.map res

namespace Raw

variable {G1 G2 GT : Type} [AddCommGroup G1] [Module Zr G1] [AddCommGroup G2] [Module Zr G2]
  [AddCommGroup GT] [Module Zr GT]

/-! ## `common/math.go` -/

/-- `common/math.go:34-36` `Pow2`. -/
def pow2 (S : ScalarLib) (n : ℕ) : ℤ := S.pow 2 n

/-- `common/math.go:42-48` `IntsToZr`. -/
def intsToZr (ns : List ℕ) : List ℤ := ns.map fun (n : ℕ) => (n : ℤ)

/-- Loop of `PowerSeries` (`common/math.go:53-56`). -/
def powerSeriesLoop (S : ScalarLib) (exp : ℤ) : (k : ℕ) → (next : ℤ) → List ℤ
  | 0, _ => []
  | k + 1, next => next :: powerSeriesLoop S exp k (S.mul next exp)

/-- `common/math.go:50-58` `PowerSeries`. -/
def powerSeries (S : ScalarLib) (n : ℕ) (exp : ℤ) : List ℤ := powerSeriesLoop S exp n 1

/-- `common/math.go:73-87` `Bits`. -/
def bits (S : ScalarLib) (n : ℤ) (bitLen : ℕ) : List ℕ :=
  let res := bitsLoop (beToNat (S.bytes n))
  res ++ List.replicate (bitLen - res.length) 0

/-- `common/math.go:290-293` `NegZr` (also `sum/sa.go:206-209`, `poe/poe.go:279-282`). -/
def negZr (S : ScalarLib) (x : ℤ) : ℤ := S.modSub 0 x

namespace Vec

/-- `common/math.go:137-143` `Vec.Bits`. -/
def vbits (S : ScalarLib) (v : List ℤ) (bitLen : ℕ) : List ℕ := v.flatMap fun x => bits S x bitLen

/-- `common/math.go:155-168` `Vec.PowBitVec`. -/
def powBitVec (v : List ℤ) (exp : List ℕ) : Option (List ℤ) :=
  if exp.length < v.length then none
  else some (List.zipWith (fun x b => if b = 0 then 1 else x) v exp)

/-- `common/math.go:170-176` `Vec.Product`. -/
def product (S : ScalarLib) : List ℤ → Option ℤ
  | [] => none
  | x :: xs => some (xs.foldl S.mul x)

/-- `common/math.go:178-189` `Vec.Add`. -/
def add (S : ScalarLib) (v v2 : List ℤ) : Option (List ℤ) :=
  if v.length ≠ v2.length then none else some (List.zipWith (fun a b => S.plus a b % order) v v2)

/-- `common/math.go:191-202` `Vec.Sub`. -/
def sub (S : ScalarLib) (v v2 : List ℤ) : Option (List ℤ) :=
  if v.length ≠ v2.length then none else some (List.zipWith (fun a b => S.plus a (negZr S b) % order) v v2)

/-- `common/math.go:204-218` `Vec.Evens`. -/
def evens (v : List ℤ) : Option (List ℤ) := if v.length % 2 ≠ 0 then none else some (PoL.Vec.everySecond v)

/-- `common/math.go:220-234` `Vec.Odds`. -/
def odds (v : List ℤ) : Option (List ℤ) := if v.length % 2 ≠ 0 then none else some (PoL.Vec.everySecond v.tail)

/-- `common/math.go:236-242` `Vec.Mul`. -/
def mul (S : ScalarLib) (v : List ℤ) (x : ℤ) : List ℤ := v.map fun a => S.mul a x

/-- `common/math.go:244-253` `Vec.Exp`. -/
def exp (v : List ℤ) (g : List G1) : Option G1 :=
  if v.length ≠ g.length then none
  else match v, g with
    | v0 :: vs, g0 :: gs => some ((List.zipWith (fun a h => res a • h) vs gs).foldl (· + ·) (res v0 • g0))
    | _, _ => none

/-- `common/math.go:255-266` `Vec.InnerProd`: the sum is reduced once, at the end. -/
def innerProd (S : ScalarLib) (v v2 : List ℤ) : Option ℤ :=
  if v.length ≠ v2.length then none
  else some ((List.zipWith S.mul v v2).foldl S.plus 0 % order)

/-- `common/math.go:268-279` `Vec.HadamardProd`. -/
def hadamardProd (S : ScalarLib) (v v2 : List ℤ) : Option (List ℤ) :=
  if v.length ≠ v2.length then none else some (List.zipWith S.mul v v2)

end Vec

/-- `common/math.go:317-323` `G1v.Mul`. -/
def gMul {M : Type} [AddCommGroup M] [Module Zr M] (g : List M) (x : ℤ) : List M := g.map fun h => res x • h

/-- `common/math.go:325-340` `G1v.MulV`: the shortcut is taken if `Equals` says that the scalar is zero. -/
def mulV (S : ScalarLib) {M : Type} [AddCommGroup M] [Module Zr M] (g : List M) (v : List ℤ) : Option (List M) :=
  if g.length ≠ v.length then none
  else some (List.zipWith (fun h x => if S.equals x 0 then 0 else res x • h) g v)

/-- `common/math.go:373-379` `G2v.Mulv`. -/
def mulv2 {M : Type} [AddCommGroup M] [Module Zr M] (g : List M) (x : List ℤ) : Option (List M) :=
  if x.length < g.length then none else some (List.zipWith (fun h a => res a • h) g x)

/-- `common/math.go:467-472` `FieldElementFromBytes`: an integer below the group order. -/
def fieldElementFromBytes (digest : Bytes) : Option ℤ := (PoL.fieldElementFromBytes digest).map canon

/-! ## `bp/innerprod.go` -/

open BP

/-- `bp/innerprod.go:50-55` `InnerProdArgument`. -/
structure InnerProdArgument (G1 : Type) where
  pp : BP.PP G1
  a : List ℤ
  b : List ℤ
  C : ℤ
  P : G1

/-- `bp/innerprod.go:57-62` `InnerProductProof`. -/
structure InnerProductProof (G1 : Type) where
  LRs : List G1
  a : ℤ
  b : ℤ
  P : G1
  C : ℤ

/-- The proof of the first model. -/
def InnerProductProof.res (p : InnerProductProof G1) : BP.InnerProductProof G1 := ⟨p.LRs, p.a, p.b, p.P, p.C⟩

/-- `bp/innerprod.go:80-100` `commit` with `u == nil`, as it is called. -/
def commit (pp : BP.PP G1) (a b : List ℤ) : Option G1 :=
  if a.length ≠ b.length then none
  else if a.length = 0 ∨ pp.G.length < a.length ∨ pp.H.length < a.length then none
  else
    let gAcc := (List.zipWith (fun x g => PoL.res x • g) a pp.G).foldl (· + ·) 0
    let hAcc := (List.zipWith (fun x h => PoL.res x • h) b pp.H).foldl (· + ·) 0
    some (gAcc + hAcc)

/-- `bp/innerprod.go:68-78` `NewInnerProdArgument`. -/
def newInnerProdArgument (S : ScalarLib) (pp : BP.PP G1) (a b : List ℤ) : Option (InnerProdArgument G1) := do
  let C ← Vec.innerProd S a b
  let P ← commit pp a b
  return { pp := pp, a := a, b := b, C := C, P := P }

/-- `bp/innerprod.go:102-117` `computeInstanceSpecificParams`. -/
def computeInstanceSpecificParams (S : ScalarLib) (E : Curve G1 G2 GT) (pp : BP.PP G1) (P : G1) (c : ℤ) :
    Option (BP.PP G1 × G1) := do
  let x ← fieldElementFromBytes (E.sha256 (instanceHashInput pp P))
  let P' := P + PoL.res (S.mul x c) • pp.U
  let newPP ← setupDigest E { pp with U := PoL.res x • pp.U }
  return (newPP, P')

/-- `bp/innerprod.go:210-214` `nextParams`. -/
structure NextParams (G1 : Type) where
  x : ℤ
  xInverse : ℤ
  g : List G1
  h : List G1
  P : G1

/-- `bp/innerprod.go:216-244` `computeNextParams`. -/
def computeNextParams (S : ScalarLib) (E : Curve G1 G2 GT) (L R : G1) (pp : BP.PP G1) (g h : List G1) (P : G1) :
    Option (NextParams G1) := do
  let n := g.length / 2
  let x ← fieldElementFromBytes (randomOracle E L R pp.digest)
  let xInverse := S.inv x
  let nextG ← Gv.hadamardProd (gMul (← sliceTo g n) xInverse) (gMul (← sliceFrom g n) x)
  let nextH ← Gv.hadamardProd (gMul (← sliceTo h n) x) (gMul (← sliceFrom h n) xInverse)
  let xSquare := S.mul x x
  let xSquareInv := S.inv xSquare
  let L2 := PoL.res xSquare • L
  let R2 := PoL.res xSquareInv • R
  return { x := x, xInverse := xInverse, g := nextG, h := nextH, P := L2 + P + R2 }

/-- `bp/innerprod.go:139-163` `verify`. -/
def verifyLoop [DecidableEq G1] (S : ScalarLib) (E : Curve G1 G2 GT) (pp : BP.PP G1) (P : G1) (g h LRs : List G1)
    (a b : ℤ) : Option Bool :=
  if g.length = 1 then do
    let g0 ← g[0]?
    let h0 ← h[0]?
    let expectedP := PoL.res (S.mul a b) • pp.U + PoL.res a • g0 + PoL.res b • h0
    return decide (expectedP = P)
  else
    match LRs with
    | L :: R :: LRs' =>
      match computeNextParams S E L R pp g h P with
      | none => none
      | some np => verifyLoop S E pp np.P np.g np.h LRs' a b
    | _ => none

/-- `bp/innerprod.go:134-137` `(*InnerProductProof).Verify`. -/
def InnerProductProof.verify [DecidableEq G1] (S : ScalarLib) (E : Curve G1 G2 GT) (ipp : InnerProductProof G1)
    (pp : BP.PP G1) : Option Bool := do
  let (pp', P) ← computeInstanceSpecificParams S E pp ipp.P ipp.C
  verifyLoop S E pp' P pp'.G pp'.H ipp.LRs ipp.a ipp.b

/-- `L` and `R` of a round, with the halves of the two vectors (the part `bp/innerprod.go:176-190` of `prove`). -/
def lr (S : ScalarLib) (pp : BP.PP G1) (a b : List ℤ) (g h : List G1) :
    Option (List ℤ × List ℤ × List ℤ × List ℤ × G1 × G1) := do
  let n := g.length / 2
  let aL ← sliceTo a n
  let aR ← sliceFrom a n
  let bL ← sliceTo b n
  let bR ← sliceFrom b n
  let cL ← Vec.innerProd S aL bR
  let cR ← Vec.innerProd S aR bL
  let Lg ← Vec.exp aL (← sliceFrom g n)
  let Lh ← Vec.exp bR (← sliceTo h n)
  let L := Lg + Lh + PoL.res cL • pp.U
  let Rg ← Vec.exp aR (← sliceTo g n)
  let Rh ← Vec.exp bL (← sliceFrom h n)
  let R := Rg + Rh + PoL.res cR • pp.U
  return (aL, aR, bL, bR, L, R)

/-- `bp/innerprod.go:165-208` `prove`; recursion on `fuel`, an upper bound of the number of generators. -/
def proveLoop (S : ScalarLib) (E : Curve G1 G2 GT) (pp : BP.PP G1) :
    (fuel : ℕ) → (a b : List ℤ) → (P : G1) → (g h : List G1) → Option (List G1 × ℤ × ℤ)
  | 0, _, _, _, _, _ => none
  | fuel + 1, a, b, P, g, h =>
    if g.length ≠ h.length then none
    else if g.length = 1 then do
      return ([], ← a[0]?, ← b[0]?)
    else if g.length = 0 then none
    else do
      let (aL, aR, bL, bR, L, R) ← lr S pp a b g h
      let np ← computeNextParams S E L R pp g h P
      let a' ← Vec.add S (Vec.mul S aL np.x) (Vec.mul S aR np.xInverse)
      let b' ← Vec.add S (Vec.mul S bL np.xInverse) (Vec.mul S bR np.x)
      let (LRs, ab) ← proveLoop S E pp fuel a' b' np.P np.g np.h
      return ([L, R] ++ LRs, ab)

/-- `bp/innerprod.go:119-132` `(*InnerProdArgument).Prove`. -/
def InnerProdArgument.prove (S : ScalarLib) (E : Curve G1 G2 GT) (ipa : InnerProdArgument G1) :
    Option (InnerProductProof G1) := do
  let (pp, P) ← computeInstanceSpecificParams S E ipa.pp ipa.P ipa.C
  let (LRs, a, b) ← proveLoop S E pp (ipa.pp.G.length + 1) ipa.a ipa.b P ipa.pp.G ipa.pp.H
  return { C := ipa.C, P := ipa.P, LRs := LRs, a := a, b := b }

/-! ## `bp/ir.go` -/

variable [DecidableEq G1]

/-- The round challenge (`bp/ir.go:27`, `bp/ir.go:74`). -/
def irChallenge (E : Curve G1 G2 GT) (digest : Bytes) (A B V : G1) : Option ℤ :=
  fieldElementFromBytes (appendVToChallenge E (randomOracle E A B digest) V)

/-- Loop of `IterativeVerify` (`bp/ir.go:25-51`). -/
def iterVerifyLoop (S : ScalarLib) (E : Curve G1 G2 GT) (digest : Bytes) (vFinal : ℤ) (n : ℕ) (G : List G1)
    (prevV : G1) (Δ : List (G1 × G1 × G1)) (finalV : Option G1) (xs : List ℤ) :
    Option (Option (List ℤ × ℤ)) :=
  if hn : n = 0 then do
    let g0 ← G[0]?
    let fV ← finalV
    if PoL.res vFinal • g0 = fV then return some (xs, vFinal) else return none
  else
    match Δ with
    | [] => none
    | (A, B, V) :: Δ' => do
      let x ← irChallenge E digest A B prevV
      let shouldBeV := PoL.res x • A + PoL.res (S.inv x) • B + prevV
      if V ≠ shouldBeV then return none
      else
        let G' ← Gv.add (← sliceTo G n) (gMul (← sliceFrom G n) (S.inv x))
        iterVerifyLoop S E digest vFinal (n / 2) G' V Δ' (some V) (xs ++ [x])
termination_by n
decreasing_by omega

/-- `bp/ir.go:11-55` `IterativeVerify`. -/
def iterativeVerify (S : ScalarLib) (E : Curve G1 G2 GT) (pp : BP.PP G1) (prevV : G1) (Δ : List (G1 × G1 × G1))
    (vFinal : ℤ) : Option (Option (List ℤ × ℤ)) := do
  let n := pp.G.length
  if !(← isPowerOfTwo (UInt16.ofNat n)) then none
  else iterVerifyLoop S E pp.digest vFinal (n / 2) pp.G prevV Δ none []

/-- Loop of `IterativeReduce` (`bp/ir.go:69-88`). -/
def iterReduceLoop (S : ScalarLib) (E : Curve G1 G2 GT) (digest : Bytes) (n : ℕ) (G : List G1) (v : List ℤ) (V : G1)
    (Δ : List (G1 × G1 × G1)) (xs : List ℤ) : Option (List (G1 × G1 × G1) × List ℤ × ℤ) :=
  if _hn : n = 0 then
    match v with
    | [v0] => some (Δ, xs, v0)
    | _ => none
  else do
    let GL ← sliceTo G n
    let GR ← sliceFrom G n
    let vL ← sliceTo v n
    let vR ← sliceFrom v n
    let A ← Gv.sum (← mulV S GL vR)
    let B ← Gv.sum (← mulV S GR vL)
    let x ← irChallenge E digest A B V
    let G' ← Gv.add GL (gMul GR (S.inv x))
    let v' ← Vec.add S vL (Vec.mul S vR x)
    let V' ← Gv.sum (← mulV S G' v')
    iterReduceLoop S E digest (n / 2) G' v' V' (Δ ++ [(A, B, V')]) (xs ++ [x])
termination_by n
decreasing_by omega

/-- `bp/ir.go:57-89` `IterativeReduce`. -/
def iterativeReduce (S : ScalarLib) (E : Curve G1 G2 GT) (pp : BP.PP G1) (v : List ℤ) (V : G1) :
    Option (List (G1 × G1 × G1) × List ℤ × ℤ) := do
  let n := pp.G.length
  if !(← isPowerOfTwo (UInt16.ofNat n)) then none
  else iterReduceLoop S E pp.digest (n / 2) pp.G v V [] []

end Raw
end PoL

import Verif.Model.Pol

/-!
# The tests of the repository

Every test function of the repository, as a function of the random values it draws.  The result is `none` if
the test panics or does not return, otherwise whether all its assertions hold (a failed assertion of
`testify/assert` does not stop the test).  Left out: what the tests print and measure, and the assertions that
reading from `crypto/rand` gives no error.
-/

namespace PoL.Tests

open BP

/-- A loop that runs `body` for every element and collects the assertions. -/
def forAll {α : Type} (l : List α) (body : α → Option Bool) : Option Bool :=
  l.foldlM (fun ok a => do return ok && (← body a)) true

/-- A loop that runs `body` on a state for every element, and collects the assertions. -/
def forAllState {α σ : Type} (l : List α) (s : σ) (body : α → σ → Option (Bool × σ)) : Option (Bool × σ) :=
  l.foldlM (fun (acc : Bool × σ) a => do
    let (b, s) ← body a acc.2
    return (acc.1 && b, s)) (true, s)

variable {G1 G2 GT : Type} [AddCommGroup G1] [Module Zr G1] [AddCommGroup G2] [Module Zr G2]
  [AddCommGroup GT] [Module Zr GT] [DecidableEq G1] [DecidableEq GT]

/-! ### `pp/pointproofs_test.go` -/

/-- `pp/pointproofs_test.go:13-29` `TestPointProofCommitment`; `m` has the 128 scalars drawn at line 19. -/
def testPointProofCommitment (E : Curve G1 G2 GT) (α : Zr) (m : List Zr) : Option Bool := do
  let pp := PP.newPublicParams E α 128
  let C ← pp.commit m
  forAll (List.range pp.N) fun i => do
    let (mi, π) ← pp.openAt i m
    pp.verify E mi π C i

/-- `pp/pointproofs_test.go:31-55` `TestUpdate`; `m` has the 128 scalars drawn at line 37, `x` is the last of
those drawn at line 44, which appends it to `m` and not to `m2`.  The function under test is the argument
`upd`. -/
def testUpdate (E : Curve G1 G2 GT) (upd : PP G1 G2 GT → G1 → List Zr → Zr → ℕ → Option G1) (α : Zr)
    (m : List Zr) (x : Zr) : Option Bool := do
  let pp := PP.newPublicParams E α 128
  let C ← pp.commit m
  let m2 := m ++ [x]
  let (ok, _) ← forAllState (List.range pp.N) (C, m) fun i (C, m) => do
    let C ← upd pp C m (← m2[i]?) i
    let m := m.set i (← m2[i]?)
    let (_, π) ← pp.openAt i m
    return (← pp.verify E (← m2[i]?) π C i, C, m)
  return ok

/-- `pp/pointproofs_test.go:57-88` `TestAggregation`; `m1`, `m2` have the scalars drawn at lines 64-65. -/
def testAggregation (E : Curve G1 G2 GT) (α : Zr) (m1 m2 : List Zr) : Option Bool := do
  let pp := PP.newPublicParams E α 8
  let C1 ← pp.commit m1
  let C2 ← pp.commit m2
  forAll (List.range 1) fun i => do
    let (a1, π1) ← pp.openAt i m1
    let ok1 ← pp.verify E a1 π1 C1 i
    let (a2, π2) ← pp.openAt i m2
    let ok2 ← pp.verify E a2 π2 C2 i
    let commitments := [C1, C2]
    let π ← pp.aggregate commitments [π1, π2] (PP.ro E)
    let sig ← Vec.innerProd [a1, a2] [← PP.ro E pp commitments 0, ← PP.ro E pp commitments 1]
    let ok3 ← pp.verifyAggregation E [i, i] commitments π sig (PP.ro E)
    return ok1 && ok2 && ok3

/-! ### `bp/*_test.go` -/

/-- `bp/innerprod_test.go:10-20` `TestInnerProdArgument`. -/
def testInnerProdArgument (E : Curve G1 G2 GT) (a b : List Zr) : Option Bool := do
  let pp ← BP.newPublicParams E 8
  let ipa ← newInnerProdArgument pp a b
  let proof ← ipa.prove E
  proof.verify E pp

/-- `bp/ir_test.go:10-33` `TestIterativeReduce`. -/
def testIterativeReduce (E : Curve G1 G2 GT) (v : List Zr) : Option Bool := do
  let pp ← BP.newPublicParams E 128
  let pp ← BP.setupDigest E { pp with H := [] }
  let V ← Gv.sum (← Gv.mulV pp.G v)
  let (_, xs, vFinal) ← iterativeReduce E pp v V
  let xs := Vec.reverse xs
  let xVec ← (List.range 128).mapM fun i => do
    Vec.product (← Vec.powBitVec xs (← bitDecomposition i 127))
  let shouldBeV ← Vec.innerProd v xVec
  return decide (vFinal = shouldBeV)

/-- `bp/range_test.go:10-23` `TestRangeProof`. -/
def testRangeProof (E : Curve G1 G2 GT) (r : Zr) (rnd : RangeRand) : Option Bool := do
  let pp ← newRangeProofPublicParams E 8
  let v := List.replicate 8 (intToZr 100)
  let V := r • pp.F
  let V := V + (← Gv.sum (← Gv.mulV pp.Gs v))
  let rp ← proveRange E pp rnd V v r
  verifyRange E pp rp V

/-! ### `poe/poe_test.go` -/

/-- `poe/poe_test.go:97-103` `randIndex`, given the two bytes it uses of those it reads. -/
def randIndex (b0 b1 : UInt8) (n : ℕ) : ℕ := (b0.toNat * 256 + b1.toNat) % n

/-- The values drawn in one round of the loops of the two tests: the vectors and the bytes of the positions. -/
structure EqDraw where
  v : List Zr
  w : List Zr
  i0 : UInt8
  i1 : UInt8
  j0 : UInt8
  j1 : UInt8

/-- The first position (`poe/poe_test.go:33`, `74`). -/
def EqDraw.i (d : EqDraw) (n : ℕ) : ℕ := randIndex d.i0 d.i1 (n - 1)

/-- The second position (`poe/poe_test.go:34`, `75`). -/
def EqDraw.j (d : EqDraw) (n : ℕ) : ℕ := randIndex d.j0 d.j1 (n - 1)

/-- The first vector after `v[i] = w[j]` (`poe/poe_test.go:39`, `77`). -/
def EqDraw.v' (d : EqDraw) (n : ℕ) : Option (List Zr) := do
  let x ← d.w[d.j n]?
  if d.i n < d.v.length then return d.v.set (d.i n) x else none

/-- `poe/poe_test.go:13-63` `TestProofOfEqualities`. -/
def testProofOfEqualities (E : Curve G1 G2 GT) (α : Zr) (ds : List EqDraw) (rnd : Poe.EqsRand) : Option Bool := do
  let n := 32
  let pp ← Poe.newPublicParams E α n 128
  let vs ← ds.mapM fun d => d.v' n
  let ws := ds.map EqDraw.w
  let Vs ← vs.mapM fun v => pp.vc.commit v
  let Ws ← ws.mapM fun w => pp.vc.commit w
  let eq : Poe.Equalities G1 G2 GT :=
    { RO := Poe.ro E, PP := pp, W := Ws, V := Vs, I := ds.map fun d => d.i n, J := ds.map fun d => d.j n }
  let proof ← eq.prove E rnd vs ws
  eq.verify E proof

/-- `poe/poe_test.go:65-95` `TestProofOfEquality`, given the draws of every round. -/
def testProofOfEquality (E : Curve G1 G2 GT) (rounds : List (Zr × EqDraw × Zr × Zr × Zr)) : Option Bool :=
  forAll rounds fun (α, d, u, η, ν) => do
    let n := 64
    let pp ← Poe.newPublicParams E α n 1
    let v ← d.v' n
    let V ← pp.vc.commit v
    let W ← pp.vc.commit d.w
    let eq : Poe.Equality G1 G2 GT := { RO := Poe.ro E, PP := pp, W := W, V := V, I := d.i n, J := d.j n }
    let proof ← eq.prove E u η ν v d.w
    eq.verify E proof

/-! ### `common/math_test.go` -/

/-- `common/math_test.go:10-28` `TestMath`. -/
def testMath (n : Zr) : Bool :=
  let bs := bits n 256
  let n2 := bs.zipIdx.foldl (fun n2 (b, i) => if b = 0 then n2 else n2 + intToZr 2 ^ i) (intToZr 0)
  decide (n = n2)

/-! ### `sum/sa_test.go` -/

/-- `sum/sa_test.go:24-37` `randomCommitment`: the vector whose last entry is the sum of the scalars drawn. -/
def balancedVec (xs : List Zr) : List Zr := xs ++ [xs.foldl (· + ·) (intToZr 0)]

/-- `sum/sa_test.go:12-22` `TestSumArgument`; `xs` has the 63 scalars drawn at line 28. -/
def testSumArgument (E : Curve G1 G2 GT) (xs : List Zr) (r : Zr) (rnd : Sum.Rand) : Option Bool := do
  let pp ← Sum.newPublicParams E 64
  let v := balancedVec xs
  let V ← Sum.newCommitment pp v r
  let (sa, π) ← Sum.newArgument E pp rnd V.V v r
  π.verify E pp sa

/-- `sum/sa_test.go:39-59` `TestAggregatedSumArgument`; `ds` has the draws of the 100 calls of
`randomCommitment`. -/
def testAggregatedSumArgument (E : Curve G1 G2 GT) (ds : List (List Zr × Zr)) (rnd : Sum.Rand) : Option Bool := do
  let pp ← Sum.newPublicParams E 64
  let vs := ds.map fun d => balancedVec d.1
  let rs := ds.map Prod.snd
  let Vs ← ds.mapM fun d => do return (← Sum.newCommitment pp (balancedVec d.1) d.2).V
  let π ← Sum.newAggregatedArgument E pp rnd Vs vs rs
  π.verifyAggregated E pp Vs

/-! ### `sparse/tree_test.go` -/

/-- The callback of the summation trees (`sparse/tree_test.go:21-29`, `102-110`, `170-178`), which adds up the
data of the children; with the calls recorded as at lines 32-40 of the first. -/
def sumUpdate : Sparse.Update ℤ (List (Bool × ℕ)) := fun _ _ ds leaf index log =>
  some (some (ds.foldl (fun sum n => sum + n.getD 0) 0), log ++ [(leaf, index)])

/-- The test function of `Put`s and `Get`s shared by the three tests of summation trees: `Put` all of `puts`,
then compare what `Get` gives for the identifiers in `gets` with an amount or with `false`. -/
def testSummationTree (id2Path : Str → Option (List ℕ)) (fanOut : ℕ) (puts : List (Str × ℤ))
    (gets : List (Str × Option ℤ)) : Option Bool := do
  let t : Sparse.Tree ℤ (List (Bool × ℕ)) :=
    { id2Path := id2Path, update := sumUpdate, fanOut := fanOut, root := none }
  let (t, _) ← t.puts (puts.map fun e => (e.1, some e.2)) []
  forAll gets fun e => do
    match ← t.get e.1 with
    | none => return decide (e.2 = none)
    | some (val, _) => return decide (val = e.2 ∧ e.2 ≠ none)

/-- The path function of `sparse/tree_test.go:14-20`. -/
def binaryPath (id : Str) : Option (List ℕ) := some (id.map fun c => (c.toNat + 256 - 48) % 256)

/-- `sparse/tree_test.go:11-96` `TestSparseBinarySummationTree`: first the calls recorded during every `Put`,
then the values (of a tree filled in the same way). -/
def testSparseBinarySummationTree : Option Bool := do
  let t : Sparse.Tree ℤ (List (Bool × ℕ)) := { id2Path := binaryPath, update := sumUpdate, fanOut := 2, root := none }
  let tests : List (String × ℤ × List ℕ) := [("00", 5, [0, 0]), ("01", 4, [1, 0]), ("10", 3, [0, 1]), ("11", 2, [1, 1])]
  let (ok, _) ← forAllState tests t fun tst t => do
    let (t, log) ← t.put tst.1.toList (some tst.2.1) []
    return (decide (log.map Prod.snd = tst.2.2) && decide (log.map Prod.fst = [true, false]), t)
  let ok2 ← testSummationTree binaryPath 2 [("00".toList, 5), ("01".toList, 4), ("10".toList, 3), ("11".toList, 2)]
    [("00".toList, some 5), ("01".toList, some 4), ("10".toList, some 3), ("11".toList, some 2), ("0".toList, some 9),
      ("1".toList, some 5), ([], some 14)]
  return ok && ok2

/-- `sparse/tree_test.go:98-164` `TestSSNSummationTree`. -/
def testSSNSummationTree : Option Bool := do
  let id2Path ← digitPath 7
  testSummationTree id2Path 7
    [("123456789".toList, 5), ("123456780".toList, 4), ("123456700".toList, 3), ("123456000".toList, 2)]
    [("123456789".toList, some 5), ("123456780".toList, some 4), ("123456700".toList, some 3),
      ("123456000".toList, some 2), ("123406700".toList, none)]

/-- `sparse/tree_test.go:166-234` `TestSparsePowerTwoSummationTree`. -/
def testSparsePowerTwoSummationTree (E : Curve G1 G2 GT) : Option Bool := do
  let id2Path ← hexId2Path E 7
  let hash := fun s : String => hashId E s.toList
  testSummationTree id2Path 7 [(hash "5", 5), (hash "4", 4), (hash "3", 3), (hash "2", 2)]
    [(hash "5", some 5), (hash "4", some 4), (hash "3", some 3), (hash "2", some 2), (hash "1", none)]

/-- `sparse/tree_test.go:236-256` `TestHexPathIsInCorrectLength`: for every fan-out of the table, the lengths of
the paths of 10000 random identifiers (`draws fanout`) are collected. -/
def testHexPathIsInCorrectLength (E : Curve G1 G2 GT) (fanouts : List UInt16) (draws : UInt16 → List Bytes) :
    Option Bool :=
  forAll fanouts fun fanout => do
    let id2Path ← hexId2Path E fanout
    let lengths ← (draws fanout).mapM fun buff => do return (← id2Path (hexEncode buff)).length
    return decide (lengths.dedup.length = 1)

/-! ### `verkle/tree_test.go` -/

/-- `verkle/tree_test.go:24-40` `TestVerkleTree`, with `verkle/tree_test.go:42-46` `hash` (`hashId`).  The database is an empty map
(`verkle/tree_test.go:14-22`, `pol/pol_test.go:14-22` `MemDB`): a function that gives no bytes for a key never written. -/
def testVerkleTree (E : Curve G1 G2 GT) (env : Verkle.Env) (α : Zr) : Option Bool := do
  let t := Verkle.newVerkleTree E α 1023 (← hexId2Path E 1023)
  let a := hashId E "a".toList
  let b := hashId E "b".toList
  let (t, s) ← t.puts E env [(a, 5), (b, 6)] { db := fun _ => [], tick := 0 }
  let check := fun (r : Option (ℤ × List (Verkle.Vertex G1))) (n : ℤ) => match r with
    | none => false
    | some (m, path) => decide (m = n ∧ path.length = 26)
  let ra ← t.get E env a s.db
  let rb ← t.get E env b s.db
  return check ra 5 && check rb 6

/-- `verkle/tree_test.go:48-70` `TestIsPowerOfTwo`. -/
def testIsPowerOfTwo : Option Bool := do
  let yes ← forAll ([2, 4, 8, 16, 64, 128, 256, 512, 1024] : List UInt16) fun n => isPowerOfTwo n
  let no ← forAll ([1, 3, 5, 10, 12, 17, 15, 127, 129, 500, 514] : List UInt16) fun n => do
    return !(← isPowerOfTwo n)
  return yes && no

/-- `verkle/tree_test.go:72-78` `TestUpdateSum`. -/
def testUpdateSum : Bool :=
  decide (Verkle.updateSum (intToZr 1000) (intToZr 500) (intToZr 300) = intToZr 800)

/-- `verkle/tree_test.go:80-89` `TestSerializeVerkleTree`: there is no assertion. -/
def testSerializeVerkleTree (E : Curve G1 G2 GT) (env : Verkle.Env) (α : Zr) : Option Bool := do
  let t := Verkle.newVerkleTree E α 1023 (← hexId2Path E 1023)
  let (t, _) ← t.puts E env [(hashId E "a".toList, 5), (hashId E "b".toList, 6)] { db := fun _ => [], tick := 0 }
  let _ ← t.serialize
  return true

/-! ### `pol/pol_test.go` -/

open Pol

/-- The last part of the first two tests (`pol/pol_test.go:42-54`, `66-78`): a proof is made, the root is read,
and the proof is verified. -/
def proveAndVerify (E : Curve G1 G2 GT) (env : Verkle.Env) (pp : PublicParams G1 G2 GT)
    (id2Path : Str → Option (List ℕ)) (ls : LiabilitySet G1 G2 GT) (id : Str) (amount : ℤ) (rnd : ProveRand) :
    Option Bool := do
  let r ← ls.proveLiability E env rnd id
  let (root, _) ← ls.root E
  match r, root with
  | some (n, proof), some (vRoot, some wRoot) =>
    return decide (n = amount) && (← proof.verify E pp id vRoot wRoot id2Path)
  | _, _ => none

/-- `pol/pol_test.go:24-54` `TestPolSparse`; `b1`, `b2` are the identifiers drawn, `α'` the scalar drawn by
`NewVerkleTree`.  A missing proof or root makes the call of `Verify` panic. -/
def testPolSparse (E : Curve G1 G2 GT) (env : Verkle.Env) (α α' : Zr) (b1 b2 : Bytes) (rnd : ProveRand) :
    Option Bool := do
  let (id2Path, pp) ← generatePublicParams E α 7 .sparse
  let ls := newLiabilitySet E α' pp (fun _ => []) id2Path
  let ls ← ls.set E env (hexEncode b1) 100
  let ls ← ls.set E env (hexEncode b2) 101
  proveAndVerify E env pp id2Path ls (hexEncode b2) 101 rnd

/-- `pol/pol_test.go:56-78` `TestPolDense`. -/
def testPolDense (E : Curve G1 G2 GT) (env : Verkle.Env) (α α' : Zr) (rnd : ProveRand) : Option Bool := do
  let (id2Path, pp) ← generatePublicParams E α 7 .dense
  let ls := newLiabilitySet E α' pp (fun _ => []) id2Path
  let ls ← ls.set E env "987654321".toList 100
  proveAndVerify E env pp (← digitPath 7) ls "987654321".toList 100 rnd

/-- `pol/pol_test.go:80-107` `TestProveTot`. -/
def testProveTot (E : Curve G1 G2 GT) (env : Verkle.Env) (α α' : Zr) (b1 b2 : Bytes) : Option Bool := do
  let (id2Path, pp) ← generatePublicParams E α 7 .sparse
  let ls := newLiabilitySet E α' pp (fun _ => []) id2Path
  let ls ← ls.set E env (hexEncode b1) 50
  let ls ← ls.set E env (hexEncode b2) 50
  let totProof ← ls.proveTot E
  let (root, _) ← ls.root E
  match root with
  | some (V, _) => totProof.verify E pp V
  | none => none

end PoL.Tests

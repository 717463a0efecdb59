import Verif.Model.Pol

/-!
# `bench/main.go`: the benchmark program

Times and what is printed at the end are in `Verif/Model/Report.lean`.  Not modelled: what is printed before, and the database
on disk (`bench/main.go:414-446`, used by nothing).  `none` means that the program panics, exits with an error, or never
ends.
-/

namespace PoL.Bench

open BP Verkle Pol

variable {G1 G2 GT : Type} [AddCommGroup G1] [Module Zr G1] [AddCommGroup G2] [Module Zr G2]
  [AddCommGroup GT] [Module Zr GT] [DecidableEq G1] [DecidableEq GT]

/-- `bench/main.go:17-20` `totalPopulation`. -/
def totalPopulation : ℕ := 1000

/-- `bench/main.go:22-25` `fanouts`. -/
def fanouts : List UInt16 := [3, 7, 15, 31, 63, 127, 255, 511]

/-- `bench/main.go:29-35` `sizes.Avg`, and `bench/main.go:39-45` `durations.Avg` (a `time.Duration` is an
`int64`).  Division by zero panics. -/
def avg (s : List Int64) : Option Int64 :=
  if s.length = 0 then none else some (s.foldl (fun sum size => sum + size) 0 / Int64.ofNat s.length)

/-- `bench/main.go:105-111` `ppSizes` and `113-119` `proofSizes`: the pairs that the string consists of.  The map from
fan-outs to measurements is the list `m`, in the order of `fanouts`. -/
def averages (m : List (List Int64)) : Option (List (UInt16 × Int64)) :=
  (fanouts.zip m).mapM fun e => do return (e.1, ← avg e.2)

/-- `bench/main.go:203-223` `setTreeType`, given the value of `TREETYPE`. -/
def setTreeType (treeType : String) : Option TreeType :=
  if treeType = "" then some .sparse
  else if treeType = "SPARSE" then some .sparse
  else if treeType = "DENSE" then some .dense
  else none

/-- `bench/main.go:225-238` `setParallelism`, given the value of `PARALLELISM`. -/
def setParallelism (parallelism : String) : Option Bool :=
  if parallelism = "0" then some false
  else if parallelism = "1" ∨ parallelism = "" then some true
  else none

/-- `bench/main.go:398-412` `getIterations`, given the value of `ITERATIONS`. -/
def getIterations (iterationsString : String) : Option ℤ :=
  if iterationsString ≠ "" then parseInt32 iterationsString.toList else some 10

/-- `bench/main.go:155-172`: the two functions for `idGen`.  `big.Int.String` gives decimal digits without
leading zeros. -/
def idGen (treeType : TreeType) (buff : Bytes) : Str :=
  match treeType with
  | .sparse => hexEncode buff
  | .dense =>
    let n := beToNat buff
    let n := n % (1000 * 1000 * 1000)
    let n := if n < 100 * 1000 * 1000 then n + 1000 * 1000 * 100 else n
    Nat.toDigits 10 n

/-- `bench/main.go:448-456` `MemDB`: a key that was never written reads as `nil`. -/
def memDB : Db := fun _ => []

/-- The random values drawn by one call of `benchmarkFanout`: the trapdoors of the two sets of parameters, the
32 bytes for each identifier, and those of every proof. -/
structure Draws where
  α : Zr
  α' : Zr
  population : ℕ → Bytes
  measured : ℕ → Bytes
  prove : ℕ → ProveRand

/-- `bench/main.go:341-368` `populateLiabilitySet`: its calls of `Set`. -/
def populate (treeType : TreeType) (population : ℕ) (buff : ℕ → Bytes) : List (Str × ℤ) :=
  (List.range (population / 1000)).flatMap fun i => (List.range 1000).map fun j =>
    (idGen treeType (buff (i * 1000 + j)), (j : ℤ))

/-- `bench/main.go:319-339` `benchmarkVerifyTot`.  The averages divide by `iterations`. -/
def benchmarkVerifyTot (E : Curve G1 G2 GT) (iterations : ℕ) (ls : LiabilitySet G1 G2 GT)
    (pp : PublicParams G1 G2 GT) (V : Option G1) : Option Unit := do
  let _ ← (List.range iterations).mapM fun _ => do
    let totProof ← ls.proveTot E
    if ← totProof.verify E pp (← V) then return () else none
  if iterations = 0 then none else return ()

/-- One round of the loop at `bench/main.go:291-312`: the size of the proof in KiB.  `V` and `W` are as given by
`Root`; a nil pointer panics in `Verify`. -/
def measure (E : Curve G1 G2 GT) (env : Env) (ls : LiabilitySet G1 G2 GT) (pp : PublicParams G1 G2 GT)
    (id2Path : Str → Option (List ℕ)) (V W : Option G1) (rnd : ProveRand) (id : Str) : Option Int64 := do
  match ← ls.proveLiability E env rnd id with
  | none => none
  | some (_, π) =>
    if ← π.verify E pp id (← V) (← W) id2Path then return Int64.ofNat (π.size E / 1024) else none

/-- `bench/main.go:257-317` `benchmarkFanout`: the sizes it appends to `proofSize`.  A negative number of iterations
panics (`make`, line 277).  It returns no error but panics, so `retryUntilSuccess` (`bench/main.go:248-255`) calls
it once. -/
def benchmarkFanout (E : Curve G1 G2 GT) (env : Env) (iterations : ℤ) (numIds : ℕ) (treeType : TreeType) (d : Draws)
    (fanOut : UInt16) : Option (List Int64) := do
  let (id2Path, pp) ← generatePublicParams E d.α fanOut treeType
  let ls := newLiabilitySet E d.α' pp memDB id2Path
  let ls ← ls.sets E env (populate treeType numIds d.population)
  if iterations < 0 then none
  else
    let ids := (List.range iterations.toNat).map fun i => idGen treeType (d.measured i)
    let ls ← ls.sets E env (ids.map fun id => (id, 666))
    let (r, ls) ← ls.root E
    let V := r.map Prod.fst
    let W := r.bind Prod.snd
    let sizes ← (List.range iterations.toNat).mapM fun i =>
      measure E env ls pp id2Path V W (d.prove i) (idGen treeType (d.measured i))
    benchmarkVerifyTot E iterations.toNat ls pp V
    return sizes

/-- One of the two loops of `measurePPGen` (`bench/main.go:370-396`), for one fan-out: the sizes of the parameters in
KiB. `α` has the trapdoors drawn; Go's division rounds towards zero. -/
def measurePPGen (E : Curve G1 G2 GT) (treeType : TreeType) (α : List Zr) (fanOut : UInt16) : Option (List Int64) :=
  α.mapM fun α => do
    let (_, pp) ← generatePublicParams E α fanOut treeType
    return Int64.ofInt ((pp.size E).tdiv 1024)

/-- The environment of the process, and all that it draws. -/
structure Process where
  treeType : String
  parallelism : String
  iterations : String
  ppDraws : TreeType → UInt16 → ℕ → Zr
  draws : UInt16 → Draws

/-- What the program reports: the averages of `ppSize` and `proofSize`. -/
structure Report where
  ppSizes : List (UInt16 × Int64)
  proofSizes : List (UInt16 × Int64)

/-- `bench/main.go:140-201` `main`.  The switch for parallelism has no effect on the results here
(`Verif/Props/Schedule.lean` has the parallel version). -/
def main (E : Curve G1 G2 GT) (env : UInt16 → Env) (p : Process) : Option Report := do
  let _ ← setParallelism p.parallelism
  let iterations ← getIterations p.iterations
  let ppSize : TreeType → Option (List (List Int64)) := fun treeType => fanouts.mapM fun fanOut =>
    measurePPGen E treeType ((List.range iterations.toNat).map (p.ppDraws treeType fanOut)) fanOut
  let dense ← ppSize .dense
  let sparse ← ppSize .sparse
  let treeType ← setTreeType p.treeType
  let proofSize ← fanouts.mapM fun fanOut =>
    benchmarkFanout E (env fanOut) iterations totalPopulation treeType (p.draws fanOut) fanOut
  let ppSizes ← averages (match treeType with
    | .dense => dense
    | .sparse => sparse)
  let proofSizes ← averages proofSize
  return { ppSizes := ppSizes, proofSizes := proofSizes }

end PoL.Bench

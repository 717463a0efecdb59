import Verif.Model.Bench

/-!
# `bench/main.go`: times, and the lines that the benchmark prints at its end

Time is a function of the position in the sequence of steps of the goroutine that makes the calls: `τ j` is the time
(in nanoseconds, on the monotonic clock) at which step `j` begins.  What other goroutines do meanwhile is not seen
here; it only makes steps take longer.

Not modelled: what is printed before the end, which includes the times of `ProveTot`, of `TotalProof.Verify` and of the
construction (`bench/main.go:337-338`, `365`).
-/

namespace PoL.Bench

open BP Verkle Pol

variable {G1 G2 GT : Type} [AddCommGroup G1] [Module Zr G1] [AddCommGroup G2] [Module Zr G2]
  [AddCommGroup GT] [Module Zr GT] [DecidableEq G1] [DecidableEq GT]

/-- The work that `pol/pol.go:331-464` `ProveLiability` and `pol/pol.go:124-233` `Verify` have done by others. -/
inductive Work
  | get
  | rangeProof (i : ℕ)
  | spawn (i : ℕ)
  | openAt (i : ℕ)
  | openForClient
  | challenge (i : ℕ)
  | pointProofSum
  | pointProofAggregate
  | sumArgument
  | zeroCommit
  | equalities
  | wait
  | compareRoot
  | checkVertex (i : ℕ)
  | verifyPointProofs
  | verifyLiability
  deriving DecidableEq

/-- A step: work, or a reading of the clock (`time.Now()` or `time.Since(…)`). -/
inductive Step
  | work (w : Work)
  | now
  deriving DecidableEq

/-- `pol/pol.go:331-464` `ProveLiability`, for a path of length `L`: the steps of the calling goroutine, in order.  Lines 343,
434, 438, 457, 459 and 463 read the clock. -/
def proveSteps (parallel : Bool) (L : ℕ) : List Step :=
  [.work .get, .now]
    ++ (List.range L).flatMap (fun i => [.work (if parallel then .spawn i else .rangeProof i), .work (.openAt i)])
    ++ [.work .openForClient]
    ++ (List.range (L - 1)).map (fun i => .work (.challenge i))
    ++ [.now, .work .pointProofSum, .work .pointProofAggregate, .work .sumArgument, .now,
        .work .zeroCommit, .now, .work .equalities, .now, .work .wait, .now]

/-- `pol/pol.go:124-233` `Verify` for a path of length `L`, if it returns no error, and around it the readings at
`bench/main.go:301` and `307`.  Lines 199, 203, 217 and 221 of `pol/pol.go` read the clock. -/
def verifySteps (parallel : Bool) (L : ℕ) : List Step :=
  [.now, .work .compareRoot]
    ++ (List.range L).flatMap (fun i => .work (if parallel then .spawn i else .rangeProof i)
        :: if 0 < i ∨ i = L - 1 then [.work (.checkVertex i)] else [])
    ++ [.work .verifyPointProofs, .now, .work .sumArgument, .now, .work .zeroCommit, .now, .work .equalities, .now,
        .work .wait, .work .verifyLiability, .now]

/-- What the clock shows each time it is read. -/
def readings : List Step → (ℕ → ℤ) → List ℤ
  | [], _ => []
  | .work _ :: s, τ => readings s fun j => τ (j + 1)
  | .now :: s, τ => τ 0 :: readings s fun j => τ (j + 1)

/-- Go's `time.Since` with a monotonic clock: the difference, as a `time.Duration` (an `int64`), or the nearest if it does not
fit. -/
def since (start now : ℤ) : Int64 := Int64.ofInt (max (-2 ^ 63) (min (2 ^ 63 - 1) (now - start)))

/-- `pol/pol.go:463`: the times that `ProveLiability` returns. -/
def proveTimes (parallel : Bool) (L : ℕ) (τ : ℕ → ℤ) : Option (List Int64) := do
  let r := readings (proveSteps parallel L) τ
  let saElapsed := since (← r[1]?) (← r[2]?)
  let eqProofElapsed := since (← r[3]?) (← r[4]?)
  return [saElapsed, eqProofElapsed, since (← r[0]?) (← r[5]?)]

/-- `pol/pol.go:232`: the times that `Verify` returns, and the one measured around it (`bench/main.go:301-307`). -/
def verifyTimes (parallel : Bool) (L : ℕ) (τ : ℕ → ℤ) : Option (List Int64 × Int64) := do
  let r := readings (verifySteps parallel L) τ
  let saElapsed := since (← r[1]?) (← r[2]?)
  let eqElapsed := since (← r[3]?) (← r[4]?)
  return ([saElapsed, eqElapsed], since (← r[0]?) (← r[5]?))

/-- `bench/main.go:121-132` `measurement`, without `constTime`, which nothing reads. -/
structure Measurement where
  ppGenTime : List Int64 := []
  proofTime : List Int64 := []
  verifyTime : List Int64 := []
  equalityTimeProve : List Int64 := []
  sumTimeProve : List Int64 := []
  equalityTimeVerify : List Int64 := []
  sumTimeVerify : List Int64 := []
  ppSize : List Int64 := []
  proofSize : List Int64 := []

/-- The clock during the benchmark of one fan-out: the two readings around each generation of parameters, and the time
during each call of `ProveLiability` and `Verify`. -/
structure Clocks where
  ppGen : ℕ → ℤ × ℤ
  prove : ℕ → ℕ → ℤ
  verify : ℕ → ℕ → ℤ

/-- `bench/main.go:293-311`: one iteration, for an identifier with a path of length `L` whose proof has `size` KiB. -/
def record (parallel : Bool) (L : ℕ) (prove verify : ℕ → ℤ) (size : Int64) (m : Measurement) : Option Measurement := do
  let elapsedTimes ← proveTimes parallel L prove
  let m := { m with proofTime := m.proofTime ++ [← elapsedTimes[2]?] }
  let m := { m with equalityTimeProve := m.equalityTimeProve ++ [← elapsedTimes[1]?] }
  let m := { m with sumTimeProve := m.sumTimeProve ++ [← elapsedTimes[0]?] }
  let (verifyTimes, elapsed) ← verifyTimes parallel L verify
  let saElapsed ← verifyTimes[0]?
  let eqElapsed ← verifyTimes[1]?
  let m := { m with verifyTime := m.verifyTime ++ [elapsed] }
  let m := { m with equalityTimeVerify := m.equalityTimeVerify ++ [eqElapsed] }
  let m := { m with sumTimeVerify := m.sumTimeVerify ++ [saElapsed] }
  return { m with proofSize := m.proofSize ++ [size] }

/-- `bench/main.go:370-396` `measurePPGen` and `242-246` `measureConstructProofVerify`, for one fan-out: everything that is
measured.  The proofs and their sizes are those of `benchmarkFanout`. -/
def measurements (E : Curve G1 G2 GT) (env : Env) (parallel : Bool) (iterations : ℤ) (numIds : ℕ) (treeType : TreeType)
    (ppDraws : ℕ → Zr) (d : Draws) (c : Clocks) (fanOut : UInt16) : Option Measurement := do
  let ppSize ← measurePPGen E treeType ((List.range iterations.toNat).map ppDraws) fanOut
  let ppGenTime := (List.range iterations.toNat).map fun i => since (c.ppGen i).1 (c.ppGen i).2
  let m : Measurement := { ppGenTime := ppGenTime, ppSize := ppSize }
  let sizes ← benchmarkFanout E env iterations numIds treeType d fanOut
  let (id2Path, _) ← generatePublicParams E d.α fanOut treeType
  (List.range iterations.toNat).foldlM (fun m i => do
    record parallel (← id2Path (idGen treeType (d.measured i))).length (c.prove i) (c.verify i) (← sizes[i]?) m) m

/-- `time.Duration.Milliseconds`: division rounds towards zero. -/
def milliseconds (d : Int64) : Int64 := d / 1000000

/-- The verb `%d` of `fmt.Sprintf` for an integer: decimal digits, after `-` if it is negative. -/
def decimal (x : ℤ) : Str := if x < 0 then '-' :: Nat.toDigits 10 x.natAbs else Nat.toDigits 10 x.natAbs

/-- `fmt.Sprintf("(%d, %d)", …)`, once for each pair, in a buffer (`bench/main.go:50-54` and its likes). -/
def pairs (l : List (UInt16 × Int64)) : Str :=
  l.flatMap fun e => ['('] ++ decimal (e.1.toNat : ℤ) ++ [',', ' '] ++ decimal e.2.toInt ++ [')']

/-- The loop of `bench/main.go:49-103` (`ppGenTime`, `proveTime`, `proveEqualityTime`, `proveSumTime`, `verifySumTime`,
`verifyEqTime`, `verifyTime`), for the series `f` of a measurement.  The map from fan-outs to measurements is the list `ms`, in
the order of `fanouts`. -/
def times (f : Measurement → List Int64) (ms : List Measurement) : Option Str := do
  return pairs (← (fanouts.zip ms).mapM fun e => do return (e.1, milliseconds (← avg (f e.2))))

/-- The loop of `bench/main.go:105-119` (`ppSizes`, `proofSizes`). -/
def sizeLine (f : Measurement → List Int64) (ms : List Measurement) : Option Str := do
  return pairs (← averages (ms.map f))

/-- `bench/main.go:174-200`: the last lines printed, each as its label and the rest. -/
def lastLines (ms : List Measurement) : Option (List (String × Str)) := do
  return [("PP sizes:", ← sizeLine Measurement.ppSize ms),
    ("Proof sizes:", ← sizeLine Measurement.proofSize ms),
    ("PP gen times:", ← times Measurement.ppGenTime ms),
    ("proof times:", ← times Measurement.proofTime ms),
    ("verify times:", ← times Measurement.verifyTime ms),
    ("equality proof times:", ← times Measurement.equalityTimeProve ms),
    ("sum proof times:", ← times Measurement.sumTimeProve ms),
    ("verify equality times:", ← times Measurement.equalityTimeVerify ms),
    ("verify sum times:", ← times Measurement.sumTimeVerify ms)]

/-- `bench/main.go:140-201` `main`: the last lines it prints. -/
def mainPrints (E : Curve G1 G2 GT) (env : UInt16 → Env) (p : Process) (clocks : UInt16 → Clocks) :
    Option (List (String × Str)) := do
  let parallel ← setParallelism p.parallelism
  let iterations ← getIterations p.iterations
  let _ ← fanouts.mapM fun fanOut =>
    measurePPGen E .dense ((List.range iterations.toNat).map (p.ppDraws .dense fanOut)) fanOut
  let _ ← fanouts.mapM fun fanOut =>
    measurePPGen E .sparse ((List.range iterations.toNat).map (p.ppDraws .sparse fanOut)) fanOut
  let treeType ← setTreeType p.treeType
  let ms ← fanouts.mapM fun fanOut =>
    measurements E (env fanOut) parallel iterations totalPopulation treeType (p.ppDraws treeType fanOut) (p.draws fanOut)
      (clocks fanOut) fanOut
  lastLines ms

end PoL.Bench

import Verif.Model.Pol

/-!
# The goroutines of `pol/pol.go`

`Verify` (`pol/pol.go:124-233`) and `ProveLiability` (`pol/pol.go:331-464`) start one goroutine per vertex when
`ParallelismEnabled` is set (`pol/pol.go:29-31`).  Here are transition systems for the two: a state has the position of
the main goroutine and of every other one, and the memory they share; a step is a step of any one of them.

Memory is sequentially consistent.  The steps are the accesses to shared memory; what happens between two accesses is
one step with the first of them.  Shared are: the WaitGroup, the atomic error, the mutex, the slice of range proofs, and
the fields `C` and `P` of the inner-product proof inside a range proof, which `VerifyRange` overwrites before it
verifies (`bp/range.go:136-138`).  The parameters are read only: `RangeProofPublicParams.Digest` (`bp/range.go:38-52`)
writes its cache only when it is empty, and the constructor fills it (`bp/range.go:29`).

A panic in a goroutine runs its deferred call, then ends the process; other goroutines can make steps in between.  After
the main goroutine has returned, the others go on.
-/

namespace PoL.Sched

variable {C P : Type}

/-! ## Verification -/

/-- One call of `VerifyRange`, cut at its accesses to the inner-product proof (`bp/range.go:136-138`): `pre` is the part
up to the writes to its fields `C` and `P`, with the values written, or an error return before (line 101); `post` is the
rest, given the values read.  A panic is `none`. -/
structure Job (C P : Type) where
  pre : Option (Option (C × P))
  post : C → P → Option Bool

/-- The call run without interference: it reads what it has written. -/
def Job.alone (J : Job C P) : Option Bool := do
  match ← J.pre with
  | none => return false
  | some (c, p) => J.post c p

/-- The body of `Verify` (`pol/pol.go:139-232`) for a path of length `n`. -/
structure Prog (C P : Type) where
  n : ℕ
  /-- the arguments of the call at line 170; panics if an index is out of range (157-160, 170) -/
  job : ℕ → Option (Job C P)
  /-- which inner-product proof the range proof `i` points to -/
  cell : ℕ → ℕ
  /-- the check at the end of round `i` (lines 175-192) -/
  check : ℕ → Option Bool
  /-- lines 195-221 -/
  mid : Option Bool
  /-- lines 228-230 -/
  fin : Option Bool

/-- The loop with `ParallelismEnabled = false` (`pol/pol.go:153-193`, 172); `some none` is an error return. -/
def Prog.seqLoop (p : Prog C P) : (i rest : ℕ) → (err : Bool) → Option (Option Bool)
  | _, 0, err => some (some err)
  | i, rest + 1, err => do
    let J ← p.job i
    let ok ← J.alone
    if !(← p.check i) then return none
    else p.seqLoop (i + 1) rest (err || !ok)

/-- `pol/pol.go:139-232` with `ParallelismEnabled = false`. -/
def Prog.seq (p : Prog C P) : Option Bool := do
  match ← p.seqLoop 0 p.n false with
  | none => return false
  | some err =>
    if !(← p.mid) then return false
    else if err then return false
    else p.fin

/-- Where a goroutine of `Verify` is (`pol/pol.go:162-167`). -/
inductive GPc (C P : Type) where
  /-- not started -/
  | idle
  /-- before `VerifyRange` -/
  | start
  /-- before `rp.Π.C = rp.c` (`bp/range.go:136`) -/
  | writeC (w : C × P)
  /-- before `rp.Π.P = …` (`bp/range.go:137`) -/
  | writeP (w : C × P)
  /-- before reading `ipp.P` (`bp/innerprod.go:135`) -/
  | readP
  /-- before reading `ipp.C` (`bp/innerprod.go:135`) -/
  | readC (x : P)
  /-- before `detectedRangeProofErr.Store` (`pol/pol.go:165`) -/
  | store
  /-- before the deferred `Done` (`pol/pol.go:163`), panicking or not -/
  | done (panicking : Bool)
  /-- panicking, after the deferred `Done` -/
  | dying
  | gone

/-- Where the main goroutine is in `Verify`. -/
inductive MPc where
  /-- before starting goroutine `i` (`pol/pol.go:170`) -/
  | round (i : ℕ)
  /-- before the check of round `i` (`pol/pol.go:175-192`) -/
  | check (i : ℕ)
  /-- before line 195 -/
  | mid
  /-- before `Wait` (line 223) -/
  | wait
  /-- before `Load` (line 224) -/
  | load
  /-- before line 228 -/
  | fin
  /-- has returned: `true` is a `nil` error -/
  | returned (b : Bool)

/-- The state of `Verify`. -/
structure St (C P : Type) where
  main : MPc
  pcs : ℕ → GPc C P
  cells : ℕ → C × P
  /-- the counter of `rangeProofsVerification` -/
  wg : ℕ
  /-- does `detectedRangeProofErr` hold an error? -/
  err : Bool
  /-- has a panic ended the process? -/
  crashed : Bool

/-- The state at line 153; `cells` is what the proofs contain. -/
def Prog.init (p : Prog C P) (cells : ℕ → C × P) : St C P :=
  { main := .round 0, pcs := fun _ => .idle, cells := cells, wg := p.n, err := false, crashed := false }

/-- A step of the main goroutine (`pol/pol.go:153-232`); `none`: it cannot make one. -/
def Prog.mainStep (p : Prog C P) (s : St C P) : Option (St C P) :=
  if s.crashed then none
  else
    match s.main with
    | .round i =>
      if i < p.n then
        match p.job i with
        | none => some { s with crashed := true }
        | some _ => some { s with main := .check i, pcs := Function.update s.pcs i .start }
      else some { s with main := .mid }
    | .check i =>
      match p.check i with
      | none => some { s with crashed := true }
      | some false => some { s with main := .returned false }
      | some true => some { s with main := .round (i + 1) }
    | .mid =>
      match p.mid with
      | none => some { s with crashed := true }
      | some false => some { s with main := .returned false }
      | some true => some { s with main := .wait }
    | .wait => if s.wg = 0 then some { s with main := .load } else none
    | .load => if s.err then some { s with main := .returned false } else some { s with main := .fin }
    | .fin =>
      match p.fin with
      | none => some { s with crashed := true }
      | some b => some { s with main := .returned b }
    | .returned _ => none

/-- Goroutine `i` goes on at `pc`. -/
def St.goto (s : St C P) (i : ℕ) (pc : GPc C P) : St C P := { s with pcs := Function.update s.pcs i pc }

/-- A step of goroutine `i` (`pol/pol.go:162-167`); `none`: it cannot make one.  `Done` on a counter of 0 panics. -/
def Prog.goStep (p : Prog C P) (i : ℕ) (s : St C P) : Option (St C P) :=
  if s.crashed then none
  else
    match p.job i with
    | none => none
    | some J =>
      match s.pcs i with
      | .idle => none
      | .start =>
        match J.pre with
        | none => some (s.goto i (.done true))
        | some none => some (s.goto i .store)
        | some (some w) => some (s.goto i (.writeC w))
      | .writeC w =>
        some ({ s with cells := Function.update s.cells (p.cell i) (w.1, (s.cells (p.cell i)).2) }.goto i (.writeP w))
      | .writeP w =>
        some ({ s with cells := Function.update s.cells (p.cell i) ((s.cells (p.cell i)).1, w.2) }.goto i .readP)
      | .readP => some (s.goto i (.readC (s.cells (p.cell i)).2))
      | .readC x =>
        match J.post (s.cells (p.cell i)).1 x with
        | none => some (s.goto i (.done true))
        | some false => some (s.goto i .store)
        | some true => some (s.goto i (.done false))
      | .store => some ({ s with err := true }.goto i (.done false))
      | .done panicking =>
        if s.wg = 0 then some { s with crashed := true }
        else some ({ s with wg := s.wg - 1 }.goto i (if panicking then .dying else .gone))
      | .dying => some { s with crashed := true }
      | .gone => none

/-- One step of any goroutine. -/
def Prog.Step (p : Prog C P) (s s' : St C P) : Prop :=
  p.mainStep s = some s' ∨ ∃ i, i < p.n ∧ p.goStep i s = some s'

/-- A number of steps. -/
inductive Prog.Steps (p : Prog C P) : ℕ → St C P → St C P → Prop where
  | refl (s : St C P) : Steps p 0 s s
  | tail {k : ℕ} {s t u : St C P} : Steps p k s t → p.Step t u → Steps p (k + 1) s u

/-! ## Proving -/

/-- The body of `ProveLiability` (`pol/pol.go:345-463`) for a path of length `n`, producing range proofs `R`. -/
structure Prover (R : Type) where
  n : ℕ
  /-- what `ProveRange` returns in goroutine `i`; `none`: it panics -/
  result : ℕ → Option R
  /-- does round `i` get to line 400 (364-399), or panic? -/
  before : ℕ → Bool
  /-- does round `i` get from line 404 to its end (406-414), or panic? -/
  after : ℕ → Bool
  /-- does the code after the loop (417-459) get to its end, or panic? -/
  rest : Bool

/-- Where a goroutine of `ProveLiability` is (`pol/pol.go:392-398`). -/
inductive PPc (R : Type) where
  /-- not started -/
  | idle
  /-- before `ProveRange` -/
  | start
  /-- before `lock.Lock()` -/
  | lock (r : R)
  /-- before the write to `proof.RangeProofs` -/
  | write (r : R)
  /-- before `lock.Unlock()` -/
  | unlock
  /-- before the deferred `Done`, panicking or not -/
  | done (panicking : Bool)
  /-- panicking, after the deferred `Done` -/
  | dying
  | gone

/-- Where the main goroutine is in `ProveLiability`. -/
inductive PMain where
  /-- before starting goroutine `i` (lines 364-404) -/
  | round (i : ℕ)
  /-- in the rest of round `i` (lines 406-414) -/
  | after (i : ℕ)
  /-- after the loop (line 417) -/
  | rest
  /-- before `Wait` (line 461) -/
  | wait
  | returned

/-- The state of `ProveLiability`. -/
structure PSt (R : Type) where
  main : PMain
  pcs : ℕ → PPc R
  /-- `proof.RangeProofs`; `none` is `nil` -/
  slots : ℕ → Option R
  /-- is `lock` held? -/
  locked : Bool
  /-- the counter of `rangeProofProduction` -/
  wg : ℕ
  /-- has a panic ended the process? -/
  crashed : Bool

variable {R : Type}

/-- The state at line 363 of `pol/pol.go`. -/
def Prover.init (p : Prover R) : PSt R :=
  { main := .round 0, pcs := fun _ => .idle, slots := fun _ => none, locked := false, wg := p.n, crashed := false }

/-- A step of the main goroutine (`pol/pol.go:363-463`). -/
def Prover.mainStep (p : Prover R) (s : PSt R) : Option (PSt R) :=
  if s.crashed then none
  else
    match s.main with
    | .round i =>
      if i < p.n then
        if p.before i then some { s with main := .after i, pcs := Function.update s.pcs i .start }
        else some { s with crashed := true }
      else some { s with main := .rest }
    | .after i => if p.after i then some { s with main := .round (i + 1) } else some { s with crashed := true }
    | .rest => if p.rest then some { s with main := .wait } else some { s with crashed := true }
    | .wait => if s.wg = 0 then some { s with main := .returned } else none
    | .returned => none

/-- Goroutine `i` goes on at `pc`. -/
def PSt.goto (s : PSt R) (i : ℕ) (pc : PPc R) : PSt R := { s with pcs := Function.update s.pcs i pc }

/-- A step of goroutine `i` (`pol/pol.go:392-398`); `none`: it cannot make one. -/
def Prover.goStep (p : Prover R) (i : ℕ) (s : PSt R) : Option (PSt R) :=
  if s.crashed then none
  else
    match s.pcs i with
    | .idle => none
    | .start =>
      match p.result i with
      | none => some (s.goto i (.done true))
      | some r => some (s.goto i (.lock r))
    | .lock r => if s.locked then none else some ({ s with locked := true }.goto i (.write r))
    | .write r => some ({ s with slots := Function.update s.slots i (some r) }.goto i .unlock)
    | .unlock => some ({ s with locked := false }.goto i (.done false))
    | .done panicking =>
      if s.wg = 0 then some { s with crashed := true }
      else some ({ s with wg := s.wg - 1 }.goto i (if panicking then .dying else .gone))
    | .dying => some { s with crashed := true }
    | .gone => none

/-- One step of any goroutine. -/
def Prover.Step (p : Prover R) (s s' : PSt R) : Prop :=
  p.mainStep s = some s' ∨ ∃ i, i < p.n ∧ p.goStep i s = some s'

/-- A number of steps. -/
inductive Prover.Steps (p : Prover R) : ℕ → PSt R → PSt R → Prop where
  | refl (s : PSt R) : Steps p 0 s s
  | tail {k : ℕ} {s t u : PSt R} : Steps p k s t → p.Step t u → Steps p (k + 1) s u

end PoL.Sched

namespace PoL.BP

variable {G1 G2 GT : Type} [AddCommGroup G1] [Module Zr G1] [AddCommGroup G2] [Module Zr G2]
  [AddCommGroup GT] [Module Zr GT] [DecidableEq G1]

/-- `bp/range.go:84-160` `VerifyRange`, cut at its accesses to the fields `C` and `P` of the inner-product proof.
Simplification: `computeP` runs before the write to `C` here, between the two writes in Go (lines 136-137); it reads
neither field. -/
def rangeJob (E : Curve G1 G2 GT) (pp : RPPP G1) (rp : RangeProof G1) (V : G1) :
    Option (Option ((Zr × G1) × (Zr → G1 → Option Bool))) := do
  let m := 63
  let n := pp.Gs.length
  let x ← rangeProofRO1 E pp V rp.W rp.Q
  let U := rp.γ • pp.F + V + x • rp.W
  let ppRdx ← rangeRdxPP E pp
  match ← iterativeVerify E ppRdx U rp.Δ rp.u with
  | none => return none
  | some (xs, u) =>
    let xs := Vec.reverse xs
    let f ← rangeF n xs
    let d ← computeD n m f x
    let y0 ← rangeY E pp rp.Q rp.R x 0
    let y1 ← rangeY E pp rp.Q rp.R x 1
    let y0v := powerSeries (n * m) y0
    let y1v := Vec.mul (expand (intToZr 1) (n * m)) y1
    let z ← computeZ E pp rp.C1 rp.C2 rp.Q rp.R (zrBytes y0) (zrBytes y1)
    let y0Inverse := y0⁻¹
    let Fprime ← Gv.mulV pp.Fs (powerSeries pp.Fs.length y0Inverse)
    let ipaPP ← rangeIpaPP E pp Fprime
    let P ← computeP pp rp.ρ rp.Q rp.R z y1v n m Fprime d y1
    return some ((rp.c, P), fun C P => do
      let ipp := { rp.ipp with C := C, P := P }
      if !(← ipp.verify E ipaPP) then return false
      else
        let β1 ← Vec.innerProd (expand (intToZr 1) (n * m)) y0v
        let β2 ← Vec.innerProd (expand (intToZr 1) (n * m)) y0v
        let β3 ← Vec.innerProd (expand (intToZr 1) (n * m)) (← sliceTo d (n * m))
        let c0 := β3 * (y1 * y1 * y1) + y1 * y1 * (u + β2) + β1 * y1
        let left := z • rp.C1 + (z * z) • rp.C2 + c0 • pp.G
        let right := rp.c • pp.G + rp.τ • pp.H
        return decide (left = right))

/-- `VerifyRange` as a job. -/
def verifyRangeJob (E : Curve G1 G2 GT) (pp : RPPP G1) (rp : RangeProof G1) (V : G1) : Sched.Job Zr G1 where
  pre := (rangeJob E pp rp V).map fun r => r.map Prod.fst
  post C P := match rangeJob E pp rp V with
    | some (some (_, k)) => k C P
    | _ => none

end PoL.BP

namespace PoL.Pol

open BP

variable {G1 G2 GT : Type} [AddCommGroup G1] [Module Zr G1] [AddCommGroup G2] [Module Zr G2]
  [AddCommGroup GT] [Module Zr GT] [DecidableEq G1] [DecidableEq GT]

/-- `pol/pol.go:139-232`: the body of `Verify` after the first checks; `cell` says which inner-product proofs the
range proofs point to. -/
def LiabilityProof.prog (E : Curve G1 G2 GT) (lp : LiabilityProof G1) (pp : PublicParams G1 G2 GT) (path : List ℕ)
    (cell : ℕ → ℕ) : Sched.Prog Zr G1 where
  n := path.length
  job i := do
    if i + 1 < path.length ∧ lp.V.length ≤ i + 1 then none
    else return verifyRangeJob E pp.RPPP (← lp.rangeProofs[i]?) (← lp.V[i]?)
  cell := cell
  check i :=
    if i + 1 = path.length then lp.checkCommitmentToLeafVertex E i
    else if 0 < i then lp.checkCommitmentToInnerVertex E i
    else some true
  mid := do
    if !(← pp.PPPP.verifyAggregation E (path.take (path.length - 1)) lp.W lp.pointProof lp.pointProofSum (PP.ro E))
    then return false
    else if !(← lp.sumArgumentProof.verifyAggregated E pp.SAPP lp.V) then return false
    else
      let zeroCommit ← pp.PPPP.commit (List.replicate (pp.fanout + 2) (intToZr 0))
      let padded ← padLoop ((path.length - 1 : ℕ) : ℤ)
      let equalities ← equalitiesOf E pp.POEPP pp.fanout path lp.V zeroCommit
        (padded - (path.length - 1 : ℕ)).toNat
      equalities.verify E lp.equalityProof
  fin := do pp.PPPP.verify E (intToZr lp.total.sum) lp.total.liabilityProof (← lp.V.getLast?) (← path.getLast?)

/-- The first checks of `Verify` (`pol/pol.go:125-137`): `some none` is an error return, otherwise the path. -/
def LiabilityProof.firstChecks (lp : LiabilityProof G1) (id : Str) (V W : G1) (id2path : Str → Option (List ℕ)) :
    Option (Option (List ℕ)) := do
  let path ← id2path id
  if lp.W.length + 1 ≠ path.length ∨ lp.digests.length ≠ path.length then return none
  else if (← lp.V[0]?) ≠ V then return none
  else if (← lp.W[0]?) ≠ W then return none
  else return some path

/-- `pol/pol.go:124-233` `Verify` with `ParallelismEnabled`: after some number of steps of its goroutines, it has
returned `b`. -/
def LiabilityProof.MayReturn (E : Curve G1 G2 GT) (lp : LiabilityProof G1) (pp : PublicParams G1 G2 GT) (id : Str)
    (V W : G1) (id2path : Str → Option (List ℕ)) (cell : ℕ → ℕ) (cells : ℕ → Zr × G1) (b : Bool) : Prop :=
  match lp.firstChecks id V W id2path with
  | none => False
  | some none => b = false
  | some (some path) => ∃ k s, (lp.prog E pp path cell).Steps k ((lp.prog E pp path cell).init cells) s ∧
      s.main = .returned b

/-- After some number of steps, a panic has ended the process. -/
def LiabilityProof.MayCrash (E : Curve G1 G2 GT) (lp : LiabilityProof G1) (pp : PublicParams G1 G2 GT) (id : Str)
    (V W : G1) (id2path : Str → Option (List ℕ)) (cell : ℕ → ℕ) (cells : ℕ → Zr × G1) : Prop :=
  match lp.firstChecks id V W id2path with
  | none => True
  | some none => False
  | some (some path) => ∃ k s, (lp.prog E pp path cell).Steps k ((lp.prog E pp path cell).init cells) s ∧
      s.crashed = true

/-- The work of goroutine `i` of `ProveLiability` (`pol/pol.go:394`). -/
def rangeProofOf (E : Curve G1 G2 GT) (ls : LiabilitySet G1 G2 GT) (rnd : ProveRand) (vs : List (Verkle.Vertex G1))
    (i : ℕ) : Option (RangeProof G1) := do
  let v ← vs[i]?
  proveRange E ls.pp.RPPP (rnd.range i) v.V (v.valuesVec (ls.tree.fanOut + 1)) v.blindingFactor

/-- What the main goroutine does in one round of the loop of `ProveLiability` (`pol/pol.go:364-390`, `406-414`):
`proveLayer` without the range proof. -/
def mainLayer (ls : LiabilitySet G1 G2 GT) (path : List ℕ) (vs : List (Verkle.Vertex G1)) (i : ℕ) :
    Option (Verkle.Vertex G1 × Zr × G1) := do
  let v ← vs[i]?
  let digests := (List.range (ls.tree.fanOut + 2)).map fun j => (v.digests (UInt16.ofNat j)).getD (intToZr 0)
  let (digest, π) ← ls.tree.PP.openAt (← path[i]?) digests
  return (v, digest, π)

/-- What the main goroutine of `ProveLiability` does after the loop (`pol/pol.go:417-463`), given the range proofs
that are there at the end. -/
def mainRest (E : Curve G1 G2 GT) (ls : LiabilitySet G1 G2 GT) (rnd : ProveRand) (path : List ℕ)
    (layers : List (Verkle.Vertex G1 × Zr × G1)) :
    Option (List (RangeProof G1) → ℤ × LiabilityProof G1) := do
  let last ← layers.getLast?
  let (l, liabilityProof) ← ls.openForClient last.1 (← path.getLast?)
  let liability ← zrInt l
  let V := layers.map fun y => y.1.V
  let W := layers.filterMap fun y => y.1.W
  let digestProofs := layers.filterMap fun y => y.1.W.map fun _ => y.2.2
  let digests := layers.map fun y => y.2.1
  let tPP ← (List.range (path.length - 1)).mapM fun i => PP.ro E ls.tree.PP W i
  let pointProofSum ← Vec.innerProd (digests.take tPP.length) tPP
  let pointProof ← ls.tree.PP.aggregate W digestProofs (PP.ro E)
  let sumArgumentProof ← Verkle.sumArgument E ls.pp.SAPP rnd.sum (layers.map fun y => y.1)
  let zeroVec := List.replicate (ls.tree.fanOut + 2) (intToZr 0)
  let zeroCommit ← ls.pp.PPPP.commit zeroVec
  let padded ← padLoop ((path.length - 1 : ℕ) : ℤ)
  let padding := (padded - (path.length - 1 : ℕ)).toNat
  let vEQ := ((layers.take (path.length - 1)).map fun y => eqVector y.1 ls.tree.fanOut)
    ++ List.replicate padding zeroVec
  let wEQ := ((layers.drop 1).map fun y => eqVector y.1 ls.tree.fanOut) ++ List.replicate padding zeroVec
  let equalities ← equalitiesOf E ls.pp.POEPP ls.tree.fanOut path V zeroCommit padding
  let equalityProof ← equalities.prove E rnd.eq vEQ wEQ
  return fun rangeProofs => (liability,
    { pointProofSum := pointProofSum
      pointProof := pointProof
      sumArgumentProof := sumArgumentProof
      V := V
      W := W
      digests := digests
      rangeProofs := rangeProofs
      equalityProof := equalityProof
      total := { liabilityProof := liabilityProof, sum := liability } })

/-- `pol/pol.go:345-463`: the goroutines of `ProveLiability`.  Round `i` reads vertices `i` and `i+1` before it starts its
goroutine. -/
def LiabilitySet.prover (E : Curve G1 G2 GT) (ls : LiabilitySet G1 G2 GT) (rnd : ProveRand) (path : List ℕ)
    (vs : List (Verkle.Vertex G1)) : Sched.Prover (RangeProof G1) where
  n := path.length
  result i := rangeProofOf E ls rnd vs i
  before i := decide (i < vs.length ∧ (i + 1 < path.length → i + 1 < vs.length))
  after i := (mainLayer ls path vs i).isSome
  rest := (do mainRest E ls rnd path (← (List.range path.length).mapM fun i => mainLayer ls path vs i)).isSome

/-- `pol/pol.go:331-464` `ProveLiability` with `ParallelismEnabled`: after some number of steps of its goroutines, it has
returned `(l, lp)`; none of the range proofs is `nil`. -/
def LiabilitySet.MayProve (E : Curve G1 G2 GT) (env : Verkle.Env) (ls : LiabilitySet G1 G2 GT) (rnd : ProveRand)
    (id : Str) (l : ℤ) (lp : LiabilityProof G1) : Prop :=
  ∃ path x vs layers f rps k s, ls.tree.id2Path id = some path ∧ ls.tree.get E env id ls.s.db = some (some (x, vs)) ∧
    path.length ≠ 0 ∧ (ls.prover E rnd path vs).Steps k (ls.prover E rnd path vs).init s ∧ s.main = .returned ∧
    rps.length = path.length ∧ (∀ i < path.length, s.slots i = rps[i]?) ∧
    (List.range path.length).mapM (fun i => mainLayer ls path vs i) = some layers ∧
    mainRest E ls rnd path layers = some f ∧ f rps = (l, lp)

/-- As `MayProve`, but the range proof at `i` is `nil`. -/
def LiabilitySet.MayLeaveNil (E : Curve G1 G2 GT) (env : Verkle.Env) (ls : LiabilitySet G1 G2 GT) (rnd : ProveRand)
    (id : Str) (i : ℕ) : Prop :=
  ∃ path x vs k s, ls.tree.id2Path id = some path ∧ ls.tree.get E env id ls.s.db = some (some (x, vs)) ∧
    path.length ≠ 0 ∧ (ls.prover E rnd path vs).Steps k (ls.prover E rnd path vs).init s ∧ s.main = .returned ∧
    i < path.length ∧ s.slots i = none

end PoL.Pol

import Verif.Model.PointProofs

/-!
# Points in memory

In the other files a point is a value.  In the Go code it is a pointer, `Add` and `Sub` of points and `Mul` of elements of `GT`
change what their receiver points to, and vectors, parameters and proofs share pointers.  Here are the same functions with a
memory: `Copy`, `Mul` of a point, `Exp`, `Pairing`, `HashToG1` return new cells, the others write to an existing one.  C92 shows that
these functions return what those of the other files return and write to no cell that was there when they were called.

The structures of the other files are used with pointers (`Ref`) in place of points.  Scalars stay values: the code changes them in
place only by `Mod` (the same residue) and by `InvModP` of a copy just made (`bp/innerprod.go:221-229`, `bp/ir.go:91-95`).
-/

namespace PoL.Ptr

/-- A pointer to a point. -/
structure Ref where
  addr : ℕ
deriving DecidableEq

/-- What a pointer points to.  The pointer `nil` is taken to be a pointer to a cell `nil`, of no type: every use of it panics. -/
inductive Cell (G1 G2 GT : Type) where
  | g1 (x : G1)
  | g2 (x : G2)
  | gt (x : GT)
  | nil

/-- The memory: its cells, and the addresses to which something was written after the cell was made, in order. -/
structure Mem (C : Type) where
  cells : List C
  written : List ℕ

/-- A computation that may panic and changes the memory. -/
abbrev Run (C α : Type) := StateT (Mem C) Option α

/-- One of the three types of elements. -/
structure Kind (C M : Type) where
  put : M → C
  get : C → Option M
  get_put : ∀ x, get (put x) = some x

variable {G1 G2 GT : Type}

/-- `*math.G1` -/
def kG1 : Kind (Cell G1 G2 GT) G1 := ⟨.g1, fun | .g1 x => some x | _ => none, fun _ => rfl⟩
/-- `*math.G2` -/
def kG2 : Kind (Cell G1 G2 GT) G2 := ⟨.g2, fun | .g2 x => some x | _ => none, fun _ => rfl⟩
/-- `*math.Gt` -/
def kGt : Kind (Cell G1 G2 GT) GT := ⟨.gt, fun | .gt x => some x | _ => none, fun _ => rfl⟩

variable {C M : Type}

/-- A function that does not use the memory. -/
def lift {α : Type} (o : Option α) : Run C α := fun h => o.map fun a => (a, h)

/-- A panic. -/
def crash {α : Type} : Run C α := fun _ => none

/-- A new cell. -/
def new (k : Kind C M) (x : M) : Run C Ref := fun h =>
  some (⟨h.cells.length⟩, { h with cells := h.cells ++ [k.put x] })

/-- What a pointer points to. -/
def load (k : Kind C M) (r : Ref) : Run C M := fun h => do
  let x ← k.get (← h.cells[r.addr]?)
  return (x, h)

/-- A write to an existing cell. -/
def store (k : Kind C M) (r : Ref) (x : M) : Run C Unit := fun h =>
  if r.addr < h.cells.length then
    some ((), { cells := h.cells.set r.addr (k.put x), written := h.written ++ [r.addr] })
  else none

/-- `x.Copy()` -/
def copy (k : Kind C M) (r : Ref) : Run C Ref := do new k (← load k r)

variable [AddCommGroup M] [Module Zr M]

/-- `x.Mul(a)` of a point, `x.Exp(a)` of an element of `GT`: a new element. -/
def mulBy (k : Kind C M) (r : Ref) (a : Zr) : Run C Ref := do new k (a • (← load k r))

/-- `x.Add(y)` of points, `x.Mul(y)` of elements of `GT`: changes `x`. -/
def addTo (k : Kind C M) (r s : Ref) : Run C Unit := do
  let x ← load k r
  let y ← load k s
  store k r (x + y)

/-- `x.Sub(y)` of points: changes `x`. -/
def subFrom (k : Kind C M) (r s : Ref) : Run C Unit := do
  let x ← load k r
  let y ← load k s
  store k r (x - y)

/-- The elements that are variables of packages: `zeroG1` (`common/math.go:20`), `c.GenG1`, `c.GenG2`, `c.GenGt`. -/
structure Globals where
  zeroG1 : Ref
  genG1 : Ref
  genG2 : Ref
  genGt : Ref

/-- The start of the program: the generators of the curve, and `common/math.go:23-26` `init`. -/
def initGlobals {G1 G2 GT : Type} [AddCommGroup G1] [Module Zr G1] [AddCommGroup G2] [Module Zr G2] [AddCommGroup GT] [Module Zr GT]
    (E : Curve G1 G2 GT) : Run (Cell G1 G2 GT) Globals := do
  let genG1 ← new kG1 E.genG1
  let genG2 ← new kG2 E.genG2
  let genGt ← new kGt E.genGt
  let zeroG1 ← copy kG1 genG1
  subFrom (kG1 (G1 := G1) (G2 := G2) (GT := GT)) zeroG1 zeroG1
  return { zeroG1 := zeroG1, genG1 := genG1, genG2 := genG2, genGt := genGt }

namespace Gv

/-- `common/math.go:281-288` `G1v.Add`, `308-315` `G1v.HadamardProd`, `393-400` `G2v.Add`. -/
def add (k : Kind C M) (g g2 : List Ref) : Run C (List Ref) :=
  if g2.length < g.length then crash
  else (g.zip g2).mapM fun e => do
    let res ← copy k e.1
    addTo k res e.2
    return res

/-- `common/math.go:295-306` `G1v.Neg`; `gen` is `c.GenG1`. -/
def neg (k : Kind C M) (gen : Ref) (g : List Ref) : Run C (List Ref) := do
  let zero ← copy k gen
  subFrom k zero zero
  g.mapM fun x => do
    let res ← copy k zero
    subFrom k res x
    return res

/-- `common/math.go:317-323` `G1v.Mul`, `402-408` `G2v.Mul`. -/
def mul (k : Kind C M) (g : List Ref) (x : Zr) : Run C (List Ref) := g.mapM fun r => mulBy k r x

/-- `common/math.go:325-340` `G1v.MulV`: for a zero scalar the entry is the pointer `zeroG1`, `zero` here. -/
def mulV (k : Kind C M) (zero : Ref) (g : List Ref) (v : List Zr) : Run C (List Ref) :=
  if g.length ≠ v.length then crash
  else (g.zip v).mapM fun e => if e.2 = 0 then pure zero else mulBy k e.1 e.2

/-- `common/math.go:373-379` `G2v.Mulv`. -/
def mulv2 (k : Kind C M) (g : List Ref) (x : List Zr) : Run C (List Ref) :=
  if x.length < g.length then crash
  else (g.zip x).mapM fun e => mulBy k e.1 e.2

/-- `common/math.go:342-351` `G1v.Sum`. -/
def sum [DecidableEq M] (k : Kind C M) : List Ref → Run C Ref
  | [] => crash
  | g0 :: gs => do
    let sum ← copy k g0
    gs.forM fun g => do
      if (← load k g) = 0 then pure () else addTo k sum g
    return sum

/-- `common/math.go:418-424` `G2v.Sum`. -/
def sum2 (k : Kind C M) : List Ref → Run C Ref
  | [] => crash
  | g0 :: gs => do
    let sum ← copy k g0
    gs.forM fun g => addTo k sum g
    return sum

/-- `common/math.go:361-371`, `381-391` `Duplicate`. -/
def duplicate (k : Kind C M) (g : List Ref) (n : ℕ) : Run C (List Ref) :=
  match g with
  | [x] => (List.replicate n x).mapM fun r => copy k r
  | _ => crash

end Gv

/-- `common/math.go:244-253` `Vec.Exp`. -/
def exp (k : Kind C M) (v : List Zr) (g : List Ref) : Run C Ref :=
  if v.length ≠ g.length then crash
  else match v, g with
    | v0 :: vs, g0 :: gs => do
      let result ← mulBy k g0 v0
      (gs.zip vs).forM fun e => do addTo k result (← mulBy k e.1 e.2)
      return result
    | _, _ => crash

/-- The points that `Bytes` of a vector reads (`common/math.go:353-359`, `410-416`), and hash functions. -/
def loads (k : Kind C M) (g : List Ref) : Run C (List M) := g.mapM fun r => load k r

variable [AddCommGroup G1] [Module Zr G1] [AddCommGroup G2] [Module Zr G2] [AddCommGroup GT] [Module Zr GT]

/-- `common/math.go:426-454` `G1v.InnerProd`, `e`; simplification as in `PoL.pairProd`: pairings are exponentiated one by one. -/
def pairProd (E : Curve G1 G2 GT) (g1v g2v : List Ref) : Run (Cell G1 G2 GT) Ref :=
  if g1v.length ≠ g2v.length then crash
  else match g1v, g2v with
    | p :: ps, q :: qs => do
      let prod ← new kGt (E.pair (← load kG1 p) (← load kG2 q))
      (ps.zip qs).forM fun e => do
        let x ← new kGt (E.pair (← load kG1 e.1) (← load kG2 e.2))
        addTo kGt prod x
      copy kGt prod
    | _, _ => crash

/-- `common/math.go:89-99` `RandGenVec`. -/
def randGenVec (E : Curve G1 G2 GT) (n : ℕ) (context : String) : Run (Cell G1 G2 GT) (List Ref) :=
  (PoL.randGenVec E n context).mapM fun p => new kG1 p

namespace PP

/-- `pp/pointproofs.go:25-61` `NewPublicParams`. -/
def newPublicParams (E : Curve G1 G2 GT) (gl : Globals) (α : Zr) (N : ℕ) : Run (Cell G1 G2 GT) (PP Ref Ref Ref) := do
  let g1 ← copy kG1 gl.genG1
  let g2 ← copy kG2 gl.genG2
  let low ← (List.range N).mapM fun k => mulBy kG1 g1 (α ^ (k + 1))
  let mid ← copy kG1 gl.genG1
  let high ← (List.range (N - 1)).mapM fun k => mulBy kG1 g1 (α ^ (N + 2 + k))
  let g2s ← (List.range N).mapM fun k => mulBy kG2 g2 (α ^ (k + 1))
  let gt ← mulBy kGt gl.genGt (α ^ (N + 1))
  let b1 ← loads kG1 (low ++ [mid] ++ high)
  let b2 ← loads kG2 g2s
  let bt ← load kGt gt
  return { digest := E.sha256 (b1.flatMap E.g1Bytes ++ b2.flatMap E.g2Bytes ++ E.gtBytes bt)
           N := N, G1s := low ++ [mid] ++ high, G2s := g2s, Gt := gt }

variable [DecidableEq G1] [DecidableEq GT]

/-- `pp/pointproofs.go:79-90` `Commit`. -/
def commit (gl : Globals) (pp : PP Ref Ref Ref) (m : List Zr) : Run (Cell G1 G2 GT) Ref :=
  if m.length ≠ pp.N then crash
  else do
    let powersOfAlpha ← lift ((List.range pp.N).mapM fun i => pp.G1s[i]?)
    Gv.sum kG1 (← Gv.mulV kG1 gl.zeroG1 powersOfAlpha m)

/-- `pp/pointproofs.go:92-114` `Open`. -/
def openAt (gl : Globals) (pp : PP Ref Ref Ref) (i : ℕ) (m : List Zr) : Run (Cell G1 G2 GT) (Zr × Ref) :=
  if i ≥ pp.N then crash
  else do
    let shift := pp.N - i
    let js := (List.range pp.N).filter fun j0 => j0 + 1 ≠ i + 1
    let elements ← lift (js.mapM fun j0 => pp.G1s[shift + (j0 + 1) - 1]?)
    let exponents ← lift (js.mapM fun j0 => m[j0 + 1 - 1]?)
    let π ← Gv.sum kG1 (← Gv.mulV kG1 gl.zeroG1 elements exponents)
    let mi ← lift m[i]?
    return (mi, π)

/-- `pp/pointproofs.go:116-125` `Verify`. -/
def verify (E : Curve G1 G2 GT) (gl : Globals) (pp : PP Ref Ref Ref) (mi : Zr) (π C : Ref) (i : ℕ) :
    Run (Cell G1 G2 GT) Bool :=
  if pp.N < i + 1 then crash
  else do
    let g2 ← lift pp.G2s[pp.N - i - 1]?
    let left ← pairProd E [C] [g2]
    let right ← pairProd E [π] [gl.genG2]
    addTo (kGt (G1 := G1) (G2 := G2)) right (← mulBy kGt pp.Gt mi)
    return decide ((← load (kGt (G1 := G1) (G2 := G2)) left) = (← load kGt right))

/-- `pp/pointproofs.go:127-132` `Update`. -/
def update (pp : PP Ref Ref Ref) (C : Ref) (m : List Zr) (mi : Zr) (i : ℕ) : Run (Cell G1 G2 GT) Unit := do
  let g ← lift pp.G1s[i]?
  let prevG ← mulBy kG1 g (← lift m[i]?)
  let nextG ← mulBy kG1 g mi
  subFrom kG1 C prevG
  addTo kG1 C nextG

/-- `pp/pointproofs.go:170-180` `RO`. -/
def ro (E : Curve G1 G2 GT) (pp : PP Ref Ref Ref) (cs : List Ref) (i : ℕ) : Run (Cell G1 G2 GT) Zr := do
  let cs ← loads kG1 cs
  lift (fieldElementFromBytes (E.sha256 (pp.digest ++ [UInt8.ofNat i] ++ cs.flatMap E.g1Bytes)))

/-- `pp/pointproofs.go:134-145` `Aggregate`, with `RO` as random oracle. -/
def aggregate (E : Curve G1 G2 GT) (pp : PP Ref Ref Ref) (commitments proofs : List Ref) : Run (Cell G1 G2 GT) Ref :=
  if proofs.length ≠ commitments.length then crash
  else do
    let π ← (List.range proofs.length).mapM fun j => do
      let t ← ro E pp commitments j
      mulBy kG1 (← lift proofs[j]?) t
    Gv.sum kG1 π

/-- `pp/pointproofs.go:147-168` `VerifyAggregation`, with `RO` as random oracle. -/
def verifyAggregation (E : Curve G1 G2 GT) (gl : Globals) (pp : PP Ref Ref Ref) (indices : List ℕ) (commitments : List Ref)
    (π : Ref) (sig : Zr) : Run (Cell G1 G2 GT) Bool := do
  let exponents ← (List.range indices.length).mapM fun i => ro E pp commitments i
  let g2s ← lift (indices.mapM fun i => if pp.N < i + 1 then none else pp.G2s[pp.N - i - 1]?)
  let left ← pairProd E commitments (← Gv.mulv2 kG2 g2s exponents)
  let πg2 ← pairProd E [π] [gl.genG2]
  let right ← mulBy kGt pp.Gt sig
  addTo (kGt (G1 := G1) (G2 := G2)) right πg2
  return decide ((← load (kGt (G1 := G1) (G2 := G2)) right) = (← load kGt left))

end PP
end PoL.Ptr

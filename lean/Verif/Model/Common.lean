import Verif.Model.Base

/-!
# `common/math.go`
-/

namespace PoL

variable {G1 G2 GT : Type} [AddCommGroup G1] [Module Zr G1] [AddCommGroup G2] [Module Zr G2]
  [AddCommGroup GT] [Module Zr GT]

/-- `common/math.go:34-36` `Pow2`. -/
def pow2 (n : ℕ) : Zr := 2 ^ n

/-- `common/math.go:42-48` `IntsToZr` (entries are `uint8`, here `ℕ`). -/
def intsToZr (ns : List ℕ) : List Zr := ns.map fun (n : ℕ) => intToZr (n : ℤ)

/-- Loop of `PowerSeries` (`common/math.go:53-56`): `k` more entries starting from `next`. -/
def powerSeriesLoop (exp : Zr) : (k : ℕ) → (next : Zr) → List Zr
  | 0, _ => []
  | k + 1, next => next :: powerSeriesLoop exp k (next * exp)

/-- `common/math.go:50-58` `PowerSeries`. -/
def powerSeries (n : ℕ) (exp : Zr) : List Zr := powerSeriesLoop exp n 1

/-- `common/math.go:60-67` `ReverseBits`. -/
def reverseBits (bits : List ℕ) : List ℕ := bits.reverse

/-- Loop of `Bits` (`common/math.go:76-80`): least significant bit first, until the number is zero. -/
def bitsLoop (N : ℕ) : List ℕ :=
  if h : N = 0 then [] else N % 2 :: bitsLoop (N / 2)
termination_by N
decreasing_by omega

/-- `common/math.go:73-87` `Bits`: the bits of the canonical value, padded with zeros up to `bitLen`
(`List.replicate` is the padding loop, 82-84; it adds nothing if the list is already long enough). -/
def bits (n : Zr) (bitLen : ℕ) : List ℕ :=
  let res := bitsLoop (beToNat (zrBytes n))
  res ++ List.replicate (bitLen - res.length) 0

/-- `common/math.go:69-71` `BitsBigEndian`. -/
def bitsBigEndian (n : Zr) (bitLen : ℕ) : List ℕ := reverseBits (bits n bitLen)

/-- The bytes of an ASCII/UTF-8 Go string. -/
def strBytes (s : String) : Bytes := s.toUTF8.toList

/-- `common/math.go:89-99` `RandGenVec`. -/
def randGenVec (E : Curve G1 G2 GT) (n : ℕ) (context : String) : List G1 :=
  (List.range n).map fun i =>
    let randBytes := E.sha256 (strBytes s!"PoL {context} {i}")
    E.hashToG1 (randBytes ++ E.sha256 randBytes)

namespace Vec

/-- `common/math.go:115-120` `Vec.Zero` (in place; returns the new content). -/
def zero (v : List Zr) : List Zr := v.map fun _ => intToZr 0

/-- `common/math.go:122-128` `Vec.Size`. -/
def size (v : List Zr) : ℕ := v.foldl (fun c x => c + (zrBytes x).length) 0

/-- `common/math.go:130-135` `Vec.Concat`. -/
def concat (v v2 : List Zr) : List Zr := v ++ v2

/-- `common/math.go:137-143` `Vec.Bits`. -/
def vbits (v : List Zr) (bitLen : ℕ) : List ℕ := v.flatMap fun x => bits x bitLen

/-- `common/math.go:145-153` `Vec.Reverse`. -/
def reverse (v : List Zr) : List Zr := v.reverse

/-- `common/math.go:155-168` `Vec.PowBitVec`: panics (index) if `exp` is shorter than `v`. -/
def powBitVec (v : List Zr) (exp : List ℕ) : Option (List Zr) :=
  if exp.length < v.length then none
  else some (List.zipWith (fun x b => if b = 0 then 1 else x) v exp)

/-- `common/math.go:170-176` `Vec.Product`: panics (index) on the empty vector. -/
def product : List Zr → Option Zr
  | [] => none
  | x :: xs => some (xs.foldl (· * ·) x)

/-- `common/math.go:178-189` `Vec.Add`: panics on a length mismatch. -/
def add (v v2 : List Zr) : Option (List Zr) :=
  if v.length ≠ v2.length then none else some (List.zipWith (· + ·) v v2)

end Vec

/-- `common/math.go:290-293` `NegZr` (also `sum/sa.go:206-209`, `poe/poe.go:279-282`). -/
def negZr (x : Zr) : Zr := 0 - x

namespace Vec

/-- `common/math.go:191-202` `Vec.Sub`: panics on a length mismatch. -/
def sub (v v2 : List Zr) : Option (List Zr) :=
  if v.length ≠ v2.length then none else some (List.zipWith (fun a b => a + negZr b) v v2)

/-- Every second entry, starting with the first. -/
def everySecond {α : Type} : List α → List α
  | [] => []
  | [x] => [x]
  | x :: _ :: t => x :: everySecond t

/-- `common/math.go:204-218` `Vec.Evens`: panics on odd length. -/
def evens (v : List Zr) : Option (List Zr) :=
  if v.length % 2 ≠ 0 then none else some (everySecond v)

/-- `common/math.go:220-234` `Vec.Odds`: panics on odd length; the loop starts at index 1. -/
def odds (v : List Zr) : Option (List Zr) :=
  if v.length % 2 ≠ 0 then none else some (everySecond v.tail)

/-- `common/math.go:236-242` `Vec.Mul`. -/
def mul (v : List Zr) (x : Zr) : List Zr := v.map fun a => a * x

/-- `common/math.go:244-253` `Vec.Exp`: multi-exponentiation; panics on a length mismatch and (index)
on empty vectors. -/
def exp (v : List Zr) (g : List G1) : Option G1 :=
  if v.length ≠ g.length then none
  else match v, g with
    | v0 :: vs, g0 :: gs => some ((List.zipWith (fun a h => a • h) vs gs).foldl (· + ·) (v0 • g0))
    | _, _ => none

/-- `common/math.go:255-266` `Vec.InnerProd`: panics on a length mismatch. -/
def innerProd (v v2 : List Zr) : Option Zr :=
  if v.length ≠ v2.length then none
  else some ((List.zipWith (· * ·) v v2).foldl (· + ·) 0)

/-- `common/math.go:268-279` `Vec.HadamardProd`: panics on a length mismatch. -/
def hadamardProd (v v2 : List Zr) : Option (List Zr) :=
  if v.length ≠ v2.length then none else some (List.zipWith (· * ·) v v2)

end Vec

/-! `G1v` and `G2v` share most code in the source; the model has one generic copy per operation, used at
`G1` and `G2`. -/

namespace Gv

variable {M : Type} [AddCommGroup M] [Module Zr M]

/-- `common/math.go:281-288` `G1v.Add`, `common/math.go:393-400` `G2v.Add`: result has the first
vector's length; panics (index) if the second vector is shorter. -/
def add (g g2 : List M) : Option (List M) :=
  if g2.length < g.length then none else some (List.zipWith (· + ·) g g2)

/-- `common/math.go:295-306` `G1v.Neg`. -/
def neg (g : List M) : List M := g.map fun x => 0 - x

/-- `common/math.go:308-315` `G1v.HadamardProd` (the same loop as `Add`). -/
def hadamardProd (g g2 : List M) : Option (List M) :=
  if g2.length < g.length then none else some (List.zipWith (· + ·) g g2)

/-- `common/math.go:317-323` `G1v.Mul`, `common/math.go:402-408` `G2v.Mul`. -/
def mul (g : List M) (x : Zr) : List M := g.map fun h => x • h

/-- `common/math.go:325-340` `G1v.MulV`: panics on a length mismatch; a zero scalar takes a shortcut. -/
def mulV (g : List M) (v : List Zr) : Option (List M) :=
  if g.length ≠ v.length then none
  else some (List.zipWith (fun h x => if x = 0 then 0 else x • h) g v)

/-- `common/math.go:373-379` `G2v.Mulv`: panics (index) if the scalar vector is shorter. -/
def mulv2 (g : List M) (x : List Zr) : Option (List M) :=
  if x.length < g.length then none else some (List.zipWith (fun h a => a • h) g x)

/-- `common/math.go:342-351` `G1v.Sum`: panics (index) on the empty vector; skips points at infinity. -/
def sum [DecidableEq M] : List M → Option M
  | [] => none
  | g0 :: gs => some (gs.foldl (fun acc g => if g = 0 then acc else acc + g) g0)

/-- `common/math.go:418-424` `G2v.Sum`: panics (index) on the empty vector. -/
def sum2 : List M → Option M
  | [] => none
  | g0 :: gs => some (gs.foldl (· + ·) g0)

/-- `common/math.go:361-371`, `common/math.go:381-391` `Duplicate`: panics unless the length is 1. -/
def duplicate (g : List M) (n : ℕ) : Option (List M) :=
  match g with
  | [x] => some (List.replicate n x)
  | _ => none

end Gv

/-- `common/math.go:353-359` `G1v.Bytes`. -/
def g1vBytes (E : Curve G1 G2 GT) (g : List G1) : Bytes := g.flatMap E.g1Bytes

/-- `common/math.go:410-416` `G2v.Bytes`. -/
def g2vBytes (E : Curve G1 G2 GT) (g : List G2) : Bytes := g.flatMap E.g2Bytes

/-- `common/math.go:426-449` `G1v.InnerProd`: product of pairings; panics on a length mismatch or on
empty vectors.  Simplification: the code multiplies Miller-loop values and applies one final
exponentiation; the model adds the exponentiated pairings. -/
def pairProd (E : Curve G1 G2 GT) (g1v : List G1) (g2v : List G2) : Option GT :=
  if g1v.length ≠ g2v.length then none
  else match g1v, g2v with
    | p :: ps, q :: qs => some ((List.zipWith (fun a b => E.pair a b) ps qs).foldl (· + ·) (E.pair p q))
    | _, _ => none

/-- `fr.Element` (gnark-crypto): four 64-bit limbs, least significant first. -/
structure FrElement where
  z0 : ℕ
  z1 : ℕ
  z2 : ℕ
  z3 : ℕ
deriving DecidableEq, Repr

/-- The integer held in the limbs. -/
def FrElement.toNat (z : FrElement) : ℕ := z.z0 + z.z1 * 2 ^ 64 + z.z2 * 2 ^ 128 + z.z3 * 2 ^ 192

/-- `bits.Sub64(x, y, borrow)`: difference and borrow-out. -/
def sub64 (x y borrow : ℕ) : ℕ × ℕ :=
  ((x + 2 ^ 64 - (y + borrow)) % 2 ^ 64, if x < y + borrow then 1 else 0)

/-- The four limbs read at `common/math.go:479-483`: big-endian 64-bit words, the top one reduced. -/
def feLimbs (b : Bytes) : FrElement where
  z0 := beToNat (b.extract 0 8)
  z1 := beToNat (b.extract 8 16)
  z2 := beToNat (b.extract 16 24)
  z3 := beToNat (b.extract 24 32) % 3486998266802970665

/-- The comparison at `common/math.go:487`: is the limb value below the modulus? -/
def feBelow (z : FrElement) : Bool :=
  z.z3 < 3486998266802970665 || (z.z3 == 3486998266802970665 && (z.z2 < 13281191951274694749 ||
    (z.z2 == 13281191951274694749 && (z.z1 < 2896914383306846353 ||
      (z.z1 == 2896914383306846353 && z.z0 < 4891460686036598785)))))

/-- The subtraction at `common/math.go:488-492`. -/
def feSubOrder (z : FrElement) : FrElement :=
  let s0 := sub64 z.z0 4891460686036598785 0
  let s1 := sub64 z.z1 2896914383306846353 s0.2
  let s2 := sub64 z.z2 13281191951274694749 s1.2
  let s3 := sub64 z.z3 3486998266802970665 s2.2
  { z0 := s0.1, z1 := s1.1, z2 := s2.1, z3 := s3.1 }

/-- `common/math.go:474-496` `feFrom256Bits`: panics unless given 32 bytes. -/
def feFrom256Bits (b : Bytes) : Option FrElement :=
  if b.length ≠ 32 then none
  else
    let z := feLimbs b
    some (if !feBelow z then feSubOrder z else z)

/-- `common/math.go:467-472` `FieldElementFromBytes`.  The limbs are a Montgomery representation
(`ToBigIntRegular` divides by `2^256`). -/
def fieldElementFromBytes (digest : Bytes) : Option Zr := do
  let fe ← feFrom256Bits digest
  return (fe.toNat : Zr) * ((2 : Zr) ^ 256)⁻¹

/-- Loop of `IsPowerOfTwo` (`common/math.go:503-512`).  The loop is a least fixed point: `none` means that
it never returns. -/
def isPowerOfTwoLoop (n : ℕ) : Option Bool :=
  let lsb := n % 2
  let n := n / 2
  if n = 0 ∧ lsb = 1 then some true
  else if lsb = 1 then some false
  else isPowerOfTwoLoop n
partial_fixpoint

/-- `common/math.go:498-513` `IsPowerOfTwo`.  `none` here means that the loop does not return. -/
def isPowerOfTwo (n : UInt16) : Option Bool :=
  if n = 1 then some false else isPowerOfTwoLoop n.toNat

end PoL

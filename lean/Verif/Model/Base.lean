import Verif.Lib.Order
import Mathlib.Algebra.Module.LinearMap.Defs
import Mathlib.Algebra.Field.ZMod

/-!
# Conventions of the model, and the external libraries

* A Go function that may panic returns `Option`; `none` is the run-time panic.
* A Go function returning `error` returns `Bool` here: `true` for `nil`, `false` for an error.
* Slices are lists, `int` is `ℤ` or `ℕ`, `[]byte` is `List UInt8`, Go strings are `List Char`.
* `*math.G1` values are mutated in place by the Go code; the model returns the new value (`Model/Ptr.lean` has the memory, C92
  shows that it makes no difference).
-/

namespace PoL

/-- `*math.Zr` of `math.Curves[1]` (`common/math.go:17`): the BN254 scalar field.
Simplification: the library may hold an unreduced integer; the model identifies it with its residue. -/
abbrev Zr := ZMod order

abbrev Bytes := List UInt8
/-- A Go string, as its characters. -/
abbrev Str := List Char

/-- What the code uses of `github.com/IBM/mathlib` (the object `c = math.Curves[1]` of
`common/math.go:17`, `pp/pointproofs.go:13`, …), of `crypto/sha256` and `crypto/hmac`.
The groups are arbitrary modules over the scalar field; `GT` is written additively, so the code's
`gt.Mul(h)` is `gt + h` and `gt.Exp(x)` is `x • gt`. -/
structure Curve (G1 G2 GT : Type) [AddCommGroup G1] [Module Zr G1] [AddCommGroup G2] [Module Zr G2]
    [AddCommGroup GT] [Module Zr GT] where
  /-- `c.GenG1` -/
  genG1 : G1
  /-- `c.GenG2` -/
  genG2 : G2
  /-- `c.GenGt` -/
  genGt : GT
  /-- `c.FExp(c.Pairing(q, p))` (`common/math.go:451-454`) -/
  pair : G1 →ₗ[Zr] G2 →ₗ[Zr] GT
  /-- `(*math.G1).Bytes` -/
  g1Bytes : G1 → Bytes
  /-- `c.NewG1FromBytes`, `none` for its error -/
  g1FromBytes : Bytes → Option G1
  /-- `(*math.G2).Bytes` -/
  g2Bytes : G2 → Bytes
  /-- `(*math.Gt).Bytes` -/
  gtBytes : GT → Bytes
  /-- `c.HashToG1` (`common/math.go:463-465`) -/
  hashToG1 : Bytes → G1
  /-- `sha256.New(); Write…; Sum(nil)` on the concatenation of everything written; also what
  `common/math.go:456-461` `SHA256Digest` computes of the bytes of its string -/
  sha256 : Bytes → Bytes
  /-- `hmac.New(sha256.New, key)`; `Write(msg)`; `Sum(nil)` -/
  hmac : Bytes → Bytes → Bytes

/-- Assumptions about the external libraries.  Theorems that need them take this as a hypothesis. -/
structure Curve.Lawful {G1 G2 GT : Type} [AddCommGroup G1] [Module Zr G1] [AddCommGroup G2]
    [Module Zr G2] [AddCommGroup GT] [Module Zr GT] (E : Curve G1 G2 GT) : Prop where
  /-- the library's `GenGt` is the pairing of the generators -/
  genGt_eq : E.genGt = E.pair E.genG1 E.genG2
  /-- SHA-256 digests have 32 bytes -/
  sha_len : ∀ b, (E.sha256 b).length = 32
  /-- HMAC-SHA-256 digests have 32 bytes -/
  hmac_len : ∀ k b, (E.hmac k b).length = 32
  /-- decoding a point's encoding gives the point back -/
  g1_roundtrip : ∀ p, E.g1FromBytes (E.g1Bytes p) = some p
  /-- the encoding of a point is not empty -/
  g1_nonempty : ∀ p, E.g1Bytes p ≠ []
  /-- the encoding of a point has at most 64 bytes (needed by the ASN.1 length limits only) -/
  g1_len : ∀ p, (E.g1Bytes p).length ≤ 64

/-- Non-degeneracy of the pairing: pairing with the generator of `G2` loses nothing. Needed only where a
theorem concludes an equality of `G1` elements from an accepted pairing equation. -/
def Curve.NonDegenerate {G1 G2 GT : Type} [AddCommGroup G1] [Module Zr G1] [AddCommGroup G2]
    [Module Zr G2] [AddCommGroup GT] [Module Zr GT] (E : Curve G1 G2 GT) : Prop :=
  ∀ p : G1, E.pair p E.genG2 = 0 → p = 0

/-- `big.Int.FillBytes` on a buffer of `len` bytes: big-endian. -/
def natToBE : (len : ℕ) → ℕ → Bytes
  | 0, _ => []
  | len + 1, n => natToBE len (n / 256) ++ [UInt8.ofNat (n % 256)]

/-- `big.Int.SetBytes`: big-endian value of a byte string. -/
def beToNat (b : Bytes) : ℕ := b.foldl (fun acc x => acc * 256 + x.toNat) 0

/-- `(*math.Zr).Bytes`: the canonical residue as 32 big-endian bytes. -/
def zrBytes (x : Zr) : Bytes := natToBE 32 x.val

/-- `c.NewZrFromBytes`. -/
def newZrFromBytes (b : Bytes) : Zr := (beToNat b : Zr)

/-- `c.NewZrFromInt(int64)` (`common/math.go:38-40` `IntToZr`). -/
def intToZr (n : ℤ) : Zr := (n : Zr)

/-- `(*math.Zr).Int()`: the value as an `int64`, or an error when it does not fit.
Simplification: only canonical residues below `2^63` are considered to fit. -/
def zrInt (x : Zr) : Option ℤ := if x.val < 2 ^ 63 then some (x.val : ℤ) else none

end PoL

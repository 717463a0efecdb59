import Verif.Model.Base
import Mathlib.Data.Nat.Digits.Defs

/-!
# The part of `encoding/asn1` that the code uses

`asn1.Marshal` and `asn1.Unmarshal` on `verkle.RawVertex` (`verkle/tree.go:49-55`, used at
`verkle/tree.go:101` and `verkle/tree.go:157`) and `asn1.Marshal` on `sparse.RawVertex`
(`sparse/tree.go:92-95`, used at `sparse/tree.go:98`).  Structures and slices of structures are SEQUENCEs,
byte slices are OCTET STRINGs, a string of dots and digits is a PrintableString; lengths are in DER form.
As in Go's decoder, lengths of 2^31 and more are rejected, and bytes after the last expected element are
ignored.
-/

namespace PoL.Asn1

/-- Shortest big-endian representation. -/
def minBytes (n : ℕ) : Bytes := ((Nat.digits 256 n).map UInt8.ofNat).reverse

/-- DER length. -/
def encLen (n : ℕ) : Bytes :=
  if n < 128 then [UInt8.ofNat n]
  else UInt8.ofNat (128 + (minBytes n).length) :: minBytes n

/-- Tag, length, content. -/
def tlv (tag : UInt8) (content : Bytes) : Bytes := tag :: (encLen content.length ++ content)

/-- OCTET STRING. -/
def octets (b : Bytes) : Bytes := tlv 0x04 b

/-- SEQUENCE. -/
def sequence (b : Bytes) : Bytes := tlv 0x30 b

/-- PrintableString. -/
def printable (b : Bytes) : Bytes := tlv 0x13 b

/-- Reads a DER length; rejects non-minimal forms and lengths of 2^31 and more. -/
def decLen : Bytes → Option (ℕ × Bytes)
  | [] => none
  | b :: t =>
    if b.toNat < 128 then some (b.toNat, t)
    else
      let k := b.toNat - 128
      let n := beToNat (t.take k)
      if t.length < k then none
      else if minBytes n = t.take k ∧ 128 ≤ n ∧ n < 2147483648 then some (n, t.drop k) else none

/-- Reads a value with the given tag; returns its content and what follows. -/
def readTlv (tag : UInt8) : Bytes → Option (Bytes × Bytes)
  | [] => none
  | b :: t =>
    if b ≠ tag then none
    else do
      let (n, t) ← decLen t
      if t.length < n then none else return (t.take n, t.drop n)

/-- `verkle/tree.go:44-47` `KV`. -/
structure KV where
  K : Bytes
  V : Bytes
deriving DecidableEq

/-- `verkle/tree.go:49-55` `RawVertex`. -/
structure RawVertex where
  blindingFactor : Bytes
  values : List KV
  digests : List KV
  sum : Bytes
  V : Bytes
  W : Bytes
deriving DecidableEq

/-- `asn1.Marshal` of a `KV`. -/
def encKV (kv : KV) : Bytes := sequence (octets kv.K ++ octets kv.V)

/-- `asn1.Marshal(rv)` (`verkle/tree.go:157`). -/
def marshal (rv : RawVertex) : Bytes :=
  sequence (octets rv.blindingFactor ++ sequence (rv.values.flatMap encKV)
    ++ sequence (rv.digests.flatMap encKV) ++ octets rv.sum ++ octets rv.V ++ octets rv.W)

/-- Reads one `KV`. -/
def decKV (b : Bytes) : Option (KV × Bytes) := do
  let (c, rest) ← readTlv 0x30 b
  let (k, c) ← readTlv 0x04 c
  let (v, _) ← readTlv 0x04 c
  return (⟨k, v⟩, rest)

/-- Reads `KV`s until the content is used up (at most `fuel` of them). -/
def decKVs : (fuel : ℕ) → Bytes → Option (List KV)
  | _, [] => some []
  | 0, _ => none
  | fuel + 1, b => do
    let (kv, rest) ← decKV b
    return kv :: (← decKVs fuel rest)

/-- `asn1.Unmarshal(bytes, rv)` (`verkle/tree.go:101`); `none` for its error. -/
def unmarshal (b : Bytes) : Option RawVertex := do
  let (c, _) ← readTlv 0x30 b
  let (bf, c) ← readTlv 0x04 c
  let (vs, c) ← readTlv 0x30 c
  let (ds, c) ← readTlv 0x30 c
  let (s, c) ← readTlv 0x04 c
  let (V, c) ← readTlv 0x04 c
  let (W, _) ← readTlv 0x04 c
  return ⟨bf, ← decKVs vs.length vs, ← decKVs ds.length ds, s, V, W⟩

end PoL.Asn1

import Verif.Model.Asn1
import Verif.Model.Sparse

/-! # Reading what `Serialize` writes -/

namespace PoL.Spec
open Asn1 Sparse

/-- Reads one record: a header of 32 bytes, the first four of which hold a length, big-endian; then as many bytes, which
are the DER encoding of a sequence of a string and a byte string and nothing else.  Returns both and what follows. -/
def readRecord (b : Bytes) : Option ((Bytes × Bytes) × Bytes) :=
  if b.length < 32 then none
  else if (b.drop 32).length < beToNat (b.take 4) then none
  else
    (readTlv 0x30 ((b.drop 32).take (beToNat (b.take 4)))).bind fun c =>
    (readTlv 0x13 c.1).bind fun s =>
    (readTlv 0x04 s.2).bind fun v =>
    if c.2 = [] ∧ v.2 = [] then some ((s.1, v.1), (b.drop 32).drop (beToNat (b.take 4))) else none

/-- Reads records until nothing is left (at most `n` of them). -/
def readStream : (n : ℕ) → Bytes → Option (List (Bytes × Bytes))
  | _, [] => some []
  | 0, _ => none
  | n + 1, b => (readRecord b).bind fun r => (readStream n r.2).map fun l => r.1 :: l

variable {D : Type}

/-- No vertex has two descendants at the same index: the lists of descendants are Go maps. -/
inductive IsMap : Vertex D → Prop
  | mk {k : Str} {d : Option D} {ds : List (ℕ × Vertex D)} (nodup : (ds.map Prod.fst).Nodup)
      (below : ∀ e ∈ ds, IsMap e.2) : IsMap (.mk k d ds)

/-- The same vertices with the same data, whatever the order of the maps. -/
def SameContents (v w : Vertex D) : Prop := ∀ q, (getAt q v).map Prod.fst = (getAt q w).map Prod.fst

end PoL.Spec

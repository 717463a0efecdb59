import Verif.Model.Poe
import Verif.Model.Sum
import Verif.Model.Verkle

/-!
# Vocabulary for what is hashed into the challenges

The hash functions are taken out of the curve so that a statement can first fix the bytes that are hashed and
then quantify over all hash functions.
-/

namespace PoL.Spec

variable {G1 G2 GT : Type} [AddCommGroup G1] [Module Zr G1] [AddCommGroup G2] [Module Zr G2]
  [AddCommGroup GT] [Module Zr GT]

/-- The same curve with other hash functions. -/
def withHash (E : Curve G1 G2 GT) (h : Bytes → Bytes) (mac : Bytes → Bytes → Bytes) : Curve G1 G2 GT :=
  { E with sha256 := h, hmac := mac }

/-- Points have distinct encodings of the same length `n`, which is not zero. -/
structure FixedEncoding (E : Curve G1 G2 GT) (n : ℕ) : Prop where
  pos : 0 < n
  len : ∀ p, (E.g1Bytes p).length = n
  inj : Function.Injective E.g1Bytes

/-- A challenge `f`, as a function of the hash function and of its input, binds the inputs in `S`: it is the hash of
bytes that do not depend on the hash function and differ for different inputs in `S`. -/
def Binds {ι : Type} (S : Set ι) (f : (Bytes → Bytes) → ι → Option Zr) : Prop :=
  ∃ enc : ι → Bytes, (∀ h, ∀ i ∈ S, f h i = fieldElementFromBytes (h (enc i))) ∧ Set.InjOn enc S

/-- The same for a digest instead of a challenge. -/
def DigestBinds {ι : Type} (S : Set ι) (f : (Bytes → Bytes) → ι → Option Bytes) : Prop :=
  ∃ enc : ι → Bytes, (∀ h, ∀ i ∈ S, f h i = some (h (enc i))) ∧ Set.InjOn enc S

end PoL.Spec

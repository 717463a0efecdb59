import Verif.Spec.Multilinear
import Mathlib.Algebra.BigOperators.Group.Finset.Basic

/-!
# The equation behind the range proof (specification)

The committed vectors are functions of the index; `n` values of 63 bits each.
-/

namespace PoL

open Finset in
/-- The constant term of the verifier's equation (`bp/range.go:143-158`).  The prover has committed to
`qH` (bits, then `n` blinding entries) and `qF` (complements of the bits) in `Q`, to `v` in `V` and to `w` in
`W`, before seeing the challenges: `x`, the challenges `r` of the iterated reduction (lowest bit first), `y0`
and `y1`. -/
def rangeEquation (n : ℕ) (qH qF v w : ℕ → Zr) (x : Zr) (r : List Zr) (y0 y1 : Zr) : Prop :=
  ∑ i ∈ range (n * 63), (qH i + y1) *
      (y1 ^ 2 * (2 ^ (i % 63) * bitMonomial r (i / 63)) + (y1 + qF i) * y0 ^ i)
    + ∑ i ∈ range n, qH (n * 63 + i) *
      (y1 ^ 2 * (x * bitMonomial r i) + qF (n * 63 + i) * y0 ^ (n * 63 + i))
  = y1 ^ 3 * ∑ i ∈ range (n * 63), 2 ^ (i % 63) * bitMonomial r (i / 63)
    + y1 ^ 2 * (∑ i ∈ range n, (v i + x * w i) * bitMonomial r i + ∑ i ∈ range (n * 63), y0 ^ i)
    + y1 * ∑ i ∈ range (n * 63), y0 ^ i

end PoL

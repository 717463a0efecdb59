import Verif.Spec.Pointers

/-!
# Work: how many points a call makes

The multiplications of points are the expensive steps of the program, and each makes a new point.  The number of points that a call
makes is a measure of how long it takes, and who can time a call learns something about it.
-/

namespace PoL.Spec

open Ptr

/-- The number of points made between two states of the memory. -/
def made {C : Type} (h h' : Mem C) : ℕ := h'.cells.length - h.cells.length

/-- The number of entries that are not zero. -/
def nonZero : List Zr → ℕ
  | [] => 0
  | x :: v => (if x = 0 then 0 else 1) + nonZero v

/-- A vector folded in half at `n` with the challenge `x`. -/
def halve (n : ℕ) (v : List Zr) (x : Zr) : List Zr := List.zipWith (fun a b => a + b * x) (v.take n) (v.drop n)

/-- The entries that are not zero in a vector and in what it is folded to, one challenge after the other; each round handles both
halves of the vector and the result. -/
def foldNonZero (n : ℕ) (v : List Zr) : List Zr → ℕ
  | [] => 0
  | x :: xs => nonZero (v.take n) + nonZero (v.drop n) + nonZero (halve n v x) + foldNonZero (n / 2) (halve n v x) xs

/-- The points made by folding `L` generators down to one, besides those for entries of the vector. -/
def reduceWork (L : ℕ) : ℕ := if L / 2 = 0 then 0 else L + 3 + reduceWork (L / 2)
termination_by L
decreasing_by omega

/-- The points made by the prover of an inner product with `L` pairs of generators, one round after the other. -/
def ipaProveWork (L : ℕ) : ℕ := if L ≤ 1 then 0 else 2 * L + 6 * (L / 2) + 5 + ipaProveWork (L / 2)
termination_by L
decreasing_by omega

/-- The points made by the verifier of an inner product with `L` pairs of generators, one round after the other. -/
def ipaVerifyWork (L : ℕ) : ℕ := if L ≤ 1 then 3 else 2 * L + 2 * (L / 2) + 3 + ipaVerifyWork (L / 2)
termination_by L
decreasing_by omega

/-- The points made by a range proof for `n` numbers, besides those for entries of random and of masked vectors. -/
def rangeWork (n : ℕ) : ℕ :=
  63 * n + 22 + reduceWork n + 2 * (64 * n) + ipaProveWork (64 * n) + ipaVerifyWork (64 * n)

end PoL.Spec

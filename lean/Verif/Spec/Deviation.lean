import Verif.Model.Base
import Verif.Spec.Liabilities
import Mathlib.Algebra.Polynomial.Eval.Defs
import Mathlib.Algebra.Polynomial.Basic

/-! By how much a commitment over the leaves is off, in terms of the history of writes only. -/

namespace PoL.Spec
open Polynomial

/-- The number of different paths written to that start with `q`. -/
def pathsBelow (h : List (List ℕ × ℤ)) (q : List ℕ) : ℕ :=
  ((h.map Prod.fst).toFinset.filter fun p => q <+: p).card

/-- What one more write below a vertex over the leaves adds: the new sum is put in the place of the amount with the
index `pathsBelow`, and the place of the sum (index `F`) keeps the old sum. -/
noncomputable def strayed (F : ℕ) (old new : List (List ℕ × ℤ)) (q : List ℕ) : Zr[X] :=
  C ((amountBelow new q - latest old (q ++ [pathsBelow new q]) : ℤ) : Zr) * X ^ (pathsBelow new q + 1)
    - C ((amountBelow new q - amountBelow old q : ℤ) : Zr) * X ^ (F + 1)

/-- The sum of these over all writes below the vertex except the first. -/
noncomputable def deviation (F : ℕ) (h : List (List ℕ × ℤ)) (q : List ℕ) : Zr[X] :=
  ∑ n ∈ Finset.range h.length,
    if (∃ e ∈ h.take n, q <+: e.1) ∧ ∃ e, h[n]? = some e ∧ q <+: e.1 then strayed F (h.take n) (h.take (n + 1)) q else 0

end PoL.Spec

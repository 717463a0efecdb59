import Verif.Model.Base

/-!
# Specification: balanced vectors
-/

namespace PoL

/-- The last entry is the sum of the others. -/
def Balanced (v : List Zr) : Prop := ∃ xs s, v = xs ++ [s] ∧ s = xs.sum

/-- By how much a vector fails to be balanced. -/
def imbalance (v : List Zr) : Zr := v.dropLast.sum - v.getLastD 0

end PoL

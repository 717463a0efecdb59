import Verif.Model.Base

/-!
# Multilinear evaluation (specification)
-/

namespace PoL

/-- `Π_j r_j^{bit_j(i)}`: the product of those challenges whose bit of `i` is set; `r` lists the challenges
from the lowest bit to the highest. -/
def bitMonomial : (r : List Zr) → (i : ℕ) → Zr
  | [], _ => 1
  | x :: r, i => (if i % 2 = 1 then x else 1) * bitMonomial r (i / 2)

/-- `Σ_i v_i·Π_j r_j^{bit_j(i)}`. -/
def multilinear (v r : List Zr) : Zr := (v.mapIdx fun i x => x * bitMonomial r i).sum

end PoL

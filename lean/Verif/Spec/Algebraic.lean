import Verif.Model.Base

/-! Points that are computed from given points by additions and multiplications with scalars. -/

namespace PoL.Spec

variable {G1 : Type} [AddCommGroup G1] [Module Zr G1]

/-- The combination of the points `gs` with the scalars `cs`. -/
def combined (cs : List Zr) (gs : List G1) : G1 := (List.zipWith (· • ·) cs gs).sum

end PoL.Spec

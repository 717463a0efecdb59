import Mathlib.Data.List.Basic
import Verif.Model.Base

/-! Two liability sets over one database (specification). -/

namespace PoL.Spec

/-- The amounts set through one of the two sets. -/
def callsThrough (first : Bool) (es : List (Bool × Str × ℤ)) : List (Str × ℤ) :=
  (es.filter fun e => e.1 == first).map Prod.snd

end PoL.Spec

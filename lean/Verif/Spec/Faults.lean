import Verif.Spec.Liabilities
import Verif.Model.Faults

/-! Calls of `Set` some of which panic: what was tried, and what came of it. -/

namespace PoL.Spec
open Pol

/-- The amounts tried to be set, in order; `Set` refuses negative amounts before it does anything. -/
def tried (as : List Attempt) : List (Str × ℤ) :=
  as.filterMap fun a => if a.amount < 0 then none else some (a.id, a.amount)

/-- Which of these calls returned, by path. -/
def outcomes (id2Path : Str → Option (List ℕ)) (as : List Attempt) (oks : List Bool) : List (List ℕ × Bool) :=
  (as.zip oks).filterMap fun x => if x.1.amount < 0 then none else some ((id2Path x.1.id).getD [], x.2)

/-- For every path, the last call has returned. -/
def Settled (out : List (List ℕ × Bool)) : Prop := ∀ p, lastPut out p ≠ some false

end PoL.Spec

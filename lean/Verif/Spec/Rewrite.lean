import Verif.Spec.SameRoot
import Verif.Spec.Deviation

/-!
# Writes that leave every amount as it was
-/

namespace PoL.Spec

/-- Both histories have written to the same paths and leave the same amounts there. -/
def SameAmounts (h₁ h₂ : List (List ℕ × ℤ)) : Prop := ∀ p, lastPut h₁ p = lastPut h₂ p

/-- What a write adds to the deviation of the vertex `q` over its leaf if the amount was there before: the sum is put in the
place of the amount whose index is the number of clients below `q`. -/
def misplaced (h : List (List ℕ × ℤ)) (q : List ℕ) : ℤ := amountBelow h q - latest h (q ++ [pathsBelow h q])

end PoL.Spec

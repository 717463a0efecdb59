import Mathlib.SetTheory.Cardinal.Finite
import Verif.Model.Base

/-!
# Vocabulary of the privacy statements
-/

namespace PoL

/-- The admissible random values are finitely many, and `o` is the output for as many of them under `f` as under `g`.
With the random values drawn uniformly from the admissible ones, `o` is equally likely in both cases. -/
def EquallyLikely {R O : Type} (S : R → Prop) (f g : R → Option O) (o : O) : Prop :=
  Finite {r : R // S r} ∧ Nat.card {r : R // S r ∧ f r = some o} = Nat.card {r : R // S r ∧ g r = some o}

/-- The scalars act as on a group of prime order: every element is a multiple of every non-zero one. -/
def PrimeOrder (A : Type) [AddCommGroup A] [Module Zr A] : Prop := ∀ g : A, g ≠ 0 → ∀ h : A, ∃ k : Zr, h = k • g

end PoL

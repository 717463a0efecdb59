import Verif.Spec.Tree
import Mathlib.Algebra.BigOperators.Group.Finset.Basic
import Mathlib.Data.Finset.Dedup
import Mathlib.Algebra.Order.BigOperators.Group.Finset

/-! What a history of writes says about the amounts, in terms of paths only. -/

namespace PoL.Spec

/-- The history of writes by path. -/
def byPath (id2Path : Str → Option (List ℕ)) (hist : List (Str × ℤ)) : List (List ℕ × ℤ) :=
  hist.map fun e => ((id2Path e.1).getD [], e.2)

/-- The amount last written at a path. -/
def latest (h : List (List ℕ × ℤ)) (p : List ℕ) : ℤ := (lastPut h p).getD 0

/-- The sum of the latest amounts over all different paths written to that start with `q`. -/
def amountBelow (h : List (List ℕ × ℤ)) (q : List ℕ) : ℤ :=
  ∑ p ∈ (h.map Prod.fst).toFinset.filter (fun p => q <+: p), latest h p

/-- The sum of all latest amounts. -/
def totalAmount (h : List (List ℕ × ℤ)) : ℤ := ∑ p ∈ (h.map Prod.fst).toFinset, latest h p

/-- All identifiers of the history have paths of length `L` with components below the fan-out. -/
def ValidIds (id2Path : Str → Option (List ℕ)) (F L : ℕ) (hist : List (Str × ℤ)) : Prop :=
  ∀ e ∈ hist, ∃ p, id2Path e.1 = some p ∧ p.length = L ∧ ∀ x ∈ p, x < F

/-- The vertex at `q` has been passed by a write. -/
def touched (h : List (List ℕ × ℤ)) (q : List ℕ) : Prop := ∃ e ∈ h, q <+: e.1

end PoL.Spec

import Verif.Model.Schedule

/-!
# Several calls of `Verify` at once

Callers may verify a proof while others verify the same one: `Verify` (`pol/pol.go:124-233`) has a value receiver, but the
range proofs in it are pointers (`pol/pol.go:110`), so that all calls write the fields `C` and `P` of the same inner-product
proofs (`bp/range.go:136-138`).  Here is the transition system of any number of calls with `ParallelismEnabled`.
-/

namespace PoL.Sched

variable {C P : Type}

/-- The state of several calls of `Verify` (`pol/pol.go:124-233`): each has its own main goroutine, goroutines, WaitGroup and
error; they have the inner-product proofs in common, and a panic ends them all.  The fields `cells` and `crashed` of a call are
not used. -/
structure Many (C P : Type) where
  calls : ℕ → St C P
  cells : ℕ → C × P
  crashed : Bool

/-- What call `c` sees (`pol/pol.go:124-233`). -/
def Many.view (S : Many C P) (c : ℕ) : St C P := { S.calls c with cells := S.cells, crashed := S.crashed }

/-- The state after a step of call `c` (`pol/pol.go:124-233`). -/
def Many.put (S : Many C P) (c : ℕ) (s : St C P) : Many C P :=
  { calls := Function.update S.calls c s, cells := s.cells, crashed := s.crashed }

/-- Every call is at line 153 of `pol/pol.go`; when it makes its first step is up to the schedule. -/
def manyInit (ps : ℕ → Prog C P) (cells : ℕ → C × P) : Many C P :=
  { calls := fun c => (ps c).init cells, cells := cells, crashed := false }

/-- One step of any goroutine of any of the `n` calls (`pol/pol.go:153-232`, `bp/range.go:84-160`). -/
def ManyStep (n : ℕ) (ps : ℕ → Prog C P) (S S' : Many C P) : Prop :=
  ∃ c < n, ∃ s, (ps c).Step (S.view c) s ∧ S' = S.put c s

/-- A number of steps (`pol/pol.go:153-232`). -/
inductive ManySteps (n : ℕ) (ps : ℕ → Prog C P) : ℕ → Many C P → Many C P → Prop where
  | refl (S : Many C P) : ManySteps n ps 0 S S
  | tail {k : ℕ} {S T U : Many C P} : ManySteps n ps k S T → ManyStep n ps T U → ManySteps n ps (k + 1) S U

end PoL.Sched

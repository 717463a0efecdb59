import Verif.Spec.PolPrivacy

/-! # Vocabulary of C104: requests that depend on earlier answers, and what a test can tell -/

namespace PoL.Spec
open Pol BP

variable {G1 G2 GT : Type} [AddCommGroup G1] [Module Zr G1] [AddCommGroup G2] [Module Zr G2]
  [AddCommGroup GT] [Module Zr GT]

/-- The fraction of the admissible random values for which the result of `f` passes the test `A`. -/
noncomputable def chance {R O : Type} (S : R → Prop) (f : R → Option O) (A : Option O → Prop) : ℚ :=
  (Nat.card {r : R // S r ∧ A (f r)} : ℚ) / (Nat.card {r : R // S r} : ℚ)

/-- What a call of `ProveLiability` gives: nothing (a panic), an error, or an amount and a proof. -/
abbrev Answer (G1 : Type) := Option (Option (ℤ × LiabilityProof G1))

/-- What the observer of a run has seen in the end. -/
structure Transcript (G1 : Type) where
  root : Option (G1 × Option G1)
  total : Option (TotalProof G1)
  answers : List (Answer G1)

/-- A way of asking: the next identifier, given the root, the proof of the total, and the answers so far. -/
abbrev Asker (G1 : Type) := Option (G1 × Option G1) → Option (TotalProof G1) → List (Answer G1) → Str

/-- The answers to `k` requests, each of which may depend on the answers before it. -/
def converse {A : Type} (answer : ℕ → Str → A) (ask : List A → Str) : ℕ → List A
  | 0 => []
  | k + 1 => converse answer ask k ++ [answer k (ask (converse answer ask k))]

variable [DecidableEq G1] [DecidableEq GT]

/-- A run that writes a history, publishes the root, possibly proves the total, and answers `k` requests for liability
proofs, chosen one after the other by `ask`.  `r` holds the random values: those of the writes and those of each proof. -/
def observeAsking (E : Curve G1 G2 GT) (env : Verkle.Env) (ls : LiabilitySet G1 G2 GT) (hist : List (Str × ℤ)) (k : ℕ)
    (ask : Asker G1) (withTotal : Bool) (r : (ℕ → Zr) × (Fin k → ProveRand)) : Option (Transcript G1) :=
  (ls.sets E { env with rand := r.1 } hist).bind fun ls1 =>
  (ls1.root E).bind fun rl =>
  (if withTotal then (rl.2.proveTot E).map some else some none).bind fun total =>
  some ⟨rl.1, total, converse (fun i id => if h : i < k then rl.2.proveLiability E { env with rand := r.1 } (r.2 ⟨i, h⟩) id else none)
    (ask rl.1 total) k⟩

/-- A transcript in which every request was answered with a proof, and none of the challenges that multiply masks is zero. -/
def Masked (E : Curve G1 G2 GT) (ls : LiabilitySet G1 G2 GT) (ask : Asker G1) (o : Option (Transcript G1)) : Prop :=
  ∃ t, o = some t ∧ ∀ i < t.answers.length, ∀ p, ls.tree.id2Path (ask t.root t.total (t.answers.take i)) = some p →
    ∃ m lp, t.answers[i]? = some (some (some (m, lp))) ∧ MasksNonzero E ls.pp p lp

/-- The identifiers that may be asked for: written in the history, with the same amount in both histories, and alone in
their lowest inner vertex (otherwise the proof is not accepted, C47). -/
structure MayAsk (ls : LiabilitySet G1 G2 GT) (hist hist' : List (Str × ℤ)) (id : Str) : Prop where
  written : id ∈ hist.map Prod.fst
  same : ∀ p, ls.tree.id2Path id = some p → latest (byPath ls.tree.id2Path hist) p = latest (byPath ls.tree.id2Path hist') p
  alone : ∀ p, ls.tree.id2Path id = some p → writesBelow (byPath ls.tree.id2Path hist) p.dropLast = 1

end PoL.Spec

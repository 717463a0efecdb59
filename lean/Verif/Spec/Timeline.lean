import Verif.Spec.PolPrivacy

/-! # Vocabulary of C106: publishing several times, with writes in between -/

namespace PoL.Spec
open Pol BP

variable {G1 G2 GT : Type} [AddCommGroup G1] [Module Zr G1] [AddCommGroup G2] [Module Zr G2]
  [AddCommGroup GT] [Module Zr GT]

/-- The writes of the batches `0, …, t`. -/
def upTo {A : Type} (batch : ℕ → List A) : ℕ → List A
  | 0 => batch 0
  | t + 1 => upTo batch t ++ batch (t + 1)

/-- Two sequences of batches that write the same identifiers in the same order, and that agree on all that is written to those
lowest inner vertices that are written to in batch 1 or later. -/
structure SameWhereRewritten (id2Path : Str → Option (List ℕ)) (T : ℕ) (batch batch' : ℕ → List (Str × ℤ)) : Prop where
  ids : ∀ t, (batch t).map Prod.fst = (batch' t).map Prod.fst
  rewritten : ∀ t, 1 ≤ t → t < T → ∀ e ∈ byPath id2Path (batch t), ∀ u,
    (byPath id2Path (batch u)).filter (fun x => decide (e.1.dropLast <+: x.1))
      = (byPath id2Path (batch' u)).filter (fun x => decide (e.1.dropLast <+: x.1))

variable [DecidableEq G1] [DecidableEq GT]

/-- One publication: the root, possibly the proof of the total, and the answers to a number of requests. -/
def publish (E : Curve G1 G2 GT) (env : Verkle.Env) {k : ℕ} (ids : Fin k → Str) (withTotal : Bool) (rnds : Fin k → ProveRand)
    (ls : LiabilitySet G1 G2 GT) : Option (View G1 k) :=
  (ls.root E).bind fun rl =>
  (if withTotal then (rl.2.proveTot E).map some else some none).bind fun total =>
  some ⟨rl.1, total, fun i => rl.2.proveLiability E env (rnds i) (ids i)⟩

/-- The liability set after batch `t`, with a call of `Root` after each of the batches before. -/
def after (E : Curve G1 G2 GT) (env : Verkle.Env) (ls : LiabilitySet G1 G2 GT) (batch : ℕ → List (Str × ℤ)) :
    ℕ → Option (LiabilitySet G1 G2 GT)
  | 0 => ls.sets E env (batch 0)
  | t + 1 => (after E env ls batch t).bind fun l => (l.root E).bind fun rl => rl.2.sets E env (batch (t + 1))

/-- A run that publishes after each of the batches `0, …, n`. -/
def observeOver (E : Curve G1 G2 GT) (env : Verkle.Env) (ls : LiabilitySet G1 G2 GT) (batch : ℕ → List (Str × ℤ)) {n k : ℕ}
    (ids : Fin (n + 1) → Fin k → Str) (withTotal : Bool) (r : (ℕ → Zr) × (Fin (n + 1) → Fin k → ProveRand)) :
    Option (Fin (n + 1) → Option (View G1 k)) :=
  some fun t => (after E { env with rand := r.1 } ls batch t).bind (publish E { env with rand := r.1 } (ids t) withTotal (r.2 t))

end PoL.Spec

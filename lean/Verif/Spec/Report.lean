import Verif.Model.Report

/-!
# What the times of the benchmark should be
-/

namespace PoL.Bench

/-- The time spent in steps of the kind `P`. -/
def spent (P : Work → Bool) : List Step → (ℕ → ℤ) → ℤ
  | [], _ => 0
  | .work w :: s, τ => (if P w then τ 1 - τ 0 else 0) + spent P s fun j => τ (j + 1)
  | .now :: s, τ => spent P s fun j => τ (j + 1)

/-- Reading the clock takes no time. -/
def FreeReadings : List Step → (ℕ → ℤ) → Prop
  | [], _ => True
  | .work _ :: s, τ => FreeReadings s fun j => τ (j + 1)
  | .now :: s, τ => τ 1 = τ 0 ∧ FreeReadings s fun j => τ (j + 1)

/-- The clock during `steps`: it never goes back, readings take no time, and the whole takes less than 292 years. -/
structure GoodClock (steps : List Step) (τ : ℕ → ℤ) : Prop where
  mono : Monotone τ
  free : FreeReadings steps τ
  fits : τ steps.length - τ 0 < 2 ^ 63

/-- What the labels of the printed times promise, except for `"sum proof times:"`: the call, and the work in it that is
timed.  (The time to find the vertices of a liability is not a part of the time of a proof.) -/
def timeLabels : List (String × Bool × (Work → Bool)) :=
  [("proof times:", true, fun w => w ≠ .get),
   ("equality proof times:", true, fun w => w = .equalities),
   ("verify times:", false, fun _ => true),
   ("verify equality times:", false, fun w => w = .equalities),
   ("verify sum times:", false, fun w => w = .sumArgument)]

open Pol

variable {G1 G2 GT : Type} [AddCommGroup G1] [Module Zr G1] [AddCommGroup G2] [Module Zr G2]
  [AddCommGroup GT] [Module Zr GT] [DecidableEq G1] [DecidableEq GT]

/-- The length of the path of the identifier measured in iteration `i`. -/
def measuredLength (E : Curve G1 G2 GT) (treeType : TreeType) (d : Draws) (fanOut : UInt16) (i : ℕ) : ℕ :=
  (((generatePublicParams E d.α fanOut treeType).bind fun r => r.1 (idGen treeType (d.measured i))).map List.length).getD 0

/-- The time spent in work of the kind `P`, in `ProveLiability` or in `Verify`, during iteration `i`. -/
def spentIn (prove : Bool) (P : Work → Bool) (parallel : Bool) (L : ℕ) (c : Clocks) (i : ℕ) : ℤ :=
  if prove then spent P (proveSteps parallel L) (c.prove i) else spent P (verifySteps parallel L) (c.verify i)

/-- A clock for every iteration: good ones, and the averages do not overflow. -/
structure GoodClocks (E : Curve G1 G2 GT) (p : Process) (parallel : Bool) (iterations : ℕ) (treeType : TreeType)
    (clocks : UInt16 → Clocks) : Prop where
  prove : ∀ f ∈ fanouts, ∀ i < iterations, GoodClock (proveSteps parallel (measuredLength E treeType (p.draws f) f i)) ((clocks f).prove i)
  verify : ∀ f ∈ fanouts, ∀ i < iterations,
    GoodClock (verifySteps parallel (measuredLength E treeType (p.draws f) f i)) ((clocks f).verify i)
  prove_sum : ∀ f ∈ fanouts, ∀ i < iterations, iterations * ((clocks f).prove i (proveSteps parallel (measuredLength E treeType (p.draws f)
    f i)).length - (clocks f).prove i 0) < 2 ^ 63
  verify_sum : ∀ f ∈ fanouts, ∀ i < iterations, iterations * ((clocks f).verify i (verifySteps parallel (measuredLength E treeType
    (p.draws f) f i)).length - (clocks f).verify i 0) < 2 ^ 63

end PoL.Bench

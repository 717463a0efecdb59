import Mathlib.Data.Nat.Digits.Defs
import Mathlib.Data.Set.Card

/-! # How long the digit strings of 256-bit numbers are -/

namespace PoL.Spec

/-- How many 256-bit numbers have `n` digits in base `f`. -/
noncomputable def withDigits (f n : ℕ) : ℕ := {x : ℕ | x < 2 ^ 256 ∧ (f.digits x).length = n}.ncard

end PoL.Spec

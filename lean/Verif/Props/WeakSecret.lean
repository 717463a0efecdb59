import Verif.Props.Algebraic
import Mathlib.RingTheory.Polynomial.Basic
import Mathlib.Algebra.BigOperators.Intervals

/-! # C128: secrets for which the parameters contain the point that is left out -/

set_option linter.unusedSectionVars false

namespace PoL.Props
open Spec BP PP Verkle Pol

variable {G1 G2 GT : Type} [AddCommGroup G1] [Module Zr G1] [AddCommGroup G2] [Module Zr G2]
  [AddCommGroup GT] [Module Zr GT] [DecidableEq G1] [DecidableEq GT]

/-- The secrets that `NewPublicParams` would have to draw again: zero, and those with a power of 1 among the first `N + 1`. -/
def WeakSecret (N : ℕ) (α : Zr) : Prop := α = 0 ∨ ∃ d, 1 ≤ d ∧ d ≤ N + 1 ∧ α ^ d = 1

theorem mem_G1s (E : Curve G1 G2 GT) (α : Zr) (N : ℕ) (X : G1) :
    X ∈ (newPublicParams E α N).G1s ↔ X = E.genG1 ∨ ∃ j, 1 ≤ j ∧ j ≤ 2 * N ∧ j ≠ N + 1 ∧ X = α ^ j • E.genG1 := by
  have e : (newPublicParams E α N).G1s = (List.range N).map (fun k => α ^ (k + 1) • E.genG1) ++ [E.genG1]
      ++ (List.range (N - 1)).map (fun k => α ^ (N + 2 + k) • E.genG1) := rfl
  rw [e]
  simp only [List.mem_append, List.mem_map, List.mem_range, List.mem_singleton]
  constructor
  · rintro ((⟨k, hk, rfl⟩ | h) | ⟨k, hk, rfl⟩)
    · exact Or.inr ⟨k + 1, by omega, by omega, by omega, rfl⟩
    · exact Or.inl h
    · exact Or.inr ⟨N + 2 + k, by omega, by omega, by omega, rfl⟩
  · rintro (h | ⟨j, h1, h2, h3, rfl⟩)
    · exact Or.inl (Or.inr h)
    · by_cases hj : j ≤ N
      · exact Or.inl (Or.inl ⟨j - 1, by omega, by rw [Nat.sub_add_cancel h1]⟩)
      · exact Or.inr ⟨j - (N + 2), by omega, by rw [show N + 2 + (j - (N + 2)) = j by omega]⟩

/-- C128: the parameters contain the point that they leave out exactly for these secrets. -/
theorem C128_missing_point_iff (E : Curve G1 G2 GT) (hg : E.genG1 ≠ 0) (α : Zr) (N : ℕ) (hN : 1 ≤ N) :
    α ^ (N + 1) • E.genG1 ∈ (newPublicParams E α N).G1s ↔ WeakSecret N α := by
  have inj : ∀ a b : Zr, a • E.genG1 = b • E.genG1 → a = b := by
    intro a b h
    rw [← sub_eq_zero, ← sub_smul, smul_eq_zero] at h
    exact sub_eq_zero.1 (h.resolve_right hg)
  rw [mem_G1s]
  unfold WeakSecret
  constructor
  · rintro (h | ⟨j, h1, h2, h3, h⟩)
    · exact Or.inr ⟨N + 1, by omega, le_rfl, inj _ 1 (by rw [h, one_smul])⟩
    · by_cases h0 : α = 0
      · exact Or.inl h0
      · refine Or.inr ?_
        have h := inj _ _ h
        rcases Nat.lt_or_gt_of_ne h3 with hj | hj
        · refine ⟨N + 1 - j, by omega, by omega, ?_⟩
          refine mul_right_cancel₀ (pow_ne_zero j h0) ?_
          rw [← pow_add, Nat.sub_add_cancel hj.le, h, one_mul]
        · refine ⟨j - (N + 1), by omega, by omega, ?_⟩
          refine mul_right_cancel₀ (pow_ne_zero (N + 1) h0) ?_
          rw [← pow_add, Nat.sub_add_cancel hj.le, h, one_mul]
  · rintro (rfl | ⟨d, h1, h2, h3⟩)
    · exact Or.inr ⟨1, le_rfl, by omega, by omega, by rw [pow_one, zero_pow (by omega)]⟩
    · by_cases hd : d = N + 1
      · rw [← hd, h3, one_smul]
        exact Or.inl rfl
      · refine Or.inr ⟨N + 1 - d, by omega, by omega, by omega, ?_⟩
        rw [show N + 1 = (N + 1 - d) + d by omega, pow_add, h3, mul_one]
        congr 2
        omega

/-- C128, what holds: there are few such secrets. -/
theorem C128_missing_point_partial (N : ℕ) (hN : 1 ≤ N) :
    ∃ bad : Finset Zr, bad.card ≤ 1 + (N + 1) * (N + 2) / 2 ∧ ∀ α ∉ bad, ∀ (E : Curve G1 G2 GT), E.genG1 ≠ 0 →
      α ^ (N + 1) • E.genG1 ∉ (newPublicParams E α N).G1s := by
  classical
  refine ⟨{0} ∪ (Finset.range (N + 2)).biUnion fun d => (Polynomial.nthRoots d (1 : Zr)).toFinset, ?_, ?_⟩
  · refine (Finset.card_union_le _ _).trans ?_
    rw [Finset.card_singleton]
    refine Nat.add_le_add_left (Finset.card_biUnion_le.trans ?_) 1
    refine (Finset.sum_le_sum fun d _ => (Multiset.toFinset_card_le _).trans (Polynomial.card_nthRoots d 1)).trans ?_
    rw [Finset.sum_range_id, mul_comm, show N + 2 - 1 = N + 1 by omega]
  · intro α hα E hg hmem
    rw [C128_missing_point_iff E hg α N hN] at hmem
    apply hα
    rcases hmem with rfl | ⟨d, h1, h2, h3⟩
    · simp
    · refine Finset.mem_union_right _ (Finset.mem_biUnion.2 ⟨d, Finset.mem_range.2 (by omega), ?_⟩)
      rw [Multiset.mem_toFinset, Polynomial.mem_nthRoots (by omega)]
      exact h3

/-- C128: with such a secret, everyone who has the parameters and an accepted proof of a total can prove every other total, by adding
a multiple of a published point. -/
theorem C128_weak_secret_any_total {E : Curve G1 G2 GT} (hE : E.Lawful) (hnd : E.NonDegenerate) (hg : E.genG1 ≠ 0) {α : Zr} {F L : ℕ}
    {pp : PublicParams G1 G2 GT} (h : Fits E α F L pp) (hw : WeakSecret (F + 2) α) :
    ∃ X ∈ pp.PPPP.G1s, ∀ (V π : G1) (S S' : ℤ), TotalProof.verify E ⟨π, S⟩ pp V = some true →
      TotalProof.verify E ⟨π + (intToZr S - intToZr S') • X, S'⟩ pp V = some true := by
  refine ⟨α ^ (F + 3) • E.genG1, by rw [h.PPPP]; exact (C128_missing_point_iff E hg α (F + 2) (by omega)).2 hw, ?_⟩
  intro V π S S' hv
  rw [C116_one_point_per_total hE hnd h] at hv ⊢
  rw [hv, smul_smul, sub_mul, sub_smul]
  abel

/-- C128 fails: nothing in `NewPublicParams` keeps the secret 1 from being used, and then the point left out is in the parameters. -/
theorem C128_violated (E : Curve G1 G2 GT) (N : ℕ) :
    (1 : Zr) ^ (N + 1) • E.genG1 ∈ (newPublicParams E 1 N).G1s := by
  rw [mem_G1s]
  exact Or.inl (by rw [one_pow, one_smul])

/-- C128: a client can tell.  If the published points are different from each other and from zero, the point left out is not one of them. -/
theorem C128_different_points_suffice (E : Curve G1 G2 GT) (α : Zr) (N : ℕ) (hN : 2 ≤ N) (hnd : (newPublicParams E α N).G1s.Nodup)
    (h0 : (0 : G1) ∉ (newPublicParams E α N).G1s) : α ^ (N + 1) • E.genG1 ∉ (newPublicParams E α N).G1s := by
  have hg : E.genG1 ≠ 0 := fun h => h0 ((mem_G1s E α N 0).2 (Or.inl h.symm))
  have e : (newPublicParams E α N).G1s = (List.range N).map (fun k => α ^ (k + 1) • E.genG1) ++ [E.genG1]
      ++ (List.range (N - 1)).map (fun k => α ^ (N + 2 + k) • E.genG1) := rfl
  rw [C128_missing_point_iff E hg α N (by omega)]
  rw [e, List.nodup_append, List.nodup_append] at hnd
  obtain ⟨⟨-, -, hmid⟩, -, hhigh⟩ := hnd
  rintro (rfl | ⟨d, h1, h2, h3⟩)
  · exact h0 ((mem_G1s E 0 N 0).2 (Or.inr ⟨1, le_rfl, by omega, by omega, by rw [pow_one, zero_smul]⟩))
  · by_cases hd : d = N + 1
    · refine hhigh (α ^ (0 + 1) • E.genG1) (List.mem_append_left _ (List.mem_map.2 ⟨0, List.mem_range.2 (by omega), rfl⟩))
        (α ^ (N + 2 + 0) • E.genG1) (List.mem_map.2 ⟨0, List.mem_range.2 (by omega), rfl⟩) ?_
      rw [show N + 2 + 0 = d + (0 + 1) by omega, pow_add _ d, h3, one_mul]
    · refine hmid (α ^ (d - 1 + 1) • E.genG1) (List.mem_map.2 ⟨d - 1, List.mem_range.2 (by omega), rfl⟩) E.genG1 (by simp) ?_
      rw [Nat.sub_add_cancel h1, h3, one_smul]

/-! ## The hypotheses can be met -/

/-- The secret 2 of the toy parameters is not weak. -/
example : ¬ WeakSecret 5 2 := by
  rintro (h | ⟨d, h1, h2, h3⟩)
  · revert h; decide +kernel
  · interval_cases d <;> revert h3 <;> decide +kernel

/-- With the secret 2 the published points are different from each other and from zero. -/
example : (newPublicParams toyCurve 2 5).G1s.Nodup ∧ (0 : Zr) ∉ (newPublicParams toyCurve 2 5).G1s := by
  decide +kernel

/-- With the secret -1 everyone can prove every total for the commitment 0, for which 0 can be proved. -/
example {pp : PublicParams Zr Zr Zr} (h : Fits toyCurve (-1) 3 3 pp) : ∃ X ∈ pp.PPPP.G1s,
    TotalProof.verify toyCurve ⟨0, 0⟩ pp 0 = some true ∧
    TotalProof.verify toyCurve ⟨0 + (intToZr 0 - intToZr 5) • X, 5⟩ pp 0 = some true := by
  obtain ⟨X, hX, hv⟩ := C128_weak_secret_any_total toyCurve_lawful toyCurve_nonDegenerate (by decide +kernel) h
    (Or.inr ⟨2, by omega, by omega, by decide +kernel⟩)
  have h0 : TotalProof.verify toyCurve ⟨0, 0⟩ pp 0 = some true := by
    rw [C116_one_point_per_total toyCurve_lawful toyCurve_nonDegenerate h]
    simp [intToZr]
  exact ⟨X, hX, h0, hv 0 0 0 5 h0⟩

end PoL.Props

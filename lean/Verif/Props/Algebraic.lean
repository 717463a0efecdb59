import Verif.Proofs.Algebraic
import Verif.Props.Pol

/-!
# A second total for a root takes a point that is not published (C116)
-/

set_option linter.unusedSectionVars false

namespace PoL.Props
open Spec Pol PP

variable {G1 G2 GT : Type} [AddCommGroup G1] [Module Zr G1] [AddCommGroup G2] [Module Zr G2]
  [AddCommGroup GT] [Module Zr GT] [DecidableEq G1] [DecidableEq GT]

theorem sums_differ {a b : ℤ} (ha : -2 ^ 63 ≤ a ∧ a < 2 ^ 63) (hb : -2 ^ 63 ≤ b ∧ b < 2 ^ 63) (hne : a ≠ b) :
    intToZr a - intToZr b ≠ 0 := by
  intro hc
  rw [sub_eq_zero] at hc
  unfold intToZr at hc
  rw [ZMod.intCast_eq_intCast_iff_dvd_sub] at hc
  have hlt : ((2 : ℤ) ^ 127) < order := by exact_mod_cast two_pow_127_lt_order
  have h0 := Int.eq_zero_of_abs_lt_dvd hc (by rw [abs_lt]; constructor <;> norm_num at hlt <;> omega)
  omega

/-- C116, first part: for every commitment and every sum there is exactly one point with which `Verify` accepts; who knows
the secret of the parameters can compute it. -/
theorem C116_one_point_per_total {E : Curve G1 G2 GT} (hE : E.Lawful) (hnd : E.NonDegenerate) {α : Zr} {F L : ℕ}
    {pp : PublicParams G1 G2 GT} (h : Fits E α F L pp) (V : G1) (S : ℤ) (π : G1) :
    TotalProof.verify E ⟨π, S⟩ pp V = some true ↔
      π = α ^ 2 • V - (intToZr S * α ^ (F + 3)) • E.genG1 := by
  unfold TotalProof.verify
  rw [h.PPPP, h.fanout, C02_verify_iff E hE hnd α (F + 2) V π _ F (by omega), show F + 2 - F = 2 by omega]

/-- C116, second part: given an accepted proof of the total `S`, proving another total is the same as computing
`α^(N+1) g₁`. -/
theorem C116_second_total_iff {E : Curve G1 G2 GT} (hE : E.Lawful) (hnd : E.NonDegenerate) {α : Zr} {F L : ℕ}
    {pp : PublicParams G1 G2 GT} (h : Fits E α F L pp) (V : G1) (S S' : ℤ) (hS : -2 ^ 63 ≤ S ∧ S < 2 ^ 63)
    (hS' : -2 ^ 63 ≤ S' ∧ S' < 2 ^ 63) (hne : S ≠ S') (π : G1) (hπ : TotalProof.verify E ⟨π, S⟩ pp V = some true) (X : G1) :
    TotalProof.verify E ⟨π + (intToZr S - intToZr S') • X, S'⟩ pp V = some true ↔ X = α ^ (F + 3) • E.genG1 := by
  rw [C116_one_point_per_total hE hnd h] at hπ ⊢
  have hd := sums_differ hS hS' hne
  subst hπ
  constructor
  · intro hx
    have h1 : (intToZr S - intToZr S') • X = (intToZr S - intToZr S') • α ^ (F + 3) • E.genG1 := by
      rw [sub_add_eq_add_sub, sub_eq_sub_iff_add_eq_add] at hx
      rw [smul_smul, sub_mul, sub_smul (intToZr S * _), eq_sub_iff_add_eq]
      have := add_left_cancel (a := α ^ 2 • V) (b := (intToZr S - intToZr S') • X + (intToZr S' * α ^ (F + 3)) • E.genG1)
        (c := (intToZr S * α ^ (F + 3)) • E.genG1) (by rw [← add_assoc, hx])
      exact this
    exact smul_right_injective G1 hd h1
  · rintro rfl
    rw [smul_smul, sub_mul, sub_smul]
    abel

/-- C116, third part: take a prover that computes its points from the published powers by additions and multiplications,
with scalars `cs`, `cs'` and with other points `Q`, `Q'` that do not depend on the secret of the parameters.  For all
but at most `2F + 4` secrets it cannot prove two totals for one commitment, whatever the commitment. -/
theorem C116_combining_prover {E : Curve G1 G2 GT} (hE : E.Lawful) (hnd : E.NonDegenerate) (hg : E.genG1 ≠ 0) (F L : ℕ)
    (S S' : ℤ) (hS : -2 ^ 63 ≤ S ∧ S < 2 ^ 63) (hS' : -2 ^ 63 ≤ S' ∧ S' < 2 ^ 63) (hne : S ≠ S')
    (cs cs' : List Zr) (Q Q' : G1) :
    ∃ bad : Finset Zr, bad.card ≤ 2 * F + 4 ∧ ∀ α ∉ bad, ∀ pp : PublicParams G1 G2 GT, Fits E α F L pp → ∀ V,
      ¬ (TotalProof.verify E ⟨combined cs pp.PPPP.G1s + Q, S⟩ pp V = some true ∧
        TotalProof.verify E ⟨combined cs' pp.PPPP.G1s + Q', S'⟩ pp V = some true) := by
  obtain ⟨ds, hds⟩ := combined_sub (G1 := G1) cs cs'
  obtain ⟨bad, h1, h2⟩ := missing_power E hg (F + 2) (by omega) ds (Q - Q') (intToZr S' - intToZr S)
    (sums_differ hS' hS hne.symm)
  refine ⟨bad, by omega, fun α hα pp hpp V ⟨ha, hb⟩ => h2 α hα ?_⟩
  rw [C116_one_point_per_total hE hnd hpp] at ha hb
  rw [hds, ← hpp.PPPP, sub_add_sub_comm, ha, hb, sub_mul, sub_smul]
  abel

/-- C116, fourth part: the same for the amount of a client: for all but at most `2N` secrets, such a prover cannot open one
entry of a commitment to two values. -/
theorem C116_combining_opener {E : Curve G1 G2 GT} (hE : E.Lawful) (hnd : E.NonDegenerate) (hg : E.genG1 ≠ 0) (N i : ℕ)
    (hi : i < N) (m m' : Zr) (hne : m ≠ m') (cs cs' : List Zr) (Q Q' : G1) :
    ∃ bad : Finset Zr, bad.card ≤ 2 * N ∧ ∀ α ∉ bad, ∀ C,
      ¬ (PP.verify E (newPublicParams E α N) m (combined cs (newPublicParams E α N).G1s + Q) C i = some true ∧
        PP.verify E (newPublicParams E α N) m' (combined cs' (newPublicParams E α N).G1s + Q') C i = some true) := by
  obtain ⟨ds, hds⟩ := combined_sub (G1 := G1) cs cs'
  obtain ⟨bad, h1, h2⟩ := missing_power E hg N (by omega) ds (Q - Q') (m' - m) (sub_ne_zero.2 hne.symm)
  refine ⟨bad, h1, fun α hα C ⟨ha, hb⟩ => h2 α hα ?_⟩
  rw [C02_verify_iff E hE hnd α N C _ _ i hi] at ha hb
  rw [hds, sub_add_sub_comm, ha, hb, sub_mul, sub_smul]
  abel

/-- A prover of this kind can prove one total, for every secret: the commitment `α g₁` and the total 0. -/
example (α : Zr) {F L : ℕ} {pp : PublicParams Zr Zr Zr} (h : Fits toyCurve α F L pp) :
    TotalProof.verify toyCurve ⟨combined [0, 0, 1] pp.PPPP.G1s + 0, 0⟩ pp (combined [1] pp.PPPP.G1s) = some true := by
  have hF : 1 ≤ F := by
    obtain ⟨k, hk, -, h2⟩ := h.power
    have : 2 ^ 2 ≤ 2 ^ k := Nat.pow_le_pow_right (by norm_num) hk
    omega
  rw [C116_one_point_per_total toyCurve_lawful toyCurve_nonDegenerate h, h.PPPP, new_G1s_exponents, combined_poly,
    combined_poly]
  have he : ∃ l, exponents (F + 2) = 1 :: 2 :: 3 :: l := by
    obtain ⟨n, rfl⟩ : ∃ n, F = n + 1 := ⟨F - 1, by omega⟩
    rw [exponents, show n + 1 + 2 = n + 1 + 1 + 1 from rfl, List.range_succ_eq_map, List.range_succ_eq_map,
      List.range_succ_eq_map]
    exact ⟨_, rfl⟩
  obtain ⟨l, hl⟩ := he
  rw [hl]
  simp [poly, toyCurve, intToZr]
  ring

/-- For a few secrets it can prove two: for the secret 2, the totals 1 and 2. -/
example : ∃ pp : PublicParams Zr Zr Zr, Fits toyCurve 2 3 3 pp ∧
    TotalProof.verify toyCurve ⟨combined [] pp.PPPP.G1s + -(2 ^ 6), 1⟩ pp 0 = some true ∧
    TotalProof.verify toyCurve ⟨combined [] pp.PPPP.G1s + -(2 ^ 7), 2⟩ pp 0 = some true := by
  obtain ⟨pp, h⟩ := toy_fits
  refine ⟨pp, h, ?_, ?_⟩ <;>
  · rw [C116_one_point_per_total toyCurve_lawful toyCurve_nonDegenerate h]
    simp [combined, toyCurve, intToZr]
    try ring

end PoL.Props

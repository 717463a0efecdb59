import Verif.Spec.RangeForge
import Verif.Props.RangeSound
import Verif.Props.InnerProd
import Verif.Proofs.RewindRange

/-!
# The dishonest prover of ranges: lemmas
-/

set_option linter.unusedSectionVars false

namespace PoL.BP

open Finset

variable {G1 G2 GT : Type} [AddCommGroup G1] [Module Zr G1] [AddCommGroup G2] [Module Zr G2]
  [AddCommGroup GT] [Module Zr GT] [DecidableEq G1]

theorem forgedBit_eq (n : ℕ) (B : List Zr) : forgedBit n B = honestBits n (fun i => B.getD i 0) := rfl

theorem forgedComplement_eq (n : ℕ) (B : List Zr) : forgedComplement n B = honestComplement n (fun i => B.getD i 0) := rfl

theorem forgedLeft_eq (n : ℕ) (B : List Zr) (y1 : Zr) :
    forgedLeft n B y1 = (List.range (n * 64)).map (honestA n (fun i => B.getD i 0) y1) := rfl

theorem forgedRight_eq (n : ℕ) (B f : List Zr) (x y0 y1 : Zr) :
    forgedRight n B f x y0 y1 = (List.range (n * 64)).map (honestB n (fun i => B.getD i 0) f x y0 y1) := rfl

theorem forged_product (n : ℕ) (B f : List Zr) (hB : ∀ i < n, (B.getD i 0).val < 2 ^ 63) (x y0 y1 : Zr) :
    dot (forgedLeft n B y1) (forgedRight n B f x y0 y1)
      = rangeConstant n f x (∑ i ∈ range n, B.getD i 0 * bitMonomial f i) y0 y1 := by
  rw [forgedLeft_eq, forgedRight_eq, dot_map_map_range]
  exact (rangeEquation_iff_value n (honestBits n _) (honestComplement n _) (fun i => B.getD i 0) (fun _ => 0) f x _ y0 y1
      (by simp)).2 (honest_equation _ _ hB _ _ _ _)

theorem forged_statement (pp : RPPP G1) (k : ℕ) (hGs : pp.Gs.length = 2 ^ k) (hHs : pp.Hs.length = 2 ^ k * 64)
    (hFs : pp.Fs.length = 2 ^ k * 64) (B f : List Zr) (U : G1) (x y0 y1 z : Zr) (hy0 : y0 ≠ 0) :
    rangeStatement (rangeGens pp U) (2 ^ k) (forgedQ pp B) 0 f x y0 y1 z 0
      = dot (forgedLeft (2 ^ k) B y1) pp.Hs
        + dot (forgedRight (2 ^ k) B f x y0 y1) ((List.range (2 ^ k * 64)).map fun i => y0⁻¹ ^ i • pp.Fs.getD i 0) := by
  have h1 : pp.Hs = (List.range (2 ^ k * 64)).map fun i => pp.Hs.getD i 0 := (map_getD_range pp.Hs 0 _ hHs).symm
  have h2 : pp.Fs = (List.range (2 ^ k * 64)).map fun i => pp.Fs.getD i 0 := (map_getD_range pp.Fs 0 _ hFs).symm
  have hQ : forgedQ pp B = ∑ i ∈ range (2 ^ k * 64), honestBits (2 ^ k) (fun i => B.getD i 0) i • pp.Hs.getD i 0
      + ∑ i ∈ range (2 ^ k * 64), honestComplement (2 ^ k) (fun i => B.getD i 0) i • pp.Fs.getD i 0 := by
    rw [forgedQ, hGs]
    conv_lhs => rw [h1, h2]
    rw [dot_map_map_range, dot_map_map_range]
    rfl
  have e0 : dot (forgedLeft (2 ^ k) B y1) pp.Hs
      = ∑ i ∈ range (2 ^ k * 64), honestA (2 ^ k) (fun i => B.getD i 0) y1 i • pp.Hs.getD i 0 := by
    rw [forgedLeft_eq]
    conv_lhs => rw [h1]
    rw [dot_map_map_range]
  have e1 : ∑ i ∈ range (2 ^ k * 64), honestA (2 ^ k) (fun i => B.getD i 0) y1 i • pp.Hs.getD i 0
      = ∑ i ∈ range (2 ^ k * 64), honestBits (2 ^ k) (fun i => B.getD i 0) i • pp.Hs.getD i 0
        + ∑ i ∈ range (2 ^ k * 63), y1 • pp.Hs.getD i 0 := by
    simp only [honestA, add_smul, Finset.sum_add_distrib]
    rw [sum_ite_smul]
  have e2 : ∑ i ∈ range (2 ^ k * 64), honestB (2 ^ k) (fun i => B.getD i 0) f x y0 y1 i • y0⁻¹ ^ i • pp.Fs.getD i 0
      = ∑ i ∈ range (2 ^ k * 64), honestComplement (2 ^ k) (fun i => B.getD i 0) i • pp.Fs.getD i 0
        + ∑ i ∈ range (2 ^ k * 63), y1 • pp.Fs.getD i 0
        + ∑ i ∈ range (2 ^ k * 64), (y1 ^ 2 * rangeWeight (2 ^ k) f x i) • y0⁻¹ ^ i • pp.Fs.getD i 0 := by
    rw [← sum_ite_smul, ← Finset.sum_add_distrib, ← Finset.sum_add_distrib]
    refine Finset.sum_congr rfl fun i _ => ?_
    have hp : y0 ^ i * y0⁻¹ ^ i = 1 := by rw [← mul_pow, mul_inv_cancel₀ hy0, one_pow]
    rw [honestB, add_smul, mul_smul, smul_smul (y0 ^ i), hp, one_smul, add_smul]
  rw [e0, e1, forgedRight_eq, dot_map_map_range, e2, rangeStatement, hQ]
  simp only [rangeGens]
  module

/-- The dishonest prover ends with a proof, which is accepted exactly if `B` agrees with `v` at the challenges of the
reduction (up to the generator `G` and the challenge `y1`). -/
theorem forgeRange_verify (E : Curve G1 G2 GT) (hE : E.Lawful) (pp : RPPP G1) (k : ℕ)
    (hk1 : 1 ≤ k) (hk2 : k ≤ 15) (hGs : pp.Gs.length = 2 ^ k) (hHs : pp.Hs.length = 2 ^ k * 64)
    (hFs : pp.Fs.length = 2 ^ k * 64) (v B : List Zr) (hv : v.length = 2 ^ k) (hB : B.length = 2 ^ k)
    (hrange : ∀ b ∈ B, b.val < 2 ^ 63) (r : Zr) :
    ∃ Δ xs u rp ipaPP, forgedReduction E pp v = some (Δ, xs, u) ∧ xs.length = k ∧
      forgeRange E pp v B r = some (rp, ipaPP) ∧
      ∀ x y1, rangeProofRO1 E pp (r • pp.F + dot v pp.Gs) rp.W rp.Q = some x → rangeY E pp rp.Q rp.R x 1 = some y1 →
        (∀ y ∈ rangeChallenges E pp (r • pp.F + dot v pp.Gs) rp ipaPP, y ≠ 0) →
        (verifyRange E pp rp (r • pp.F + dot v pp.Gs) = some true ↔
          (y1 ^ 2 * (multilinear v xs.reverse - multilinear B xs.reverse)) • pp.G = 0) := by
  obtain ⟨d, U, hrdx⟩ := rangeRdxPP_eq E pp
  obtain ⟨Δ, xs, u, hred, lΔ, lxs, hiv⟩ := Props.C13_iterated_reduction_complete E hE
    { digest := d, G := pp.Gs, H := [], U := U } k hk1 hk2 v hGs hv
  obtain ⟨Δ', xs', u', hred', -, hu⟩ := Props.C14_reduced_value_is_multilinear E hE
    { digest := d, G := pp.Gs, H := [], U := U } k hk1 hk2 v (dot v pp.Gs) hGs hv
  have heq := hred.symm.trans hred'
  simp only [Option.some.injEq, Prod.mk.injEq] at heq
  obtain ⟨rfl, rfl, rfl⟩ := heq
  have hR : forgedReduction E pp v = some (Δ, xs, u) := by
    rw [forgedReduction, hrdx]; exact hred
  obtain ⟨x, hx⟩ := fieldElementFromBytes_isSome (hE.sha_len
    (pp.getDigest E ++ E.g1Bytes (r • pp.F + dot v pp.Gs) ++ E.g1Bytes 0 ++ E.g1Bytes (forgedQ pp B)))
  have hx : rangeProofRO1 E pp (r • pp.F + dot v pp.Gs) 0 (forgedQ pp B) = some x := hx
  obtain ⟨y0, hy0⟩ : ∃ y0, rangeY E pp (forgedQ pp B) 0 x 0 = some y0 := fieldElementFromBytes_isSome (hE.sha_len _)
  obtain ⟨y1, hy1⟩ : ∃ y1, rangeY E pp (forgedQ pp B) 0 x 1 = some y1 := fieldElementFromBytes_isSome (hE.sha_len _)
  obtain ⟨z, hz⟩ : ∃ z, computeZ E pp 0 0 (forgedQ pp B) 0 (zrBytes y0) (zrBytes y1) = some z :=
    fieldElementFromBytes_isSome (hE.sha_len _)
  obtain ⟨d', U', hipa⟩ := rangeIpaPP_eq E pp ((List.range (2 ^ k * 64)).map fun i => y0⁻¹ ^ i • pp.Fs.getD i 0)
    (by simp [hHs])
  obtain ⟨ipaPP, hipaPP⟩ : ∃ P : PP G1, P = ⟨d', pp.Hs, (List.range (2 ^ k * 64)).map
    (fun i => y0⁻¹ ^ i • pp.Fs.getD i 0), U'⟩ := ⟨_, rfl⟩
  rw [← hipaPP] at hipa
  have iG : ipaPP.G = pp.Hs := by rw [hipaPP]
  have iH : ipaPP.H = (List.range (2 ^ k * 64)).map fun i => y0⁻¹ ^ i • pp.Fs.getD i 0 := by rw [hipaPP]
  obtain ⟨a, ha⟩ : ∃ a, a = forgedLeft (2 ^ k) B y1 := ⟨_, rfl⟩
  obtain ⟨b, hb⟩ : ∃ b, b = forgedRight (2 ^ k) B xs.reverse x y0 y1 := ⟨_, rfl⟩
  have la : a.length = 2 ^ (k + 6) := by simp [ha, forgedLeft, pow_add]
  have lb : b.length = 2 ^ (k + 6) := by simp [hb, forgedRight, pow_add]
  have lG : ipaPP.G.length = 2 ^ (k + 6) := by simp [iG, hHs, pow_add]
  have lH : ipaPP.H.length = 2 ^ (k + 6) := by simp [iH, pow_add]
  have hpos : 0 < 2 ^ (k + 6) := by positivity
  have hn : newInnerProdArgument ipaPP a b
      = some { pp := ipaPP, a := a, b := b, C := dot a b, P := dot a ipaPP.G + dot b ipaPP.H } := by
    rw [newInnerProdArgument, Vec.innerProd_eq (by omega), BP.commit_eq ipaPP a b (by omega)
      (by intro h; rw [h] at la; simp at la; omega) (by omega) (by omega)]
    rfl
  obtain ⟨π, x0, hπ, hπP, hπC, hL, hx0, hver⟩ := prove_verify E hE ipaPP a b (dot a b)
    (dot a ipaPP.G + dot b ipaPP.H) (k + 6) la lb lG lH
  have hx0 : fieldElementFromBytes (E.sha256 ipaPP.digest) = some x0 := hx0
  have hf : forgeRange E pp v B r = some (⟨Δ, u, 0, -r, π, dot a b, forgedQ pp B, 0, 0, 0, 0, 0⟩, ipaPP) := by
    unfold forgeRange
    rw [hGs, ha, hb] at *
    exact obind_step hR (obind_step hx (obind_step hy0 (obind_step hy1 (obind_step hipa (obind_step hn
      (obind_step hπ rfl))))))
  refine ⟨Δ, xs, u, _, _, hR, lxs, hf, ?_⟩
  intro x' y1' hx' hy1' hne
  obtain rfl : x' = x := by
    have := hx'.symm.trans hx
    simpa using this
  obtain rfl : y1' = y1 := by
    have := hy1'.symm.trans hy1
    simpa using this
  have hU : (-r) • pp.F + (r • pp.F + dot v pp.Gs) + x' • (0 : G1) = dot v pp.Gs := by module
  simp only [rangeChallenges, hx, hrdx, hy0, Option.getD_some, hU] at hne
  have hy00 : y0 ≠ 0 := hne y0 (by simp)
  have hxs : xs = irChallenges E d (dot v pp.Gs) Δ := by
    have h := hred
    rw [iterativeReduce, hGs, isPowerOfTwo_pow k hk1 hk2] at h
    obtain ⟨Δ', h1, h2⟩ := iterReduceLoop_challenges E hE d k _ _ _ _ _ _ hGs hv h
    simp only [List.nil_append] at h1 h2
    rw [h2, h1]
  have hxne : ∀ y ∈ xs, y ≠ 0 := fun y hy => hne y (by rw [hxs] at hy; simp [hy])
  have hine : ∀ y ∈ ippChallenges E ipaPP π, y ≠ 0 := fun y hy => hne y (by simp [hy])
  have hlink := Props.C18_verify_iff_accepting_transcript E hE pp k hk1 hk2 hGs hHs hFs
    ⟨Δ, u, 0, -r, π, dot a b, forgedQ pp B, 0, 0, 0, 0, 0⟩ (r • pp.F + dot v pp.Gs) lΔ hL x' y0 y1' z x0
    ⟨d, pp.Gs, [], U⟩ ipaPP hx hrdx hy0 hy1 hz hipa hx0
  simp only [hU] at hlink
  rw [← hxs] at hlink
  rw [forged_statement pp k hGs hHs hFs B xs.reverse ipaPP.U x' y0 y1' z hy00, ← ha, ← hb, ← iH, ← iG] at hlink
  rw [hlink]
  obtain ⟨ir1, ir2⟩ := (Props.C15_verify_iff_accepting_transcript E hE ⟨d, pp.Gs, [], U⟩ k hk1 hk2 hGs (dot v pp.Gs) Δ lΔ
    u).1.1 (by rw [← hxs]; exact hiv hxne)
  rw [← hxs] at ir1 ir2
  have hv2 : InnerProductProof.verify E ⟨π.LRs, π.a, π.b, dot a ipaPP.G + dot b ipaPP.H, dot a b⟩ ipaPP = some true := by
    rw [hver hine (dot a ipaPP.G + dot b ipaPP.H) (dot a b) rfl, Option.some_inj, decide_eq_true_eq]
    module
  have hacc := (Props.C12_verify_iff_accepting_transcript E hE ipaPP (k + 6) lG lH
    ⟨π.LRs, π.a, π.b, dot a ipaPP.G + dot b ipaPP.H, dot a b⟩ hL x0 hx0).1 hv2
  have hfst := Props.zip_rounds_fst xs Δ (by rw [lxs, lΔ])
  have hpp : (List.range (2 ^ k)).map (rangeGens pp ipaPP.U).Gs = pp.Gs := map_getD_range pp.Gs 0 _ hGs
  have hpp2 : (List.range (2 ^ k * 64)).map (rangeGens pp ipaPP.U).Hs = ipaPP.G := by
    rw [iG]; exact map_getD_range pp.Hs 0 _ hHs
  have hpp3 : (List.range (2 ^ k * 64)).map (fun i => y0⁻¹ ^ i • (rangeGens pp ipaPP.U).Fs i) = ipaPP.H := by rw [iH]; rfl
  have hst := forged_statement pp k hGs hHs hFs B xs.reverse ipaPP.U x' y0 y1' z hy00
  rw [← ha, ← hb, ← iH, ← iG] at hst
  have gF : (rangeGens pp ipaPP.U).F = pp.F := rfl
  have gG : (rangeGens pp ipaPP.U).G = pp.G := rfl
  have gU : (rangeGens pp ipaPP.U).U = ipaPP.U := rfl
  simp only [RangeTr.Accepted, hfst, hpp, hpp2, hpp3, hst, gF, gG, gU, hU]
  simp only [ir1, ir2, hacc, true_and, smul_zero, zero_add, zero_smul, add_zero]
  have hBr : ∀ i < 2 ^ k, (B.getD i 0).val < 2 ^ 63 := fun i hi => by
    have h : i < B.length := by omega
    rw [List.getD_eq_getElem?_getD, List.getElem?_eq_getElem h]
    exact hrange _ (List.getElem_mem h)
  have hmB : multilinear B xs.reverse = ∑ i ∈ range (2 ^ k), B.getD i 0 * bitMonomial xs.reverse i := by
    rw [multilinear_eq (by rw [hB, lxs]), dot_monomials_sum _ _ k hB lxs]
  rw [ha, hb, forged_product _ _ _ hBr, ← hmB, ← sub_eq_zero, ← sub_smul, ← hu]
  simp only [rangeConstant]
  constructor <;> intro h <;> rw [← h] <;> congr 1 <;> ring

end PoL.BP

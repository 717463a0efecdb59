import Verif.Proofs.WorkBp
import Mathlib.Tactic.Linarith

/-!
# Counting points: range proofs
-/

namespace PoL.Ptr.BP

open Spec PoL.BP

variable {G1 G2 GT : Type} [AddCommGroup G1] [Module Zr G1] [AddCommGroup G2] [Module Zr G2] [AddCommGroup GT] [Module Zr GT]

theorem costs_getDigest (E : Curve G1 G2 GT) (pp : RPPP Ref) : Costs (getDigest E pp) fun _ n => n = 0 := by
  unfold getDigest
  split
  · exact Costs.pure rfl
  · refine Costs.free (costs_load _ _) fun _ => Costs.free (costs_load _ _) fun _ => Costs.free (costs_load _ _) fun _ => ?_
    refine Costs.free (costs_loads _ _) fun _ => Costs.free (costs_loads _ _) fun _ => Costs.free (costs_loads _ _) fun _ => ?_
    exact Costs.pure rfl

theorem costs_RO1 (E : Curve G1 G2 GT) (pp : RPPP Ref) (V W Q : Ref) : Costs (rangeProofRO1 E pp V W Q) fun _ n => n = 0 := by
  refine Costs.free (costs_getDigest E pp) fun _ => Costs.free (costs_load _ _) fun _ => ?_
  exact Costs.free (costs_load _ _) fun _ => Costs.free (costs_load _ _) fun _ => costs_lift

theorem costs_rangeY (E : Curve G1 G2 GT) (pp : RPPP Ref) (Q R : Ref) (x : Zr) (tag : UInt8) :
    Costs (rangeY E pp Q R x tag) fun _ n => n = 0 :=
  Costs.free (costs_getDigest E pp) fun _ => Costs.free (costs_randomOracle E _ _ _) fun _ => costs_lift

theorem costs_computeZ (E : Curve G1 G2 GT) (pp : RPPP Ref) (C1 C2 Q R : Ref) (y0 y1 : Bytes) :
    Costs (computeZ E pp C1 C2 Q R y0 y1) fun _ n => n = 0 := by
  refine Costs.free (costs_getDigest E pp) fun _ => Costs.free (costs_load _ _) fun _ => Costs.free (costs_load _ _) fun _ => ?_
  exact Costs.free (costs_randomOracle E _ _ _) fun _ => costs_lift

theorem costs_randGenVec (E : Curve G1 G2 GT) (n : ℕ) (s : String) : Costs (Ptr.randGenVec E n s) fun _ k => k = n := by
  refine (costs_mapM (c := fun _ => 1) fun p _ => costs_new _ p).imp ?_
  rintro rs k ⟨rfl, -⟩
  simp [PoL.randGenVec, Function.comp_def]

theorem costs_rdxPP (E : Curve G1 G2 GT) (pp : RPPP Ref) : Costs (rangeRdxPP E pp) fun p n => n = 1 ∧ p.G = pp.Gs := by
  refine Costs.step (costs_randGenVec E 1 _) fun u => Costs.lift fun U _ => (costs_setupDigest E _).imp ?_
  rintro p n ⟨rfl, h, -⟩
  exact ⟨rfl, h⟩

theorem costs_ipaPP (E : Curve G1 G2 GT) (pp : RPPP Ref) (F : List Ref) :
    Costs (rangeIpaPP E pp F) fun p n => n = 1 ∧ p.G = pp.Hs ∧ p.H = F := by
  refine Costs.step (costs_randGenVec E 1 _) fun u => Costs.lift fun U _ => (costs_setupDigest E _).imp ?_
  rintro p n ⟨rfl, h, h'⟩
  exact ⟨rfl, h, h'⟩

theorem bits_01 (x : Zr) (m : ℕ) : ∀ b ∈ bits x m, b = 0 ∨ b = 1 := by
  intro b hb
  rw [bits, List.mem_append] at hb
  rcases hb with hb | hb
  · rw [bitsLoop_eq_digits] at hb
    have := Nat.digits_lt_base (by norm_num) hb
    omega
  · exact Or.inl (List.eq_of_mem_replicate hb)

theorem vbits_01 (v : List Zr) (m : ℕ) : ∀ b ∈ Vec.vbits v m, b = 0 ∨ b = 1 := by
  intro b hb
  obtain ⟨x, -, hx⟩ := List.mem_flatMap.1 hb
  exact bits_01 x m b hx

/-- The bits and their complements have as many entries that are not zero as there are bits. -/
theorem nonZero_bits : ∀ (bs : List ℕ), (∀ b ∈ bs, b = 0 ∨ b = 1) →
    nonZero (intsToZr bs) + nonZero (List.zipWith (· - ·) (expand (intToZr 1) bs.length) (intsToZr bs)) = bs.length
  | [], _ => rfl
  | b :: bs, h => by
    have ih := nonZero_bits bs fun c hc => h c (by simp [hc])
    have h1 : intToZr 1 = (1 : Zr) := by simp [intToZr]
    have h0 : intToZr 0 = (0 : Zr) := by simp [intToZr]
    rcases h b (by simp) with rfl | rfl
    · simp only [intsToZr, expand, List.map_cons, List.length_cons, List.replicate_succ, List.zipWith_cons_cons, nonZero, Nat.cast_zero,
        h0, h1, sub_zero, if_true, one_ne_zero, if_false] at ih ⊢
      omega
    · simp only [intsToZr, expand, List.map_cons, List.length_cons, List.replicate_succ, List.zipWith_cons_cons, nonZero, Nat.cast_one,
        h1, sub_self, if_true, one_ne_zero, if_false] at ih ⊢
      omega

variable [DecidableEq G1]

omit [AddCommGroup G2] [Module Zr G2] [AddCommGroup GT] [Module Zr GT] in
theorem costs_mulVSum (gl : Globals) (g : List Ref) (v : List Zr) :
    Costs (mulVSum gl g v : Run (Cell G1 G2 GT) Ref) fun _ n => n = nonZero v + 1 ∧ g.length = v.length := by
  refine Costs.bind (costs_mulV _ _ _ _) ?_
  rintro r _ ⟨rfl, -, h⟩
  exact (costs_sum _ _).imp (by rintro _ _ rfl; exact ⟨rfl, h⟩)

omit [DecidableEq G1] in
theorem work_sum {k1 k2 k3 k4 k5 k6 k7 k8 k9 k10 k11 : ℕ} (h : k2 + k1 = k10 * 63) :
    1 + (k5 + 1 + (1 + (k2 + k5 + 1 + (k1 + 1 + (1 + (1 + (1 + (k8 + k3 + (1 + (k6 + 1 + (k7 + 1 + (1 + (1 + (1 + (1 + (k4 + (1 + (2 * k11 +
      (3 + k9 + 0))))))))))))))))))) = 63 * k10 + 19 + k8 + 2 * k11 + k9 + (2 * k5 + k6 + k7 + k4 + k3) := by
  linarith

theorem costs_unchecked (E : Curve G1 G2 GT) (gl : Globals) (pp : RPPP Ref) (rnd : RangeRand) (V : Ref) (v : List Zr) (r : Zr)
    (hHs : pp.Hs.length = 64 * pp.Gs.length) :
    Costs (proveRangeUnchecked E gl pp rnd V v r) fun res n =>
      (∃ x y0 xs, n = 63 * pp.Gs.length + 19 + reduceWork pp.Gs.length + 2 * pp.Hs.length + ipaProveWork pp.Hs.length +
        (2 * nonZero rnd.w + nonZero rnd.s + nonZero rnd.t + nonZero (powerSeries pp.Hs.length y0⁻¹) +
          foldNonZero (pp.Gs.length / 2) (List.zipWith (fun a b => a + b * x) v rnd.w) xs)) ∧
      res.2.G.length = pp.Hs.length ∧ res.2.H.length = pp.Hs.length := by
  unfold proveRangeUnchecked
  dsimp only
  refine Costs.step (costs_mulBy _ _ _) fun W => Costs.bind (costs_mulVSum _ _ _) ?_
  rintro _ _ ⟨rfl, hw⟩
  refine Costs.free (costs_addTo _ _ _) fun _ => Costs.lift fun vb hvb => Costs.lift fun wCaret hwC => ?_
  refine Costs.step (costs_mulBy _ _ _) fun Q => Costs.bind (costs_mulVSum _ _ _) ?_
  rintro _ _ ⟨rfl, hvl⟩
  refine Costs.free (costs_addTo _ _ _) fun _ => Costs.lift fun _ _ => Costs.bind (costs_mulVSum _ _ _) ?_
  rintro _ _ ⟨rfl, -⟩
  refine Costs.free (costs_addTo _ _ _) fun _ => Costs.free (costs_RO1 E _ _ _ _) fun x => ?_
  refine Costs.step (costs_mulBy _ _ _) fun U => Costs.free (costs_addTo _ _ _) fun _ => Costs.step (costs_mulBy _ _ _) fun _ => ?_
  refine Costs.free (costs_addTo _ _ _) fun _ => Costs.bind (costs_rdxPP E _) ?_
  rintro ppRdx _ ⟨rfl, hrdx⟩
  refine Costs.lift fun wRdx hwRdx => Costs.bind (costs_iterativeReduce E gl _ _ _) ?_
  rintro red _ rfl
  refine Costs.lift fun f _ => Costs.lift fun d _ => ?_
  refine Costs.step (costs_mulBy _ _ _) fun R => Costs.bind (costs_mulVSum _ _ _) ?_
  rintro _ _ ⟨rfl, -⟩
  refine Costs.free (costs_addTo _ _ _) fun _ => Costs.lift fun _ _ => Costs.bind (costs_mulVSum _ _ _) ?_
  rintro _ _ ⟨rfl, -⟩
  refine Costs.free (costs_addTo _ _ _) fun _ => Costs.free (costs_rangeY E _ _ _ _ _) fun y0 => ?_
  refine Costs.free (costs_rangeY E _ _ _ _ _) fun y1 => ?_
  refine Costs.lift fun aPrime haP => Costs.lift fun _ _ => Costs.lift fun _ _ => Costs.lift fun bPrime _ => ?_
  refine Costs.lift fun _ _ => Costs.lift fun _ _ => Costs.lift fun _ _ => Costs.lift fun _ _ => Costs.lift fun _ _ => ?_
  refine Costs.lift fun _ _ => Costs.lift fun _ _ => ?_
  refine Costs.step (costs_mulBy _ _ _) fun C1 => Costs.step (costs_mulBy _ _ _) fun C2 => Costs.step (costs_mulBy _ _ _) fun _ => ?_
  refine Costs.free (costs_addTo _ _ _) fun _ => Costs.step (costs_mulBy _ _ _) fun _ => Costs.free (costs_addTo _ _ _) fun _ => ?_
  refine Costs.free (costs_computeZ E _ _ _ _ _ _ _) fun z => Costs.bind (costs_mulV _ _ _ _) ?_
  rintro Fp _ ⟨rfl, hFp, -⟩
  refine Costs.lift fun a ha => Costs.lift fun _ _ => Costs.lift fun b _ => Costs.lift fun c _ => ?_
  refine Costs.bind (costs_ipaPP E _ _) ?_
  rintro ipaPP _ ⟨rfl, hG, hH⟩
  refine Costs.bind (costs_newInnerProdArgument _ _ _) ?_
  rintro arg _ ⟨rfl, harg⟩
  refine Costs.bind (costs_ipaProve E _) ?_
  rintro ipp _ ⟨rfl, hl⟩
  rw [harg, hG, hH] at hl
  refine Costs.pure ⟨⟨x, y0, red.2.1, ?_⟩, by rw [hG], by rw [hH, hl]⟩
  rw [harg, hG, hrdx]
  obtain ⟨-, rfl⟩ := sliceTo_some hvb
  obtain ⟨hwl, rfl⟩ := vecSub_some hwC
  obtain ⟨-, rfl⟩ := vecAdd_some haP
  obtain ⟨hal, rfl⟩ := vecAdd_some ha
  obtain ⟨-, rfl⟩ := vecAdd_some hwRdx
  have hbl : (Vec.vbits v 63).length = pp.Gs.length * 63 := by
    simp only [List.length_append, intsToZr, List.length_map] at hvl
    omega
  have htake : (intsToZr (Vec.vbits v 63) ++ rnd.w).take (pp.Gs.length * 63) = intsToZr (Vec.vbits v 63) := by
    rw [List.take_append_of_le_length (by simp [intsToZr, hbl])]
    exact List.take_of_length_le (by simp [intsToZr, hbl])
  have hbits := nonZero_bits _ (vbits_01 v 63)
  rw [hbl] at hbits
  rw [htake, nonZero_append, Vec.mul, List.zipWith_map_right]
  have hlenA : (List.zipWith (· + ·) (List.zipWith (· + ·) (intsToZr (Vec.vbits v 63) ++ rnd.w)
      (Vec.concat (Vec.mul (expand (intToZr 1) (pp.Gs.length * 63)) y1) (expand (intToZr 0) pp.Gs.length))) (Vec.mul rnd.s z)).length =
      pp.Hs.length := by
    rw [List.length_zipWith, ← hal, min_self, List.length_zipWith, ← hvl]
    simp [Vec.concat, hHs]
    omega
  have hFs : pp.Fs.length = pp.Hs.length := by omega
  rw [hlenA, hFs]
  clear hlenA hwl hal htake
  generalize nonZero (List.zipWith (· - ·) (expand (intToZr 1) (pp.Gs.length * 63)) (intsToZr (Vec.vbits v 63))) = k1 at hbits ⊢
  generalize nonZero (intsToZr (Vec.vbits v 63)) = k2 at hbits ⊢
  generalize foldNonZero _ _ _ = k3
  generalize nonZero (powerSeries _ _) = k4
  generalize nonZero rnd.w = k5
  generalize nonZero rnd.s = k6
  generalize nonZero rnd.t = k7
  generalize reduceWork _ = k8
  generalize ipaProveWork _ = k9
  generalize pp.Gs.length = k10 at hbits ⊢
  generalize pp.Hs.length = k11
  exact work_sum hbits

theorem costs_proveRange (E : Curve G1 G2 GT) (gl : Globals) (pp : RPPP Ref) (rnd : RangeRand) (V : Ref) (v : List Zr) (r : Zr)
    (hHs : pp.Hs.length = 64 * pp.Gs.length) (hne : pp.Gs ≠ []) :
    Costs (proveRange E gl pp rnd V v r) fun _ n => ∃ x y0 xs, n = rangeWork pp.Gs.length +
      (2 * nonZero rnd.w + nonZero rnd.s + nonZero rnd.t + nonZero (powerSeries (64 * pp.Gs.length) y0⁻¹) +
        foldNonZero (pp.Gs.length / 2) (List.zipWith (fun a b => a + b * x) v rnd.w) xs) := by
  refine Costs.bind (costs_unchecked E gl pp rnd V v r hHs) ?_
  rintro p _ ⟨⟨x, y0, xs, rfl⟩, hG, hH⟩
  have hpos := List.length_pos_iff.2 hne
  refine Costs.step (costs_ippVerify E _ _ (by rw [hG, hH]) (List.length_pos_iff.1 (by omega))) fun b => ?_
  split
  · exact Costs.crash
  · refine Costs.pure ⟨x, y0, xs, ?_⟩
    rw [rangeWork, hG, hHs]
    omega

end PoL.Ptr.BP

import Verif.Proofs.RangeForgeCount
import Verif.Props.Range

/-!
# C86: the challenges of a range proof's reduction do not depend on the bits
-/

set_option linter.unusedSectionVars false

namespace PoL.Props

open BP

variable {G1 G2 GT : Type} [AddCommGroup G1] [Module Zr G1] [AddCommGroup G2] [Module Zr G2]
  [AddCommGroup GT] [Module Zr GT] [DecidableEq G1]

/-- **C86**, as far as it goes: if values `B` are fixed before the challenges of the reduction, and are not the committed
values `v`, then the two agree at no more than a fraction `k/(q-1)` of the challenges.  What is missing: `VerifyRange`
does not make the challenges depend on the bits of `B`, see `C86_violated`. -/
theorem C86_bits_fixed_first_partial (k : ℕ) (v B : List Zr) (hv : v.length = 2 ^ k) (hB : B.length = 2 ^ k)
    (hne : v ≠ B) :
    ({xs : List Zr | xs.length = k ∧ 0 ∉ xs ∧ multilinear v xs.reverse = multilinear B xs.reverse}.ncard : ℚ)
      / ((order : ℚ) - 1) ^ k ≤ k / ((order : ℚ) - 1) := by
  have e : {xs : List Zr | xs.length = k ∧ 0 ∉ xs ∧ multilinear v xs.reverse = multilinear B xs.reverse}
      = (({xs ∈ challengeLists k | dot v (monomials xs) = dot B (monomials xs)} : Finset (List Zr)) : Set (List Zr)) := by
    ext xs
    simp only [Set.mem_ofPred_eq, Finset.coe_filter, mem_challengeLists, and_assoc]
    refine and_congr_right fun h => and_congr_right fun _ => ?_
    rw [multilinear_eq (by rw [hv, h]), multilinear_eq (by rw [hB, h])]
  have hpos := pow_pos order_pred_pos k
  rw [e, Set.ncard_coe_finset, div_le_iff₀ hpos]
  have := agree_le k v B hv hB hne
  rwa [card_challengeLists, Nat.cast_pow, order_pred_cast] at this

/-- The dishonest prover ends with a proof; unless an inverted challenge is zero, it is accepted exactly if the values
whose bits were put into `Q` agree with the committed ones at the challenges of the reduction. -/
theorem C86_forgery_accepted_iff (E : Curve G1 G2 GT) (hE : E.Lawful) (pp : RPPP G1) (k : ℕ)
    (hk1 : 1 ≤ k) (hk2 : k ≤ 15) (hGs : pp.Gs.length = 2 ^ k) (hHs : pp.Hs.length = 2 ^ k * 64)
    (hFs : pp.Fs.length = 2 ^ k * 64) (hG : pp.G ≠ 0) (v B : List Zr) (hv : v.length = 2 ^ k) (hB : B.length = 2 ^ k)
    (hrange : ∀ b ∈ B, b.val < 2 ^ 63) (r : Zr) :
    ∃ Δ xs u rp ipaPP, forgedReduction E pp v = some (Δ, xs, u) ∧ xs.length = k ∧
      forgeRange E pp v B r = some (rp, ipaPP) ∧
      ∀ x y1, rangeProofRO1 E pp (r • pp.F + dot v pp.Gs) rp.W rp.Q = some x → rangeY E pp rp.Q rp.R x 1 = some y1 →
        y1 ≠ 0 → (∀ y ∈ rangeChallenges E pp (r • pp.F + dot v pp.Gs) rp ipaPP, y ≠ 0) →
        (verifyRange E pp rp (r • pp.F + dot v pp.Gs) = some true ↔
          multilinear v xs.reverse = multilinear B xs.reverse) := by
  obtain ⟨Δ, xs, u, rp, ipaPP, h1, h2, h3, h4⟩ := forgeRange_verify E hE pp k hk1 hk2 hGs hHs hFs v B hv hB hrange r
  refine ⟨Δ, xs, u, rp, ipaPP, h1, h2, h3, fun x y1 hx hy hy1 hne => ?_⟩
  rw [h4 x y1 hx hy hne, smul_eq_zero, mul_eq_zero, sub_eq_zero]
  constructor
  · rintro ((h | h) | h)
    · exact absurd h (pow_ne_zero _ hy1)
    · exact h
    · exact absurd h hG
  · exact fun h => Or.inl (Or.inr h)

/-- C86 fails: for every hash, all parameters and any committed values `v`, in range or not, once the reduction has been
made for `v`, values `B` in range that agree with `v` at its challenges give a proof that is accepted for the
commitment to `v`, unless an inverted challenge is zero. -/
theorem C86_violated_generally (E : Curve G1 G2 GT) (hE : E.Lawful) (pp : RPPP G1) (k : ℕ)
    (hk1 : 1 ≤ k) (hk2 : k ≤ 15) (hGs : pp.Gs.length = 2 ^ k) (hHs : pp.Hs.length = 2 ^ k * 64)
    (hFs : pp.Fs.length = 2 ^ k * 64) (v : List Zr) (hv : v.length = 2 ^ k) (r : Zr) :
    ∃ Δ xs u, forgedReduction E pp v = some (Δ, xs, u) ∧
      ∀ B : List Zr, B.length = 2 ^ k → (∀ b ∈ B, b.val < 2 ^ 63) →
        multilinear B xs.reverse = multilinear v xs.reverse →
        ∃ rp ipaPP, forgeRange E pp v B r = some (rp, ipaPP) ∧
          ((∀ y ∈ rangeChallenges E pp (r • pp.F + dot v pp.Gs) rp ipaPP, y ≠ 0) →
            verifyRange E pp rp (r • pp.F + dot v pp.Gs) = some true) := by
  obtain ⟨Δ, xs, u, -, -, h1, -, -, -⟩ := forgeRange_verify E hE pp k hk1 hk2 hGs hHs hFs v (List.replicate (2 ^ k) 0) hv
    (by simp) (by intro b hb; rw [List.eq_of_mem_replicate hb]; simp) r
  refine ⟨Δ, xs, u, h1, fun B hB hrange heq => ?_⟩
  obtain ⟨Δ', xs', u', rp, ipaPP, h1', -, h3, h4⟩ := forgeRange_verify E hE pp k hk1 hk2 hGs hHs hFs v B hv hB hrange r
  have he := h1.symm.trans h1'
  simp only [Option.some.injEq, Prod.mk.injEq] at he
  obtain ⟨rfl, rfl, rfl⟩ := he
  refine ⟨rp, ipaPP, h3, fun hne => ?_⟩
  obtain ⟨x, hx⟩ : ∃ x, rangeProofRO1 E pp (r • pp.F + dot v pp.Gs) rp.W rp.Q = some x :=
    fieldElementFromBytes_isSome (hE.sha_len _)
  obtain ⟨y1, hy1⟩ : ∃ y1, rangeY E pp rp.Q rp.R x 1 = some y1 := fieldElementFromBytes_isSome (hE.sha_len _)
  rw [h4 x y1 hx hy1 hne, heq, sub_self, mul_zero, zero_smul]

theorem toy_irChallenges_eq (d : Bytes) : ∀ (Δ : List (Zr × Zr × Zr)) (V : Zr), ∀ x ∈ irChallenges toyCurve d V Δ,
    x = toyChallenge
  | [], _, x, h => by simp [irChallenges] at h
  | (A, B, V') :: Δ, V, x, h => by
    simp only [irChallenges, toy_irChallenge, Option.getD_some, List.mem_cons] at h
    rcases h with rfl | h
    · rfl
    · exact toy_irChallenges_eq d Δ V' x h

theorem toy_forgedReduction (pp : RPPP Zr) (hGs : pp.Gs.length = 2 ^ 1) (v : List Zr) (hv : v.length = 2 ^ 1)
    {Δ xs u} (h : forgedReduction toyCurve pp v = some (Δ, xs, u)) : ∀ x ∈ xs, x = toyChallenge := by
  obtain ⟨d, U, hrdx⟩ := rangeRdxPP_eq toyCurve pp
  rw [forgedReduction, hrdx] at h
  have h : iterativeReduce toyCurve ⟨d, pp.Gs, [], U⟩ v (dot v pp.Gs) = some (Δ, xs, u) := h
  rw [iterativeReduce, hGs, isPowerOfTwo_pow 1 (by norm_num) (by norm_num)] at h
  obtain ⟨Δ', -, h2⟩ := iterReduceLoop_challenges toyCurve toyCurve_lawful d 1 _ _ _ _ _ _ hGs hv h
  simp only [List.nil_append] at h2
  rw [h2]
  exact toy_irChallenges_eq _ _ _

/-- C86 fails on the toy curve, whose hash has the constant challenge `c`, for the parameters that the library creates:
the proof for the commitment to `5 + c` and `-1`, made with the bits of `5` and `0`, is accepted. -/
theorem C86_violated : ∃ (pp : RPPP Zr) (rp : RangeProof Zr) (ipaPP : BP.PP Zr) (v : List Zr),
    newRangeProofPublicParams toyCurve 2 = some pp ∧ v.length = 2 ∧ v[1]? = some (-1 : Zr) ∧ ¬ (-1 : Zr).val < 2 ^ 63 ∧
    forgeRange toyCurve pp v [5, 0] 7 = some (rp, ipaPP) ∧
    verifyRange toyCurve pp rp ((7 : Zr) • pp.F + dot v pp.Gs) = some true := by
  obtain ⟨pp, hpp, hGs, hHs, hFs⟩ := C16_new_params_sizes toyCurve 2
  obtain ⟨Δ, xs, u, h1, h2⟩ := C86_violated_generally toyCurve toyCurve_lawful pp 1 le_rfl (by norm_num) hGs hHs hFs
    [5 + toyChallenge, -1] rfl 7
  have hxs := toy_forgedReduction pp hGs _ rfl h1
  obtain ⟨Δ', xs', u', -, -, h1', hl, -⟩ := forgeRange_verify toyCurve toyCurve_lawful pp 1 le_rfl (by norm_num) hGs hHs hFs
    [5 + toyChallenge, -1] [0, 0] rfl rfl (by simp) 7
  have he := h1.symm.trans h1'
  simp only [Option.some.injEq, Prod.mk.injEq] at he
  obtain ⟨rfl, rfl, rfl⟩ := he
  obtain ⟨c, rfl⟩ := List.length_eq_one_iff.1 hl
  obtain rfl := hxs c (by simp)
  have h5 : (5 : Zr).val < 2 ^ 63 := by
    have : (5 : Zr).val = 5 := ZMod.val_natCast_of_lt (lt_trans (by norm_num) two_pow_63_lt_order)
    rw [this]; norm_num
  obtain ⟨rp, ipaPP, h3, h4⟩ := h2 [5, 0] rfl (by intro b hb; simp only [List.mem_cons, List.not_mem_nil, or_false] at hb; rcases hb with rfl | rfl; exacts [h5, by simp]) (by simp [multilinear, bitMonomial])
  refine ⟨pp, rp, ipaPP, _, hpp, rfl, rfl, ?_, h3, h4 (toy_rangeChallenges_ne _ _ _ _)⟩
  have h : (-1 : Zr).val + 1 = order := by
    rw [ZMod.neg_val, if_neg (by exact one_ne_zero), ZMod.val_one'']
    · have := two_pow_63_lt_order
      omega
    · have := two_pow_63_lt_order
      intro h
      omega
  have := two_pow_127_lt_order
  have h6 : (2 : ℕ) ^ 63 + 1 < 2 ^ 127 := by norm_num
  omega

/-- Such values `B` are there to be found: for eight or more values, whatever all but the first are, for at least one in
`k + 1` of the pairs of challenges and first value, the first value is out of range and there are values in range that
agree with the committed ones at the challenges. -/
theorem C86_other_values_exist (k : ℕ) (hk1 : 3 ≤ k) (hk2 : k ≤ 15) (vs : List Zr) (hvs : vs.length + 1 = 2 ^ k) :
    1 / ((k : ℚ) + 1) ≤ ({q : List Zr × Zr | q.1.length = k ∧ 0 ∉ q.1 ∧ Forgeable k vs q.1 q.2}.ncard : ℚ)
      / (((order : ℚ) - 1) ^ k * order) := by
  have h := forgeable_rate k hk1 hk2 vs hvs
  rw [← ncard_div_eq_rate {q : List Zr × Zr | q.1.length = k ∧ 0 ∉ q.1 ∧ Forgeable k vs q.1 q.2}
    (challengeLists k ×ˢ (Finset.univ : Finset Zr)) id Function.injective_id (fun q => Forgeable k vs q.1 q.2)
    (by rintro ⟨xs, v₀⟩; simp [mem_challengeLists, and_assoc])] at h
  rw [Finset.card_product, Finset.card_univ, ZMod.card, card_challengeLists, Nat.cast_mul, Nat.cast_pow, order_pred_cast] at h
  exact h

end PoL.Props

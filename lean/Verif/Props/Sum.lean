import Verif.Proofs.Sum
import Verif.Proofs.SumSound
import Verif.Spec.Balanced
import Verif.Props.InnerProdSound

/-!
# C19–C23: the sum argument (`sum/sa.go`)
-/

set_option linter.unusedSectionVars false

namespace PoL.Props

open BP _root_.PoL.Sum

variable {G1 G2 GT : Type} [AddCommGroup G1] [Module Zr G1] [AddCommGroup G2] [Module Zr G2]
  [AddCommGroup GT] [Module Zr GT] [DecidableEq G1]

theorem imbalance_eq {v : List Zr} {n : ℕ} (hv : v.length = n) (hn : 0 < n) :
    dot v (List.replicate (n - 1) (1 : Zr) ++ [-1]) = imbalance v := by
  have hne : v ≠ [] := by rintro rfl; simp at hv; omega
  obtain ⟨xs, s, rfl⟩ : ∃ xs s, v = xs ++ [s] := ⟨_, _, (List.dropLast_append_getLast hne).symm⟩
  rw [dot_b xs s (n - 1) (by simp at hv; omega), imbalance]
  simp

theorem imbalance_zero_iff {v : List Zr} {n : ℕ} (hv : v.length = n) (hn : 0 < n) :
    imbalance v = 0 ↔ Balanced v := by
  have hne : v ≠ [] := by rintro rfl; simp at hv; omega
  obtain ⟨xs, s, rfl⟩ : ∃ xs s, v = xs ++ [s] := ⟨_, _, (List.dropLast_append_getLast hne).symm⟩
  constructor
  · intro h
    refine ⟨xs, s, rfl, ?_⟩
    simp [imbalance, sub_eq_zero] at h
    exact h.symm
  · rintro ⟨ys, t, e, ht⟩
    obtain ⟨rfl, h2⟩ := List.append_inj' e rfl
    cases h2
    simp [imbalance, ht]

/-- The parameters created by `NewPublicParams(n)` have the sizes required below. -/
theorem C19_new_params_sized (E : Curve G1 G2 GT) {n : ℕ} (h : 0 < n) :
    ∃ pp, Sum.newPublicParams E n = some pp ∧ pp.Sized n :=
  newPublicParams_sized E h

/-- **C22** (general form). For any vector `v` of length `2^k` with commitment `V`, `NewArgument` returns a proof; unless
one of its folding challenges is zero, `Verify` accepts it exactly if `v` is balanced (`U ≠ 0` and the first
challenge, a hash of the parameters, non-zero). -/
theorem C22_honest_proof_accepted_iff_balanced (E : Curve G1 G2 GT) (hE : E.Lawful) (pp : Sum.PP G1) (k : ℕ)
    (hpp : pp.Sized (2 ^ k)) (rnd : Sum.Rand) (hw : rnd.w.length = 2 ^ k) (v : List Zr) (hv : v.length = 2 ^ k)
    (r : Zr) (V : G1) (hV : V = r • pp.F + dot v pp.Gs) (hU : pp.U ≠ 0)
    (hx : ∀ ipaPP x, ipaParams E pp = some ipaPP →
      fieldElementFromBytes (E.sha256 ipaPP.digest) = some x → x ≠ 0) :
    ∃ p, newArgument E pp rnd V v r = some ({ V := V }, p) ∧
      ((∀ y ∈ p.challenges E pp, y ≠ 0) →
        (p.verify E pp { V := V } = some true ↔ Balanced v) ∧
        (p.verify E pp { V := V } = some false ↔ ¬ Balanced v)) := by
  obtain ⟨p, ipaPP, xI, h1, h2, h3, h4⟩ := newArgument_verdict E hE pp k hpp rnd hw V v hv r
  refine ⟨p, h1, fun hne => ?_⟩
  rw [Sum.Proof.challenges, h2] at hne
  have hxI : xI ≠ 0 := hx ipaPP xI h2 (h3 0)
  rw [h4 hne, hV, sub_self, hpp.b_eq, imbalance_eq hv hpp.pos]
  have : (xI * imbalance v) • pp.U = 0 ↔ Balanced v := by
    rw [smul_eq_zero, mul_eq_zero, ← imbalance_zero_iff hv hpp.pos]
    tauto
  simp [this]

/-- **C19.** If the last entry of `v` is the sum of the others and `V` is the commitment to `v`, `NewArgument` returns a
proof, and `Verify` accepts it unless one of its folding challenges is zero. -/
theorem C19_sum_argument_complete (E : Curve G1 G2 GT) (hE : E.Lawful) (pp : Sum.PP G1) (k : ℕ)
    (hpp : pp.Sized (2 ^ k)) (rnd : Sum.Rand) (hw : rnd.w.length = 2 ^ k) (v : List Zr) (hv : v.length = 2 ^ k)
    (hbal : Balanced v) (r : Zr) (V : G1) (hV : V = r • pp.F + dot v pp.Gs) :
    ∃ p, newArgument E pp rnd V v r = some ({ V := V }, p) ∧
      ((∀ y ∈ p.challenges E pp, y ≠ 0) → p.verify E pp { V := V } = some true) := by
  obtain ⟨p, ipaPP, xI, h1, h2, h3, h4⟩ := newArgument_verdict E hE pp k hpp rnd hw V v hv r
  refine ⟨p, h1, fun hne => ?_⟩
  rw [Sum.Proof.challenges, h2] at hne
  rw [h4 hne, hV, sub_self, hpp.b_eq, imbalance_eq hv hpp.pos, (imbalance_zero_iff hv hpp.pos).2 hbal]
  simp

/-- **C20.** For any non-empty list of balanced vectors with their commitments, `NewAggregatedArgument` returns a
proof, and `VerifyAggregated` accepts it unless one of its folding challenges is zero. -/
theorem C20_aggregated_sum_argument_complete (E : Curve G1 G2 GT) (hE : E.Lawful) (pp : Sum.PP G1) (k : ℕ)
    (hpp : pp.Sized (2 ^ k)) (rnd : Sum.Rand) (hw : rnd.w.length = 2 ^ k) (V : List G1) (v : List (List Zr))
    (r : List Zr) (h0 : v ≠ []) (hv : ∀ u ∈ v, u.length = 2 ^ k) (hbal : ∀ u ∈ v, Balanced u)
    (hr : r.length = v.length) (hV : V = List.zipWith (fun u ρ => ρ • pp.F + dot u pp.Gs) v r) :
    ∃ p, newAggregatedArgument E pp rnd V v r = some p ∧
      ((∀ y ∈ p.challenges E pp, y ≠ 0) → p.verifyAggregated E pp V = some true) := by
  obtain ⟨p, t, ipaPP, xI, h1, -, -, h2, -, h4⟩ := newAggregatedArgument_verdict E hE pp k hpp rnd hw V v r h0 hv
    (by rw [hV]; simp [hr]) hr hV
  refine ⟨p, h1, fun hne => ?_⟩
  rw [Sum.Proof.challenges, h2] at hne
  have : (v.map fun u => dot u pp.b) = List.replicate v.length 0 := by
    apply List.eq_replicate_iff.2
    refine ⟨by simp, fun b hb => ?_⟩
    obtain ⟨u, hu, rfl⟩ := List.mem_map.1 hb
    rw [hpp.b_eq, imbalance_eq (hv u hu) hpp.pos, (imbalance_zero_iff (hv u hu) hpp.pos).2 (hbal u hu)]
  rw [h4 hne, this, dot_zero_right]
  simp

/-- **C20**, converse direction: the honest aggregated proof is accepted exactly if the imbalances of the vectors,
weighted with the powers `1, τ, τ², …` of the aggregation challenge, cancel. -/
theorem C20_aggregated_accepted_iff (E : Curve G1 G2 GT) (hE : E.Lawful) (pp : Sum.PP G1) (k : ℕ)
    (hpp : pp.Sized (2 ^ k)) (rnd : Sum.Rand) (hw : rnd.w.length = 2 ^ k) (V : List G1) (v : List (List Zr))
    (r : List Zr) (h0 : v ≠ []) (hv : ∀ u ∈ v, u.length = 2 ^ k)
    (hr : r.length = v.length) (hV : V = List.zipWith (fun u ρ => ρ • pp.F + dot u pp.Gs) v r) (hU : pp.U ≠ 0)
    (hx : ∀ ipaPP x, ipaParams E pp = some ipaPP →
      fieldElementFromBytes (E.sha256 ipaPP.digest) = some x → x ≠ 0) :
    ∃ p τ, newAggregatedArgument E pp rnd V v r = some p ∧
      fieldElementFromBytes (E.sha256 (g1vBytes E V)) = some τ ∧
      ((∀ y ∈ p.challenges E pp, y ≠ 0) →
        (p.verifyAggregated E pp V = some true ↔
          ∑ j ∈ Finset.range v.length, τ ^ j * imbalance (v.getD j []) = 0)) := by
  obtain ⟨p, t, ipaPP, xI, h1, ht, -, h2, h3, h4⟩ := newAggregatedArgument_verdict E hE pp k hpp rnd hw V v r h0 hv
    (by rw [hV]; simp [hr]) hr hV
  obtain ⟨τ, hτ⟩ := fieldElementFromBytes_isSome (hE.sha_len (g1vBytes E V))
  have ht2 : createHVZKChallenge E V v.length = some (powerSeriesLoop τ v.length (intToZr 1)) := obind_step hτ rfl
  rw [ht] at ht2
  refine ⟨p, τ, h1, hτ, fun hne => ?_⟩
  rw [Sum.Proof.challenges, h2] at hne
  have hxI : xI ≠ 0 := hx ipaPP xI h2 (h3 0)
  have e : dot t (v.map fun u => dot u pp.b) = ∑ j ∈ Finset.range v.length, τ ^ j * imbalance (v.getD j []) := by
    rw [Option.some_inj.1 ht2, powerSeriesLoop_eq, dot_eq_sum_range _ _ v.length (by simp) (by simp)]
    refine Finset.sum_congr rfl fun j hj => ?_
    have hj := Finset.mem_range.1 hj
    simp only [List.getD_eq_getElem?_getD, List.getElem?_map, List.getElem?_range hj,
      List.getElem?_eq_getElem hj, Option.map_some, Option.getD_some, smul_eq_mul, intToZr_one, one_mul]
    rw [hpp.b_eq, imbalance_eq (hv _ (List.getElem_mem hj)) hpp.pos]
  rw [h4 hne, e]
  simp [smul_eq_zero, hxI, hU]

/-- **C21.** `NewCommitment` on a vector of length at least 2 (with parameters of that size) returns `r·F + Σ v_i·Gs_i`
if the last entry is the sum of the others, and panics otherwise. -/
theorem C21_new_commitment_iff_balanced (pp : Sum.PP G1) (v : List Zr) (hn : 2 ≤ v.length)
    (hGs : pp.Gs.length = v.length) (r : Zr) :
    (Balanced v → newCommitment pp v r = some { V := r • pp.F + dot v pp.Gs }) ∧
    (¬ Balanced v → newCommitment pp v r = none) := by
  obtain ⟨q1, q2⟩ := gv_mulV_sum hGs rfl (by omega)
  rw [← imbalance_zero_iff rfl (by omega)]
  obtain ⟨a, w, rfl⟩ := List.exists_cons_of_length_pos (l := v) (by omega)
  have hne : w ≠ [] := by rintro rfl; simp at hn
  obtain ⟨xs, s, rfl⟩ : ∃ xs s, w = xs ++ [s] := ⟨_, _, (List.dropLast_append_getLast hne).symm⟩
  have hsum : (((a :: (xs ++ [s])).take ((a :: (xs ++ [s])).length - 1)).drop 1).foldl (· + ·) a = a + xs.sum := by
    rw [foldl_add_eq_sum]
    simp
  have hlast : (a :: (xs ++ [s]))[(a :: (xs ++ [s])).length - 1]? = some s := by
    simp
  have himb : imbalance (a :: (xs ++ [s])) = a + xs.sum - s := by
    rw [← List.cons_append, imbalance]
    rw [List.dropLast_concat, List.getLastD_concat]
    simp
  rw [himb, sub_eq_zero]
  have step : newCommitment pp (a :: (xs ++ [s])) r = if s ≠ a + xs.sum then none else
      some { V := r • pp.F + dot (a :: (xs ++ [s])) pp.Gs } := by
    unfold newCommitment
    refine obind_step q1 (obind_step q2 (obind_step (a := a) rfl ?_))
    dsimp only
    rw [hsum]
    exact obind_step hlast rfl
  rw [step]
  constructor
  · intro h; rw [if_neg (by rw [h]; simp)]
  · intro h; rw [if_pos (fun e => h e.symm)]

/-- Parameters on the toy curve, all of whose generators are 1. -/
theorem toy_sum_params (k : ℕ) : ∃ pp, Sum.newPublicParams toyCurve (2 ^ k) = some pp ∧ pp.Sized (2 ^ k) ∧ pp.U = 1 := by
  obtain ⟨pp, h1, h2⟩ := newPublicParams_sized toyCurve (n := 2 ^ k) (by positivity)
  refine ⟨pp, h1, h2, ?_⟩
  obtain ⟨x, hx, h⟩ := obind_elim h1
  obtain ⟨x, hx1, h⟩ := obind_elim h
  obtain ⟨x, hx1, h⟩ := obind_elim h
  obtain ⟨x, hx1, h⟩ := obind_elim h
  obtain ⟨x, hx1, h⟩ := obind_elim h
  obtain ⟨x, hx1, h⟩ := obind_elim h
  cases h
  simp [randGenVec, toyCurve] at hx
  exact hx.symm

theorem toy_sum_challenges (pp : Sum.PP Zr) (p : Sum.Proof Zr) : ∀ y ∈ p.challenges toyCurve pp, y ≠ 0 := by
  intro y hy
  unfold Sum.Proof.challenges at hy
  split at hy
  · exact toy_ippChallenges _ _ y hy
  · simp at hy

/-- C19–C22 apply to `(1,2,3,6)`, which is accepted, and to `(1,2,3,7)`, which is rejected. -/
example : ∃ (pp : Sum.PP Zr) (p q : Sum.Proof Zr) (V W : Zr),
    newArgument toyCurve pp ⟨[5, 6, 7, 8], 9⟩ V [1, 2, 3, 6] 4 = some (⟨V⟩, p) ∧
    newCommitment pp [1, 2, 3, 6] 4 = some ⟨V⟩ ∧ p.verify toyCurve pp ⟨V⟩ = some true ∧
    newArgument toyCurve pp ⟨[5, 6, 7, 8], 9⟩ W [1, 2, 3, 7] 4 = some (⟨W⟩, q) ∧
    newCommitment pp [1, 2, 3, 7] 4 = none ∧ q.verify toyCurve pp ⟨W⟩ = some false := by
  obtain ⟨pp, -, hpp, hU⟩ := toy_sum_params 2
  have hU' : pp.U ≠ 0 := by rw [hU]; exact one_ne_zero
  have hx : ∀ ipaPP x, ipaParams toyCurve pp = some ipaPP →
      fieldElementFromBytes (toyCurve.sha256 ipaPP.digest) = some x → x ≠ 0 := by
    intro _ x _ h
    have : fieldElementFromBytes toyDigest = some x := h
    rw [toy_fe] at this
    cases this
    exact toyChallenge_ne
  have b1 : Balanced [1, 2, 3, 6] := ⟨[1, 2, 3], 6, rfl, by norm_num⟩
  have b2 : ¬ Balanced [1, 2, 3, 7] := by
    rw [← imbalance_zero_iff (n := 4) rfl (by norm_num)]
    intro h
    simp [imbalance] at h
    exact one_ne_zero (α := Zr) (by linear_combination -h)
  obtain ⟨p, h1, h2⟩ := C22_honest_proof_accepted_iff_balanced toyCurve toyCurve_lawful pp 2 hpp ⟨[5, 6, 7, 8], 9⟩ rfl
    [1, 2, 3, 6] rfl 4 _ rfl hU' hx
  obtain ⟨q, h3, h4⟩ := C22_honest_proof_accepted_iff_balanced toyCurve toyCurve_lawful pp 2 hpp ⟨[5, 6, 7, 8], 9⟩ rfl
    [1, 2, 3, 7] rfl 4 _ rfl hU' hx
  exact ⟨pp, p, q, _, _, h1, (C21_new_commitment_iff_balanced pp [1, 2, 3, 6] (by simp) hpp.gs 4).1 b1,
    (h2 (toy_sum_challenges _ _)).1.2 b1, h3, (C21_new_commitment_iff_balanced pp [1, 2, 3, 7] (by simp) hpp.gs 4).2 b2,
    (h4 (toy_sum_challenges _ _)).2.2 b2⟩

/-- C20 applies to two balanced vectors. -/
example : ∃ (pp : Sum.PP Zr) (p : Sum.Proof Zr) (V : List Zr), V.length = 2 ∧
    newAggregatedArgument toyCurve pp ⟨[5, 6, 7, 8], 9⟩ V [[1, 2, 3, 6], [0, 4, 4, 8]] [10, 11] = some p ∧
    p.verifyAggregated toyCurve pp V = some true := by
  obtain ⟨pp, -, hpp, hU⟩ := toy_sum_params 2
  obtain ⟨p, h1, h2⟩ := C20_aggregated_sum_argument_complete toyCurve toyCurve_lawful pp 2 hpp ⟨[5, 6, 7, 8], 9⟩ rfl
    (List.zipWith (fun u ρ => ρ • pp.F + dot u pp.Gs) [[1, 2, 3, 6], [0, 4, 4, 8]] [10, 11])
    [[1, 2, 3, 6], [0, 4, 4, 8]] [10, 11] (by simp) (by simp)
    (by
      intro u hu
      simp only [List.mem_cons, List.not_mem_nil, or_false] at hu
      rcases hu with rfl | rfl
      · exact ⟨[1, 2, 3], 6, rfl, by norm_num⟩
      · exact ⟨[0, 4, 4], 8, rfl, by norm_num⟩) rfl rfl
  exact ⟨pp, p, _, by simp, h1, h2 (toy_sum_challenges _ _)⟩

/-! ## C23 -/

/-- **C23**, link to the code: for parameters of size `2^k` and a proof whose inner-product part has `2k` group
elements, `Verify` accepts exactly if the folding transcript with the hash challenges is accepting for the statement
`ρF + V + xW + <b,H>` with inner product `c·x`, checked with the base `x₀·U`; `x` is the hash of `c`, `V`, `W` and
`x₀` is a hash of the parameters only. -/
theorem C23_verify_iff_accepting_transcript (E : Curve G1 G2 GT) (hE : E.Lawful) (pp : Sum.PP G1) (k : ℕ)
    (hpp : pp.Sized (2 ^ k)) (ipaPP : BP.PP G1) (hipa : ipaParams E pp = some ipaPP) (p : Sum.Proof G1)
    (hL : p.π.LRs.length = 2 * k) (V : G1) (x x₀ : Zr) (hx : randomOracleCVW E p.c V p.W = some x)
    (hx₀ : fieldElementFromBytes (E.sha256 ipaPP.digest) = some x₀) :
    p.verify E pp { V := V } = some true ↔
      acceptsWith (x₀ • pp.U) (roundsOf (p.challenges E pp) p.π.LRs)
        (p.ρ • pp.F + V + x • p.W + dot pp.b pp.H + (x₀ * (p.c * x)) • pp.U) pp.Gs pp.H p.π.a p.π.b := by
  obtain ⟨d, hd⟩ := ipaParams_eq E pp (by rw [hpp.gs, hpp.hs])
  rw [hipa, Option.some_inj] at hd
  obtain ⟨W, c, ρ, π⟩ := p
  dsimp only at hL hx ⊢
  have hcalc : Sum.Proof.verify E ⟨W, c, ρ, π⟩ pp ⟨V⟩ =
      InnerProductProof.verify E { π with C := c * x, P := ρ • pp.F + V + x • W + pp.B } ipaPP := by
    cases hv : InnerProductProof.verify E { π with C := c * x, P := ρ • pp.F + V + x • W + pp.B } ipaPP with
    | some bv => exact verify_steps E W c ρ π pp V hx hipa hv
    | none =>
      have : Sum.Proof.verifyState E ⟨W, c, ρ, π⟩ pp ⟨V⟩ = none := by
        unfold Sum.Proof.verifyState
        refine obind_step hx (obind_step hipa ?_)
        show (InnerProductProof.verify E { π with C := c * x, P := ρ • pp.F + V + x • W + pp.B } ipaPP >>= _) = none
        rw [hv]; rfl
      rw [Sum.Proof.verify, this]; rfl
  have hG : ipaPP.G = pp.Gs := by rw [hd]
  have hH : ipaPP.H = pp.H := by rw [hd]
  have hU : ipaPP.U = pp.U := by rw [hd]
  rw [hcalc, C12_verify_iff_accepting_transcript E hE ipaPP k (by rw [hG, hpp.gs]) (by rw [hH, hpp.hs])
    { π with C := c * x, P := ρ • pp.F + V + x • W + pp.B } hL x₀ hx₀,
    hG, hH, hU, hpp.B_eq]
  have hch : ippChallenges E ipaPP { π with C := c * x, P := ρ • pp.F + V + x • W + dot pp.b pp.H }
      = Sum.Proof.challenges E pp ⟨W, c, ρ, π⟩ := by
    rw [Sum.Proof.challenges, hipa]
    dsimp only
    unfold ippChallenges
    obtain ⟨d1, hd1⟩ := computeInstance_eq E ipaPP (ρ • pp.F + V + x • W + dot pp.b pp.H) (c * x)
      (Or.inr (by rw [hG, hH, hpp.gs, hpp.hs])) x₀ hx₀
    obtain ⟨d2, hd2⟩ := computeInstance_eq E ipaPP π.P π.C (Or.inr (by rw [hG, hH, hpp.gs, hpp.hs])) x₀ hx₀
    rw [hd1, hd2]
    have : ∀ (P Q : G1) (c c' : Zr), (computeInstanceSpecificParams E ipaPP P c).map (fun t => t.1.digest) =
        (computeInstanceSpecificParams E ipaPP Q c').map (fun t => t.1.digest) := by
      intro P Q c c'
      unfold computeInstanceSpecificParams
      simp only [instanceHashInput]
      cases fieldElementFromBytes (E.sha256 ipaPP.digest) with
      | none => rfl
      | some y =>
        cases h : setupDigest E { ipaPP with U := y • ipaPP.U } <;> simp [h]
    have h3 := this (ρ • pp.F + V + x • W + dot pp.b pp.H) π.P (c * x) π.C
    rw [hd1, hd2] at h3
    simp only [Option.map_some, Option.some_inj] at h3
    simp only [h3]
  dsimp only
  rw [hch]

/-- **C23.** There is a finder of linear relations, computing from scalars only, such that: if the prover knows an
opening `(r, v)` of `V`, and after sending `c` and `W` answers three distinct challenges so that all inner-product
transcripts are accepted, then every relation found holds among `F, Gs, H, U`, and unless one of them is
non-trivial, `v` is balanced. -/
theorem C23_sum_argument_special_sound :
    ∃ rels : (x₀ c r : Zr) → (v b : List Zr) → (a₁ a₂ a₃ : Answer Unit) → List Relation,
    ∀ (G1 : Type) [AddCommGroup G1] [Module Zr G1] (k : ℕ) (x₀ c r : Zr) (v b : List Zr) (F : G1) (Gs H : List G1)
      (U V W : G1) (a₁ a₂ a₃ : Answer G1),
      x₀ ≠ 0 → v.length = 2 ^ k → b = List.replicate (2 ^ k - 1) 1 ++ [-1] → Gs.length = 2 ^ k → H.length = 2 ^ k →
      V = r • F + dot v Gs → a₁.x ≠ a₂.x → a₁.x ≠ a₃.x → a₂.x ≠ a₃.x →
      (∀ a ∈ [a₁, a₂, a₃], a.tree.WellFormed k ∧ a.Accepted x₀ c b F Gs H U V W) →
      (∀ q ∈ rels x₀ c r v b a₁.scalars a₂.scalars a₃.scalars,
        q.a.length = 2 ^ k ∧ q.b.length = 2 ^ k ∧ q.eval F Gs H U = 0) ∧
      ((∃ q ∈ rels x₀ c r v b a₁.scalars a₂.scalars a₃.scalars, ¬ q.IsZero) ∨ Balanced v) := by
  refine ⟨fun x₀ c r => findRelations x₀ c r 0, fun G1 _ _ k x₀ c r v b F Gs H U V W a₁ a₂ a₃ hx₀ hv hb hGs hH hV h12 h13 h23 hacc => ?_⟩
  have hpos : 0 < 2 ^ k := by positivity
  have lb : b.length = 2 ^ k := by rw [hb]; simp; omega
  obtain ⟨w1, c1⟩ := hacc a₁ (by simp)
  obtain ⟨w2, c2⟩ := hacc a₂ (by simp)
  obtain ⟨w3, c3⟩ := hacc a₃ (by simp)
  obtain ⟨s1, s2⟩ := findRelations_sound k x₀ c r 0 hx₀ v b hv lb F Gs H hGs hH U V W
    (by rw [hV, zero_smul, add_zero]) a₁ a₂ a₃ h12 h13 h23
    w1 w2 w3 c1 c2 c3
  refine ⟨s1, ?_⟩
  by_cases hz : ∀ q ∈ findRelations x₀ c r 0 v b a₁.scalars a₂.scalars a₃.scalars, q.IsZero
  · right
    have := (mul_eq_zero.1 (s2 hz)).resolve_left hx₀
    rw [hb, imbalance_eq hv hpos] at this
    exact (imbalance_zero_iff hv hpos).1 this
  · left
    push Not at hz
    exact hz

/-- The hypotheses of C23 are met by the honest answers for `v = (3,3)`, `w = (1,0)`, `c = 1` to the challenges 1, 2, 3
(generators `F = 7`, `Gs = (1,2)`, `H = (5,6)`, `U = 9`, blinding factors 4 and 0). -/
example : ∃ (a₁ a₂ a₃ : Answer Zr), a₁.x ≠ a₂.x ∧ a₁.x ≠ a₃.x ∧ a₂.x ≠ a₃.x ∧
    ∀ a ∈ [a₁, a₂, a₃], a.tree.WellFormed 1 ∧
      a.Accepted 1 1 [1, -1] (7 : Zr) [1, 2] [5, 6] 9 ((4 : Zr) • (7 : Zr) + dot [(3 : Zr), 3] [(1 : Zr), 2]) 1 := by
  have n2 : (2 : Zr) ≠ 0 := two_ne_zero_zr
  have key : ∀ x : Zr, (honestTree (3 + x) 3 1 (-1) 1 2 5 6 9 1).WellFormed 1 ∧
      Answer.Accepted ⟨x, -4, honestTree (3 + x) 3 1 (-1) 1 2 5 6 9 1⟩ 1 1 [1, -1] (7 : Zr) [1, 2] [5, 6] 9
        ((4 : Zr) • (7 : Zr) + dot [(3 : Zr), 3] [(1 : Zr), 2]) 1 := by
    intro x
    refine ⟨honestTree_wellFormed _ _ _ _ _ _ _ _ _, ?_⟩
    intro p hp
    have := honestTree_accepted (3 + x) 3 1 (-1) 1 2 5 6 9 p hp
    rw [one_smul]
    convert this using 1
    simp only [dot_cons, dot_nil_left, smul_eq_mul]
    ring
  refine ⟨⟨1, -4, honestTree (3 + 1) 3 1 (-1) 1 2 5 6 9 1⟩, ⟨2, -4, honestTree (3 + 2) 3 1 (-1) 1 2 5 6 9 1⟩,
    ⟨3, -4, honestTree (3 + 3) 3 1 (-1) 1 2 5 6 9 1⟩, ?_, ?_, ?_, ?_⟩
  case refine_4 =>
    intro a ha
    simp only [List.mem_cons, List.not_mem_nil, or_false] at ha
    rcases ha with rfl | rfl | rfl
    · exact key 1
    · exact key 2
    · exact key 3
  · intro h; exact one_ne_zero (α := Zr) (by linear_combination -h)
  · intro h; exact n2 (by linear_combination -h)
  · intro h; exact one_ne_zero (α := Zr) (by linear_combination -h)

end PoL.Props

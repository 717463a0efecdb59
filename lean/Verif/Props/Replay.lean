import Verif.Spec.Replay
import Verif.Proofs.PolVerify
import Verif.Proofs.PolToy
import Verif.Props.Pol
import Verif.Props.PointProofs
import Mathlib.LinearAlgebra.Dimension.Finite
import Mathlib.FieldTheory.Finiteness
import Mathlib.RingTheory.Polynomial.Basic

/-!
# C99: a liability proof is good for one leaf only
-/

set_option linter.unusedSectionVars false

namespace PoL.Props
open Spec Verkle Pol

variable {G1 G2 GT : Type} [AddCommGroup G1] [Module Zr G1] [AddCommGroup G2] [Module Zr G2]
  [AddCommGroup GT] [Module Zr GT] [DecidableEq G1] [DecidableEq GT]

theorem pow_sub_eq {α : Zr} (h0 : α ≠ 0) {N i j : ℕ} (hij : i < j) (hj : j ≤ N) (h : α ^ (N - i) = α ^ (N - j)) : α ^ (j - i) = 1 := by
  rw [show N - i = (j - i) + (N - j) by omega, pow_add] at h
  exact (mul_eq_right₀ (pow_ne_zero _ h0)).1 h

theorem special_of_pow_eq {α : Zr} {F N i j : ℕ} (hi : i < F) (hj : j < F) (hN : F ≤ N) (hij : i ≠ j)
    (h : α ^ (N - i) = α ^ (N - j)) : SpecialTrapdoor α F := by
  by_cases h0 : α = 0
  · exact .inl h0
  rcases Nat.lt_or_gt_of_ne hij with hlt | hlt
  · exact .inr ⟨j - i, by omega, by omega, pow_sub_eq h0 hlt (by omega) h⟩
  · exact .inr ⟨i - j, by omega, by omega, pow_sub_eq h0 hlt (by omega) h.symm⟩

/-- C99: identifiers with the same path have the same verdict. -/
theorem C99_same_path (E : Curve G1 G2 GT) (lp : LiabilityProof G1) (pp : PublicParams G1 G2 GT) (id₁ id₂ : Str) (V W : G1)
    (id2path : Str → Option (List ℕ)) (h : id2path id₁ = id2path id₂) :
    lp.verify E pp id₁ V W id2path = lp.verify E pp id₂ V W id2path := by
  unfold LiabilityProof.verify
  rw [h]

/-- C99: an accepted proof is accepted for a neighbour, too, exactly if the last commitment is zero or the trapdoor does
not tell the two positions apart. -/
theorem C99_neighbour_iff {E : Curve G1 G2 GT} (hE : E.Lawful) (hnd : E.NonDegenerate) {α : Zr} {F L : ℕ}
    {pp : PublicParams G1 G2 GT} (h : Fits E α F L pp) (id₁ id₂ : Str) (id2path : Str → Option (List ℕ)) (V W : G1)
    (lp : LiabilityProof G1) (q : List ℕ) (i j : ℕ) (hp₁ : id2path id₁ = some (q ++ [i])) (hp₂ : id2path id₂ = some (q ++ [j]))
    (hi : i < F) (hj : j < F) (h1 : lp.verify E pp id₁ V W id2path = some true) :
    lp.verify E pp id₂ V W id2path = some true ↔ lp.V.getLast? = some 0 ∨ α ^ (F + 2 - i) = α ^ (F + 2 - j) := by
  obtain ⟨p, hp, a⟩ := (verify_iff E lp pp id₁ V W id2path).1 h1
  rw [hp₁, Option.some.injEq] at hp
  subst hp
  obtain ⟨C, i', hC, hi', hv⟩ := a.liability
  rw [List.getLast?_concat, Option.some.injEq] at hi'
  subst hi'
  rw [h.PPPP] at hv
  have hv' := (C02_verify_iff E hE hnd α (F + 2) C _ _ i (by omega)).1 hv
  have key : PP.verify E (PP.newPublicParams E α (F + 2)) lp.total.sum lp.total.liabilityProof C j = some true ↔
      C = 0 ∨ α ^ (F + 2 - i) = α ^ (F + 2 - j) := by
    rw [C02_verify_iff E hE hnd α (F + 2) C _ _ j (by omega), hv', sub_left_inj, ← sub_eq_zero, ← sub_smul, smul_eq_zero,
      sub_eq_zero, or_comm]
  constructor
  · intro h2
    obtain ⟨p, hp, b⟩ := (verify_iff E lp pp id₂ V W id2path).1 h2
    rw [hp₂, Option.some.injEq] at hp
    subst hp
    obtain ⟨C', j', hC', hj', hw⟩ := b.liability
    rw [List.getLast?_concat, Option.some.injEq] at hj'
    rw [hC, Option.some.injEq] at hC'
    subst hj' hC'
    rw [h.PPPP] at hw
    exact (key.1 hw).imp (fun h0 => by rw [hC, h0]) id
  · intro hc
    refine (verify_iff E lp pp id₂ V W id2path).2 ⟨q ++ [j], hp₂, ?_⟩
    have hl : (q ++ [i]).length = (q ++ [j]).length := by simp
    have htake : (q ++ [i]).take ((q ++ [i]).length - 1) = (q ++ [j]).take ((q ++ [j]).length - 1) := by simp
    obtain ⟨zero, padded, e1, e2, e3⟩ := a.equalities
    refine ⟨hl ▸ a.len_W, hl ▸ a.len_digests, hl ▸ a.len_V, a.root_V, a.root_W, hl ▸ a.range_proofs, hl ▸ a.inner_digests,
      hl ▸ a.leaf_digest, htake ▸ a.point_proof, a.sum_argument, ⟨zero, padded, e1, hl ▸ e2, ?_⟩, C, j, hC,
      List.getLast?_concat, ?_⟩
    · rw [← e3]
      unfold pathEqualities
      rw [htake, hl]
    · rw [h.PPPP]
      exact key.2 (hc.imp (fun h0 => by rw [hC, Option.some.injEq] at h0; exact h0) id)

/-- C99: a proof accepted for one identifier is not accepted for one whose path ends in another index — whatever the
roots and the rest of the paths —, unless the last commitment is zero or the trapdoor is special. -/
theorem C99_wrong_last_index {E : Curve G1 G2 GT} (hE : E.Lawful) (hnd : E.NonDegenerate) {α : Zr} {F L : ℕ}
    {pp : PublicParams G1 G2 GT} (h : Fits E α F L pp) (hα : ¬ SpecialTrapdoor α F) (id₁ id₂ : Str)
    (id2path : Str → Option (List ℕ)) (V₁ W₁ V₂ W₂ : G1) (lp : LiabilityProof G1) (hz : lp.V.getLast? ≠ some 0) (q₁ q₂ : List ℕ)
    (i j : ℕ) (hp₁ : id2path id₁ = some (q₁ ++ [i])) (hp₂ : id2path id₂ = some (q₂ ++ [j])) (hi : i < F) (hj : j < F)
    (hij : i ≠ j) (h1 : lp.verify E pp id₁ V₁ W₁ id2path = some true) :
    lp.verify E pp id₂ V₂ W₂ id2path ≠ some true := by
  intro h2
  obtain ⟨p, hp, a⟩ := (verify_iff E lp pp id₁ V₁ W₁ id2path).1 h1
  rw [hp₁, Option.some.injEq] at hp
  subst hp
  obtain ⟨p, hp, b⟩ := (verify_iff E lp pp id₂ V₂ W₂ id2path).1 h2
  rw [hp₂, Option.some.injEq] at hp
  subst hp
  obtain ⟨C, i', hC, hi', hv⟩ := a.liability
  obtain ⟨C', j', hC', hj', hw⟩ := b.liability
  rw [List.getLast?_concat, Option.some.injEq] at hi' hj'
  rw [hC, Option.some.injEq] at hC'
  subst hi' hj' hC'
  rw [h.PPPP] at hv hw
  have hv' := (C02_verify_iff E hE hnd α (F + 2) C _ _ i (by omega)).1 hv
  have hw' := (C02_verify_iff E hE hnd α (F + 2) C _ _ j (by omega)).1 hw
  rw [hv', sub_left_inj, ← sub_eq_zero, ← sub_smul, smul_eq_zero, sub_eq_zero] at hw'
  rcases hw' with hw' | hw'
  · exact hα (special_of_pow_eq hi hj (by omega) hij hw')
  · exact hz (by rw [hC, hw'])

/-- C99: a proof accepted for two identifiers makes the challenges of the aggregated point proof satisfy a linear
relation, which is not trivial if the paths differ in a layer above the leaves whose `W` is not zero. -/
theorem C99_replay_needs_relation {E : Curve G1 G2 GT} (hE : E.Lawful) (hnd : E.NonDegenerate) {α : Zr} {F L : ℕ}
    {pp : PublicParams G1 G2 GT} (h : Fits E α F L pp) (id₁ id₂ : Str)
    (id2path : Str → Option (List ℕ)) (V₁ W₁ V₂ W₂ : G1) (lp : LiabilityProof G1) (p₁ p₂ : List ℕ)
    (hp₁ : id2path id₁ = some p₁) (hp₂ : id2path id₂ = some p₂) (hlt₁ : ∀ x ∈ p₁, x < F) (hlt₂ : ∀ x ∈ p₂, x < F)
    (h1 : lp.verify E pp id₁ V₁ W₁ id2path = some true) (h2 : lp.verify E pp id₂ V₂ W₂ id2path = some true) :
    ∃ t : ℕ → Zr, (∀ k < lp.W.length, PP.ro E pp.PPPP lp.W k = some (t k)) ∧
      ∑ k ∈ Finset.range lp.W.length, t k • replayCoeff α (F + 2) p₁ p₂ lp.W k = 0 ∧
      ∀ k < lp.W.length, p₁.getD k 0 ≠ p₂.getD k 0 → lp.W.getD k 0 ≠ 0 → ¬ SpecialTrapdoor α F →
        replayCoeff α (F + 2) p₁ p₂ lp.W k ≠ 0 := by
  obtain ⟨p, hp, a⟩ := (verify_iff E lp pp id₁ V₁ W₁ id2path).1 h1
  rw [hp₁, Option.some.injEq] at hp
  subst hp
  obtain ⟨p, hp, b⟩ := (verify_iff E lp pp id₂ V₂ W₂ id2path).1 h2
  rw [hp₂, Option.some.injEq] at hp
  subst hp
  have hro : ∀ i : ℕ, ∃ x, PP.ro E pp.PPPP lp.W i = some x := fun i => fieldElementFromBytes_isSome (hE.sha_len _)
  choose t ht using hro
  have l₁ := a.len_W
  have l₂ := b.len_W
  have hW : lp.W ≠ [] := by
    intro h0
    have := a.root_W
    rw [h0] at this
    simp at this
  have e₁ := a.point_proof
  have e₂ := b.point_proof
  rw [h.PPPP] at ht e₁ e₂
  rw [C08_verifyAggregation_iff E hE hnd α (F + 2) _ t _ lp.W _ _ (fun k _ => ht k) (by simp; omega) hW
    (fun i hi => by have := hlt₁ i (List.mem_of_mem_take hi); omega)] at e₁
  rw [C08_verifyAggregation_iff E hE hnd α (F + 2) _ t _ lp.W _ _ (fun k _ => ht k) (by simp; omega) hW
    (fun i hi => by have := hlt₂ i (List.mem_of_mem_take hi); omega)] at e₂
  have n₁ : (p₁.take (p₁.length - 1)).length = lp.W.length := by simp; omega
  have n₂ : (p₂.take (p₂.length - 1)).length = lp.W.length := by simp; omega
  rw [n₁] at e₁
  rw [n₂] at e₂
  have g : ∀ p : List ℕ, lp.W.length + 1 = p.length → ∀ k < lp.W.length, (p.take (p.length - 1)).getD k 0 = p.getD k 0 := by
    intro p hl k hk
    simp [List.getD, show k < p.length - 1 by omega, show k < p.length by omega]
  refine ⟨t, by rw [h.PPPP]; exact fun k _ => ht k, ?_, ?_⟩
  · have := sub_eq_zero.2 (e₁.trans e₂.symm)
    rw [← Finset.sum_sub_distrib] at this
    rw [← this]
    refine Finset.sum_congr rfl fun k hk => ?_
    rw [Finset.mem_range] at hk
    rw [g p₁ l₁ k hk, g p₂ l₂ k hk]
    unfold replayCoeff
    module
  · intro k hk hne hWk hα h0
    rcases smul_eq_zero.1 h0 with h0 | h0
    · refine hα (special_of_pow_eq (i := p₁.getD k 0) (j := p₂.getD k 0) (N := F + 2) ?_ ?_ (by omega) hne (sub_eq_zero.1 h0))
      · exact hlt₁ _ (by simp [List.getD, show k < p₁.length by omega])
      · exact hlt₂ _ (by simp [List.getD, show k < p₂.length by omega])
    · exact hWk h0

/-- C99: such a relation is met by at most one in `order` of the possible vectors of challenges. -/
theorem C99_relation_rare (n : ℕ) (c : Fin n → G1) (k : Fin n) (hk : c k ≠ 0) :
    Nat.card {t : Fin n → Zr // ∑ i, t i • c i = 0} * order ≤ Nat.card (Fin n → Zr) := by
  have hc : Nat.card {t : Fin n → Zr // ∑ i, t i • c i = 0} * order
      = Nat.card ({t : Fin n → Zr // ∑ i, t i • c i = 0} × Zr) := by
    rw [Nat.card_prod]
    congr 1
    exact (Nat.card_zmod order).symm
  rw [hc]
  refine Nat.card_le_card_of_injective
    (fun x : {t : Fin n → Zr // ∑ i, t i • c i = 0} × Zr => Function.update x.1.1 k (x.1.1 k + x.2)) ?_
  rintro ⟨⟨t, ht⟩, a⟩ ⟨⟨s, hs⟩, b⟩ heq
  dsimp only at heq
  have off : ∀ i, i ≠ k → t i = s i := by
    intro i hi
    have := congrFun heq i
    rwa [Function.update_of_ne hi, Function.update_of_ne hi] at this
  have hat : t k = s k := by
    have hd := sub_eq_zero.2 (ht.trans hs.symm)
    rw [← Finset.sum_sub_distrib, Finset.sum_eq_single k] at hd
    · rw [← sub_smul] at hd
      rcases smul_eq_zero.1 hd with h | h
      · exact sub_eq_zero.1 h
      · exact absurd h hk
    · intro i _ hi
      rw [off i hi, sub_self]
    · intro hc; exact absurd (Finset.mem_univ k) hc
  have hts : t = s := by
    funext i
    by_cases hi : i = k
    · rw [hi, hat]
    · exact off i hi
  subst hts
  have := congrFun heq k
  rw [Function.update_self, Function.update_self] at this
  simp only [Prod.mk.injEq, true_and]
  exact add_left_cancel this

/-- C99: few trapdoors are special. -/
theorem C99_special_trapdoors_few (F : ℕ) :
    ∃ S : Finset Zr, S.card ≤ F * F + 1 ∧ ∀ α, SpecialTrapdoor α F → α ∈ S := by
  refine ⟨insert 0 ((Finset.Ioo 0 F).biUnion fun d => Polynomial.nthRootsFinset d (1 : Zr)), ?_, ?_⟩
  · refine le_trans (Finset.card_insert_le _ _) (Nat.succ_le_succ ?_)
    refine le_trans Finset.card_biUnion_le ?_
    calc ∑ d ∈ Finset.Ioo 0 F, (Polynomial.nthRootsFinset d (1 : Zr)).card ≤ ∑ d ∈ Finset.Ioo 0 F, F := by
          refine Finset.sum_le_sum fun d hd => ?_
          rw [Finset.mem_Ioo] at hd
          refine le_trans ?_ hd.2.le
          unfold Polynomial.nthRootsFinset
          exact le_trans (@Multiset.toFinset_card_le _ (Classical.decEq _) _) (Polynomial.card_nthRoots d 1)
      _ ≤ F * F := by
          rw [Finset.sum_const, smul_eq_mul, Nat.card_Ioo]
          exact Nat.mul_le_mul_right _ (by omega)
  · rintro α (rfl | ⟨d, h0, hd, h1⟩)
    · exact Finset.mem_insert_self _ _
    · refine Finset.mem_insert_of_mem (Finset.mem_biUnion.2 ⟨d, Finset.mem_Ioo.2 ⟨h0, hd⟩, ?_⟩)
      exact (Polynomial.mem_nthRootsFinset h0 1).2 h1

/-! ## The hypotheses can be met -/

theorem toy_not_special : ¬ SpecialTrapdoor 2 3 := by
  rintro (h | ⟨d, h0, h3, h⟩)
  · exact two_ne_zero_zr h
  · have : d = 1 ∨ d = 2 := by omega
    rcases this with rfl | rfl
    · revert h; decide +kernel
    · revert h; decide +kernel

/-- The proof for `221` of the set with the history `toyHist` is accepted for `220` exactly if its last commitment is
zero. -/
example : ∃ (ls : LiabilitySet Zr Zr Zr) (lp : LiabilityProof Zr) (V W : Zr),
    lp.verify toyCurve ls.pp ['2', '2', '1'] V W toyPath = some true ∧
    (lp.verify toyCurve ls.pp ['2', '2', '0'] V W toyPath = some true ↔ lp.V.getLast? = some 0) := by
  obtain ⟨ls, h, ht⟩ := toy_set
  have hids : ValidIds ls.tree.id2Path 3 3 toyHist := by rw [ht]; exact toyHist_valid
  have h42 : totalAmount (byPath ls.tree.id2Path toyHist) = 42 := by rw [ht]; decide
  obtain ⟨ls', hs⟩ := C43_sets_return toyCurve_lawful toyEnv_lawful h toyHist hids (by decide)
  obtain ⟨lp, x, W, -, -, -, -, h4⟩ := C47_liability_proof_verifies_partial toyCurve_lawful toyEnv_lawful h toyHist hids hs
    (by rw [h42]; norm_num) ['2', '2', '1'] [2, 2, 1] (by rw [ht]; rfl) (by rw [ht]; decide) (by rw [ht]; decide) toyRand
    toyRand_sized (toy_challenges _ _ _)
  have hid : ls.tree.id2Path = toyPath := by rw [ht]; rfl
  rw [hid] at h4
  refine ⟨ls, lp, x.V, W, h4, ?_⟩
  rw [C99_neighbour_iff toyCurve_lawful toyCurve_nonDegenerate h.pp ['2', '2', '1'] ['2', '2', '0'] toyPath x.V W lp [2, 2] 1 0
    rfl rfl (by norm_num) (by norm_num) h4]
  refine or_iff_left fun hc => toy_not_special ?_
  exact special_of_pow_eq (by norm_num : 1 < 3) (by norm_num : 0 < 3) (by norm_num) (by norm_num) hc

/-- A relation of two challenges. -/
example := C99_relation_rare (G1 := Zr) 2 ![0, 2] 1 (by simpa using two_ne_zero_zr)

end PoL.Props

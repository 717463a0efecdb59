import Verif.Props.Sum
import Verif.Spec.SumAggregated
import Verif.Proofs.RangeHonest

/-!
# C66: the aggregated sum argument is special-sound (`sum/sa.go`)
-/

set_option linter.unusedSectionVars false

namespace PoL.Props

open BP _root_.PoL.Sum Finset

variable {G1 G2 GT : Type} [AddCommGroup G1] [Module Zr G1] [AddCommGroup G2] [Module Zr G2]
  [AddCommGroup GT] [Module Zr GT] [DecidableEq G1]

/-- The aggregated vector. -/
def aggVec (n m : ℕ) (τ : Zr) (v : ℕ → List Zr) : List Zr :=
  (List.range n).map fun p => ∑ i ∈ range m, τ ^ i * (v i).getD p 0

omit [DecidableEq G1] in
theorem dot_aggVec (n m : ℕ) (τ : Zr) (v : ℕ → List Zr) (g : List G1) (hg : g.length = n)
    (hv : ∀ i < m, (v i).length = n) : dot (aggVec n m τ v) g = ∑ i ∈ range m, τ ^ i • dot (v i) g := by
  have h1 : dot (aggVec n m τ v) g = ∑ p ∈ range n, (∑ i ∈ range m, τ ^ i * (v i).getD p 0) • g.getD p 0 := by
    rw [dot_eq_sum_range _ _ n (by simp [aggVec]) hg]
    refine Finset.sum_congr rfl fun p hp => ?_
    rw [aggVec, getD_map_range _ _ (Finset.mem_range.1 hp)]
  have h2 : ∀ i ∈ range m, τ ^ i • dot (v i) g = ∑ p ∈ range n, (τ ^ i * (v i).getD p 0) • g.getD p 0 := by
    intro i hi
    rw [dot_eq_sum_range _ _ n (hv i (Finset.mem_range.1 hi)) hg, Finset.smul_sum]
    exact Finset.sum_congr rfl fun p _ => smul_smul _ _ _
  rw [h1, Finset.sum_congr rfl h2, Finset.sum_comm]
  exact Finset.sum_congr rfl fun p _ => Finset.sum_smul

/-- **C66.** There is a finder of linear relations, computing from scalars only, such that: if the prover knows openings
`(r i, v i)` of `m` commitments, and after each of `m` distinct challenges `τ` answers so that all transcripts are
accepted, then every relation found holds among `F, Gs, H, U`, and unless one of them is non-trivial, all `v i` are
balanced. -/
theorem C66_aggregated_sum_special_sound :
    ∃ rels : (k m : ℕ) → (x₀ : Zr) → (r : ℕ → Zr) → (v : ℕ → List Zr) → (Fin m → AggBranch Unit) → List Relation,
    ∀ (G1 : Type) [AddCommGroup G1] [Module Zr G1] (k m : ℕ) (x₀ : Zr) (r : ℕ → Zr) (v : ℕ → List Zr) (F : G1)
      (Gs H : List G1) (U : G1) (V : ℕ → G1) (b : Fin m → AggBranch G1),
      x₀ ≠ 0 → Gs.length = 2 ^ k → H.length = 2 ^ k → (∀ i < m, (v i).length = 2 ^ k) →
      (∀ i < m, V i = r i • F + dot (v i) Gs) → (∀ i j, i ≠ j → (b i).τ ≠ (b j).τ) →
      (∀ j, (b j).Accepted k m x₀ (List.replicate (2 ^ k - 1) 1 ++ [-1]) F Gs H U V) →
      (∀ q ∈ rels k m x₀ r v fun j => (b j).scalars,
        q.a.length = 2 ^ k ∧ q.b.length = 2 ^ k ∧ q.eval F Gs H U = 0) ∧
      ((∃ q ∈ rels k m x₀ r v fun j => (b j).scalars, ¬ q.IsZero) ∨ ∀ i < m, Balanced (v i)) := by
  obtain ⟨rels, hrels⟩ := C23_sum_argument_special_sound
  refine ⟨fun k m x₀ r v b => (List.finRange m).flatMap fun j => rels x₀ (b j).c (∑ i ∈ range m, (b j).τ ^ i * r i)
    (aggVec (2 ^ k) m (b j).τ v) (List.replicate (2 ^ k - 1) 1 ++ [-1]) ((b j).ans 0) ((b j).ans 1) ((b j).ans 2), ?_⟩
  intro G1 _ _ k m x₀ r v F Gs H U V b hx₀ hGs hH hv hV hτ hacc
  have key := fun j => hrels G1 k x₀ (b j).c (∑ i ∈ range m, (b j).τ ^ i * r i) (aggVec (2 ^ k) m (b j).τ v)
    (List.replicate (2 ^ k - 1) 1 ++ [-1]) F Gs H U (∑ i ∈ range m, (b j).τ ^ i • V i) (b j).W ((b j).ans 0) ((b j).ans 1)
    ((b j).ans 2) hx₀ (by simp [aggVec]) rfl hGs hH (by
      rw [dot_aggVec _ _ _ _ _ hGs hv, Finset.sum_smul, ← Finset.sum_add_distrib]
      refine Finset.sum_congr rfl fun i hi => ?_
      rw [hV i (Finset.mem_range.1 hi), smul_add, smul_smul]) ((hacc j).1 0 1 (by decide)) ((hacc j).1 0 2 (by decide))
    ((hacc j).1 1 2 (by decide)) (by
      intro a ha
      simp only [List.mem_cons, List.not_mem_nil, or_false] at ha
      rcases ha with rfl | rfl | rfl <;> exact (hacc j).2 _)
  refine ⟨fun q hq => ?_, ?_⟩
  · obtain ⟨j, -, hj⟩ := List.mem_flatMap.1 hq
    exact (key j).1 q hj
  · by_cases hz : ∀ j, Balanced (aggVec (2 ^ k) m (b j).τ v)
    · right
      have hpos : 0 < 2 ^ k := by positivity
      have hsum : ∀ j, ∑ i ∈ range m, imbalance (v i) * (b j).τ ^ i = 0 := by
        intro j
        have h0 := (imbalance_zero_iff (by simp [aggVec]) hpos).2 (hz j)
        rw [← imbalance_eq (n := 2 ^ k) (by simp [aggVec]) hpos, dot_aggVec _ _ _ _ _ (by simp; omega) hv] at h0
        rw [← h0]
        refine Finset.sum_congr rfl fun i hi => ?_
        rw [imbalance_eq (hv i (Finset.mem_range.1 hi)) hpos, smul_eq_mul, mul_comm]
      have hinj : Function.Injective fun j => (b j).τ := fun i j h => by
        by_contra hne
        exact hτ i j hne h
      have := sum_pow_eq_zero m (fun i => imbalance (v i)) (Finset.univ.image fun j => (b j).τ) (by
        rw [Finset.card_image_of_injective _ hinj, Finset.card_univ, Fintype.card_fin]) (by
        intro y hy
        obtain ⟨j, -, rfl⟩ := Finset.mem_image.1 hy
        exact hsum j)
      intro i hi
      exact (imbalance_zero_iff (hv i hi) hpos).1 (this i hi)
    · left
      push Not at hz
      obtain ⟨j, hj⟩ := hz
      obtain ⟨q, hq, hnz⟩ := (key j).2.resolve_right hj
      exact ⟨q, List.mem_flatMap.2 ⟨j, List.mem_finRange j, hq⟩, hnz⟩

/-- **C66**, link to the code: `VerifyAggregated` is `Verify` for the commitments combined with the powers of the
hash `τ` of all of them. -/
theorem C66_verify_aggregated (E : Curve G1 G2 GT) (pp : Sum.PP G1) (p : Sum.Proof G1) (V : List G1) (hV : V ≠ [])
    (τ : Zr) (hτ : fieldElementFromBytes (E.sha256 (V.map E.g1Bytes).flatten) = some τ) :
    p.verifyAggregated E pp V = p.verify E pp { V := ∑ i ∈ range V.length, τ ^ i • V.getD i 0 } := by
  have ht : createHVZKChallenge E V V.length = some ((List.range V.length).map fun i => τ ^ i) := by
    unfold createHVZKChallenge
    refine obind_step (a := τ) hτ ?_
    rw [powerSeriesLoop_eq]
    simp [intToZr]
  obtain ⟨q1, q2⟩ := gv_mulV_sum (g := V) (v := (List.range V.length).map fun i => τ ^ i) rfl (by simp)
    (List.length_pos_iff.2 hV)
  unfold Proof.verifyAggregated
  refine obind_step ht (obind_step q1 (obind_step q2 ?_))
  have e : dot ((List.range V.length).map fun i => τ ^ i) V = ∑ i ∈ range V.length, τ ^ i • V.getD i 0 := by
    rw [dot_eq_sum_range _ _ V.length (by simp) rfl]
    refine Finset.sum_congr rfl fun i hi => ?_
    rw [getD_map_range _ _ (Finset.mem_range.1 hi)]
  rw [e]

/-- The hypotheses of C66 are met: for any number of balanced vectors there are accepted answers to all challenges. -/
theorem C66_honest_branches {A : Type} [AddCommGroup A] [Module Zr A] (k m : ℕ) (hm : m < 2 ^ 63) (x₀ : Zr) (r : ℕ → Zr)
    (v : ℕ → List Zr) (F : A) (Gs H : List A) (U : A) (hGs : Gs.length = 2 ^ k) (hH : H.length = 2 ^ k)
    (hv : ∀ i < m, (v i).length = 2 ^ k) (hbal : ∀ i < m, Balanced (v i)) :
    ∃ b : Fin m → AggBranch A, (∀ i j, i ≠ j → (b i).τ ≠ (b j).τ) ∧
      ∀ j, (b j).Accepted k m x₀ (List.replicate (2 ^ k - 1) 1 ++ [-1]) F Gs H U fun i => r i • F + dot (v i) Gs := by
  classical
  have hpos : 0 < 2 ^ k := by positivity
  have lb : (List.replicate (2 ^ k - 1) (1 : Zr) ++ [-1]).length = 2 ^ k := by simp; omega
  refine ⟨fun j => { τ := (j.val : Zr), c := 0, W := 0, ans := fun i =>
    { x := (i.val : Zr), ρ := - ∑ i ∈ range m, (j.val : Zr) ^ i * r i,
      tree := honestTTree (x₀ • U) k (aggVec (2 ^ k) m (j.val : Zr) v) (List.replicate (2 ^ k - 1) 1 ++ [-1]) Gs H } },
    fun i j hne h => hne (Fin.ext (natCast_inj (by omega) (by omega) h)), fun j => ⟨fun i l hne h => hne (Fin.ext
      (natCast_inj (by omega) (by omega) h)), fun i => ⟨honestTTree_wf _ _ _ _ _ _, fun p hp => ?_⟩⟩⟩
  have h := honestTTree_accepted (x₀ • U) k (aggVec (2 ^ k) m (j.val : Zr) v) (List.replicate (2 ^ k - 1) 1 ++ [-1]) Gs H
    (by simp [aggVec]) lb hGs hH p hp
  have hd : dot (aggVec (2 ^ k) m (j.val : Zr) v) (List.replicate (2 ^ k - 1) (1 : Zr) ++ [-1]) = 0 := by
    rw [dot_aggVec _ _ _ _ _ lb hv]
    refine Finset.sum_eq_zero fun i hi => ?_
    have hi := Finset.mem_range.1 hi
    rw [imbalance_eq (hv i hi) hpos, (imbalance_zero_iff (hv i hi) hpos).2 (hbal i hi), smul_zero]
  rw [hd, dot_aggVec _ _ _ _ _ hGs hv] at h
  convert h using 1
  simp only [smul_add, Finset.sum_add_distrib, smul_smul, ← Finset.sum_smul]
  module

end PoL.Props

import Verif.Proofs.PoeBatch
import Verif.Proofs.Poe
import Verif.Props.PointProofs
import Verif.Props.InnerProdSound

/-!
# C67: the batch equality proof is special-sound (`poe/poe.go`)
-/

set_option linter.unusedSectionVars false

namespace PoL.Props

open BP Poe Finset

variable {G1 G2 GT : Type} [AddCommGroup G1] [Module Zr G1] [AddCommGroup G2] [Module Zr G2]
  [AddCommGroup GT] [Module Zr GT] [DecidableEq G1] [DecidableEq GT]

/-- **C67.** There are a finder of linear relations and an extractor (of values, and of coefficients of openings), all
computing from scalars only, such that: if after `V'`, `W'` the prover answers two distinct challenges `x`, and after each
of them enough challenges `t0`, `t1` that no affine function vanishes on all of them, so that all transcripts are
accepted, then every relation found holds among `F, G, H, B`; and unless one of them is non-trivial, for every pair `k` the
combination of the elements `Ω` is accepted as an opening of `V k` at `I k` and of `W k` at `J k`, with the same value. -/
theorem C67_batch_equality_special_sound :
    ∃ (rels : (κ : ℕ) → (x₀ : Zr) → BatchBranch Unit → List Sum.Relation)
      (val : BatchBranch Unit → BatchBranch Unit → ℕ → Zr)
      (left right : (κ : ℕ) → BatchBranch Unit → BatchBranch Unit → ℕ → (ℕ → Zr) × (ℕ → Zr)),
    ∀ (G1 G2 GT : Type) [AddCommGroup G1] [Module Zr G1] [AddCommGroup G2] [Module Zr G2]
      [AddCommGroup GT] [Module Zr GT] [DecidableEq G1] [DecidableEq GT] (E : Curve G1 G2 GT) (α : Zr) (N κ : ℕ)
      (s : Pairs G1) (F : G1) (G H : List G1) (B : G1) (x₀ : Zr) (V' W' : ℕ → G1) (b₁ b₂ : BatchBranch G1),
      E.Lawful → E.NonDegenerate → (∀ k < 2 ^ κ, s.I k < N ∧ s.J k < N) → x₀ ≠ 0 → G.length = 2 ^ κ → H.length = 2 ^ κ →
      b₁.x ≠ b₂.x → b₁.Accepted E α N κ s F G H B x₀ V' W' → b₂.Accepted E α N κ s F G H B x₀ V' W' →
      (∀ q ∈ rels κ x₀ b₁.scalars ++ rels κ x₀ b₂.scalars, q.a.length = 2 ^ κ ∧ q.b.length = 2 ^ κ ∧ q.eval F G H B = 0) ∧
      ((∃ q ∈ rels κ x₀ b₁.scalars ++ rels κ x₀ b₂.scalars, ¬ q.IsZero) ∨ ∀ k < 2 ^ κ,
        PP.verify E (PP.newPublicParams E α N) (val b₁.scalars b₂.scalars k)
          (combineΩ b₁ b₂ (left κ b₁.scalars b₂.scalars k)) (s.V k) (s.I k) = some true ∧
        PP.verify E (PP.newPublicParams E α N) (val b₁.scalars b₂.scalars k)
          (combineΩ b₁ b₂ (right κ b₁.scalars b₂.scalars k)) (s.W k) (s.J k) = some true) := by
  refine ⟨fun κ x₀ b => batchRels x₀ (2 ^ κ) b,
    fun b₁ b₂ k => (b₁.x - b₂.x)⁻¹ * (b₁.x * batchValue b₂ k - b₂.x * batchValue b₁ k),
    fun κ b₁ b₂ k => (fun j => (b₁.x - b₂.x)⁻¹ * - (b₂.x * selector b₁ (2 ^ κ) k false j),
      fun j => (b₁.x - b₂.x)⁻¹ * (b₁.x * selector b₂ (2 ^ κ) k false j)),
    fun κ b₁ b₂ k => (fun j => (b₁.x - b₂.x)⁻¹ * - (b₂.x * selector b₁ (2 ^ κ) k true j),
      fun j => (b₁.x - b₂.x)⁻¹ * (b₁.x * selector b₂ (2 ^ κ) k true j)), ?_⟩
  intro G1 G2 GT _ _ _ _ _ _ _ _ E α N κ s F G H B x₀ V' W' b₁ b₂ hE hn hIJ hx₀ hG hH hx h₁ h₂
  refine ⟨fun q hq => ?_, ?_⟩
  · rcases List.mem_append.1 hq with hq | hq
    · exact batchRels_hold hG hH h₁ q hq
    · exact batchRels_hold hG hH h₂ q hq
  · by_cases hz : ∃ q ∈ batchRels x₀ (2 ^ κ) b₁.scalars ++ batchRels x₀ (2 ^ κ) b₂.scalars, ¬ q.IsZero
    · exact Or.inl hz
    · right
      push Not at hz
      intro k hk
      obtain ⟨hI, hJ⟩ := hIJ k hk
      obtain ⟨l1, r1⟩ := branch_opens hn hx₀ hG hH h₁ (fun q hq => hz q (List.mem_append_left _ hq)) k hk
      obtain ⟨l2, r2⟩ := branch_opens hn hx₀ hG hH h₂ (fun q hq => hz q (List.mem_append_right _ hq)) k hk
      have hx' : b₁.x - b₂.x ≠ 0 := sub_ne_zero.2 hx
      have comb : ∀ f₁ f₂ : ℕ → Zr, combineΩ b₁ b₂ (fun j => (b₁.x - b₂.x)⁻¹ * - (b₂.x * f₁ j), fun j => (b₁.x - b₂.x)⁻¹ * (b₁.x * f₂ j))
          = (b₁.x - b₂.x)⁻¹ • (b₁.x • ∑ j ∈ range b₂.n, f₂ j • (b₂.ans j).Ω - b₂.x • ∑ j ∈ range b₁.n, f₁ j • (b₁.ans j).Ω) := by
        intro f₁ f₂
        generalize (b₁.x - b₂.x)⁻¹ = d
        rw [combineΩ, smul_sub, Finset.smul_sum, Finset.smul_sum, Finset.smul_sum, Finset.smul_sum, add_comm, sub_eq_add_neg,
          ← Finset.sum_neg_distrib]
        congr 1
        · exact Finset.sum_congr rfl fun j _ => by module
        · exact Finset.sum_congr rfl fun j _ => by module
      have e1 : (b₁.x - b₂.x) * ((b₁.x - b₂.x)⁻¹ * (b₁.x * batchValue b₂.scalars k - b₂.x * batchValue b₁.scalars k))
          = b₁.x * batchValue b₂.scalars k - b₂.x * batchValue b₁.scalars k := mul_inv_cancel_left₀ hx' _
      rw [C02_verify_iff E hE hn α N _ _ _ _ hI, C02_verify_iff E hE hn α N _ _ _ _ hJ]
      have fin : ∀ (f₁ f₂ : ℕ → Zr) (p : Zr) (C C' : G1),
          ∑ j ∈ range b₁.n, f₁ j • (b₁.ans j).Ω = p • (C + b₁.x • C') - (batchValue b₁.scalars k * α ^ (N + 1)) • E.genG1 →
          ∑ j ∈ range b₂.n, f₂ j • (b₂.ans j).Ω = p • (C + b₂.x • C') - (batchValue b₂.scalars k * α ^ (N + 1)) • E.genG1 →
          combineΩ b₁ b₂ (fun j => (b₁.x - b₂.x)⁻¹ * - (b₂.x * f₁ j), fun j => (b₁.x - b₂.x)⁻¹ * (b₁.x * f₂ j))
            = p • C - ((b₁.x - b₂.x)⁻¹ * (b₁.x * batchValue b₂.scalars k - b₂.x * batchValue b₁.scalars k) * α ^ (N + 1)) • E.genG1 := by
        intro f₁ f₂ p C C' q1 q2
        rw [comb, inv_smul_eq_iff₀ hx', q1, q2, smul_sub (b₁.x - b₂.x), smul_smul (b₁.x - b₂.x) (_ * α ^ (N + 1)), ← mul_assoc, e1]
        module
      exact ⟨fin _ _ _ _ _ l1 l2, fin _ _ _ _ _ r1 r2⟩

/-- The challenges of an inner-product proof do not depend on its statement. -/
theorem ippChallenges_statement (E : Curve G1 G2 GT) (pp : BP.PP G1) (π : InnerProductProof G1) (P : G1) (C : Zr) :
    ippChallenges E pp { π with P := P, C := C } = ippChallenges E pp π := by
  have : ∀ (P Q : G1) (c c' : Zr), (computeInstanceSpecificParams E pp P c).map (fun t => t.1.digest) =
      (computeInstanceSpecificParams E pp Q c').map (fun t => t.1.digest) := by
    intro P Q c c'
    unfold computeInstanceSpecificParams
    simp only [instanceHashInput]
    cases fieldElementFromBytes (E.sha256 pp.digest) with
    | none => rfl
    | some y => cases h : setupDigest E { pp with U := y • pp.U } <;> simp [h]
  have h3 := this P π.P C π.C
  unfold ippChallenges
  dsimp only
  cases h1 : computeInstanceSpecificParams E pp P C with
  | none =>
    rw [h1] at h3
    cases h2 : computeInstanceSpecificParams E pp π.P π.C with
    | none => rfl
    | some t => rw [h2] at h3; simp at h3
  | some u =>
    rw [h1] at h3
    cases h2 : computeInstanceSpecificParams E pp π.P π.C with
    | none => rw [h2] at h3; simp at h3
    | some t =>
      rw [h2] at h3
      simp only [Option.map_some, Option.some_inj] at h3
      simp only [h3]

/-- **C67**, link to the code: `Equalities.Verify` accepts exactly if the two equations of the transcripts of C67 hold, with
the challenges the code computes. -/
theorem C67_verify_iff_accepting_transcript (E : Curve G1 G2 GT) (hE : E.Lawful) (e : Equalities G1 G2 GT)
    (p : AggregatedProof G1) (α : Zr) (N κ : ℕ) (hN : 0 < N) (hvc : e.PP.vc = PP.newPublicParams E α N)
    (hV : e.V.length = 2 ^ κ) (hW : e.W.length = 2 ^ κ) (hI : e.I.length = 2 ^ κ) (hJ : e.J.length = 2 ^ κ)
    (hIlt : ∀ i ∈ e.I, i < N) (hJlt : ∀ i ∈ e.J, i < N) (hVa : p.Vaggr.length = 2 ^ κ) (hWa : p.Waggr.length = 2 ^ κ)
    (hG : e.PP.G.length = 2 ^ κ) (hH : e.PP.H.length = 2 ^ κ) (hL : p.IPP.LRs.length = 2 * κ) (x : Zr)
    (hx : e.RO (p.Vaggr ++ p.Waggr ++ e.V ++ e.W) [] e.PP.digest 1 = some [x]) (ts : List Zr)
    (hts : e.RO (p.Vaggr ++ p.Waggr ++ e.V ++ e.W ++ [p.U] ++ [p.V]) [] e.PP.digest (2 * 2 ^ κ) = some ts)
    (htl : ts.length = 2 * 2 ^ κ) (q : BP.PP G1) (hq : ipaParams E e.PP = some q) (x₀ : Zr)
    (hx₀ : fieldElementFromBytes (E.sha256 q.digest) = some x₀) :
    e.verify E p = some true ↔
      (answerOf p ts).Opens E α N (2 ^ κ) (pairsOf e) (fun k => p.Vaggr.getD k 0) (fun k => p.Waggr.getD k 0) x ∧
      acceptsWith (x₀ • q.U) (roundsOf (p.challenges E e.PP) p.IPP.LRs)
        (p.ρ • e.PP.F + x • p.U + p.V + dot ((answerOf p ts).weights (2 ^ κ)) e.PP.H + (x₀ * p.c) • q.U)
        e.PP.G e.PP.H p.IPP.a p.IPP.b := by
  have hpos : 0 < 2 ^ κ := by positivity
  obtain ⟨d, hd, hqG, hqH⟩ := ipaParams_eq E e.PP (by rw [hG, hH])
  obtain rfl : q = d := Option.some_inj.1 (hq.symm.trans hd)
  rw [verify_eq E e p α N (2 ^ κ) hN hpos hvc hV hW hI hJ hIlt hJlt hVa hWa hH x [] hx ts hts htl q hq]
  have hop : (answerOf p ts).Opens E α N (2 ^ κ) (pairsOf e) (fun k => p.Vaggr.getD k 0) (fun k => p.Waggr.getD k 0) x ↔
      E.pair (lhs α N (2 ^ κ) e p x ts) E.genG2 = E.pair (rhs E α N p) E.genG2 := by
    unfold BatchAnswer.Opens lhs rhs
    have e1 : E.pair (∑ k ∈ range (2 ^ κ), ((ts.getD (2 * k) 0 * α ^ (N - e.I.getD k 0)) • (e.V.getD k 0 + x • p.Vaggr.getD k 0)
        + (ts.getD (2 * k + 1) 0 * α ^ (N - e.J.getD k 0)) • (e.W.getD k 0 + x • p.Waggr.getD k 0))) E.genG2
        = ∑ k ∈ range (2 ^ κ), E.pair (ts.getD (2 * k) 0 • (e.V.getD k 0 + x • p.Vaggr.getD k 0)) (α ^ (N - e.I.getD k 0) • E.genG2)
          + ∑ k ∈ range (2 ^ κ), E.pair (ts.getD (2 * k + 1) 0 • (e.W.getD k 0 + x • p.Waggr.getD k 0)) (α ^ (N - e.J.getD k 0) • E.genG2) := by
      rw [map_sum, LinearMap.sum_apply, ← Finset.sum_add_distrib]
      refine Finset.sum_congr rfl fun k _ => ?_
      simp only [map_add, map_smul, LinearMap.add_apply, LinearMap.smul_apply]
      module
    have e2 : E.pair (p.Ω + (p.c * α ^ (N + 1)) • E.genG1) E.genG2
        = E.pair p.Ω E.genG2 + E.pair (p.c • α • E.genG1) (α ^ N • E.genG2) := by
      simp only [map_add, map_smul, LinearMap.add_apply, LinearMap.smul_apply, smul_smul]
      congr 2
      ring
    rw [e1, e2]
    rfl
  have hw : (tab (2 ^ κ) fun k => ts.getD (2 * k) 0 + ts.getD (2 * k + 1) 0) = (answerOf p ts).weights (2 ^ κ) := rfl
  rw [hop, hw]
  by_cases h : E.pair (lhs α N (2 ^ κ) e p x ts) E.genG2 = E.pair (rhs E α N p) E.genG2
  · rw [if_neg (by simpa using h), C12_verify_iff_accepting_transcript E hE q κ (by rw [hqG, hG]) (by rw [hqH, hH])
      { p.IPP with
        C := p.c, P := p.ρ • e.PP.F + x • p.U + p.V + dot ((answerOf p ts).weights (2 ^ κ)) e.PP.H } hL x₀ hx₀, hqG, hqH,
      AggregatedProof.challenges, hq, ippChallenges_statement]
    simp [h]
  · rw [if_pos h]
    simp [h]

/-- Independent challenges: all unit vectors and zero. -/
def unitAnswer (m j : ℕ) : (ℕ → Zr) × (ℕ → Zr) :=
  (fun k => if j = k then 1 else 0, fun k => if j = m + k then 1 else 0)

/-- The hypotheses of C67 are met: whenever for every pair there are accepted openings to the same value, there are two
branches with distinct challenges all of whose transcripts are accepted. -/
theorem C67_honest_branches (E : Curve G1 G2 GT) (hE : E.Lawful) (hn : E.NonDegenerate) (α : Zr) (N κ : ℕ) (s : Pairs G1)
    (F : G1) (G H : List G1) (B : G1) (x₀ : Zr) (hIJ : ∀ k < 2 ^ κ, s.I k < N ∧ s.J k < N) (hG : G.length = 2 ^ κ)
    (hH : H.length = 2 ^ κ) (a : ℕ → Zr) (π π' : ℕ → G1)
    (hl : ∀ k < 2 ^ κ, PP.verify E (PP.newPublicParams E α N) (a k) (π k) (s.V k) (s.I k) = some true)
    (hr : ∀ k < 2 ^ κ, PP.verify E (PP.newPublicParams E α N) (a k) (π' k) (s.W k) (s.J k) = some true) :
    ∃ (V' W' : ℕ → G1) (b₁ b₂ : BatchBranch G1), b₁.x ≠ b₂.x ∧
      b₁.Accepted E α N κ s F G H B x₀ V' W' ∧ b₂.Accepted E α N κ s F G H B x₀ V' W' := by
  have main : ∀ x : Zr, BatchBranch.Accepted E α N κ s F G H B x₀ (fun _ => 0) (fun _ => 0)
      { x := x, U := 0, Y := dot (tab (2 ^ κ) a) G, n := 2 * 2 ^ κ + 1,
        ans := fun j =>
          let t := unitAnswer (2 ^ κ) j
          let w := tab (2 ^ κ) fun k => t.1 k + t.2 k
          { t0 := t.1, t1 := t.2, Ω := ∑ k ∈ range (2 ^ κ), (t.1 k • π k + t.2 k • π' k), c := dot (tab (2 ^ κ) a) w, ρ := 0,
            tree := honestTTree (x₀ • B) κ (tab (2 ^ κ) a) w G H } } := by
    intro x
    refine ⟨?_, fun j hj => ⟨honestTTree_wf _ _ _ _ _ _, ?_, ?_⟩⟩
    · intro c0 c1 d h
      dsimp only [unitAnswer] at h
      have hd : d = 0 := by
        have h0 := h (2 * 2 ^ κ) (by omega)
        rw [Finset.sum_eq_zero] at h0
        · simpa using h0
        · intro k hk
          have hk := Finset.mem_range.1 hk
          rw [if_neg (by omega), if_neg (by omega)]; simp
      refine ⟨hd, fun k hk => ⟨?_, ?_⟩⟩
      · have h0 := h k (by omega)
        rw [hd, add_zero, Finset.sum_eq_single k] at h0
        · rw [if_pos rfl, if_neg (by have := Nat.two_pow_pos κ; omega)] at h0; simpa using h0
        · intro i hi hne
          rw [if_neg (Ne.symm hne), if_neg (by omega)]; simp
        · intro hne; exact absurd (Finset.mem_range.2 hk) hne
      · have h0 := h (2 ^ κ + k) (by omega)
        rw [hd, add_zero, Finset.sum_eq_single k] at h0
        · rw [if_neg (by have := Nat.two_pow_pos κ; omega), if_pos rfl] at h0; simpa using h0
        · intro i hi hne
          have := Finset.mem_range.1 hi
          rw [if_neg (by omega), if_neg (by omega)]; simp
        · intro hne; exact absurd (Finset.mem_range.2 hk) hne
    · unfold BatchAnswer.Opens
      dsimp only
      have e1 : ∀ k ∈ range (2 ^ κ), E.pair ((unitAnswer (2 ^ κ) j).1 k • (s.V k + x • (0 : G1))) (α ^ (N - s.I k) • E.genG2)
          = (unitAnswer (2 ^ κ) j).1 k • E.pair (π k) E.genG2
            + ((unitAnswer (2 ^ κ) j).1 k * (a k * α ^ (N + 1))) • E.pair E.genG1 E.genG2 := by
        intro k hk
        have hk := Finset.mem_range.1 hk
        rw [(C02_verify_iff E hE hn α N _ _ _ _ (hIJ k hk).1).1 (hl k hk)]
        simp only [map_sub, map_smul, LinearMap.sub_apply, LinearMap.smul_apply, smul_zero, add_zero]
        module
      have e2 : ∀ k ∈ range (2 ^ κ), E.pair ((unitAnswer (2 ^ κ) j).2 k • (s.W k + x • (0 : G1))) (α ^ (N - s.J k) • E.genG2)
          = (unitAnswer (2 ^ κ) j).2 k • E.pair (π' k) E.genG2
            + ((unitAnswer (2 ^ κ) j).2 k * (a k * α ^ (N + 1))) • E.pair E.genG1 E.genG2 := by
        intro k hk
        have hk := Finset.mem_range.1 hk
        rw [(C02_verify_iff E hE hn α N _ _ _ _ (hIJ k hk).2).1 (hr k hk)]
        simp only [map_sub, map_smul, LinearMap.sub_apply, LinearMap.smul_apply, smul_zero, add_zero]
        module
      rw [Finset.sum_congr rfl e1, Finset.sum_congr rfl e2, dot_tab, map_sum, LinearMap.sum_apply]
      simp only [map_add, map_smul, LinearMap.add_apply, LinearMap.smul_apply, Finset.sum_add_distrib, ← Finset.sum_smul,
        smul_smul, smul_eq_mul]
      have e3 : ∑ k ∈ range (2 ^ κ), a k * ((unitAnswer (2 ^ κ) j).1 k + (unitAnswer (2 ^ κ) j).2 k)
          = ∑ k ∈ range (2 ^ κ), a k * (unitAnswer (2 ^ κ) j).1 k + ∑ k ∈ range (2 ^ κ), a k * (unitAnswer (2 ^ κ) j).2 k := by
        rw [← Finset.sum_add_distrib]
        exact Finset.sum_congr rfl fun k _ => mul_add _ _ _
      have e4 : ∀ f : ℕ → Zr, ∑ k ∈ range (2 ^ κ), f k * (a k * α ^ (N + 1)) = (∑ k ∈ range (2 ^ κ), a k * f k) * α ^ (N + 1) := by
        intro f
        rw [Finset.sum_mul]
        exact Finset.sum_congr rfl fun k _ => by ring
      rw [e3, e4, e4, pow_succ]
      module
    · intro p hp
      have h := honestTTree_accepted (x₀ • B) κ (tab (2 ^ κ) a)
        (tab (2 ^ κ) fun k => (unitAnswer (2 ^ κ) j).1 k + (unitAnswer (2 ^ κ) j).2 k) G H (by simp) (by simp) hG hH p hp
      have e : (0 : Zr) • F + x • (0 : G1) + dot (tab (2 ^ κ) a) G
          + dot (tab (2 ^ κ) fun k => (unitAnswer (2 ^ κ) j).1 k + (unitAnswer (2 ^ κ) j).2 k) H
          + (x₀ * dot (tab (2 ^ κ) a) (tab (2 ^ κ) fun k => (unitAnswer (2 ^ κ) j).1 k + (unitAnswer (2 ^ κ) j).2 k)) • B
          = dot (tab (2 ^ κ) a) (tab (2 ^ κ) fun k => (unitAnswer (2 ^ κ) j).1 k + (unitAnswer (2 ^ κ) j).2 k) • x₀ • B
            + dot (tab (2 ^ κ) a) G + dot (tab (2 ^ κ) fun k => (unitAnswer (2 ^ κ) j).1 k + (unitAnswer (2 ^ κ) j).2 k) H := by
        module
      rw [← e] at h
      exact h
  exact ⟨fun _ => 0, fun _ => 0, _, _, zero_ne_one, main 0, main 1⟩

end PoL.Props

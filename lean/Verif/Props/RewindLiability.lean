import Verif.Proofs.RewindLiability
import Verif.Props.RewindRange
import Verif.Props.LiabilitySound

/-! # C85: soundness error of the aggregated sum argument, of the batch equality proof, and of liability proofs -/

set_option linter.unusedSectionVars false

namespace PoL.Props

open Spec BP Finset Pol

variable {G1 G2 GT : Type} [AddCommGroup G1] [Module Zr G1] [AddCommGroup G2] [Module Zr G2]
  [AddCommGroup GT] [Module Zr GT] [DecidableEq G1] [DecidableEq GT]

/-- **C85**, aggregated sum argument.  There is a finder of relations, computing from scalars only, such that every prover,
whatever its computing power, that knows openings `(r i, v i)` of `m` commitments and is accepted for more than a fraction
`aggError k m` of the challenges can be rewound to transcripts from which it gets a non-trivial relation between the
generators, unless all `v i` are balanced. -/
theorem C85_aggregated_sum_soundness_error :
    ∃ rels : (k m : ℕ) → (x₀ : Zr) → (r : ℕ → Zr) → (v : ℕ → List Zr) → (Fin m → Sum.AggBranch Unit) → List Sum.Relation,
    ∀ (G1 : Type) [AddCommGroup G1] [Module Zr G1] (k m : ℕ) (x₀ : Zr) (r : ℕ → Zr) (v : ℕ → List Zr) (F : G1)
      (Gs H : List G1) (U : G1) (V : ℕ → G1) (p : Sum.AggProver G1),
      x₀ ≠ 0 → Gs.length = 2 ^ k → H.length = 2 ^ k → (∀ i < m, (v i).length = 2 ^ k) →
      (∀ i < m, V i = r i • F + dot (v i) Gs) →
      Sum.aggError k m
        < ((p.wins k m x₀ (List.replicate (2 ^ k - 1) 1 ++ [-1]) F Gs H U V).ncard : ℚ) / Sum.aggTotal k →
      ∃ b : Fin m → Sum.AggBranch G1, (∀ j, (b j).Of p) ∧
        (∀ q ∈ rels k m x₀ r v fun j => (b j).scalars,
          q.a.length = 2 ^ k ∧ q.b.length = 2 ^ k ∧ q.eval F Gs H U = 0) ∧
        ((∃ q ∈ rels k m x₀ r v fun j => (b j).scalars, ¬ q.IsZero) ∨ ∀ i < m, Balanced (v i)) := by
  obtain ⟨rels, hC⟩ := C66_aggregated_sum_special_sound
  refine ⟨rels, fun G1 _ _ k m x₀ r v F Gs H U V p hx₀ hGs hH hv hV hw => ?_⟩
  obtain ⟨b, hτ, hb⟩ := p.branches_of_wins k m x₀ _ F Gs H U V hGs hw
  exact ⟨b, fun j => (hb j).1, hC G1 k m x₀ r v F Gs H U V b hx₀ hGs hH hv hV hτ fun j => (hb j).2⟩

/-- **C85**, batch equality proof.  There are a finder of linear relations and an extractor (of values, and of coefficients of
openings), all computing from scalars only, such that every prover, whatever its computing power, that is accepted for more
than a fraction `batchError κ` of the challenges can be rewound to transcripts from which they get a non-trivial relation
between the generators, or for every pair two accepted openings to the same value. -/
theorem C85_batch_equality_soundness_error :
    ∃ (rels : (κ : ℕ) → (x₀ : Zr) → Poe.BatchBranch Unit → List Sum.Relation)
      (val : Poe.BatchBranch Unit → Poe.BatchBranch Unit → ℕ → Zr)
      (left right : (κ : ℕ) → Poe.BatchBranch Unit → Poe.BatchBranch Unit → ℕ → (ℕ → Zr) × (ℕ → Zr)),
    ∀ (G1 G2 GT : Type) [AddCommGroup G1] [Module Zr G1] [AddCommGroup G2] [Module Zr G2]
      [AddCommGroup GT] [Module Zr GT] [DecidableEq G1] [DecidableEq GT] (E : Curve G1 G2 GT) (α : Zr) (N κ : ℕ)
      (s : Poe.Pairs G1) (F : G1) (G H : List G1) (B : G1) (x₀ : Zr) (p : Poe.BatchProver G1 (2 ^ κ)),
      E.Lawful → E.NonDegenerate → (∀ k < 2 ^ κ, s.I k < N ∧ s.J k < N) → x₀ ≠ 0 → G.length = 2 ^ κ → H.length = 2 ^ κ →
      Poe.batchError κ < ((p.wins E α N s F G H B x₀).ncard : ℚ) / Poe.batchTotal κ →
      ∃ b₁ b₂ : Poe.BatchBranch G1, b₁.Of p ∧ b₂.Of p ∧
        (∀ q ∈ rels κ x₀ b₁.scalars ++ rels κ x₀ b₂.scalars,
          q.a.length = 2 ^ κ ∧ q.b.length = 2 ^ κ ∧ q.eval F G H B = 0) ∧
        ((∃ q ∈ rels κ x₀ b₁.scalars ++ rels κ x₀ b₂.scalars, ¬ q.IsZero) ∨ ∀ k < 2 ^ κ,
          PP.verify E (PP.newPublicParams E α N) (val b₁.scalars b₂.scalars k)
            (Poe.combineΩ b₁ b₂ (left κ b₁.scalars b₂.scalars k)) (s.V k) (s.I k) = some true ∧
          PP.verify E (PP.newPublicParams E α N) (val b₁.scalars b₂.scalars k)
            (Poe.combineΩ b₁ b₂ (right κ b₁.scalars b₂.scalars k)) (s.W k) (s.J k) = some true) := by
  obtain ⟨rels, val, left, right, hC⟩ := C67_batch_equality_special_sound
  refine ⟨rels, val, left, right, ?_⟩
  intro G1 G2 GT _ _ _ _ _ _ _ _ E α N κ s F G H B x₀ p hE hn hIJ hx₀ hG hH hw
  obtain ⟨b₁, b₂, hx, o₁, o₂, a₁, a₂⟩ := p.branches_of_wins E α N s F G H B x₀ hG hw
  exact ⟨b₁, b₂, o₁, o₂, hC G1 G2 GT E α N κ s F G H B x₀ p.V' p.W' b₁ b₂ hE hn hIJ hx₀ hG hH hx a₁ a₂⟩

/-- **C85**, liability proofs.  There is a finder of breaks of the assumptions, computing from scalars only, such that: for any
number of provers of liability proofs for different paths, whatever their computing power, whose commitments agree wherever
their paths agree, and a proof of the total for their common root, if each of their arguments is accepted for more than its
soundness error of the challenges, then the provers can be rewound to transcripts for which everything found holds; and
unless something found is non-trivial, no amount is negative and the amounts add up to at most the total. -/
theorem C85_amounts_at_most_total :
    ∃ find : (M k κ : ℕ) → (path : Fin M → List ℕ) → (fanout : ℕ) → (xs xe : Zr) → (amount : Fin M → ℤ) → (total : ℤ) →
      (Fin M → LiabilityTree Unit) → Fin M → Findings,
    ∀ (G1 G2 GT : Type) [AddCommGroup G1] [Module Zr G1] [AddCommGroup G2] [Module Zr G2]
      [AddCommGroup GT] [Module Zr GT] [DecidableEq G1] [DecidableEq GT] (E : Curve G1 G2 GT) (α : Zr) (F L k κ M : ℕ)
      (pp : PublicParams G1 G2 GT) (hb : HashedBases G1) (path : Fin M → List ℕ) (V : Fin M → ℕ → G1) (amount : Fin M → ℤ)
      (tp : TotalProof G1) (prover : Fin M → LiabilityProver G1 κ),
      E.Lawful → E.NonDegenerate → Fits E α F L pp → F + 1 = 2 ^ k → pp.POEPP.G.length = 2 ^ κ → hb.xs ≠ 0 → hb.xe ≠ 0 →
      (∀ p, (path p).length = L ∧ ∀ x ∈ path p, x < F) → Function.Injective path →
      (∀ p q, ∀ i < L, (path p).take i = (path q).take i → V p i = V q i) →
      (∀ p, (prover p).Convincing E α pp hb k κ (path p) (V p) (amount p)) → (∀ p, tp.verify E pp (V p 0) = some true) →
      0 < M → (∀ p, -2 ^ 63 ≤ amount p ∧ amount p < 2 ^ 63) → -2 ^ 63 ≤ tp.sum ∧ tp.sum < 2 ^ 63 →
      ∃ t : Fin M → LiabilityTree G1, (∀ p, (t p).Of (prover p) L) ∧
        (∀ p, (find M k κ path F hb.xs hb.xe amount tp.sum (fun q => (t q).scalars) p).Hold E α pp hb k κ (t p)
          tp.liabilityProof) ∧
        ((∀ p, (find M k κ path F hb.xs hb.xe amount tp.sum (fun q => (t q).scalars) p).Trivial k) →
          (∀ p, 0 ≤ amount p) ∧ ∑ p, amount p ≤ tp.sum) := by
  obtain ⟨find, hC⟩ := C68_amounts_at_most_total
  refine ⟨find, ?_⟩
  intro G1 G2 GT _ _ _ _ _ _ _ _ E α F L k κ M pp hb path V amount tp prover hE hn hfit hk hκ hxs hxe hpath hinj hcons hconv
    htot hM hamt hsum
  have key : ∀ p, ∃ t : LiabilityTree G1, t.Of (prover p) L ∧ t.Accepted E α pp hb k κ (path p) (V p) (amount p) := by
    intro p
    have hL := (hpath p).1
    have hL2 : 2 ≤ L := hfit.depth
    have hF := fits_F_bound hfit
    have c := hconv p
    have hlenG : pp.SAPP.Gs.length = 2 ^ k := by
      rw [hfit.sa_Gs, hfit.PPPP, List.length_take, PP.new_G1s_length E α (F + 2) (by omega)]
      omega
    have hR : ∀ i, ∃ t : RTree G1, i < L → t.WellFormed k ∧ t.Of ((prover p).range i) ∧
        t.Accepted (rangeGens pp.RPPP hb.Ur) (2 ^ k) (V p i) := by
      intro i
      by_cases hi : i < L
      · have := c.range i (by omega)
        rw [RangeProver.wins_ncard] at this
        obtain ⟨t, ht⟩ := ((prover p).range i).tree_of_rate _ k _ this
        exact ⟨t, fun _ => ht⟩
      · exact ⟨⟨0, 0, fun _ => ⟨0, 0, .leaf 0, fun _ => ⟨0, [], fun _ => [], fun _ _ _ => ⟨0, 0, 0, fun _ =>
          ⟨0, 0, 0, 0, .leaf 0 0⟩⟩⟩⟩⟩, fun h => absurd h hi⟩
    choose rt hrt using hR
    obtain ⟨sb, hs1, hs2⟩ := (prover p).sum.branches_of_wins k (path p).length hb.xs _ _ _ _ _ _ hlenG c.sum
    obtain ⟨b₁, b₂, hx, o₁, o₂, a₁, a₂⟩ := (prover p).eq.branches_of_wins E α (pp.fanout + 2) (pathPairs pp.fanout (path p) (V p)) _ _ _ _ _ hκ c.eq
    refine ⟨{ range := rt, sum := fun i => sb ⟨i % (path p).length, Nat.mod_lt _ (by omega)⟩, V' := (prover p).eq.V',
              W' := (prover p).eq.W', eq₁ := b₁, eq₂ := b₂, π := (prover p).π },
      ⟨fun i hi => (hrt i hi).2.1, fun i hi => (hs2 _).1, rfl, rfl, o₁, o₂, rfl⟩,
      ⟨fun i hi => (hrt i (by omega)).1, fun i hi => (hrt i (by omega)).2.2, fun i hi j hj hne => ?_, fun i hi => (hs2 _).2,
        hx, a₁, a₂, c.leaf⟩⟩
    refine hs1 _ _ fun h => hne ?_
    have := congrArg Fin.val h
    dsimp only at this
    rwa [Nat.mod_eq_of_lt hi, Nat.mod_eq_of_lt hj] at this
  choose t hof hacc using key
  exact ⟨t, hof, hC G1 G2 GT E α F L k κ M pp hb path V amount tp t hE hn hfit hk hκ hxs hxe hpath hinj hcons hacc htot hM
    hamt hsum⟩

/-- The honest prover of the aggregated sum argument for balanced vectors is accepted for all challenges. -/
theorem C85_honest_sum_prover {A : Type} [AddCommGroup A] [Module Zr A] (k m : ℕ) (x₀ : Zr) (r : ℕ → Zr)
    (v : ℕ → List Zr) (F : A) (Gs H : List A) (U : A) (hGs : Gs.length = 2 ^ k) (hH : H.length = 2 ^ k)
    (hv : ∀ i < m, (v i).length = 2 ^ k) (hbal : ∀ i < m, Balanced (v i)) :
    ∃ p : Sum.AggProver A, ((p.wins k m x₀ (List.replicate (2 ^ k - 1) 1 ++ [-1]) F Gs H U
      fun i => r i • F + dot (v i) Gs).ncard : ℚ) / Sum.aggTotal k = 1 := by
  have hpos : 0 < 2 ^ k := by positivity
  have lb : (List.replicate (2 ^ k - 1) (1 : Zr) ++ [-1]).length = 2 ^ k := by simp; omega
  refine ⟨fun τ => ⟨0, 0, fun x => (- ∑ i ∈ range m, τ ^ i * r i,
    honestProver (x₀ • U) k (aggVec (2 ^ k) m τ v) (List.replicate (2 ^ k - 1) 1 ++ [-1]) Gs H)⟩, ?_⟩
  rw [Sum.AggProver.wins_ncard]
  refine rate_eq_one _ _ ?_ fun q hq => ?_
  · rw [Finset.card_product, Finset.card_product]
    exact Nat.mul_pos univ_pos (Nat.mul_pos univ_pos (challengeLists_pos k))
  simp only [Finset.mem_product, Finset.mem_univ, mem_challengeLists, true_and] at hq
  have h := honestProver_accepted (x₀ • U) k (aggVec (2 ^ k) m q.1 v) (List.replicate (2 ^ k - 1) 1 ++ [-1]) Gs H
    (by simp [aggVec]) lb hGs hH q.2.2 hq.1 hq.2
  have hd : dot (aggVec (2 ^ k) m q.1 v) (List.replicate (2 ^ k - 1) (1 : Zr) ++ [-1]) = 0 := by
    rw [dot_aggVec _ _ _ _ _ lb hv]
    refine Finset.sum_eq_zero fun i hi => ?_
    have hi := Finset.mem_range.1 hi
    rw [imbalance_eq (hv i hi) hpos, (imbalance_zero_iff (hv i hi) hpos).2 (hbal i hi), smul_zero]
  rw [hd, dot_aggVec _ _ _ _ _ hGs hv] at h
  convert h using 1
  simp only [smul_add, Finset.sum_add_distrib, smul_smul, ← Finset.sum_smul]
  module

/-- The honest prover of the batch equality proof, which has for every pair two accepted openings to the same value, is
accepted for all challenges. -/
theorem C85_honest_equality_prover (E : Curve G1 G2 GT) (hE : E.Lawful) (hn : E.NonDegenerate) (α : Zr) (N κ : ℕ)
    (s : Poe.Pairs G1) (F : G1) (G H : List G1) (B : G1) (x₀ : Zr) (hIJ : ∀ k < 2 ^ κ, s.I k < N ∧ s.J k < N)
    (hG : G.length = 2 ^ κ) (hH : H.length = 2 ^ κ) (a : ℕ → Zr) (π π' : ℕ → G1)
    (hl : ∀ k < 2 ^ κ, PP.verify E (PP.newPublicParams E α N) (a k) (π k) (s.V k) (s.I k) = some true)
    (hr : ∀ k < 2 ^ κ, PP.verify E (PP.newPublicParams E α N) (a k) (π' k) (s.W k) (s.J k) = some true) :
    ∃ p : Poe.BatchProver G1 (2 ^ κ), ((p.wins E α N s F G H B x₀).ncard : ℚ) / Poe.batchTotal κ = 1 := by
  refine ⟨⟨fun _ => 0, fun _ => 0, fun _ => 0, fun _ => dot (tab (2 ^ κ) a) G,
    fun _ t0 t1 => ∑ k ∈ range (2 ^ κ), (Poe.pad t0 k • π k + Poe.pad t1 k • π' k),
    fun _ t0 t1 => dot (tab (2 ^ κ) a) (tab (2 ^ κ) fun k => Poe.pad t0 k + Poe.pad t1 k), fun _ _ _ => 0,
    fun _ t0 t1 => honestProver (x₀ • B) κ (tab (2 ^ κ) a) (tab (2 ^ κ) fun k => Poe.pad t0 k + Poe.pad t1 k) G H⟩, ?_⟩
  rw [Poe.BatchProver.wins_ncard]
  refine rate_eq_one _ _ ?_ fun q hq => ?_
  · rw [Finset.card_product, Finset.card_product]
    exact Nat.mul_pos univ_pos (Nat.mul_pos (Finset.card_pos.2 ⟨(0, 0), Finset.mem_univ _⟩) (challengeLists_pos κ))
  simp only [Finset.mem_product, Finset.mem_univ, mem_challengeLists, true_and] at hq
  obtain ⟨x, ⟨t0, t1⟩, xs⟩ := q
  dsimp only at hq
  refine ⟨?_, ?_⟩
  · unfold Poe.BatchAnswer.Opens
    dsimp only [Poe.BatchProver.answer]
    have e1 : ∀ k ∈ range (2 ^ κ), E.pair (Poe.pad t0 k • (s.V k + x • (0 : G1))) (α ^ (N - s.I k) • E.genG2)
        = Poe.pad t0 k • E.pair (π k) E.genG2
          + (Poe.pad t0 k * (a k * α ^ (N + 1))) • E.pair E.genG1 E.genG2 := by
      intro k hk
      have hk := Finset.mem_range.1 hk
      rw [(C02_verify_iff E hE hn α N _ _ _ _ (hIJ k hk).1).1 (hl k hk)]
      simp only [map_sub, map_smul, LinearMap.sub_apply, LinearMap.smul_apply, smul_zero, add_zero]
      module
    have e2 : ∀ k ∈ range (2 ^ κ), E.pair (Poe.pad t1 k • (s.W k + x • (0 : G1))) (α ^ (N - s.J k) • E.genG2)
        = Poe.pad t1 k • E.pair (π' k) E.genG2
          + (Poe.pad t1 k * (a k * α ^ (N + 1))) • E.pair E.genG1 E.genG2 := by
      intro k hk
      have hk := Finset.mem_range.1 hk
      rw [(C02_verify_iff E hE hn α N _ _ _ _ (hIJ k hk).2).1 (hr k hk)]
      simp only [map_sub, map_smul, LinearMap.sub_apply, LinearMap.smul_apply, smul_zero, add_zero]
      module
    rw [Finset.sum_congr rfl e1, Finset.sum_congr rfl e2, dot_tab, map_sum, LinearMap.sum_apply]
    simp only [map_add, map_smul, LinearMap.add_apply, LinearMap.smul_apply, Finset.sum_add_distrib, ← Finset.sum_smul,
      smul_smul, smul_eq_mul]
    have e3 : ∑ k ∈ range (2 ^ κ), a k * (Poe.pad t0 k + Poe.pad t1 k)
        = ∑ k ∈ range (2 ^ κ), a k * Poe.pad t0 k + ∑ k ∈ range (2 ^ κ), a k * Poe.pad t1 k := by
      rw [← Finset.sum_add_distrib]
      exact Finset.sum_congr rfl fun k _ => mul_add _ _ _
    have e4 : ∀ f : ℕ → Zr, ∑ k ∈ range (2 ^ κ), f k * (a k * α ^ (N + 1)) = (∑ k ∈ range (2 ^ κ), a k * f k) * α ^ (N + 1) := by
      intro f
      rw [Finset.sum_mul]
      exact Finset.sum_congr rfl fun k _ => by ring
    rw [e3, e4, e4, pow_succ]
    module
  · have h := honestProver_accepted (x₀ • B) κ (tab (2 ^ κ) a) (tab (2 ^ κ) fun k => Poe.pad t0 k + Poe.pad t1 k) G H
      (by simp) (by simp) hG hH xs hq.1 hq.2
    convert h using 1
    simp only [Poe.BatchProver.stmt, tab]
    module

/-- The errors of the aggregated sum argument and of the batch equality proof are below `2^(-230)` for all sizes the code
admits. -/
theorem C85_errors_small (k m κ : ℕ) (hk : k ≤ 15) (hm : m ≤ 2 ^ 16) (hκ : κ ≤ 16) :
    Sum.aggError k m < 1 / 2 ^ 230 ∧ Poe.batchError κ < 1 / 2 ^ 230 := by
  have h1 : (k : ℚ) ≤ 15 := by exact_mod_cast hk
  have h2 : (m : ℚ) ≤ 2 ^ 16 := by exact_mod_cast hm
  have h3 : (κ : ℚ) ≤ 16 := by exact_mod_cast hκ
  have hq : (2 : ℚ) ^ 253 + 1 ≤ order := by exact_mod_cast (by decide +kernel : 2 ^ 253 + 1 ≤ order)
  rw [Sum.aggError, Poe.batchError]
  have e1 : ((m : ℚ) + 1) / (order : ℚ) ≤ (2 ^ 16 + 1) / 2 ^ 253 := by
    apply div_le_div₀ <;> linarith
  have e2 : 6 * (k : ℚ) / ((order : ℚ) - 1) ≤ (6 * 15) / 2 ^ 253 := by
    apply div_le_div₀ <;> linarith
  have e3 : 2 / (order : ℚ) ≤ 2 / 2 ^ 253 := by
    apply div_le_div₀ <;> linarith
  have e4 : 6 * (κ : ℚ) / ((order : ℚ) - 1) ≤ (6 * 16) / 2 ^ 253 := by
    apply div_le_div₀ <;> linarith
  have e5 : ((2 : ℚ) ^ 16 + 1) / 2 ^ 253 + (6 * 15) / 2 ^ 253 < 1 / 2 ^ 230 := by norm_num
  have e6 : (2 : ℚ) / 2 ^ 253 + (6 * 16) / 2 ^ 253 < 1 / 2 ^ 230 := by norm_num
  constructor <;> linarith

/-- The hypotheses of C85 for liability proofs are met: for any contents of the layers of a path that are small, balanced and
linked, there are a convincing prover and an accepted proof of the total. -/
theorem C85_honest_liability_prover (E : Curve G1 G2 GT) (hE : E.Lawful) (hn : E.NonDegenerate) {α : Zr} {F L k κ : ℕ}
    {pp : PublicParams G1 G2 GT} (hfit : Fits E α F L pp) (hk : F + 1 = 2 ^ k) (hκ : pp.POEPP.G.length = 2 ^ κ)
    (hb : HashedBases G1) (path : List ℕ) (hL : path.length = L) (hlt : ∀ x ∈ path, x < F) (r : ℕ → Zr) (v : ℕ → ℕ → Zr)
    (amount total : ℤ) (hv : LayerFacts F path v amount total) (V : ℕ → G1)
    (hV : ∀ i, V i = r i • pp.RPPP.F + ∑ j ∈ range (2 ^ k), v i j • pp.RPPP.Gs.getD j 0) :
    ∃ (p : LiabilityProver G1 κ) (tp : TotalProof G1),
      p.Convincing E α pp hb k κ path V amount ∧ tp.verify E pp (V 0) = some true ∧ tp.sum = total := by
  subst hL
  have hL2 : 2 ≤ path.length := hfit.depth
  have hF := fits_F_bound hfit
  have hfan : pp.fanout = F := hfit.fanout
  have hLb := fits_L_bound hfit
  have hpath : ∀ i < path.length, path.getD i 0 < F := by
    intro i hi
    rw [List.getD_eq_getElem?_getD, List.getElem?_eq_getElem hi, Option.getD_some]
    exact hlt _ (List.getElem_mem hi)
  obtain ⟨M, ⟨⟨j, -, hj, hMj⟩, hpad, -⟩, hM1, hM2⟩ := hfit.poe_size
  have hκ15 : κ ≤ 15 := by
    have : 2 ^ κ = 2 ^ j := by rw [← hκ, hM1, hMj]
    have := Nat.pow_right_injective (le_refl 2) this
    omega
  have hk15 : k ≤ 15 := by
    by_contra hc
    have : 2 ^ 16 ≤ 2 ^ k := Nat.pow_le_pow_right (by omega) (by omega)
    omega
  have hsmall : (1 : ℚ) / 2 ^ 230 < 1 := by norm_num
  have herr := C85_errors_small k path.length κ hk15 (by omega) (by omega)
  have hSF : pp.SAPP.F = pp.RPPP.F := Option.some_inj.1 (hfit.sa_F.symm.trans hfit.rp_F)
  have hSG : pp.SAPP.Gs = pp.RPPP.Gs := hfit.sa_Gs.trans hfit.rp_Gs.symm
  have hlenG : pp.RPPP.Gs.length = 2 ^ k := by
    rw [hfit.rp_Gs, hfit.PPPP, List.length_take, PP.new_G1s_length E α (F + 2) (by omega)]
    omega
  have hb1 : pp.SAPP.b = List.replicate (2 ^ k - 1) 1 ++ [-1] := by
    rw [hfit.sa_b, ← hk]; rfl
  -- range proofs
  have hR : ∀ i, ∃ p : RangeProver G1, i < path.length →
      ((p.wins (rangeGens pp.RPPP hb.Ur) k (V i)).ncard : ℚ) / rangeTotal k = 1 := by
    intro i
    by_cases hi : i < path.length
    · obtain ⟨p, hp⟩ := C84_honest_prover (rangeGens pp.RPPP hb.Ur) k (r i) (v i)
        (fun j hj => hv.small i hi j (by omega))
      exact ⟨p, fun _ => by rw [hV i]; exact hp⟩
    · obtain ⟨p, -⟩ := C84_honest_prover (rangeGens pp.RPPP hb.Ur) k 0 (fun _ => 0) (fun j hj => by simp)
      exact ⟨p, fun h => absurd h hi⟩
  choose rp hrp using hR
  -- sum argument
  have hVs : ∀ i < path.length, r i • pp.SAPP.F + dot ((List.range (2 ^ k)).map (v i)) pp.SAPP.Gs = V i := by
    intro i _
    rw [hV i, hSF, hSG, dot_eq_sum_range _ _ (2 ^ k) (by simp) hlenG]
    congr 1
    refine Finset.sum_congr rfl fun j hj => ?_
    rw [getD_map_range _ _ (Finset.mem_range.1 hj)]
  obtain ⟨sp, hs⟩ := C85_honest_sum_prover k path.length hb.xs r (fun i => (List.range (2 ^ k)).map (v i))
    pp.SAPP.F pp.SAPP.Gs pp.SAPP.H pp.SAPP.U (by rw [hSG, hlenG]) (by rw [hfit.sa_H, hk]) (fun i _ => by simp)
    (fun i hi => by
      rw [← hk]
      refine ⟨(List.range F).map (v i), v i F, by rw [List.range_succ, List.map_append]; rfl, ?_⟩
      rw [hv.balanced i hi, list_sum_range])
  have hsV : sp.wins k path.length hb.xs (List.replicate (2 ^ k - 1) 1 ++ [-1]) pp.SAPP.F pp.SAPP.Gs pp.SAPP.H pp.SAPP.U
        (fun i => r i • pp.SAPP.F + dot ((List.range (2 ^ k)).map (v i)) pp.SAPP.Gs)
      = sp.wins k path.length hb.xs pp.SAPP.b pp.SAPP.F pp.SAPP.Gs pp.SAPP.H pp.SAPP.U V := by
    have e : ∀ τ : Zr, ∑ i ∈ range path.length, τ ^ i • (r i • pp.SAPP.F + dot ((List.range (2 ^ k)).map (v i)) pp.SAPP.Gs)
        = ∑ i ∈ range path.length, τ ^ i • V i := fun τ => Finset.sum_congr rfl fun i hi => by
      rw [hVs i (Finset.mem_range.1 hi)]
    simp only [Sum.AggProver.wins, e, hb1]
  rw [hsV] at hs
  -- equalities
  have hop : ∀ (C : G1) (a : Zr) (I : ℕ), I < F + 2 → PP.verify E (PP.newPublicParams E α (F + 2)) a
      (α ^ (F + 2 - I) • C - (a * α ^ (F + 2 + 1)) • E.genG1) C I = some true := by
    intro C a I hI
    exact (C02_verify_iff E hE hn α (F + 2) _ _ _ I hI).2 rfl
  have hIJ : ∀ i < 2 ^ κ, (pathPairs pp.fanout path V).I i < F + 2 ∧ (pathPairs pp.fanout path V).J i < F + 2 := by
    intro i _
    unfold pathPairs
    dsimp only
    split
    · have := hpath i (by omega); omega
    · omega
  obtain ⟨ep, he⟩ := C85_honest_equality_prover E hE hn α (F + 2) κ (pathPairs pp.fanout path V) pp.POEPP.F pp.POEPP.G
    pp.POEPP.H hb.B hb.xe hIJ hκ (by rw [hM2, ← hM1, hκ]) (fun i => if i + 1 < path.length then v i (path.getD i 0) else 0)
    _ _ (fun i hi => hop _ _ _ (hIJ i hi).1) (fun i hi => hop _ _ _ (hIJ i hi).2)
  rw [← hfan] at he
  refine ⟨⟨rp, sp, ep, α ^ (F + 2 - path.getD (path.length - 1) 0) • V (path.length - 1)
    - (intToZr amount * α ^ (F + 2 + 1)) • E.genG1⟩, ⟨α ^ (F + 2 - F) • V 0 - (intToZr total * α ^ (F + 2 + 1)) • E.genG1, total⟩,
    ⟨fun i hi => ?_, ?_, ?_, ?_⟩, ?_, rfl⟩
  · rw [hrp i hi]
    exact (C84_error_small k hk15).trans hsmall
  · rw [hs]
    exact herr.1.trans hsmall
  · rw [he]
    exact herr.2.trans hsmall
  · rw [hfit.PPPP]
    exact hop _ _ _ (by have := hpath (path.length - 1) (by omega); omega)
  · rw [TotalProof.verify, hfan, hfit.PPPP]
    exact hop _ _ _ (by omega)

end PoL.Props

import Verif.Spec.LiabilityTranscripts
import Verif.Spec.PolParams
import Verif.Props.RangeSound
import Verif.Props.SumAggregated
import Verif.Props.PoeBatch
import Verif.Proofs.PolComplete

/-!
# Soundness of liability proofs: what follows from accepted transcripts, layer by layer
-/

set_option linter.unusedSectionVars false

namespace PoL.Pol

open Spec BP Finset

variable {G1 G2 GT : Type} [AddCommGroup G1] [Module Zr G1] [AddCommGroup G2] [Module Zr G2]
  [AddCommGroup GT] [Module Zr GT] [DecidableEq G1] [DecidableEq GT]

/-- Coefficients of the parameters in an opening of position `I` of `∑ w j·α^(j+1)·g1`, negated. -/
def ownOpening (N I : ℕ) (w : ℕ → Zr) (t : ℕ) : Zr := - ∑ j ∈ range N, if N - I + j = t then (if j = I then 0 else w j) else 0

theorem ownOpening_hidden (N I : ℕ) (hI : I < N) (w : ℕ → Zr) : ownOpening N I w N = 0 := by
  rw [ownOpening, neg_eq_zero]
  refine Finset.sum_eq_zero fun j _ => ?_
  by_cases h : N - I + j = N
  · rw [if_pos h, if_pos (by omega)]
  · rw [if_neg h]

/-- An accepted opening against the known contents of the commitment. -/
theorem ownOpening_spec (E : Curve G1 G2 GT) (hE : E.Lawful) (hn : E.NonDegenerate) (α : Zr) (N I : ℕ) (hI : I < N)
    (w : ℕ → Zr) (a : Zr) (π : G1)
    (h : PP.verify E (PP.newPublicParams E α N) a π (∑ j ∈ range N, w j • α ^ (j + 1) • E.genG1) I = some true) :
    ∑ t ∈ range (2 * N), ownOpening N I w t • α ^ (t + 1) • E.genG1 + π = (w I - a) • α ^ (N + 1) • E.genG1 := by
  rw [Props.C02_verify_iff E hE hn α N _ _ _ I hI] at h
  have e1 : ∑ t ∈ range (2 * N), ownOpening N I w t • α ^ (t + 1) • E.genG1
      = - ∑ j ∈ range N, (if j = I then 0 else w j) • α ^ (N - I + j + 1) • E.genG1 := by
    have : ∀ t ∈ range (2 * N), ownOpening N I w t • α ^ (t + 1) • E.genG1
        = - ∑ j ∈ range N, (if N - I + j = t then (if j = I then 0 else w j) • α ^ (N - I + j + 1) • E.genG1 else 0) := by
      intro t _
      rw [ownOpening, neg_smul, Finset.sum_smul]
      congr 1
      refine Finset.sum_congr rfl fun j _ => ?_
      by_cases h : N - I + j = t
      · rw [if_pos h, if_pos h, h]
      · rw [if_neg h, if_neg h, zero_smul]
    rw [Finset.sum_congr rfl this, Finset.sum_neg_distrib, Finset.sum_comm]
    congr 1
    refine Finset.sum_congr rfl fun j hj => ?_
    have hj := Finset.mem_range.1 hj
    rw [Finset.sum_ite_eq, if_pos (Finset.mem_range.2 (by omega))]
  have e2 : α ^ (N - I) • ∑ j ∈ range N, w j • α ^ (j + 1) • E.genG1
      = w I • α ^ (N + 1) • E.genG1 + ∑ j ∈ range N, (if j = I then 0 else w j) • α ^ (N - I + j + 1) • E.genG1 := by
    have : ∀ j ∈ range N, w j • α ^ (N - I + j + 1) • E.genG1
        = (if j = I then w I • α ^ (N + 1) • E.genG1 else 0) + (if j = I then 0 else w j) • α ^ (N - I + j + 1) • E.genG1 := by
      intro j _
      by_cases hj : j = I
      · subst hj
        rw [if_pos rfl, if_pos rfl, zero_smul, add_zero]
        congr 3
        omega
      · rw [if_neg hj, if_neg hj, zero_add]
    rw [Finset.smul_sum]
    have e3 : ∀ j ∈ range N, α ^ (N - I) • w j • α ^ (j + 1) • E.genG1 = w j • α ^ (N - I + j + 1) • E.genG1 := by
      intro j _
      rw [add_assoc, pow_add]
      module
    rw [Finset.sum_congr rfl e3, Finset.sum_congr rfl this, Finset.sum_add_distrib, Finset.sum_ite_eq',
      if_pos (Finset.mem_range.2 hI)]
  rw [e1, h, e2]
  module

/-- The facts about the contents `v i` of the layers of a path. -/
structure LayerFacts (F : ℕ) (path : List ℕ) (v : ℕ → ℕ → Zr) (amount total : ℤ) : Prop where
  small : ∀ i < path.length, ∀ j ≤ F, (v i j).val < 2 ^ 63
  balanced : ∀ i < path.length, v i F = ∑ j ∈ range F, v i j
  linked : ∀ i, i + 1 < path.length → v i (path.getD i 0) = v (i + 1) F
  leaf : v (path.length - 1) (path.getD (path.length - 1) 0) = intToZr amount
  total : v 0 F = intToZr total

theorem list_sum_range (v : ℕ → Zr) : ∀ n, ((List.range n).map v).sum = ∑ j ∈ range n, v j
  | 0 => by simp
  | n + 1 => by simp [List.range_succ, Finset.sum_range_succ, list_sum_range v n]

theorem balanced_iff_sum (F : ℕ) (v : ℕ → Zr) (h : Balanced ((List.range (F + 1)).map v)) : v F = ∑ j ∈ range F, v j := by
  obtain ⟨xs, s, h1, h2⟩ := h
  rw [List.range_succ, List.map_append, List.map_singleton] at h1
  obtain ⟨e1, e2⟩ := List.append_inj' h1 (by simp)
  have e2 : v F = s := by simpa using e2
  rw [e2, h2, ← e1, list_sum_range]

/-- The entries of a commitment with blinding factor. -/
def entries (F : ℕ) (o : Zr × (ℕ → Zr)) (j : ℕ) : Zr := if j = F + 1 then o.1 else o.2 j

/-- A comparison of an accepted opening with the contents of the commitment. -/
def compare (F I : ℕ) (o : Zr × (ℕ → Zr)) (a : Zr) (Ω : (ℕ → Zr) × (ℕ → Zr)) (leaf total : Zr) : OpeningRel :=
  ⟨entries F o I - a, ownOpening (F + 2) I (entries F o), Ω, leaf, total⟩

theorem combineΩ_zero (b₁ b₂ : Poe.BatchBranch G1) : Poe.combineΩ b₁ b₂ (fun _ => 0, fun _ => 0) = 0 := by
  simp [Poe.combineΩ]

theorem bases_eq {E : Curve G1 G2 GT} {α : Zr} {F L : ℕ} {pp : PublicParams G1 G2 GT} (h : Fits E α F L pp) (o : Zr × (ℕ → Zr)) :
    o.1 • pp.RPPP.F + ∑ i ∈ range (F + 1), o.2 i • pp.RPPP.Gs.getD i 0
      = ∑ j ∈ range (F + 2), entries F o j • α ^ (j + 1) • E.genG1 := by
  have hF : pp.RPPP.F = α ^ (F + 2) • E.genG1 := by
    have := h.rp_F
    rw [h.PPPP, PP.new_G1s_lt E α (F + 2) (by omega), Option.some_inj] at this
    exact this.symm
  have hG : ∀ i ∈ range (F + 1), o.2 i • pp.RPPP.Gs.getD i 0 = entries F o i • α ^ (i + 1) • E.genG1 := by
    intro i hi
    have hi := Finset.mem_range.1 hi
    rw [h.rp_Gs, List.getD_eq_getElem?_getD, List.getElem?_take_of_lt hi, h.PPPP, PP.new_G1s_lt E α (F + 2) (by omega),
      Option.getD_some, entries, if_neg (by omega)]
  rw [Finset.sum_range_succ _ (F + 1), Finset.sum_congr rfl hG, hF, entries, if_pos rfl, add_comm]

open Classical in
/-- All openings and findings for a path, given the tools of the three arguments. -/
theorem layer_facts :
    ∃ (ext : RTree Unit → Zr × (ℕ → Zr))
      (find : (k κ : ℕ) → (path : List ℕ) → (fanout : ℕ) → (xs xe : Zr) → (amount total : ℤ) → LiabilityTree Unit → Findings),
    ∀ (G1 G2 GT : Type) [AddCommGroup G1] [Module Zr G1] [AddCommGroup G2] [Module Zr G2]
      [AddCommGroup GT] [Module Zr GT] [DecidableEq G1] [DecidableEq GT] (E : Curve G1 G2 GT) (α : Zr) (F L k κ : ℕ)
      (pp : PublicParams G1 G2 GT) (hb : HashedBases G1) (path : List ℕ) (V : ℕ → G1) (amount : ℤ) (tp : TotalProof G1)
      (t : LiabilityTree G1),
      E.Lawful → E.NonDegenerate → Fits E α F L pp → F + 1 = 2 ^ k → pp.POEPP.G.length = 2 ^ κ → hb.xs ≠ 0 → hb.xe ≠ 0 →
      path.length = L → (∀ x ∈ path, x < F) → t.Accepted E α pp hb k κ path V amount → tp.verify E pp (V 0) = some true →
      (∀ i < L, V i = (ext (t.range i).scalars).1 • pp.RPPP.F
        + ∑ j ∈ range (2 ^ k), (ext (t.range i).scalars).2 j • (rangeGens pp.RPPP hb.Ur).Gs j) ∧
      (find k κ path F hb.xs hb.xe amount tp.sum t.scalars).Hold E α pp hb k κ t tp.liabilityProof ∧
      ((find k κ path F hb.xs hb.xe amount tp.sum t.scalars).Trivial k →
        LayerFacts F path (fun i => (ext (t.range i).scalars).2) amount tp.sum) := by
  obtain ⟨ext, rr, hR⟩ := Props.C18_range_proof_special_sound
  obtain ⟨rs, hS⟩ := Props.C66_aggregated_sum_special_sound
  obtain ⟨re, val, left, right, hE⟩ := Props.C67_batch_equality_special_sound
  refine ⟨ext, fun k κ path F xs xe amount total t =>
    { range := (List.range path.length).flatMap fun i => rr k (t.range i)
      sum := rs k path.length xs (fun i => (ext (t.range i)).1) (fun i => (List.range (2 ^ k)).map (ext (t.range i)).2)
        fun j => t.sum j
      eq := re κ xe t.eq₁ ++ re κ xe t.eq₂
      opening := if (∀ q ∈ re κ xe t.eq₁ ++ re κ xe t.eq₂, q.IsZero) then
          ((List.range (path.length - 1)).flatMap fun i =>
            [compare F (path.getD i 0) (ext (t.range i)) (val t.eq₁ t.eq₂ i) (left κ t.eq₁ t.eq₂ i) 0 0,
             compare F F (ext (t.range (i + 1))) (val t.eq₁ t.eq₂ i) (right κ t.eq₁ t.eq₂ i) 0 0]) ++
          [compare F (path.getD (path.length - 1) 0) (ext (t.range (path.length - 1))) (intToZr amount) (fun _ => 0, fun _ => 0) 1 0,
           compare F F (ext (t.range 0)) (intToZr total) (fun _ => 0, fun _ => 0) 0 1]
        else [] }, ?_⟩
  intro G1 G2 GT _ _ _ _ _ _ _ _ E α F L k κ pp hb path V amount tp t hE' hn hfit hk hκ hxs hxe hL hlt hacc htot
  subst hL
  have hL2 : 2 ≤ path.length := hfit.depth
  have hfan : pp.fanout = F := hfit.fanout
  have hpath : ∀ i < path.length, path.getD i 0 < F := by
    intro i hi
    rw [List.getD_eq_getElem?_getD, List.getElem?_eq_getElem hi, Option.getD_some]
    exact hlt _ (List.getElem_mem hi)
  have hV : ∀ i < path.length, V i = (ext (t.range i).scalars).1 • pp.RPPP.F
        + ∑ j ∈ range (2 ^ k), (ext (t.range i).scalars).2 j • (rangeGens pp.RPPP hb.Ur).Gs j := fun i hi =>
    (hR G1 k (rangeGens pp.RPPP hb.Ur) (V i) (t.range i) (hacc.range_wf i hi) (hacc.range i hi)).1
  have hV2 : ∀ i < path.length, V i = ∑ j ∈ range (F + 2), entries F (ext (t.range i).scalars) j • α ^ (j + 1) • E.genG1 := by
    intro i hi
    rw [← bases_eq hfit, hk]
    exact hV i hi
  -- the sum argument
  have hSF : pp.SAPP.F = pp.RPPP.F := Option.some_inj.1 (hfit.sa_F.symm.trans hfit.rp_F)
  have hSG : pp.SAPP.Gs = pp.RPPP.Gs := hfit.sa_Gs.trans hfit.rp_Gs.symm
  have hlenG : pp.RPPP.Gs.length = 2 ^ k := by
    rw [hfit.rp_Gs, hfit.PPPP, List.length_take, PP.new_G1s_length E α (F + 2) (by omega)]
    omega
  have hb1 : pp.SAPP.b = List.replicate (2 ^ k - 1) 1 ++ [-1] := by
    rw [hfit.sa_b, ← hk]; rfl
  have sumS := hS G1 k path.length hb.xs (fun i => (ext (t.range i).scalars).1)
    (fun i => (List.range (2 ^ k)).map (ext (t.range i).scalars).2) pp.SAPP.F pp.SAPP.Gs pp.SAPP.H pp.SAPP.U V (fun j => t.sum j)
    hxs (by rw [hSG, hlenG]) (by rw [hfit.sa_H, hk]) (fun i _ => by simp) (fun i hi => by
      rw [hV i hi, hSF, hSG, dot_eq_sum_range _ _ (2 ^ k) (by simp) hlenG]
      congr 1
      refine Finset.sum_congr rfl fun j hj => ?_
      rw [getD_map_range _ _ (Finset.mem_range.1 hj)]
      rfl) (fun i j hne => hacc.sum_distinct i i.isLt j j.isLt fun h => hne (Fin.ext h))
    (fun j => by rw [← hb1]; exact hacc.sum j j.isLt)
  -- the equality proof
  obtain ⟨M, -, hM1, hM2⟩ := hfit.poe_size
  have eqS := hE G1 G2 GT E α (pp.fanout + 2) κ (pathPairs pp.fanout path V) pp.POEPP.F pp.POEPP.G pp.POEPP.H hb.B hb.xe t.V' t.W'
    t.eq₁ t.eq₂ hE' hn (fun i hi => by
      unfold pathPairs
      dsimp only
      split
      · have := hpath i (by omega); omega
      · omega) hxe hκ (by rw [hM2, ← hM1, hκ]) hacc.eq_distinct hacc.eq₁ hacc.eq₂
  have hpad : path.length - 1 ≤ 2 ^ κ := by
    obtain ⟨M', hM', e1, -⟩ := hfit.poe_size
    rw [← hκ, e1]
    exact hM'.2.1
  -- comparisons of openings
  have cmp : ∀ (i I : ℕ) (a : Zr) (π : G1), i < path.length → I < F + 2 →
      PP.verify E pp.PPPP a π (V i) I = some true →
      ∑ j ∈ range (2 * (F + 2)), ownOpening (F + 2) I (entries F (ext (t.range i).scalars)) j • α ^ (j + 1) • E.genG1 + π
        = (entries F (ext (t.range i).scalars) I - a) • α ^ (F + 2 + 1) • E.genG1 := by
    intro i I a π hi hI hv
    rw [hfit.PPPP, hV2 i hi] at hv
    exact ownOpening_spec E hE' hn α (F + 2) I hI _ a π hv
  have hleaf := cmp (path.length - 1) (path.getD (path.length - 1) 0) (intToZr amount) t.π (by omega)
    (by have := hpath (path.length - 1) (by omega); omega) hacc.leaf
  have htotal := cmp 0 F (intToZr tp.sum) tp.liabilityProof (by omega) (by omega)
    (by have := htot; rw [TotalProof.verify, hfan] at this; exact this)
  have hopen : (∀ q ∈ re κ hb.xe t.eq₁.scalars ++ re κ hb.xe t.eq₂.scalars, q.IsZero) → ∀ i < path.length - 1,
      (compare F (path.getD i 0) (ext (t.range i).scalars) (val t.eq₁.scalars t.eq₂.scalars i) (left κ t.eq₁.scalars t.eq₂.scalars i) 0 0).Holds
        E α (F + 2) t tp.liabilityProof ∧
      (compare F F (ext (t.range (i + 1)).scalars) (val t.eq₁.scalars t.eq₂.scalars i) (right κ t.eq₁.scalars t.eq₂.scalars i) 0 0).Holds
        E α (F + 2) t tp.liabilityProof := by
    intro hz i hi
    have h2 := (eqS.2.resolve_left (fun ⟨q, hq, hnz⟩ => hnz (hz q hq))) i (by omega)
    unfold pathPairs at h2
    dsimp only at h2
    rw [if_pos (by omega), if_pos (by omega), if_pos (by omega), if_pos (by omega), hfan, ← hfit.PPPP] at h2
    have hp := hpath i (by omega)
    have c1 := cmp i _ _ _ (by omega) (by omega) h2.1
    have c2 := cmp (i + 1) _ _ _ (by omega) (by omega) h2.2
    refine ⟨⟨ownOpening_hidden _ _ (by omega) _, ?_⟩, ⟨ownOpening_hidden _ _ (by omega) _, ?_⟩⟩
    · simp only [compare, zero_smul, add_zero]
      exact c1
    · simp only [compare, zero_smul, add_zero]
      exact c2
  have hleafH : (compare F (path.getD (path.length - 1) 0) (ext (t.range (path.length - 1)).scalars) (intToZr amount)
      (fun _ => 0, fun _ => 0) 1 0).Holds E α (F + 2) t tp.liabilityProof := by
    refine ⟨ownOpening_hidden _ _ (by have := hpath (path.length - 1) (by omega); omega) _, ?_⟩
    simp only [compare, combineΩ_zero, zero_smul, add_zero, one_smul]
    exact hleaf
  have htotalH : (compare F F (ext (t.range 0).scalars) (intToZr tp.sum)
      (fun _ => 0, fun _ => 0) 0 1).Holds E α (F + 2) t tp.liabilityProof := by
    refine ⟨ownOpening_hidden _ _ (by omega) _, ?_⟩
    simp only [compare, combineΩ_zero, zero_smul, add_zero, one_smul]
    exact htotal
  refine ⟨hV, ⟨?_, ?_, ?_, ?_⟩, ?_⟩
  · intro q hq
    obtain ⟨i, hi, hq⟩ := List.mem_flatMap.1 hq
    have hi := List.mem_range.1 hi
    exact (hR G1 k (rangeGens pp.RPPP hb.Ur) (V i) (t.range i) (hacc.range_wf i hi) (hacc.range i hi)).2.1 q hq
  · exact sumS.1
  · exact eqS.1
  · intro q hq
    dsimp only at hq
    rw [hfan]
    split at hq
    · rename_i hz
      rcases List.mem_append.1 hq with hq | hq
      · obtain ⟨i, hi, hq⟩ := List.mem_flatMap.1 hq
        have hi := List.mem_range.1 hi
        simp only [List.mem_cons, List.not_mem_nil, or_false] at hq
        rcases hq with rfl | rfl
        · exact (hopen hz i hi).1
        · exact (hopen hz i hi).2
      · simp only [List.mem_cons, List.not_mem_nil, or_false] at hq
        rcases hq with rfl | rfl
        · exact hleafH
        · exact htotalH
    · simp at hq
  · intro htr
    have heq : ∀ q ∈ re κ hb.xe t.eq₁.scalars ++ re κ hb.xe t.eq₂.scalars, q.IsZero := htr.eq
    have hop := htr.opening
    dsimp only at hop
    rw [if_pos (show ∀ q ∈ re κ hb.xe t.scalars.eq₁ ++ re κ hb.xe t.scalars.eq₂, q.IsZero from heq)] at hop
    have ent : ∀ (o : Zr × (ℕ → Zr)) (j : ℕ), j ≤ F → entries F o j = o.2 j := fun o j hj => by
      rw [entries, if_neg (by omega)]
    constructor
    · intro i hi j hj
      have h := (hR G1 k (rangeGens pp.RPPP hb.Ur) (V i) (t.range i) (hacc.range_wf i hi) (hacc.range i hi)).2.2.resolve_left
        (fun ⟨q, hq, hnz⟩ => hnz (htr.range q (List.mem_flatMap.2 ⟨i, List.mem_range.2 hi, hq⟩)))
      exact h j (by omega)
    · intro i hi
      have h := sumS.2.resolve_left (fun ⟨q, hq, hnz⟩ => hnz (htr.sum q hq)) i hi
      rw [← hk] at h
      exact balanced_iff_sum F _ h
    · intro i hi
      have hp := hpath i (by omega)
      have h1 := hop _ (List.mem_append_left _ (List.mem_flatMap.2 ⟨i, List.mem_range.2 (by omega), List.mem_cons_self⟩))
      have h2 := hop _ (List.mem_append_left _ (List.mem_flatMap.2 ⟨i, List.mem_range.2 (by omega),
        List.mem_cons_of_mem _ List.mem_cons_self⟩))
      have h1 : entries F (ext (t.range i).scalars) (path.getD i 0) - val t.eq₁.scalars t.eq₂.scalars i = 0 := h1
      have h2 : entries F (ext (t.range (i + 1)).scalars) F - val t.eq₁.scalars t.eq₂.scalars i = 0 := h2
      rw [ent _ _ (by omega)] at h1 h2
      linear_combination h1 - h2
    · have hp := hpath (path.length - 1) (by omega)
      have h1 : entries F (ext (t.range (path.length - 1)).scalars) (path.getD (path.length - 1) 0) - intToZr amount = 0 :=
        hop _ (List.mem_append_right _ List.mem_cons_self)
      rw [ent _ _ (by omega)] at h1
      exact sub_eq_zero.1 h1
    · have h1 : entries F (ext (t.range 0).scalars) F - intToZr tp.sum = 0 :=
        hop _ (List.mem_append_right _ (List.mem_cons_of_mem _ List.mem_cons_self))
      rw [ent _ _ (by omega)] at h1
      exact sub_eq_zero.1 h1

end PoL.Pol

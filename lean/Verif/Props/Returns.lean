import Verif.Proofs.Returns
import Verif.Spec.Returns
import Verif.Props.Exact

/-! # C107: a proof is returned for every identifier that was written -/

set_option linter.unusedSectionVars false

namespace PoL.Props
open Spec BP PP Verkle Pol

variable {G1 G2 GT : Type} [AddCommGroup G1] [Module Zr G1] [AddCommGroup G2] [Module Zr G2]
  [AddCommGroup GT] [Module Zr GT] [DecidableEq G1] [DecidableEq GT]

/-- C107: after any writes, `ProveLiability` returns the amount last written and a proof with this amount, for every identifier that
was written to, whatever else was written and however often. -/
theorem C107_proof_is_returned {E : Curve G1 G2 GT} (hE : E.Lawful) {env : Env} (henv : env.Lawful)
    {α : Zr} {F L : ℕ} {ls ls' : LiabilitySet G1 G2 GT} (h : NewSet E α F L ls) (hist : List (Str × ℤ))
    (hids : ValidIds ls.tree.id2Path F L hist) (hr : ls.sets E env hist = some ls')
    (htot : totalAmount (byPath ls.tree.id2Path hist) < 2 ^ 63) (id : Str) (p : List ℕ)
    (hp : ls.tree.id2Path id = some p) (hw : p ∈ (byPath ls.tree.id2Path hist).map Prod.fst) (rnd : ProveRand)
    (hrnd : RandSized F L rnd) (hne : RangeChallengesNonzero E env ls' rnd id) :
    ∃ lp, ls'.proveLiability E env rnd id = some (some (latest (byPath ls.tree.id2Path hist) p, lp)) ∧
      lp.total.sum = latest (byPath ls.tree.id2Path hist) p := by
  have hL := h.pp.depth
  obtain ⟨hn, t, s, hputs, rfl⟩ := (sets_iff E env hist ls ls').1 hr
  obtain ⟨hpL, hlt⟩ := byPath_length hids p (List.mem_toFinset.2 hw)
  obtain ⟨vs, hget, hvsl, hvs⟩ := get_onPath hE henv h.tree (by omega) hist hids hputs id p hp hpL hw
  have : Nonempty (Verkle.Vertex G1) := ⟨⟨0, fun _ => none, fun _ => none, 0, 0, none⟩⟩
  choose! fx hx1 hx2 hx3 using hvs
  have hvseq : vs = (List.range L).map fx := by
    apply List.ext_getElem?
    intro i
    by_cases hi : i < L
    · rw [hx1 i hi]; simp [hi]
    · rw [List.getElem?_eq_none (by omega), List.getElem?_eq_none (by simp; omega)]
  subst hvseq
  have hfields := puts_fields' hputs
  have hpi : ∀ i < L, p.getD i 0 < F := by
    intro i hi
    rw [List.getD_eq_getElem?_getD, List.getElem?_eq_getElem (by omega)]
    exact hlt _ (List.getElem_mem _)
  have hread : ReadPath E α F L p fx (latest (byPath ls.tree.id2Path hist) p) := by
    refine ⟨fun i hi => ((hx3 i (by omega)).inner hi).2.1, ((hx3 (L - 1) (by omega)).leaf (by omega)).1, ?_, ?_⟩
    · intro i hi x hx
      rw [(hx3 i hi).values] at hx
      exact values_small hn htot _ x hx
    · have hlast : p.getLastD 0 = p.getD (L - 1) 0 := by
        rw [List.getLastD_eq_getLast?, List.getLast?_eq_getElem?, hpL, List.getD_eq_getElem?_getD]
      have htk : p.take (L - 1) ++ [p.getD (L - 1) 0] = p.take (L - 1 + 1) := by
        rw [List.getD_eq_getElem?_getD, List.getElem?_eq_getElem (by omega), Option.getD_some,
          List.take_append_getElem (by omega)]
      rw [(hx3 (L - 1) (by omega)).values, hlast, getD_map_range_append _ _ _ _ (hpi _ (by omega)), htk,
        Nat.sub_add_cancel (by omega), ← hpL, List.take_length, amountBelow_self hids p hpL]
  have h0 := latest_nonneg (byPath_nonneg hn (id2Path := ls.tree.id2Path)) p
  have h1 : latest (byPath ls.tree.id2Path hist) p < 2 ^ 63 := by
    rw [← amountBelow_self hids p hpL]
    exact lt_of_le_of_lt (amountBelow_le_total (byPath_nonneg hn) p) htot
  exact prove_returns hE h.pp { ls with tree := t, s := s }
    (by show t.PP = _; rw [hfields]; exact h.tree.pp) (by show t.fanOut = _; rw [hfields]; exact h.tree.fanOut) rfl id p
    (by show t.id2Path id = _; rw [hfields]; exact hp) hpL hlt fx _ _ hget hread h0 h1 rnd hrnd hne

/-- C107 with C47: where the last commitment has strayed, `ProveLiability` still returns the right amount with a proof, without an
error, and nobody accepts that proof, under no root. -/
theorem C107_returned_and_rejected {E : Curve G1 G2 GT} (hE : E.Lawful) (hnd : E.NonDegenerate) (hgen : E.genG1 ≠ 0) {env : Env}
    (henv : env.Lawful) {α : Zr} (hα : α ≠ 0) {F L : ℕ} {ls ls' : LiabilitySet G1 G2 GT} (h : NewSet E α F L ls)
    (hist : List (Str × ℤ)) (hids : ValidIds ls.tree.id2Path F L hist) (hr : ls.sets E env hist = some ls')
    (htot : totalAmount (byPath ls.tree.id2Path hist) < 2 ^ 63) (id : Str) (p : List ℕ)
    (hp : ls.tree.id2Path id = some p) (hw : p ∈ (byPath ls.tree.id2Path hist).map Prod.fst)
    (hdev : (deviation F (byPath ls.tree.id2Path hist) p.dropLast).eval α ≠ 0) (rnd : ProveRand)
    (hrnd : RandSized F L rnd) (hne : RangeChallengesNonzero E env ls' rnd id) :
    ∃ lp, ls'.proveLiability E env rnd id = some (some (latest (byPath ls.tree.id2Path hist) p, lp)) ∧
      ∀ V W, lp.verify E ls.pp id V W ls.tree.id2Path ≠ some true := by
  obtain ⟨lp, h1, -⟩ := C107_proof_is_returned hE henv h hist hids hr htot id p hp hw rnd hrnd hne
  exact ⟨lp, h1, (C47_verifies_iff hE hnd hgen henv hα h hist hids hr htot id p hp hw).2 hdev rnd _ lp h1⟩

/-- C107 for ordinary use: positive amounts for different identifiers, two of them in one lowest inner vertex.  For all trapdoors but at
most `F + 1`, each of the two gets a proof that nobody accepts. -/
theorem C107_neighbours_get_rejected_proofs (id2Path : Str → Option (List ℕ)) {F L : ℕ} (hF : 3 ≤ F) (hist : List (Str × ℤ))
    (hids : ValidIds id2Path F L hist) (hn : ∀ e ∈ hist, 0 < e.2)
    (hnodup : ((byPath id2Path hist).map Prod.fst).Nodup) (hsum : (hist.map Prod.snd).sum < 2 ^ 63) (id : Str) (p : List ℕ)
    (hp : id2Path id = some p) (hw : p ∈ (byPath id2Path hist).map Prod.fst)
    (htwo : 2 ≤ writesBelow (byPath id2Path hist) p.dropLast) :
    ∃ S : Finset Zr, S.card ≤ F + 1 ∧ ∀ α ∉ S, ∀ {E : Curve G1 G2 GT}, E.Lawful → E.NonDegenerate → E.genG1 ≠ 0 →
      ∀ {env : Env}, env.Lawful → ∀ {ls ls' : LiabilitySet G1 G2 GT}, NewSet E α F L ls → ls.tree.id2Path = id2Path →
        ls.sets E env hist = some ls' → ∀ rnd, RandSized F L rnd → RangeChallengesNonzero E env ls' rnd id →
          ∃ lp, ls'.proveLiability E env rnd id = some (some (latest (byPath id2Path hist) p, lp)) ∧
            ∀ V W, lp.verify E ls.pp id V W id2Path ≠ some true := by
  obtain ⟨S, hS, hall⟩ := C47_violated_generally (G1 := G1) (G2 := G2) (GT := GT) id2Path hF hist hids hn hnodup hsum id p hp hw htwo
  refine ⟨S, hS, fun α hα E hE hnd hgen env henv ls ls' h hid hr rnd hrnd hne => ?_⟩
  have htot : totalAmount (byPath id2Path hist) < 2 ^ 63 := by
    refine lt_of_le_of_lt ?_ hsum
    have := amountBelow_le_sum (h := byPath id2Path hist) (by
      intro e he
      obtain ⟨e', he', rfl⟩ := List.mem_map.1 he
      exact (hn e' he').le) hnodup []
    have e1 : amountBelow (byPath id2Path hist) [] = totalAmount (byPath id2Path hist) := by
      unfold amountBelow totalAmount
      congr 1
      ext q
      simp
    have e2 : (byPath id2Path hist).map Prod.snd = hist.map Prod.snd := by simp [byPath]
    rw [← e1, ← e2]
    exact this
  subst hid
  obtain ⟨lp, h1, -⟩ := C107_proof_is_returned hE henv h hist hids hr htot id p hp hw rnd hrnd hne
  exact ⟨lp, h1, hall α hα hE hnd hgen henv h rfl hr rnd _ lp h1⟩

/-! ## The hypotheses can be met -/

/-- For examples: `010` shares the lowest inner vertex of `012`. -/
def toyNeighbours : List (Str × ℤ) := [(['0', '1', '2'], 10), (['0', '1', '0'], 5), (['2', '2', '1'], 7)]

theorem toyNeighbours_valid : ValidIds toyTree.id2Path 3 3 toyNeighbours := by
  have hv : ∀ e ∈ toyNeighbours, (e.1.map fun ch => ch.toNat - 48).length = 3 ∧ ∀ x ∈ e.1.map fun ch => ch.toNat - 48, x < 3 := by
    decide
  exact fun e he => ⟨_, toyTree_path e.1, hv e he⟩

theorem toyNeighbours_deviation : (deviation 3 (byPath toyTree.id2Path toyNeighbours) [0, 1]).eval 2 ≠ 0 := by
  have hb : byPath toyTree.id2Path toyNeighbours = [([0, 1, 2], 10), ([0, 1, 0], 5), ([2, 2, 1], 7)] := by decide
  rw [hb]
  have h1 : pathsBelow [([0, 1, 2], (10 : ℤ)), ([0, 1, 0], 5)] [0, 1] = 2 := by decide
  have h2 : amountBelow [([0, 1, 2], 10), ([0, 1, 0], 5)] [0, 1] = 15 := by decide
  have h3 : latest [([0, 1, 2], 10)] ([0, 1] ++ [2]) = 10 := by decide
  have h4 : amountBelow [([0, 1, 2], 10)] [0, 1] = 10 := by decide
  have c0 : ¬ ((∃ e ∈ [([0, 1, 2], (10 : ℤ)), ([0, 1, 0], 5), ([2, 2, 1], 7)].take 2, [0, 1] <+: e.1) ∧
      ∃ e, [([0, 1, 2], (10 : ℤ)), ([0, 1, 0], 5), ([2, 2, 1], 7)][2]? = some e ∧ [0, 1] <+: e.1) := by simp
  have c1 : (∃ e ∈ [([0, 1, 2], (10 : ℤ)), ([0, 1, 0], 5), ([2, 2, 1], 7)].take 1, [0, 1] <+: e.1) ∧
      ∃ e, [([0, 1, 2], (10 : ℤ)), ([0, 1, 0], 5), ([2, 2, 1], 7)][1]? = some e ∧ [0, 1] <+: e.1 := by simp
  unfold deviation
  rw [show [([0, 1, 2], (10 : ℤ)), ([0, 1, 0], 5), ([2, 2, 1], 7)].length = 3 from rfl, Finset.sum_range_succ,
    Finset.sum_range_succ, Finset.sum_range_one, if_neg c0, if_pos c1, if_neg (by simp)]
  simp only [List.take_succ_cons, List.take_zero]
  unfold strayed
  rw [h1, h2, h3, h4]
  simp only [zero_add, add_zero, Polynomial.eval_sub, Polynomial.eval_mul, Polynomial.eval_C, Polynomial.eval_pow, Polynomial.eval_X]
  decide +kernel

/-- C107 applies to `012`, which has a neighbour: the proof comes back, and nobody accepts it. -/
example : ∃ (ls ls' : LiabilitySet Zr Zr Zr) (lp : LiabilityProof Zr), NewSet toyCurve 2 3 3 ls ∧
    ls.sets toyCurve toyEnv toyNeighbours = some ls' ∧
    ls'.proveLiability toyCurve toyEnv toyRand ['0', '1', '2'] = some (some (10, lp)) ∧
    ∀ V W, lp.verify toyCurve ls.pp ['0', '1', '2'] V W ls.tree.id2Path ≠ some true := by
  obtain ⟨ls, h, ht⟩ := toy_set
  have hv : ValidIds ls.tree.id2Path 3 3 toyNeighbours := by rw [ht]; exact toyNeighbours_valid
  obtain ⟨ls', hs⟩ := C43_sets_return toyCurve_lawful toyEnv_lawful h toyNeighbours hv (by decide)
  obtain ⟨lp, h1, h2⟩ := C107_returned_and_rejected toyCurve_lawful toyCurve_nonDegenerate (by exact one_ne_zero) toyEnv_lawful
    two_ne_zero_zr h toyNeighbours hv hs (by rw [ht]; decide) ['0', '1', '2'] [0, 1, 2] (by rw [ht]; rfl) (by rw [ht]; decide)
    (by rw [ht]; exact toyNeighbours_deviation) toyRand toyRand_sized (toy_challenges _ _ _).range
  have h10 : latest (byPath ls.tree.id2Path toyNeighbours) [0, 1, 2] = 10 := by rw [ht]; decide
  rw [h10] at h1
  exact ⟨ls, ls', lp, h, hs, h1, h2⟩

end PoL.Props

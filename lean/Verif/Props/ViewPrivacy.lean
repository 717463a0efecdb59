import Verif.Proofs.ViewPrivacy
import Verif.Props.RangePrivacy

/-! # C75: what clients see of a liability set does not depend on the amounts of others -/

set_option linter.unusedSectionVars false

namespace PoL.Props
open Spec BP PP Verkle Pol

variable {G1 G2 GT : Type} [AddCommGroup G1] [Module Zr G1] [AddCommGroup G2] [Module Zr G2]
  [AddCommGroup GT] [Module Zr GT] [DecidableEq G1] [DecidableEq GT]

/-- C75: take two histories that write the same identifiers in the same order, and any requests for liability proofs
by identifiers whose amounts agree.  Every view in which the requests are answered, that is, the root, the proof of the
total if the totals agree, and all the liability proofs, comes from equally many choices of the blinding factors and the
provers' random values for both histories.  `hw` excludes identifiers for which the proofs are not accepted anyway (C47);
`ho` excludes views in which a challenge that multiplies the masks is zero. -/
theorem C75_view_hides_other_amounts {E : Curve G1 G2 GT} (hE : E.Lawful) {env env' : Env} (henv : env.Lawful)
    (henv' : env'.Lawful) {α : Zr} (hα : α ≠ 0) (hg : E.genG1 ≠ 0) (hcyc : PrimeOrder G1) {F L : ℕ}
    {ls : LiabilitySet G1 G2 GT} (h : NewSet E α F L ls) (hH : ls.pp.RPPP.H ≠ 0) (hPF : ls.pp.POEPP.F ≠ 0)
    (hist hist' : List (Str × ℤ)) (hsame : hist.map Prod.fst = hist'.map Prod.fst) (hne : hist ≠ [])
    (hids : ValidIds ls.tree.id2Path F L hist) (hn : ∀ e ∈ hist, 0 ≤ e.2) (hn' : ∀ e ∈ hist', 0 ≤ e.2)
    (htot : totalAmount (byPath ls.tree.id2Path hist) < 2 ^ 63)
    (htot' : totalAmount (byPath ls.tree.id2Path hist') < 2 ^ 63) {k : ℕ} (ids : Fin k → Str) (withTotal : Bool)
    (hT : withTotal = true → totalAmount (byPath ls.tree.id2Path hist) = totalAmount (byPath ls.tree.id2Path hist'))
    (hmem : ∀ i, ids i ∈ hist.map Prod.fst)
    (hlat : ∀ i p, ls.tree.id2Path (ids i) = some p →
      latest (byPath ls.tree.id2Path hist) p = latest (byPath ls.tree.id2Path hist') p)
    (hw : ∀ i p, ls.tree.id2Path (ids i) = some p → writesBelow (byPath ls.tree.id2Path hist) p.dropLast = 1)
    (o : View G1 k)
    (ho : ∀ i p, ls.tree.id2Path (ids i) = some p →
      ∃ m lp, o.proofs i = some (some (m, lp)) ∧ MasksNonzero E ls.pp p lp) :
    EquallyLikely (fun r : (ℕ → Zr) × (Fin k → ProveRand) =>
        Blinding ls.s.tick (L * hist.length) r.1 ∧ ∀ i, Drawn F L (r.2 i))
      (observe E env ls hist ids withTotal) (observe E env' ls hist' ids withTotal) o :=
  view_likely hE henv henv' hα hg hcyc h (fun _ => hH) (fun _ => hPF) hist hist' hsame hne hids hn hn' htot htot' ids withTotal hT hmem hlat hw o ho

/-- C75 without requests: the root and the proof of the total tell nothing but the total. -/
theorem C75_root_hides_amounts {E : Curve G1 G2 GT} (hE : E.Lawful) {env env' : Env} (henv : env.Lawful)
    (henv' : env'.Lawful) {α : Zr} (hα : α ≠ 0) (hg : E.genG1 ≠ 0) (hcyc : PrimeOrder G1) {F L : ℕ}
    {ls : LiabilitySet G1 G2 GT} (h : NewSet E α F L ls)
    (hist hist' : List (Str × ℤ)) (hsame : hist.map Prod.fst = hist'.map Prod.fst) (hne : hist ≠ [])
    (hids : ValidIds ls.tree.id2Path F L hist) (hn : ∀ e ∈ hist, 0 ≤ e.2) (hn' : ∀ e ∈ hist', 0 ≤ e.2)
    (htot : totalAmount (byPath ls.tree.id2Path hist) < 2 ^ 63)
    (hT : totalAmount (byPath ls.tree.id2Path hist) = totalAmount (byPath ls.tree.id2Path hist')) (o : View G1 0) :
    EquallyLikely (fun r : (ℕ → Zr) × (Fin 0 → ProveRand) =>
        Blinding ls.s.tick (L * hist.length) r.1 ∧ ∀ i, Drawn F L (r.2 i))
      (observe E env ls hist Fin.elim0 true) (observe E env' ls hist' Fin.elim0 true) o :=
  view_likely hE henv henv' hα hg hcyc h (fun i => i.elim0) (fun i => i.elim0) hist hist' hsame hne hids hn hn' htot (hT ▸ htot) _ true
    (fun _ => hT) (fun i => i.elim0) (fun i => i.elim0) (fun i => i.elim0) o (fun i => i.elim0)

/-! ## The hypotheses can be met -/

/-- For examples: another history with the identifiers of `toyHist`; the total and the amount of `221` agree. -/
def toyHist' : List (Str × ℤ) :=
  [(['0', '1', '2'], 1), (['0', '1', '2'], 2), (['0', '1', '0'], 33), (['2', '2', '1'], 7)]

/-- For examples: the scalars drawn by the writes. -/
def toyBlinding (k : ℕ) : Zr := if k < 12 then ((k + 5 : ℕ) : Zr) else 0

/-- For examples: the scalars drawn by one run of `ProveLiability`. -/
def toyDrawn : ProveRand where
  range i := if i < 3 then toyRand.range i else ⟨[], 0, 0, 0, [], [], 0, 0⟩
  sum := toyRand.sum
  eq := toyRand.eq

theorem toyDrawn_drawn : Drawn 3 3 toyDrawn where
  range i hi := by
    have e : toyDrawn.range i = toyRand.range i := if_pos hi
    rw [e]
    exact toyRand_sized.range i hi
  unused i hi := if_neg (by omega)
  sum := toyRand_sized.sum
  eq := toyRand_sized.eq

theorem toy_masks {pp : PublicParams Zr Zr Zr} (h : Fits toyCurve 2 3 3 pp) (path : List ℕ) (hp : path.length = 3)
    (lp : LiabilityProof Zr) : MasksNonzero toyCurve pp path lp where
  range _ rp V _ _ := ⟨toyChallenge, toyChallenge, toyChallenge, toyChallenge, toy_fe, toyChallenge_ne, toy_fe, toy_fe, toy_fe,
    toyChallenge_ne⟩
  sum := ⟨_, toyChallenge, obind_step toy_fe rfl, toy_fe, toyChallenge_ne⟩
  eq := by
    obtain ⟨M, hM, -⟩ := padLoop_spec (m := path.length - 1) (by omega) (by omega)
    have hz : pp.PPPP.commit (List.replicate (pp.fanout + 2) 0) = some (PP.expo 2 (List.replicate 5 0) • toyCurve.genG1) := by
      rw [h.PPPP, h.fanout]
      exact PP.commit_eq toyCurve 2 5 _ (by simp) (by norm_num)
    refine ⟨_, M, _, toyChallenge, hz, hM, rfl, ?_, toyChallenge_ne⟩
    · show Poe.ro toyCurve _ _ _ 1 = _
      rw [Poe.ro, List.range_succ, List.range_zero, List.nil_append, List.mapM_cons, List.mapM_nil]
      exact obind_step toy_fe rfl

/-- C75 applies to the two histories and two requests by `221`, with a view that does come up. -/
example : ∃ (ls : LiabilitySet Zr Zr Zr) (r : (ℕ → Zr) × (Fin 2 → ProveRand)) (o : View Zr 2),
    (Blinding ls.s.tick (3 * toyHist.length) r.1 ∧ ∀ i, Drawn 3 3 (r.2 i)) ∧
    observe toyCurve toyEnv ls toyHist (fun _ => ['2', '2', '1']) true r = some o ∧
    EquallyLikely (fun r : (ℕ → Zr) × (Fin 2 → ProveRand) =>
        Blinding ls.s.tick (3 * toyHist.length) r.1 ∧ ∀ i, Drawn 3 3 (r.2 i))
      (observe toyCurve toyEnv ls toyHist (fun _ => ['2', '2', '1']) true)
      (observe toyCurve toyEnv ls toyHist' (fun _ => ['2', '2', '1']) true) o := by
  obtain ⟨pp, hpp1, hppH, hppF⟩ : ∃ pp, Fits toyCurve 2 3 3 pp ∧ pp.RPPP.H ≠ 0 ∧ pp.POEPP.F ≠ 0 := by
    obtain ⟨pp, hpp⟩ := toy_fits
    exact ⟨{ pp with RPPP := { pp.RPPP with H := 1 }, POEPP := { pp.POEPP with F := 1 } },
      ⟨hpp.1, hpp.2, hpp.3, hpp.4, hpp.5, hpp.6, hpp.7, hpp.8, hpp.9, hpp.10, hpp.11, hpp.12, hpp.13, hpp.14, hpp.15⟩,
      one_ne_zero, one_ne_zero⟩
  obtain ⟨ls, hls⟩ : ∃ ls : LiabilitySet Zr Zr Zr, ls = ⟨toyTree, pp, [], ⟨fun _ => [], 0⟩⟩ := ⟨_, rfl⟩
  have h : NewSet toyCurve 2 3 3 ls := by
    rw [hls]
    exact ⟨toyTree_new, hpp1, rfl⟩
  have ht : ls.tree = toyTree := by rw [hls]
  have hids : ValidIds ls.tree.id2Path 3 3 toyHist := by rw [ht]; exact toyHist_valid
  have h42 : totalAmount (byPath ls.tree.id2Path toyHist) = 42 := by rw [ht]; decide
  have h42' : totalAmount (byPath ls.tree.id2Path toyHist') = 42 := by rw [ht]; decide
  have hpath : ls.tree.id2Path ['2', '2', '1'] = some [2, 2, 1] := by rw [ht]; rfl
  have henv : Env.Lawful { toyEnv with rand := toyBlinding } :=
    ⟨toyEnv_lawful.1, toyEnv_lawful.2, toyEnv_lawful.3, toyEnv_lawful.4⟩
  obtain ⟨ls', hs⟩ := C43_sets_return toyCurve_lawful henv h toyHist hids (by decide)
  obtain ⟨lp, -, -, h1, -⟩ := C47_liability_proof_verifies_partial toyCurve_lawful henv h toyHist hids hs
    (by rw [h42]; norm_num) ['2', '2', '1'] [2, 2, 1] hpath (by rw [ht]; decide) (by rw [ht]; decide) toyDrawn
    ⟨toyDrawn_drawn.range, toyDrawn_drawn.sum, toyDrawn_drawn.eq⟩
    ⟨fun _ _ _ v rp ipaPP _ _ _ => toy_rangeChallenges_ne _ v.V rp ipaPP,
      fun _ _ _ => ⟨toy_sum_challenges _ _, toy_poe_challenges _ _⟩⟩
  obtain ⟨x, -, hroot⟩ := C46_first_call_partial toyCurve_lawful henv h toyHist (by decide) hids hs
  obtain ⟨tp, -, htp, -⟩ := C44_total_proof toyCurve_lawful henv h toyHist (by decide) hids hs (by rw [h42]; norm_num)
  refine ⟨ls, (toyBlinding, fun _ => toyDrawn), ⟨some (x.V, x.W), some tp,
    fun _ => some (some (latest (byPath ls.tree.id2Path toyHist) [2, 2, 1], lp))⟩, ⟨?_, fun _ => toyDrawn_drawn⟩, ?_, ?_⟩
  · intro k hk
    rw [hls] at hk
    exact if_neg (by simp [toyHist] at hk; omega)
  · unfold observe
    rw [hs, Option.bind_some, hroot, Option.bind_some]
    have e1 : LiabilitySet.proveTot toyCurve { ls' with memRoot := ls'.s.db [] } = some tp := htp
    simp only [if_true]
    rw [e1]
    show some _ = some _
    congr 2
    funext i
    exact h1
  · refine C75_view_hides_other_amounts toyCurve_lawful toyEnv_lawful toyEnv_lawful two_ne_zero_zr (by exact one_ne_zero)
      toy_primeOrder h (by rw [hls]; exact hppH) (by rw [hls]; exact hppF) toyHist toyHist' rfl (by decide) hids
      (by decide) (by decide) (by rw [h42]; norm_num) (by rw [h42']; norm_num) _ true (fun _ => by rw [h42, h42'])
      (fun _ => by decide) ?_ ?_ _ ?_
    · intro i p hp
      rw [hpath, Option.some.injEq] at hp
      rw [← hp, ht]; decide
    · intro i p hp
      rw [hpath, Option.some.injEq] at hp
      rw [← hp, ht]; decide
    · intro i p hp
      rw [hpath, Option.some.injEq] at hp
      exact ⟨_, _, rfl, toy_masks h.pp p (by rw [← hp]; rfl) lp⟩

end PoL.Props

import Verif.Props.PolParams

/-! # C105: a liability set opened on the database of an earlier one -/

set_option linter.unusedSectionVars false

namespace PoL.Props
open Spec BP PP Verkle Pol

variable {G1 G2 GT : Type} [AddCommGroup G1] [Module Zr G1] [AddCommGroup G2] [Module Zr G2]
  [AddCommGroup GT] [Module Zr GT] [DecidableEq G1] [DecidableEq GT]

/-- C105 is false: `NewLiabilitySet` with the database in which an earlier set was written, as after a restart.  Nothing
written before can be read or proved, and there is no root; `ProveTot` nevertheless returns the proof of the old total. -/
theorem C105_violated {E : Curve G1 G2 GT} (hE : E.Lawful) {env env' : Env} (henv : env.Lawful) (henv' : env'.Lawful)
    {α α' : Zr} {F L : ℕ} {ls ls1 : LiabilitySet G1 G2 GT} (h : NewSet E α F L ls) (hist : List (Str × ℤ)) (hne : hist ≠ [])
    (hids : ValidIds ls.tree.id2Path F L hist) (hr : ls.sets E env hist = some ls1)
    (htot : totalAmount (byPath ls.tree.id2Path hist) < 2 ^ 63) :
    let ls2 := newLiabilitySet E α' ls.pp ls1.s.db ls.tree.id2Path
    (∀ e ∈ hist, ls2.get E env' e.1 = some none ∧ ∀ rnd, ls2.proveLiability E env' rnd e.1 = some none) ∧
    ls2.root E = some (none, ls2) ∧
    ∃ tp, ls1.proveTot E = some tp ∧ ls2.proveTot E = some tp ∧ tp.sum = totalAmount (byPath ls.tree.id2Path hist) := by
  intro ls2
  obtain ⟨hns, hid, hpp⟩ := C54_new_set E α α' F L ls.pp h.pp ls1.s.db ls.tree.id2Path
  have hv : ValidIds ls2.tree.id2Path F L [] := fun e he => absurd he List.not_mem_nil
  refine ⟨fun e he => ?_, C46_empty E ls2 rfl, ?_⟩
  · obtain ⟨p, hp, hpL, -⟩ := hids e he
    exact ⟨C43_get_latest hE henv' hns [] hv rfl e.1 p (by rw [hid]; exact hp) hpL fun e he => absurd he List.not_mem_nil,
      fun rnd => C48_unknown_id_partial hns [] hv rfl e.1 p (by rw [hid]; exact hp) hpL
        (fun e he => absurd he List.not_mem_nil) rnd⟩
  · obtain ⟨tp, x, h1, h2, -⟩ := C44_total_proof hE henv h hist hne hids hr htot
    refine ⟨tp, h1, ?_, h2⟩
    obtain ⟨-, t, s, -, rfl⟩ := (sets_iff E env hist ls ls1).1 hr
    exact h1

/-- C105 is false: the first writes after the restart replace the root by one for these writes only.  The total proved is that
of the later writes, and the amounts of the identifiers not written again are gone. -/
theorem C105_first_writes_drop_the_rest {E : Curve G1 G2 GT} (hE : E.Lawful) {env env' : Env} (henv' : env'.Lawful)
    {α α' : Zr} {F L : ℕ} {ls ls1 : LiabilitySet G1 G2 GT} (h : NewSet E α F L ls) (hist hist2 : List (Str × ℤ))
    (hids : ValidIds ls.tree.id2Path F L hist) (_hr : ls.sets E env hist = some ls1)
    (hne2 : hist2 ≠ []) (hids2 : ValidIds ls.tree.id2Path F L hist2) (hn2 : ∀ e ∈ hist2, 0 ≤ e.2)
    (htot2 : totalAmount (byPath ls.tree.id2Path hist2) < 2 ^ 63) :
    ∃ ls3 tp x, (newLiabilitySet E α' ls.pp ls1.s.db ls.tree.id2Path).sets E env' hist2 = some ls3 ∧
      ls3.proveTot E = some tp ∧ tp.sum = totalAmount (byPath ls.tree.id2Path hist2) ∧
      Verkle.Vertex.fromBytes E (ls3.s.db []) = some x ∧ tp.verify E ls.pp x.V = some true ∧
      ∀ e ∈ hist, (∀ e' ∈ hist2, ls.tree.id2Path e'.1 ≠ ls.tree.id2Path e.1) →
        ls3.get E env' e.1 = some none ∧ ∀ rnd, ls3.proveLiability E env' rnd e.1 = some none := by
  obtain ⟨hns, hid, hpp⟩ := C54_new_set E α α' F L ls.pp h.pp ls1.s.db ls.tree.id2Path
  obtain ⟨ls3, hs⟩ := C43_sets_return hE henv' hns hist2 hids2 hn2
  obtain ⟨tp, x, h1, h2, h3, h4⟩ := C44_total_proof hE henv' hns hist2 hne2 hids2 hs htot2
  refine ⟨ls3, tp, x, hs, h1, h2, h3, h4, fun e he hd => ?_⟩
  obtain ⟨p, hp, hpL, -⟩ := hids e he
  refine ⟨?_, fun rnd => C48_unknown_id_partial hns hist2 hids2 hs e.1 p hp hpL (fun e' he' => by rw [hid, ← hp]; exact hd e' he') rnd⟩
  rw [C43_get_latest hE henv' hns hist2 hids2 hs e.1 p hp hpL fun e' he' h => absurd h (hd e' he')]
  have : lastPut hist2 e.1 = none := by
    unfold lastPut
    rw [Option.map_eq_none_iff, List.find?_eq_none]
    intro e' he' hc
    rw [List.mem_reverse] at he'
    exact hd e' he' (by rw [of_decide_eq_true hc])
  rw [this]

/-- C105 as far as it holds: what the database held before does no harm.  If after the restart everything that is wanted is written again,
the set gives back these amounts, proves their total, and its liability proofs are accepted.  What is missing: without writing
again, `C105_violated`. -/
theorem C105_written_again_partial {E : Curve G1 G2 GT} (hE : E.Lawful) {env' : Env} (henv' : env'.Lawful)
    {α α' : Zr} {F L : ℕ} {pp : PublicParams G1 G2 GT} (h : Fits E α F L pp) (db : Db) (id2Path : Str → Option (List ℕ))
    (hist : List (Str × ℤ)) (hne : hist ≠ []) (hids : ValidIds id2Path F L hist) (hn : ∀ e ∈ hist, 0 ≤ e.2)
    (htot : totalAmount (byPath id2Path hist) < 2 ^ 63)
    (hinj : ∀ e ∈ hist, ∀ e' ∈ hist, id2Path e.1 = id2Path e'.1 → e.1 = e'.1) :
    ∃ ls3 tp V W, (newLiabilitySet E α' pp db id2Path).sets E env' hist = some ls3 ∧
      (∀ e ∈ hist, ls3.get E env' e.1 = some (lastPut hist e.1)) ∧
      ls3.proveTot E = some tp ∧ tp.sum = totalAmount (byPath id2Path hist) ∧
      ls3.root E = some (some (V, some W), { ls3 with memRoot := ls3.s.db [] }) ∧ tp.verify E pp V = some true ∧
      ∀ e ∈ hist, ∀ p, id2Path e.1 = some p → writesBelow (byPath id2Path hist) p.dropLast = 1 →
        ∀ rnd, RandSized F L rnd → NonzeroChallenges E env' ls3 rnd e.1 →
        ∃ lp, ls3.proveLiability E env' rnd e.1 = some (some (latest (byPath id2Path hist) p, lp)) ∧
          lp.verify E pp e.1 V W id2Path = some true := by
  obtain ⟨hns, hid, hpp⟩ := C54_new_set E α α' F L pp h db id2Path
  obtain ⟨ls3, hs⟩ := C43_sets_return hE henv' hns hist hids hn
  obtain ⟨tp, x, h1, h2, h3, h4⟩ := C44_total_proof hE henv' hns hist hne hids hs htot
  obtain ⟨y, hy, hroot⟩ := C46_first_call_partial hE henv' hns hist hne hids hs
  rw [h3, Option.some.injEq] at hy
  subst hy
  obtain ⟨W, hW⟩ : ∃ W, x.W = some W := by
    obtain ⟨-, t, s, hputs, hls⟩ := (sets_iff E env' hist _ ls3).1 hs
    obtain ⟨z, hz, -, -, hW⟩ := root_onPath hE henv' hns.tree h.depth hist hne hids hputs
    have hdb : ls3.s.db = s.db := by rw [hls]
    rw [← hdb, h3, Option.some.injEq] at hz
    subst hz
    exact ⟨_, hW⟩
  rw [hW] at hroot
  refine ⟨ls3, tp, x.V, W, hs, fun e he => ?_, h1, h2, hroot, h4, fun e he p hp hone rnd hrnd hch => ?_⟩
  · obtain ⟨p, hp, hpL, -⟩ := hids e he
    exact C43_get_latest hE henv' hns hist hids hs e.1 p hp hpL fun e' he' => hinj e' he' e he
  · obtain ⟨lp, x', W', l1, -, l3, l4, l5⟩ := C47_liability_proof_verifies_partial hE henv' hns hist hids hs htot e.1 p hp
      (List.mem_map.2 ⟨(p, e.2), List.mem_map.2 ⟨e, he, by rw [hid, hp]; rfl⟩, rfl⟩) hone rnd hrnd hch
    rw [h3, Option.some.injEq] at l3
    subst l3
    rw [hW, Option.some.injEq] at l4
    subst l4
    exact ⟨lp, l1, l5⟩

/-! ## The hypotheses can be met -/

/-- The four writes of `toyHist` with total 42, a restart, and one write of 7 for `221`: the total proved now is 7, the
amount of `012` is gone. -/
example : ∃ (ls ls1 ls3 : LiabilitySet Zr Zr Zr) (tp1 tp2 tp3 : TotalProof Zr), ls.sets toyCurve toyEnv toyHist = some ls1 ∧
    ls1.proveTot toyCurve = some tp1 ∧ tp1.sum = 42 ∧ ls1.get toyCurve toyEnv ['0', '1', '2'] = some (some 30) ∧
    (newLiabilitySet toyCurve 5 ls.pp ls1.s.db ls.tree.id2Path).proveTot toyCurve = some tp2 ∧ tp2.sum = 42 ∧
    (newLiabilitySet toyCurve 5 ls.pp ls1.s.db ls.tree.id2Path).get toyCurve toyEnv ['0', '1', '2'] = some none ∧
    (newLiabilitySet toyCurve 5 ls.pp ls1.s.db ls.tree.id2Path).sets toyCurve toyEnv [(['2', '2', '1'], 7)] = some ls3 ∧
    ls3.proveTot toyCurve = some tp3 ∧ tp3.sum = 7 ∧ ls3.get toyCurve toyEnv ['0', '1', '2'] = some none := by
  obtain ⟨ls, h, ht⟩ := toy_set
  have hids : ValidIds ls.tree.id2Path 3 3 toyHist := by rw [ht]; exact toyHist_valid
  have hids2 : ValidIds ls.tree.id2Path 3 3 [(['2', '2', '1'], 7)] := by
    intro e he
    obtain rfl := List.mem_singleton.1 he
    rw [ht]
    exact ⟨[2, 2, 1], rfl, rfl, by decide⟩
  have h42 : totalAmount (byPath ls.tree.id2Path toyHist) = 42 := by rw [ht]; decide
  have h7 : totalAmount (byPath ls.tree.id2Path [(['2', '2', '1'], 7)]) = 7 := by rw [ht]; decide
  obtain ⟨ls1, hs⟩ := C43_sets_return toyCurve_lawful toyEnv_lawful h toyHist hids (by decide)
  have g := C43_get_latest toyCurve_lawful toyEnv_lawful h toyHist hids hs ['0', '1', '2'] [0, 1, 2] (by rw [ht]; rfl) rfl
    (by rw [ht]; decide)
  obtain ⟨v1, -, tp, v3, v4, v5⟩ := C105_violated (α' := 5) toyCurve_lawful toyEnv_lawful toyEnv_lawful h toyHist (by decide) hids hs
    (by rw [h42]; norm_num)
  obtain ⟨ls3, tp3, x, w1, w2, w3, -, -, w6⟩ := C105_first_writes_drop_the_rest (α' := 5) toyCurve_lawful toyEnv_lawful h
    toyHist _ hids hs (by decide) hids2 (by decide) (by rw [h7]; norm_num)
  have m : ((['0', '1', '2'], 10) : Str × ℤ) ∈ toyHist := by decide
  exact ⟨ls, ls1, ls3, tp, tp, tp3, hs, v3, by rw [v5, h42], g, v4, by rw [v5, h42], (v1 _ m).1, w1, w2, by rw [w3, h7],
    (w6 _ m (by rw [ht]; decide)).1⟩

end PoL.Props

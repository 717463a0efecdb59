import Verif.Proofs.PolVerify
import Verif.Props.Schedule

/-! # C129: what others can change in an accepted proof -/

set_option linter.unusedSectionVars false

namespace PoL.Props
open Spec BP PP Verkle Pol Poe

variable {G1 G2 GT : Type} [AddCommGroup G1] [Module Zr G1] [AddCommGroup G2] [Module Zr G2]
  [AddCommGroup GT] [Module Zr GT] [DecidableEq G1] [DecidableEq GT]

theorem pair_diff {E : Curve G1 G2 GT} (hE : E.Lawful) (hnd : E.NonDegenerate) (β m m' : Zr) {p p' : G1}
    (h : E.pair p' E.genG2 + m' • β • E.genGt = E.pair p E.genG2 + m • β • E.genGt) : p' - p = (m - m') • β • E.genG1 := by
  rw [← sub_eq_zero]
  apply hnd
  rw [map_sub, map_sub, LinearMap.sub_apply, LinearMap.sub_apply, map_smul, LinearMap.smul_apply, map_smul, LinearMap.smul_apply,
    ← hE.genGt_eq]
  linear_combination (norm := module) h

theorem opening_diff {E : Curve G1 G2 GT} (hE : E.Lawful) (hnd : E.NonDegenerate) (α : Zr) (N : ℕ) (m m' : Zr) (π π' C : G1) (i : ℕ)
    (h : (PP.newPublicParams E α N).verify E m π C i = some true) (h' : (PP.newPublicParams E α N).verify E m' π' C i = some true) :
    π' - π = (m - m') • α ^ (N + 1) • E.genG1 := by
  unfold PP.verify at h h'
  split_ifs at h h'
  obtain ⟨g2, hg, h⟩ := obind_elim h
  obtain ⟨g2', hg', h'⟩ := obind_elim h'
  rw [hg, Option.some.injEq] at hg'
  subst hg'
  rw [pairProd_singleton, pairProd_singleton] at h h'
  simp only [Option.bind_eq_bind, Option.bind_some, Option.pure_def, Option.some.injEq, decide_eq_true_eq] at h h'
  exact pair_diff hE hnd _ _ _ (h'.symm.trans h)

theorem aggregate_diff {E : Curve G1 G2 GT} (hE : E.Lawful) (hnd : E.NonDegenerate) (α : Zr) (N : ℕ) (is : List ℕ) (Cs : List G1)
    (π π' : G1) (sig sig' : Zr) (RO : PoL.PP G1 G2 GT → List G1 → ℕ → Option Zr)
    (h : (PP.newPublicParams E α N).verifyAggregation E is Cs π sig RO = some true)
    (h' : (PP.newPublicParams E α N).verifyAggregation E is Cs π' sig' RO = some true) :
    π' - π = (sig - sig') • α ^ (N + 1) • E.genG1 := by
  unfold PP.verifyAggregation at h h'
  obtain ⟨e, he, h⟩ := obind_elim h
  obtain ⟨g, hg, h⟩ := obind_elim h
  obtain ⟨m, hm, h⟩ := obind_elim h
  obtain ⟨l, hl, h⟩ := obind_elim h
  obtain ⟨e', he', h'⟩ := obind_elim h'
  obtain ⟨g', hg', h'⟩ := obind_elim h'
  obtain ⟨m', hm', h'⟩ := obind_elim h'
  obtain ⟨l', hl', h'⟩ := obind_elim h'
  obtain rfl := Option.some.inj (he.symm.trans he')
  obtain rfl := Option.some.inj (hg.symm.trans hg')
  obtain rfl := Option.some.inj (hm.symm.trans hm')
  obtain rfl := Option.some.inj (hl.symm.trans hl')
  rw [pairProd_singleton] at h h'
  simp only [Option.bind_eq_bind, Option.bind_some, Option.pure_def, Option.some.injEq, new_Gt] at h h'
  apply pair_diff hE hnd
  rw [add_comm, of_decide_eq_true h', ← of_decide_eq_true h, add_comm]

theorem equalities_diff {E : Curve G1 G2 GT} (hE : E.Lawful) (hnd : E.NonDegenerate) (α : Zr) (N : ℕ) (hN : 0 < N)
    (e : Equalities G1 G2 GT) (hvc : e.PP.vc = PP.newPublicParams E α N) (p p' : AggregatedProof G1) (r1 : p'.Vaggr = p.Vaggr)
    (r2 : p'.Waggr = p.Waggr) (r3 : p'.U = p.U) (r4 : p'.V = p.V) (h : e.verify E p = some true) (h' : e.verify E p' = some true) :
    p'.Ω - p.Ω = (p.c - p'.c) • α ^ (N + 1) • E.genG1 := by
  have key : ∀ q : AggregatedProof G1, e.verify E q = some true → ∃ x ts g2sV g2sW a1 a2 a3 a4 a5 a6 n1 n2 y,
      e.RO (q.Vaggr ++ q.Waggr ++ e.V ++ e.W) [] e.PP.digest 1 = some x ∧ x[0]? = some y ∧
      e.RO (q.Vaggr ++ q.Waggr ++ e.V ++ e.W ++ [q.U] ++ [q.V]) [] e.PP.digest (2 * e.V.length) = some ts ∧
      selectG2 e.PP e.I e.V.length = some g2sV ∧ selectG2 e.PP e.J e.V.length = some g2sW ∧
      Gv.add e.V (Gv.mul q.Vaggr y) = some a1 ∧ Vec.evens ts = some a2 ∧ Gv.mulV a1 a2 = some a3 ∧ pairProd E a3 g2sV = some n1 ∧
      Gv.add e.W (Gv.mul q.Waggr y) = some a4 ∧ Vec.odds ts = some a5 ∧ Gv.mulV a4 a5 = some a6 ∧ pairProd E a6 g2sW = some n2 ∧
      n1 + n2 = E.pair q.Ω E.genG2 + q.c • α ^ (N + 1) • E.genGt := by
    intro q hq
    unfold Equalities.verify Equalities.verifyState at hq
    rw [Option.map_eq_some_iff] at hq
    obtain ⟨r, hq, hr⟩ := hq
    obtain ⟨x, h1, hq⟩ := obind_elim hq
    obtain ⟨y, h2, hq⟩ := obind_elim hq
    obtain ⟨ts, h3, hq⟩ := obind_elim hq
    obtain ⟨gV, h4, hq⟩ := obind_elim hq
    obtain ⟨gW, h5, hq⟩ := obind_elim hq
    obtain ⟨a1, h6, hq⟩ := obind_elim hq
    obtain ⟨a2, h7, hq⟩ := obind_elim hq
    obtain ⟨a3, h8, hq⟩ := obind_elim hq
    obtain ⟨n1, h9, hq⟩ := obind_elim hq
    obtain ⟨a4, h10, hq⟩ := obind_elim hq
    obtain ⟨a5, h11, hq⟩ := obind_elim hq
    obtain ⟨a6, h12, hq⟩ := obind_elim hq
    obtain ⟨n2, h13, hq⟩ := obind_elim hq
    obtain ⟨d1, h14, hq⟩ := obind_elim hq
    obtain ⟨z, h15, hq⟩ := obind_elim hq
    obtain ⟨d2, h16, hq⟩ := obind_elim hq
    obtain ⟨d3, h17, hq⟩ := obind_elim hq
    rw [pairProd_singleton, Option.some.injEq] at h14 h17
    refine ⟨x, ts, gV, gW, a1, a2, a3, a4, a5, a6, n1, n2, y, h1, h2, h3, h4, h5, h6, h7, h8, h9, h10, h11, h12, h13, ?_⟩
    have hz : z = α • E.genG1 := by
      rw [hvc, new_G1s_lt E α N hN, Option.some.injEq] at h15
      simpa using h15.symm
    have hd : d2 = α ^ N • E.genG2 := by
      rw [hvc] at h16
      have hl := new_G2s_length E α N
      unfold fromEnd at h16
      rw [hl, if_pos (by omega), new_G2s_lt E α N (by omega), Option.some.injEq] at h16
      rw [← h16]
      congr 2
      omega
    have e3 : d3 = q.c • α ^ (N + 1) • E.genGt := by
      rw [← h17, hz, hd, hE.genGt_eq]
      simp only [map_smul, LinearMap.smul_apply]
      rw [pow_succ]
      module
    rw [h14, ← e3]
    by_contra hne
    rw [if_pos hne, Option.pure_def, Option.some.injEq] at hq
    rw [← hq] at hr
    exact nomatch hr
  obtain ⟨x, ts, gV, gW, a1, a2, a3, a4, a5, a6, n1, n2, y, h1, h2, h3, h4, h5, h6, h7, h8, h9, h10, h11, h12, h13, hf⟩ := key _ h
  obtain ⟨x', ts', gV', gW', b1, b2, b3, b4, b5, b6, k1, k2, y', g1, g2, g3, g4, g5, g6, g7, g8, g9, g10, g11, g12, g13, hf'⟩ := key _ h'
  rw [r1, r2] at g1
  rw [r1, r2, r3, r4] at g3
  rw [r1] at g6
  rw [r2] at g10
  obtain rfl := Option.some.inj (h1.symm.trans g1)
  obtain rfl := Option.some.inj (h2.symm.trans g2)
  obtain rfl := Option.some.inj (h3.symm.trans g3)
  obtain rfl := Option.some.inj (h4.symm.trans g4)
  obtain rfl := Option.some.inj (h5.symm.trans g5)
  obtain rfl := Option.some.inj (h6.symm.trans g6)
  obtain rfl := Option.some.inj (h7.symm.trans g7)
  obtain rfl := Option.some.inj (h8.symm.trans g8)
  obtain rfl := Option.some.inj (h9.symm.trans g9)
  obtain rfl := Option.some.inj (h10.symm.trans g10)
  obtain rfl := Option.some.inj (h11.symm.trans g11)
  obtain rfl := Option.some.inj (h12.symm.trans g12)
  obtain rfl := Option.some.inj (h13.symm.trans g13)
  exact pair_diff hE hnd _ _ _ (hf'.symm.trans hf)

/-- C129, what holds: of two accepted proofs for the same commitments, each point that is checked with a pairing (the aggregated
opening of the digests, the opening of the amount, and the opening in the equality proof) differs by the difference of the values opened,
times the point `α^(F+3)·g1` that the parameters leave out.  So these points cannot be changed while the values are kept, and whoever
changes a value has computed the missing point.  What is missing: everything in the proof that is not checked, see `C129_violated`. -/
theorem C129_changed_values_partial {E : Curve G1 G2 GT} (hE : E.Lawful) (hnd : E.NonDegenerate) {α : Zr} {F L : ℕ}
    {pp : PublicParams G1 G2 GT} (hf : Fits E α F L pp) (id : Str) (V W : G1) (id2path : Str → Option (List ℕ))
    (lp lp' : LiabilityProof G1) (hV : lp'.V = lp.V) (hW : lp'.W = lp.W) (h : lp.verify E pp id V W id2path = some true)
    (h' : lp'.verify E pp id V W id2path = some true) :
    lp'.pointProof - lp.pointProof = (lp.pointProofSum - lp'.pointProofSum) • α ^ (F + 3) • E.genG1 ∧
    lp'.total.liabilityProof - lp.total.liabilityProof = ((lp.total.sum : Zr) - lp'.total.sum) • α ^ (F + 3) • E.genG1 ∧
    (lp'.equalityProof.Vaggr = lp.equalityProof.Vaggr → lp'.equalityProof.Waggr = lp.equalityProof.Waggr →
      lp'.equalityProof.U = lp.equalityProof.U → lp'.equalityProof.V = lp.equalityProof.V →
      lp'.equalityProof.Ω - lp.equalityProof.Ω = (lp.equalityProof.c - lp'.equalityProof.c) • α ^ (F + 3) • E.genG1) := by
  obtain ⟨path, hp, hacc⟩ := (verify_iff E _ pp id V W id2path).1 h
  obtain ⟨path', hp', hacc'⟩ := (verify_iff E _ pp id V W id2path).1 h'
  obtain rfl := Option.some.inj (hp.symm.trans hp')
  refine ⟨?_, ?_, fun e1 e2 e3 e4 => ?_⟩
  · have a1 := hacc.point_proof
    have a2 := hacc'.point_proof
    rw [hf.PPPP] at a1 a2
    rw [hW] at a2
    exact aggregate_diff hE hnd α (F + 2) _ _ _ _ _ _ _ a1 a2
  · obtain ⟨C, i, h1, h2, h3⟩ := hacc.liability
    obtain ⟨C', i', h1', h2', h3'⟩ := hacc'.liability
    rw [hV] at h1'
    obtain rfl := Option.some.inj (h1.symm.trans h1')
    obtain rfl := Option.some.inj (h2.symm.trans h2')
    rw [hf.PPPP] at h3 h3'
    exact opening_diff hE hnd α (F + 2) _ _ _ _ _ _ h3 h3'
  · obtain ⟨z, m, h1, h2, h3⟩ := hacc.equalities
    obtain ⟨z', m', h1', h2', h3'⟩ := hacc'.equalities
    obtain rfl := Option.some.inj (h1.symm.trans h1')
    obtain rfl := Option.some.inj (h2.symm.trans h2')
    rw [hV] at h3'
    exact equalities_diff hE hnd α (F + 2) (by omega) _ (hf.poe_vc.trans hf.PPPP) _ _ e1 e2 e3 e4 h3 h3'

/-- C129 fails: the last digest of an accepted proof can be replaced by any other. -/
theorem C129_violated (E : Curve G1 G2 GT) (pp : PublicParams G1 G2 GT) (id : Str) (V W : G1) (id2path : Str → Option (List ℕ))
    (lp : LiabilityProof G1) (h : lp.verify E pp id V W id2path = some true) (d : Zr) :
    LiabilityProof.verify E { lp with digests := lp.digests.set (lp.digests.length - 1) d } pp id V W id2path = some true ∧
      (lp.digests.set (lp.digests.length - 1) d).getLast? = some d := by
  obtain ⟨path, hp, hacc⟩ := (verify_iff E _ pp id V W id2path).1 h
  have hW : 0 < lp.W.length := by
    rcases Nat.eq_zero_or_pos lp.W.length with h0 | h0
    · have := hacc.root_W
      rw [List.length_eq_zero_iff.1 h0] at this; simp at this
    · exact h0
  have h1 := hacc.len_W
  have h2 := hacc.len_digests
  refine ⟨(verify_iff E _ pp id V W id2path).2 ⟨path, hp, ?_⟩, ?_⟩
  · refine ⟨hacc.len_W, by simp [hacc.len_digests], hacc.len_V, hacc.root_V, hacc.root_W, hacc.range_proofs, fun i hi hi' => ?_, ?_,
      hacc.point_proof, hacc.sum_argument, hacc.equalities, hacc.liability⟩
    · obtain ⟨C, D, x, e1, e2, e3, e4⟩ := hacc.inner_digests i hi hi'
      refine ⟨C, D, x, e1, e2, ?_, e4⟩
      dsimp only
      rw [List.getElem?_set_ne (by omega)]
      exact e3
    · obtain ⟨C, x, e1, e2, e3⟩ := hacc.leaf_digest
      refine ⟨C, x, e1, ?_, e3⟩
      dsimp only
      rw [List.getElem?_set_ne (by omega)]
      exact e2
  · rw [List.getLast?_eq_getElem?, List.length_set, List.getElem?_set_self (by omega)]

/-- The hypotheses are met by the proof for `221` of the toy set, which has three digests; with another last digest it is another proof. -/
example : ∃ (pp : PublicParams Zr Zr Zr) (lp lp' : LiabilityProof Zr) (id2path : Str → Option (List ℕ)) (V W : Zr),
    Fits toyCurve 2 3 3 pp ∧ lp'.V = lp.V ∧ lp'.W = lp.W ∧ lp' ≠ lp ∧
    lp.verify toyCurve pp ['2', '2', '1'] V W id2path = some true ∧ lp'.verify toyCurve pp ['2', '2', '1'] V W id2path = some true := by
  obtain ⟨ls, ls', lp, V, W, hf, -, -, -, h⟩ := toy_accepted
  have key := fun d => C129_violated _ _ _ V W _ lp h d
  by_cases h0 : lp.digests.getLast? = some 0
  · refine ⟨ls.pp, lp, { lp with digests := lp.digests.set (lp.digests.length - 1) 1 }, _, V, W, hf, rfl, rfl, ?_, h, (key 1).1⟩
    intro he
    have := congrArg LiabilityProof.digests he
    have h1 := (key 1).2
    dsimp only at this
    rw [this, h0] at h1
    exact absurd (Option.some.inj h1) zero_ne_one
  · refine ⟨ls.pp, lp, { lp with digests := lp.digests.set (lp.digests.length - 1) 0 }, _, V, W, hf, rfl, rfl, ?_, h, (key 0).1⟩
    intro he
    have := congrArg LiabilityProof.digests he
    have h1 := (key 0).2
    dsimp only at this
    rw [this] at h1
    exact h0 h1

end PoL.Props

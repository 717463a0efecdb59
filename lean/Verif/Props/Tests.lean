import Verif.Proofs.Tests
import Verif.Props.PolParams
import Verif.Props.PointProofs
import Verif.Props.InnerProd
import Verif.Props.IterReduce
import Verif.Props.Range
import Verif.Props.Poe
import Verif.Props.Sum
import Verif.Props.Vectors
import Verif.Props.Sparse
import Verif.Props.Verkle
import Verif.Props.Exact
import Verif.Props.Stream

/-!
# The tests of the repository pass whatever they draw (C94)
-/

set_option linter.unusedSectionVars false

namespace PoL.Props
open Spec BP Tests Pol Verkle

variable {G1 G2 GT : Type} [AddCommGroup G1] [Module Zr G1] [AddCommGroup G2] [Module Zr G2]
  [AddCommGroup GT] [Module Zr GT] [DecidableEq G1] [DecidableEq GT]

/-! ## `pp` -/

/-- `TestPointProofCommitment` passes for all secrets and all 128 scalars drawn. -/
theorem C94_point_proof_commitment (E : Curve G1 G2 GT) (hE : E.Lawful) (α : Zr) (m : List Zr) (hm : m.length = 128) :
    testPointProofCommitment E α m = some true := by
  obtain ⟨C, -, -, hC, -⟩ := C01_opening_verifies E hE α 128 (by norm_num) m hm 0 (by norm_num)
  refine obind_step hC (forAll_true _ _ fun i hi => ?_)
  obtain ⟨C', mi, π, hC', ho, -, hv⟩ := C01_opening_verifies E hE α 128 (by norm_num) m hm i (List.mem_range.1 hi)
  rw [hC, Option.some.injEq] at hC'
  subst hC'
  exact obind_step ho hv

/-- `TestUpdate` "updates" every entry to the value it already has: it passes for every function in place of
`Update` that leaves the commitment alone in this case. -/
theorem C94_update_of_no_change (E : Curve G1 G2 GT) (hE : E.Lawful)
    (upd : PP G1 G2 GT → G1 → List Zr → Zr → ℕ → Option G1) (α : Zr) (m : List Zr) (hm : m.length = 128) (x : Zr)
    (hupd : ∀ C mi i, i < 128 → m[i]? = some mi → upd (PP.newPublicParams E α 128) C m mi i = some C) :
    testUpdate E upd α m x = some true := by
  obtain ⟨C, -, -, hC, -⟩ := C01_opening_verifies E hE α 128 (by norm_num) m hm 0 (by norm_num)
  refine obind_step hC (obind_step (forAllState_inv _ _ _ fun i hi => ?_) rfl)
  have hi' : i < 128 := List.mem_range.1 hi
  obtain ⟨C', mi, π, hC', ho, hmi, hv⟩ := C01_opening_verifies E hE α 128 (by norm_num) m hm i hi'
  rw [hC, Option.some.injEq] at hC'
  subst hC'
  have h2 : (m ++ [x])[i]? = some mi := by rw [List.getElem?_append_left (by omega), hmi]
  have hset : m.set i mi = m := by
    apply List.ext_getElem?
    intro j
    rw [List.getElem?_set]
    split
    · next h => subst h; rw [if_pos (by omega), hmi]
    · rfl
  dsimp only
  rw [h2]
  refine obind_step rfl (obind_step (hupd C mi i hi' hmi) (obind_step rfl ?_))
  rw [hset]
  refine obind_step ho ?_
  exact obind_step rfl (obind_step hv rfl)

/-- `TestUpdate` passes for all secrets and all scalars drawn. -/
theorem C94_update (E : Curve G1 G2 GT) (hE : E.Lawful) (α : Zr) (m : List Zr) (hm : m.length = 128) (x : Zr) :
    testUpdate E PP.update α m x = some true := by
  refine C94_update_of_no_change E hE _ α m hm x fun C mi i hi hmi => ?_
  have hg : i < (PP.newPublicParams E α 128).G1s.length := by rw [PP.new_G1s_length E α 128 (by norm_num)]; omega
  unfold PP.update
  rw [List.getElem?_eq_getElem hg, hmi]
  show some _ = some C
  congr 1
  abel

/-- In particular `TestUpdate` passes if `Update` does nothing at all. -/
theorem C94_update_blind (E : Curve G1 G2 GT) (hE : E.Lawful) (α : Zr) (m : List Zr) (hm : m.length = 128) (x : Zr) :
    testUpdate E (fun _ C _ _ _ => some C) α m x = some true :=
  C94_update_of_no_change E hE _ α m hm x fun _ _ _ _ _ => rfl

/-- `TestAggregation` passes for all secrets and all scalars drawn. -/
theorem C94_aggregation (E : Curve G1 G2 GT) (hE : E.Lawful) (α : Zr) (m1 m2 : List Zr) (h1 : m1.length = 8)
    (h2 : m2.length = 8) : testAggregation E α m1 m2 = some true := by
  obtain ⟨C1, a1, π1, hC1, ho1, -, hv1⟩ := C01_opening_verifies E hE α 8 (by norm_num) m1 h1 0 (by norm_num)
  obtain ⟨C2, a2, π2, hC2, ho2, -, hv2⟩ := C01_opening_verifies E hE α 8 (by norm_num) m2 h2 0 (by norm_num)
  have hro : ∀ cs k, ∃ t, PP.ro E (PP.newPublicParams E α 8) cs k = some t := fun cs k =>
    fieldElementFromBytes_isSome (hE.sha_len _)
  obtain ⟨Cs, opens, ts, π, e1, e2, -, e4, e5, e6⟩ := C07_aggregation_verifies E hE α 8 (by norm_num) (PP.ro E)
    [(m1, 0), (m2, 0)] (by simp) (by simp [h1, h2]) fun cs k _ => hro cs k
  have e1' : Cs = [C1, C2] := by
    simp only [List.mapM_cons, List.mapM_nil, hC1, hC2, Option.bind_eq_bind, Option.bind_some, Option.pure_def,
      Option.some.injEq] at e1
    exact e1.symm
  have e2' : opens = [(a1, π1), (a2, π2)] := by
    simp only [List.mapM_cons, List.mapM_nil, ho1, ho2, Option.bind_eq_bind, Option.bind_some, Option.pure_def,
      Option.some.injEq] at e2
    exact e2.symm
  subst e1' e2'
  obtain ⟨t0, ht0⟩ := hro [C1, C2] 0
  obtain ⟨t1, ht1⟩ := hro [C1, C2] 1
  have e4' : ts = [t0, t1] := by
    have hr : List.range [(m1, 0), (m2, 0)].length = [0, 1] := rfl
    rw [hr] at e4
    simp only [List.mapM_cons, List.mapM_nil, ht0, ht1, Option.bind_eq_bind, Option.bind_some, Option.pure_def,
      Option.some.injEq] at e4
    exact e4.symm
  subst e4'
  refine obind_step hC1 (obind_step hC2 (forAll_true _ _ fun i hi => ?_))
  obtain rfl : i = 0 := by simpa using hi
  refine obind_step ho1 (obind_step hv1 (obind_step ho2 (obind_step hv2 (obind_step e5 ?_))))
  refine obind_step ht0 (obind_step ht1 (obind_step (Vec.innerProd_eq rfl) ?_))
  refine obind_step (a := true) ?_ rfl
  rw [dot_comm]
  exact e6

/-! ## `bp` -/

theorem newPP_sized (E : Curve G1 G2 GT) (n : ℕ) : ∃ pp, BP.newPublicParams E n = some pp ∧ pp.G.length = n ∧
    pp.H.length = n := by
  obtain ⟨U, hU⟩ := randGenVec_zero E "u"
  obtain ⟨d, hd⟩ := setupDigest_isSome E
    { digest := [], G := randGenVec E n "g", H := randGenVec E n "h", U := U } (Or.inr (by simp [randGenVec]))
  exact ⟨_, obind_step hU hd, by simp [randGenVec], by simp [randGenVec]⟩

/-- `TestInnerProdArgument` passes for all vectors drawn, if no challenge of the proof is zero. -/
theorem C94_inner_prod_argument (E : Curve G1 G2 GT) (hE : E.Lawful) (a b : List Zr) (ha : a.length = 8)
    (hb : b.length = 8)
    (hne : ∀ pp ipa π, BP.newPublicParams E 8 = some pp → newInnerProdArgument pp a b = some ipa →
      ipa.prove E = some π → ∀ x ∈ ippChallenges E pp π, x ≠ 0) :
    testInnerProdArgument E a b = some true := by
  obtain ⟨pp, hpp, hG, hH⟩ := newPP_sized E 8
  obtain ⟨ipa, π, h1, -, -, h2, -, -, h3⟩ := C09_inner_product_complete E hE pp 3 a b ha hb hG hH
  exact obind_step hpp (obind_step h1 (obind_step h2 (h3 (hne pp ipa π hpp h1 h2))))

/-- `TestIterativeReduce` passes for all vectors drawn. -/
theorem C94_iterative_reduce (E : Curve G1 G2 GT) (hE : E.Lawful) (v : List Zr) (hv : v.length = 128) :
    testIterativeReduce E v = some true := by
  obtain ⟨pp, hpp, hG, -⟩ := newPP_sized E 128
  obtain ⟨d, hd⟩ := setupDigest_isSome E { pp with H := [] } (Or.inl rfl)
  obtain ⟨q1, q2⟩ := gv_mulV_sum hG hv (by norm_num)
  obtain ⟨Δ, xs, u, h1, h2, h3⟩ := C14_reduced_value_is_multilinear E hE { pp with H := [], digest := d } 7 (by norm_num)
    (by norm_num) v (dot v pp.G) hG hv
  obtain ⟨f, f1, f2, -, f4⟩ := C14_f_vector xs.reverse (by intro hc; simp at hc; simp [hc] at h2) v (by simp [h2, hv])
  have hl : 2 ^ xs.reverse.length = 128 := by simp [h2]
  rw [hl] at f1 f2
  refine obind_step hpp (obind_step hd (obind_step q1 (obind_step q2 (obind_step h1 (obind_step f1 ?_)))))
  refine obind_step (Vec.innerProd_eq (hv.trans f2.symm)) ?_
  rw [h3, f4]
  simp

/-- `TestRangeProof` passes for all scalars drawn, if no challenge of the proof is zero. -/
theorem C94_range_proof (E : Curve G1 G2 GT) (hE : E.Lawful) (r : Zr) (rnd : RangeRand) (hrnd : rnd.WellFormed 8)
    (hne : ∀ pp V rp ipaPP, newRangeProofPublicParams E 8 = some pp →
      proveRangeUnchecked E pp rnd V (List.replicate 8 (intToZr 100)) r = some (rp, ipaPP) →
      ∀ x ∈ rangeChallenges E pp V rp ipaPP, x ≠ 0) :
    testRangeProof E r rnd = some true := by
  obtain ⟨pp, hpp, hGs, hHs, hFs⟩ := C16_new_params_sizes E 8
  have lv : (List.replicate 8 (intToZr 100)).length = 8 := by simp
  obtain ⟨q1, q2⟩ := gv_mulV_sum hGs lv (by norm_num)
  obtain ⟨rp, ipaPP, h1, h2⟩ := C16_range_proof_complete E hE pp 3 (by norm_num) (by norm_num) hGs hHs hFs rnd hrnd
    (List.replicate 8 (intToZr 100)) lv (by
      intro x hx
      rw [List.eq_of_mem_replicate hx]
      have : (intToZr 100).val = 100 := by decide +kernel
      rw [this]; norm_num) r _ rfl
  obtain ⟨h3, h4⟩ := h2 (hne pp _ rp ipaPP hpp h1)
  exact obind_step hpp (obind_step q1 (obind_step q2 (obind_step h3 h4)))

/-! ## `poe` -/

theorem randIndex_lt (b0 b1 : UInt8) {n : ℕ} (h : 0 < n) : randIndex b0 b1 n < n := Nat.mod_lt _ h

/-- The vectors drawn have the length `RandVec(n)` gives them. -/
def EqDrawSized (n : ℕ) (d : EqDraw) : Prop := d.v.length = n ∧ d.w.length = n

theorem eqDraw_spec {n : ℕ} (hn : 2 ≤ n) {d : EqDraw} (hd : EqDrawSized n d) :
    ∃ v, d.v' n = some v ∧ v.length = n ∧ d.i n < n - 1 ∧ d.j n < n - 1 ∧ v[d.i n]? = d.w[d.j n]? := by
  have hi : d.i n < n - 1 := randIndex_lt _ _ (by omega)
  have hj : d.j n < n - 1 := randIndex_lt _ _ (by omega)
  have hjw : d.w[d.j n]? = some (d.w[d.j n]'(by rw [hd.2]; omega)) := List.getElem?_eq_getElem _
  refine ⟨d.v.set (d.i n) (d.w[d.j n]'(by rw [hd.2]; omega)), ?_, by simp [hd.1], hi, hj, ?_⟩
  · refine obind_step hjw ?_
    rw [if_pos (by rw [hd.1]; omega)]
    rfl
  · rw [hjw, List.getElem?_set_self (by rw [hd.1]; omega)]

/-- `TestProofOfEquality` passes for all secrets, vectors, positions and scalars drawn. -/
theorem C94_equality (E : Curve G1 G2 GT) (hE : E.Lawful) (rounds : List (Zr × EqDraw × Zr × Zr × Zr))
    (hs : ∀ q ∈ rounds, EqDrawSized 64 q.2.1) : testProofOfEquality E rounds = some true := by
  refine forAll_true _ _ ?_
  rintro ⟨α, d, u, η, ν⟩ hq
  have hd := hs _ hq
  obtain ⟨pp, hpp, hvc, -, -⟩ := C24_new_params E α 64 1
  obtain ⟨v, hv, lv, hi, hj, he⟩ := eqDraw_spec (by norm_num) hd
  obtain ⟨V, -, -, hV, -⟩ := C01_opening_verifies E hE α 64 (by norm_num) v lv 0 (by norm_num)
  obtain ⟨W, -, -, hW, -⟩ := C01_opening_verifies E hE α 64 (by norm_num) d.w hd.2 0 (by norm_num)
  rw [← hvc] at hV hW
  obtain ⟨p, h1, h2⟩ := C26_equality_complete E
    { RO := Poe.ro E, PP := pp, W := W, V := V, I := d.i 64, J := d.j 64 } α 64 (by norm_num) hvc
    (C24_ro_total E hE) v d.w hV hW hi hj he u η ν
  exact obind_step hpp (obind_step hv (obind_step hV (obind_step hW (obind_step h1 h2))))

/-- `TestProofOfEqualities` passes for all secrets, vectors, positions and scalars drawn, if no challenge of the proof
is zero. -/
theorem C94_equalities (E : Curve G1 G2 GT) (hE : E.Lawful) (α : Zr) (ds : List EqDraw) (hl : ds.length = 128)
    (hs : ∀ d ∈ ds, EqDrawSized 32 d) (rnd : Poe.EqsRand) (hrnd : rnd.uην.length = 128)
    (hne : ∀ (e : Poe.Equalities G1 G2 GT) vs ws p, Poe.newPublicParams E α 32 128 = some e.PP →
      e.prove E rnd vs ws = some p → ∀ y ∈ p.challenges E e.PP, y ≠ 0) :
    testProofOfEqualities E α ds rnd = some true := by
  obtain ⟨pp, hpp, hvc, hG, hH⟩ := C24_new_params E α 32 128
  have hvs := mapM_total (fun d : EqDraw => d.v' 32) (fun d => (d.v' 32).getD []) ds fun d hd => by
    obtain ⟨v, hv, -⟩ := eqDraw_spec (by norm_num) (hs d hd)
    rw [hv]; rfl
  have hcommit : ∀ v : List Zr, v.length = 32 → pp.vc.commit v = some ((pp.vc.commit v).getD 0) := fun v hv => by
    obtain ⟨V, -, -, hV, -⟩ := C01_opening_verifies E hE α 32 (by norm_num) v hv 0 (by norm_num)
    rw [hvc, hV]; rfl
  have hvl : ∀ v ∈ ds.map (fun d => (d.v' 32).getD []), v.length = 32 := by
    intro v hv
    obtain ⟨d, hd, rfl⟩ := List.mem_map.1 hv
    obtain ⟨v, hv, lv, -⟩ := eqDraw_spec (by norm_num) (hs d hd)
    rw [hv]; exact lv
  have hVs := mapM_total (fun v => pp.vc.commit v) (fun v => (pp.vc.commit v).getD 0) _ fun v hv => hcommit v (hvl v hv)
  have hWs := mapM_total (fun v => pp.vc.commit v) (fun v => (pp.vc.commit v).getD 0) (ds.map EqDraw.w) fun w hw => by
    obtain ⟨d, hd, rfl⟩ := List.mem_map.1 hw
    exact hcommit _ (hs d hd).2
  let e : Poe.Equalities G1 G2 GT :=
    { RO := Poe.ro E, PP := pp
      W := (ds.map EqDraw.w).map fun v => (pp.vc.commit v).getD 0
      V := (ds.map fun d => (d.v' 32).getD []).map fun v => (pp.vc.commit v).getD 0
      I := ds.map fun d => d.i 32, J := ds.map fun d => d.j 32 }
  obtain ⟨p, h1, h2⟩ := C24_batch_equality_complete E hE e α 32 7 (by norm_num) (ds.map fun d => (d.v' 32).getD [])
    (ds.map EqDraw.w) ⟨hvc, hG, hH, C24_ro_total E hE, by simp [hl], by simp [hl], hVs, hWs, by simp [e, hl],
      by simp [e, hl], by
        intro i hi
        obtain ⟨d, hd, rfl⟩ := List.mem_map.1 hi
        exact randIndex_lt _ _ (by norm_num), by
        intro i hi
        obtain ⟨d, hd, rfl⟩ := List.mem_map.1 hi
        exact randIndex_lt _ _ (by norm_num)⟩ (by
      intro k hk
      have hk' : k < ds.length := by rw [hl]; exact hk
      obtain ⟨v, hv, -, -, -, he⟩ := eqDraw_spec (by norm_num) (hs ds[k] (List.getElem_mem hk'))
      simp only [e, List.getD_eq_getElem?_getD, List.getElem?_map, List.getElem?_eq_getElem hk', Option.map_some,
        Option.getD_some, hv, he]) rnd hrnd
  exact obind_step hpp (obind_step hvs (obind_step hVs (obind_step hWs (obind_step h1 (h2 (hne e _ _ p hpp h1))))))

/-! ## `common` -/

/-- `TestMath` passes for every scalar drawn. -/
theorem C94_math (n : Zr) : testMath n = true := by
  obtain ⟨h1, h2, -⟩ := C56_bits n 256
  unfold testMath
  rw [decide_eq_true_iff, foldl_bits _ _ (fun b hb => h1 b.1 (List.fst_mem_of_mem_zipIdx hb)), h2, intToZr_zero, zero_add]
  exact (ZMod.natCast_zmod_val n).symm

/-! ## `sum` -/

theorem balancedVec_balanced (xs : List Zr) : Balanced (balancedVec xs) :=
  ⟨xs, _, rfl, by rw [List.sum_eq_foldl, intToZr_zero]⟩

/-- `TestSumArgument` passes for all scalars drawn, if no challenge of the proof is zero. -/
theorem C94_sum_argument (E : Curve G1 G2 GT) (hE : E.Lawful) (xs : List Zr) (hl : xs.length = 63) (r : Zr)
    (rnd : Sum.Rand) (hw : rnd.w.length = 64)
    (hne : ∀ pp V p, Sum.newPublicParams E 64 = some pp →
      Sum.newArgument E pp rnd V (balancedVec xs) r = some ({ V := V }, p) → ∀ y ∈ p.challenges E pp, y ≠ 0) :
    testSumArgument E xs r rnd = some true := by
  obtain ⟨pp, hpp, hs⟩ := C19_new_params_sized E (n := 64) (by norm_num)
  have lv : (balancedVec xs).length = 64 := by simp [balancedVec, hl]
  have hV := (C21_new_commitment_iff_balanced pp (balancedVec xs) (by omega) (hs.gs.trans lv.symm) r).1
    (balancedVec_balanced xs)
  obtain ⟨p, h1, h2⟩ := C19_sum_argument_complete E hE pp 6 hs rnd hw (balancedVec xs) lv (balancedVec_balanced xs) r _ rfl
  exact obind_step hpp (obind_step hV (obind_step h1 (h2 (hne pp _ p hpp h1))))

/-- `TestAggregatedSumArgument` passes for all scalars drawn, if no challenge of the proof is zero. -/
theorem C94_aggregated_sum_argument (E : Curve G1 G2 GT) (hE : E.Lawful) (ds : List (List Zr × Zr))
    (hl : ds.length = 100) (hd : ∀ d ∈ ds, d.1.length = 63) (rnd : Sum.Rand) (hw : rnd.w.length = 64)
    (hne : ∀ pp V p, Sum.newPublicParams E 64 = some pp →
      Sum.newAggregatedArgument E pp rnd V (ds.map fun d => balancedVec d.1) (ds.map Prod.snd) = some p →
      ∀ y ∈ p.challenges E pp, y ≠ 0) :
    testAggregatedSumArgument E ds rnd = some true := by
  obtain ⟨pp, hpp, hs⟩ := C19_new_params_sized E (n := 64) (by norm_num)
  have hVs : ds.mapM (fun d => do return (← Sum.newCommitment pp (balancedVec d.1) d.2).V)
      = some (ds.map fun d => d.2 • pp.F + dot (balancedVec d.1) pp.Gs) := by
    refine mapM_total _ _ _ fun d hd' => ?_
    have lv : (balancedVec d.1).length = 64 := by simp [balancedVec, hd d hd']
    exact obind_step ((C21_new_commitment_iff_balanced pp (balancedVec d.1) (by omega) (hs.gs.trans lv.symm) d.2).1
      (balancedVec_balanced _)) rfl
  obtain ⟨p, h1, h2⟩ := C20_aggregated_sum_argument_complete E hE pp 6 hs rnd hw
    (ds.map fun d => d.2 • pp.F + dot (balancedVec d.1) pp.Gs) (ds.map fun d => balancedVec d.1) (ds.map Prod.snd)
    (by intro hc; simp at hc; simp [hc] at hl) (by
      intro u hu
      obtain ⟨d, hd', rfl⟩ := List.mem_map.1 hu
      simp [balancedVec, hd d hd']) (by
      intro u hu
      obtain ⟨d, hd', rfl⟩ := List.mem_map.1 hu
      exact balancedVec_balanced _) (by simp) (by rw [List.zipWith_map, List.zipWith_self])
  exact obind_step hpp (obind_step hVs (obind_step h1 (h2 (hne pp _ p hpp h1))))

/-! ## `sparse` -/

/-- `TestSparseBinarySummationTree` draws nothing; it passes. -/
theorem C94_sparse_binary_summation_tree : testSparseBinarySummationTree = some true := by decide +kernel

theorem summation_passes (id2Path : Str → Option (List ℕ)) (fanOut L : ℕ) (puts : List (Str × ℤ))
    (gets : List (Str × Option ℤ)) (hputs : ∀ e ∈ puts, ∃ p, id2Path e.1 = some p ∧ p.length = L ∧ ∀ x ∈ p, x < fanOut)
    (hgets : ∀ e ∈ gets, ∃ p, id2Path e.1 = some p ∧ p.length = L ∧
      lastPut (puts.map fun e => (id2Path e.1, e.2)) (some p) = e.2) :
    testSummationTree id2Path fanOut puts gets = some true := by
  obtain ⟨t, s, hr⟩ := C34_puts_return
    ({ id2Path := id2Path, update := sumUpdate, fanOut := fanOut, root := none } : Sparse.Tree ℤ (List (Bool × ℕ))) rfl
    (fun _ _ _ _ _ _ => rfl) (puts.map fun e => (e.1, some e.2)) [] (by
      intro e he
      obtain ⟨e', he', rfl⟩ := List.mem_map.1 he
      obtain ⟨p, h1, -, h3⟩ := hputs e' he'
      exact ⟨p, h1, h3⟩)
  refine obind_step hr (forAll_true _ _ fun e he => ?_)
  obtain ⟨p, hp, hpL, hlast⟩ := hgets e he
  have hm : lastPut ((puts.map fun e => (e.1, some e.2)).map fun e => (id2Path e.1, e.2)) (some p)
      = (lastPut (puts.map fun e => (id2Path e.1, e.2)) (some p)).map some := by
    unfold lastPut
    rw [List.map_map]
    have : ((fun e : Str × Option ℤ => (id2Path e.1, e.2)) ∘ fun e : Str × ℤ => (e.1, some e.2))
        = (fun e : Option (List ℕ) × ℤ => (e.1, some e.2)) ∘ fun e : Str × ℤ => (id2Path e.1, e.2) := rfl
    rw [this, ← List.map_map, ← List.map_reverse, List.find?_map, Option.map_map, Option.map_map]
    rfl
  obtain ⟨g1, g2⟩ := C34_get_after_puts_equal_length _ t rfl _ _ _ hr L (by
      intro e he q hq
      obtain ⟨e', he', rfl⟩ := List.mem_map.1 he
      obtain ⟨p, h1, h2, -⟩ := hputs e' he'
      have := h1.symm.trans hq
      rw [Option.some.injEq] at this
      rw [← this]; exact h2) e.1 p hp hpL
  dsimp only at g1 g2
  rw [hm, hlast] at g1 g2
  obtain ⟨id, want⟩ := e
  cases want with
  | none => refine obind_step (g2 rfl) rfl
  | some n =>
    obtain ⟨vs, hg, -⟩ := g1 (some n) rfl
    refine obind_step hg ?_
    simp

/-- The number of base-7 digits of a nine-digit identifier below the root, for large enough identifiers. -/
theorem digit7 : ∃ f, digitPath 7 = some f ∧ digitPathLen 7 = some 11 ∧
    ∀ s, IsDenseId s → 7 ^ 9 ≤ decimalValue s → ∃ p, f s = some p ∧ p.length = 11 ∧ (∀ x ∈ p, x < 7) ∧
      Nat.ofDigits 7 p = decimalValue s := by
  have hto : (7 : UInt16).toNat = 7 := rfl
  obtain ⟨f, h⟩ := (C30_supported_fanouts 7).2 ⟨3, by norm_num, by norm_num, by rw [hto]; norm_num⟩
  have hL : digitPathLen 7 = some 11 := by
    rw [digitPathLen, hto]
    iterate 10 rw [digitPathLenLoop, if_neg (by norm_num)]
    rw [digitPathLenLoop, if_pos (by norm_num)]
  refine ⟨f, h, hL, fun s hs hv => ?_⟩
  obtain ⟨p, hp, h1, h2⟩ := C30_dense_paths 7 f h (by rw [hto]; norm_num) s hs
  exact ⟨p, hp, (C31_full_depth_iff_partial 7 f h (by rw [hto]; norm_num) 11 hL s hs p hp).2 hv, h1, h2⟩

/-- `TestSSNSummationTree` draws nothing; it passes. -/
theorem C94_ssn_summation_tree : testSSNSummationTree = some true := by
  obtain ⟨f, hf, -, hp⟩ := digit7
  obtain ⟨p1, a1, l1, b1, c1⟩ := hp "123456789".toList ⟨by decide, by unfold IsDecimal; decide⟩ (by decide +kernel)
  obtain ⟨p2, a2, l2, b2, c2⟩ := hp "123456780".toList ⟨by decide, by unfold IsDecimal; decide⟩ (by decide +kernel)
  obtain ⟨p3, a3, l3, b3, c3⟩ := hp "123456700".toList ⟨by decide, by unfold IsDecimal; decide⟩ (by decide +kernel)
  obtain ⟨p4, a4, l4, b4, c4⟩ := hp "123456000".toList ⟨by decide, by unfold IsDecimal; decide⟩ (by decide +kernel)
  obtain ⟨p5, a5, l5, b5, c5⟩ := hp "123406700".toList ⟨by decide, by unfold IsDecimal; decide⟩ (by decide +kernel)
  have v1 : decimalValue "123456789".toList = 123456789 := by decide +kernel
  have v2 : decimalValue "123456780".toList = 123456780 := by decide +kernel
  have v3 : decimalValue "123456700".toList = 123456700 := by decide +kernel
  have v4 : decimalValue "123456000".toList = 123456000 := by decide +kernel
  have v5 : decimalValue "123406700".toList = 123406700 := by decide +kernel
  rw [v1] at c1; rw [v2] at c2; rw [v3] at c3; rw [v4] at c4; rw [v5] at c5
  have ne : ∀ {p q : List ℕ} {a b : ℕ}, Nat.ofDigits 7 p = a → Nat.ofDigits 7 q = b → a ≠ b → p ≠ q := by
    rintro p q a b rfl rfl h rfl; exact h rfl
  have n12 := ne c1 c2 (by norm_num); have n13 := ne c1 c3 (by norm_num); have n14 := ne c1 c4 (by norm_num)
  have n15 := ne c1 c5 (by norm_num); have n23 := ne c2 c3 (by norm_num); have n24 := ne c2 c4 (by norm_num)
  have n25 := ne c2 c5 (by norm_num); have n34 := ne c3 c4 (by norm_num); have n35 := ne c3 c5 (by norm_num)
  have n45 := ne c4 c5 (by norm_num)
  refine obind_step hf (summation_passes f 7 11 _ _ ?_ ?_)
  · intro e he
    simp only [List.mem_cons, List.not_mem_nil, or_false] at he
    rcases he with rfl | rfl | rfl | rfl
    exacts [⟨p1, a1, l1, b1⟩, ⟨p2, a2, l2, b2⟩, ⟨p3, a3, l3, b3⟩, ⟨p4, a4, l4, b4⟩]
  · intro e he
    simp only [List.mem_cons, List.not_mem_nil, or_false] at he
    simp only [List.map_cons, List.map_nil, a1, a2, a3, a4, lastPut, List.reverse_cons, List.reverse_nil, List.nil_append,
      List.cons_append]
    rcases he with rfl | rfl | rfl | rfl | rfl
    · exact ⟨p1, a1, l1, by simp [n12.symm, n13.symm, n14.symm]⟩
    · exact ⟨p2, a2, l2, by simp [n23.symm, n24.symm]⟩
    · exact ⟨p3, a3, l3, by simp [n34.symm]⟩
    · exact ⟨p4, a4, l4, by simp⟩
    · exact ⟨p5, a5, l5, by simp [n15, n25, n35, n45]⟩

/-- The test with hashes as identifiers passes if these have paths, and different ones.  (SHA-256 is not modelled, so
that the premise cannot be decided here.) -/
theorem C94_sparse_power_two_summation_tree (E : Curve G1 G2 GT) (f : Str → Option (List ℕ)) (hf : hexId2Path E 7 = some f)
    (p1 p2 p3 p4 p5 : List ℕ) (a1 : f (hashId E "1".toList) = some p1) (a2 : f (hashId E "2".toList) = some p2)
    (a3 : f (hashId E "3".toList) = some p3) (a4 : f (hashId E "4".toList) = some p4)
    (a5 : f (hashId E "5".toList) = some p5) (hne : [p1, p2, p3, p4, p5].Nodup) :
    testSparsePowerTwoSummationTree E = some true := by
  obtain ⟨L, -, -, -, -, hwf⟩ := C54_sparse E 0 7 f hf
  simp only [List.nodup_cons, List.mem_cons, List.not_mem_nil, or_false, not_or, List.nodup_nil, not_false_eq_true,
    and_true] at hne
  obtain ⟨⟨n12, n13, n14, n15⟩, ⟨n23, n24, n25⟩, ⟨n34, n35⟩, n45⟩ := hne
  refine obind_step hf (summation_passes f 7 L _ _ ?_ ?_)
  · intro e he
    simp only [List.mem_cons, List.not_mem_nil, or_false] at he
    rcases he with rfl | rfl | rfl | rfl
    exacts [⟨p5, a5, hwf _ _ a5⟩, ⟨p4, a4, hwf _ _ a4⟩, ⟨p3, a3, hwf _ _ a3⟩, ⟨p2, a2, hwf _ _ a2⟩]
  · intro e he
    simp only [List.mem_cons, List.not_mem_nil, or_false] at he
    simp only [List.map_cons, List.map_nil, a5, a2, a3, a4, lastPut, List.reverse_cons, List.reverse_nil, List.nil_append,
      List.cons_append]
    rcases he with rfl | rfl | rfl | rfl | rfl
    · exact ⟨p5, a5, (hwf _ _ a5).1, by simp [n25, n35, n45]⟩
    · exact ⟨p4, a4, (hwf _ _ a4).1, by simp [n24, n34]⟩
    · exact ⟨p3, a3, (hwf _ _ a3).1, by simp [n23]⟩
    · exact ⟨p2, a2, (hwf _ _ a2).1, by simp⟩
    · exact ⟨p1, a1, (hwf _ _ a1).1, by simp [Ne.symm n12, Ne.symm n13, Ne.symm n14, Ne.symm n15]⟩

/-- The paths of all identifiers drawn for one fan-out have one length. -/
theorem C94_hex_path_is_in_correct_length (E : Curve G1 G2 GT) (fanouts : List UInt16) (draws : UInt16 → List Bytes)
    (hf : ∀ fanout ∈ fanouts, (expectedHexPathLength fanout.toNat).isSome) (hne : ∀ fanout ∈ fanouts, draws fanout ≠ [])
    (hret : ∀ fanout ∈ fanouts, ∀ f, hexId2Path E fanout = some f → ∀ b ∈ draws fanout, (f (hexEncode b)).isSome) :
    testHexPathIsInCorrectLength E fanouts draws = some true := by
  refine forAll_true _ _ fun fanout hfan => ?_
  obtain ⟨L, hL⟩ := Option.isSome_iff_exists.1 (hf fanout hfan)
  obtain ⟨f, hff⟩ : ∃ f, hexId2Path E fanout = some f := by
    rw [C28_supported_fanouts]
    unfold expectedHexPathLength at hL
    split at hL <;> simp_all
  refine obind_step hff ?_
  have hm : (draws fanout).mapM (fun buff => do return (← f (hexEncode buff)).length)
      = some ((draws fanout).map fun _ => L) := by
    refine mapM_total _ _ _ fun b hb => ?_
    obtain ⟨p, hp⟩ := Option.isSome_iff_exists.1 (hret fanout hfan f hff b hb)
    refine obind_step hp ?_
    have := (C28_paths_well_formed E fanout f hff _ p hp).1
    rw [hL, Option.some.injEq] at this
    rw [this]; rfl
  refine obind_step hm ?_
  have hd : ∀ l : List Bytes, l ≠ [] → (l.map fun _ => L).dedup = [L] := by
    intro l hl
    rw [List.map_const', List.replicate_dedup (by simpa using hl)]
  rw [hd _ (hne fanout hfan)]
  rfl

/-! ## `verkle` -/

/-- `TestIsPowerOfTwo` draws nothing; it passes. -/
theorem C94_is_power_of_two : testIsPowerOfTwo = some true := by
  have h : ∀ n : UInt16, n ≠ 0 → ∀ b : Bool, (b = true ↔ ∃ k, 1 ≤ k ∧ k ≤ 15 ∧ n.toNat = 2 ^ k) →
      isPowerOfTwo n = some b := by
    intro n hn b hb
    obtain ⟨b', h1, h2⟩ := C33_decides_powers_of_two_partial n hn
    rw [h1, Option.some.injEq]
    exact Bool.eq_iff_iff.2 (h2.trans hb.symm)
  have hdec : ∀ n : UInt16, (∃ k, 1 ≤ k ∧ k ≤ 15 ∧ n.toNat = 2 ^ k) ↔ ∃ k ∈ Finset.Icc 1 15, n.toNat = 2 ^ k := by
    intro n; simp [and_assoc]
  refine obind_step (forAll_true _ _ fun n hn => ?_) (obind_step (forAll_true _ _ fun n hn => ?_) rfl)
  · refine h n (by rintro rfl; revert hn; decide) true ?_
    rw [hdec]
    revert n
    decide
  · refine obind_step (h n (by rintro rfl; revert hn; decide) false ?_) rfl
    rw [hdec]
    revert n
    decide

/-- `TestUpdateSum` draws nothing; it passes. -/
theorem C94_update_sum : testUpdateSum = true := by decide +kernel

/-- `TestVerkleTree` passes if the two hashes have paths, and different ones. -/
theorem C94_verkle_tree {E : Curve G1 G2 GT} (hE : E.Lawful) {env : Env} (henv : env.Lawful) (α : Zr)
    (f : Str → Option (List ℕ)) (hf : hexId2Path E 1023 = some f) (p q : List ℕ)
    (hp : f (hashId E "a".toList) = some p) (hq : f (hashId E "b".toList) = some q) (hpq : p ≠ q) :
    testVerkleTree E env α = some true := by
  have hto : (1023 : UInt16).toNat = 1023 := rfl
  have hwf : ∀ s r, f s = some r → r.length = 26 ∧ ∀ x ∈ r, x < 1023 := fun s r hr => by
    obtain ⟨h1, h2⟩ := C28_paths_well_formed E 1023 f hf s r hr
    rw [hto] at h1 h2
    exact ⟨(Option.some.inj h1).symm, h2⟩
  have hnew := newTree_of_newVerkleTree E α 1023 (by rw [hto]; norm_num) f
  have hids : ValidIds (newVerkleTree E α 1023 f).id2Path 1023 26 [(hashId E "a".toList, 5), (hashId E "b".toList, 6)] := by
    intro e he
    simp only [List.mem_cons, List.not_mem_nil, or_false] at he
    rcases he with rfl | rfl
    exacts [⟨p, hp, hwf _ _ hp⟩, ⟨q, hq, hwf _ _ hq⟩]
  obtain ⟨t, s, hr⟩ := C39_writes_return hE henv hnew (by norm_num) _ { db := fun _ => [], tick := 0 } hids
  have hby : byPath f [(hashId E "a".toList, (5 : ℤ)), (hashId E "b".toList, 6)] = [(p, 5), (q, 6)] := by
    simp only [byPath, List.map_cons, List.map_nil, hp, hq, Option.getD_some]
  obtain ⟨vs, g1, l1, -⟩ := get_onPath hE henv hnew (by norm_num) _ hids hr _ p hp (hwf _ _ hp).1
    (by show p ∈ (byPath f _).map Prod.fst; rw [hby]; simp)
  obtain ⟨ws, g2, l2, -⟩ := get_onPath hE henv hnew (by norm_num) _ hids hr _ q hq (hwf _ _ hq).1
    (by show q ∈ (byPath f _).map Prod.fst; rw [hby]; simp)
  have e1 : latest (byPath (newVerkleTree E α 1023 f).id2Path [(hashId E "a".toList, 5), (hashId E "b".toList, 6)]) p = 5 := by
    show latest (byPath f _) p = 5
    rw [hby]; simp [latest, lastPut, hpq.symm]
  have e2 : latest (byPath (newVerkleTree E α 1023 f).id2Path [(hashId E "a".toList, 5), (hashId E "b".toList, 6)]) q = 6 := by
    show latest (byPath f _) q = 6
    rw [hby]; simp [latest, lastPut]
  rw [e1] at g1
  rw [e2] at g2
  refine obind_step hf (obind_step hr (obind_step g1 (obind_step g2 ?_)))
  simp [l1, l2]

/-- `TestSerializeVerkleTree` passes if the two hashes have paths. -/
theorem C94_serialize_verkle_tree {E : Curve G1 G2 GT} (hE : E.Lawful) {env : Env} (henv : env.Lawful) (α : Zr)
    (f : Str → Option (List ℕ)) (hf : hexId2Path E 1023 = some f) (p q : List ℕ)
    (hp : f (hashId E "a".toList) = some p) (hq : f (hashId E "b".toList) = some q) :
    testSerializeVerkleTree E env α = some true := by
  have hto : (1023 : UInt16).toNat = 1023 := rfl
  have hwf : ∀ s r, f s = some r → r.length = 26 ∧ ∀ x ∈ r, x < 1023 := fun s r hr => by
    obtain ⟨h1, h2⟩ := C28_paths_well_formed E 1023 f hf s r hr
    rw [hto] at h1 h2
    exact ⟨(Option.some.inj h1).symm, h2⟩
  have hnew := newTree_of_newVerkleTree E α 1023 (by rw [hto]; norm_num) f
  have hids : ValidIds (newVerkleTree E α 1023 f).id2Path 1023 26 [(hashId E "a".toList, 5), (hashId E "b".toList, 6)] := by
    intro e he
    simp only [List.mem_cons, List.not_mem_nil, or_false] at he
    rcases he with rfl | rfl
    exacts [⟨p, hp, hwf _ _ hp⟩, ⟨q, hq, hwf _ _ hq⟩]
  obtain ⟨t, s, hr⟩ := C39_writes_return hE henv hnew (by norm_num) _ { db := fun _ => [], tick := 0 } hids
  obtain ⟨out, -, ho, -⟩ := C77_verkle_stream hnew.root (by norm_num) (by norm_num) _ (by simp) hids hr
  exact obind_step hf (obind_step hr (obind_step ho rfl))

/-! ## `pol` -/

theorem proveAndVerify_passes {E : Curve G1 G2 GT} (hE : E.Lawful) {env : Env} (henv : env.Lawful)
    {α : Zr} {F L : ℕ} {ls ls' : LiabilitySet G1 G2 GT} (h : NewSet E α F L ls) (hist : List (Str × ℤ)) (hne0 : hist ≠ [])
    (hids : ValidIds ls.tree.id2Path F L hist) (hr : ls.sets E env hist = some ls')
    (htot : totalAmount (byPath ls.tree.id2Path hist) < 2 ^ 63) (id : Str) (p : List ℕ)
    (hp : ls.tree.id2Path id = some p) (hw : p ∈ (byPath ls.tree.id2Path hist).map Prod.fst)
    (hone : writesBelow (byPath ls.tree.id2Path hist) p.dropLast = 1) (rnd : ProveRand) (hrnd : RandSized F L rnd)
    (hne : NonzeroChallenges E env ls' rnd id) (amount : ℤ) (ha : latest (byPath ls.tree.id2Path hist) p = amount) :
    proveAndVerify E env ls.pp ls.tree.id2Path ls' id amount rnd = some true := by
  obtain ⟨lp, x, W, h1, -, h3, h4, h5⟩ := C47_liability_proof_verifies_partial hE henv h hist hids hr htot id p hp hw hone
    rnd hrnd hne
  obtain ⟨y, hy, hroot⟩ := C46_first_call_partial hE henv h hist hne0 hids hr
  rw [h3, Option.some.injEq] at hy
  subst hy
  rw [h4] at hroot
  refine obind_step h1 (obind_step hroot (obind_step h5 ?_))
  simp [ha]

theorem sets_two {E : Curve G1 G2 GT} {env : Env} {ls ls' : LiabilitySet G1 G2 GT} {a b : Str × ℤ}
    (h : ls.sets E env [a, b] = some ls') :
    ∃ ls1, ls.set E env a.1 a.2 = some ls1 ∧ ls1.set E env b.1 b.2 = some ls' := by
  unfold LiabilitySet.sets at h
  rw [List.foldlM_cons] at h
  obtain ⟨ls1, h1, h2⟩ := obind_elim h
  refine ⟨ls1, h1, ?_⟩
  rw [List.foldlM_cons] at h2
  obtain ⟨ls2, h3, h4⟩ := obind_elim h2
  rw [h3]; exact h4

/-- `TestPolSparse` passes if the two identifiers drawn have paths that part before the last step, and no challenge
that gets inverted is zero. -/
theorem C94_pol_sparse_partial {E : Curve G1 G2 GT} (hE : E.Lawful) {env : Env} (henv : env.Lawful) (α α' : Zr)
    (b1 b2 : Bytes) (rnd : ProveRand) (hrnd : RandSized 7 91 rnd) (f : Str → Option (List ℕ)) (hf : hexId2Path E 7 = some f)
    (p1 p2 : List ℕ) (hp1 : f (hexEncode b1) = some p1) (hp2 : f (hexEncode b2) = some p2)
    (hpart : p1.dropLast ≠ p2.dropLast)
    (hne : ∀ pp ls, generatePublicParams E α 7 .sparse = some (f, pp) →
      (newLiabilitySet E α' pp (fun _ => []) f).sets E env [(hexEncode b1, 100), (hexEncode b2, 101)] = some ls →
      NonzeroChallenges E env ls rnd (hexEncode b2)) :
    testPolSparse E env α α' b1 b2 rnd = some true := by
  obtain ⟨L, pp, hL, hgen, hfit, hwf⟩ := C54_sparse E α 7 f hf
  obtain rfl : L = 91 := (Option.some.inj hL).symm
  obtain ⟨hns, hid, hpp⟩ := C54_new_set E α α' _ 91 pp hfit (fun _ => []) f
  have hv : ValidIds (newLiabilitySet E α' pp (fun _ => []) f).tree.id2Path 7 91
      [(hexEncode b1, 100), (hexEncode b2, 101)] := by
    intro e he
    simp only [List.mem_cons, List.not_mem_nil, or_false] at he
    rcases he with rfl | rfl
    exacts [⟨p1, hp1, hwf _ _ hp1⟩, ⟨p2, hp2, hwf _ _ hp2⟩]
  obtain ⟨ls, hs⟩ := C43_sets_return hE henv hns _ hv (by simp)
  obtain ⟨ls1, hs1, hs2⟩ := sets_two hs
  have hby : byPath (newLiabilitySet E α' pp (fun _ => []) f).tree.id2Path
      [(hexEncode b1, (100 : ℤ)), (hexEncode b2, 101)] = [(p1, 100), (p2, 101)] := by
    rw [hid]
    simp only [byPath, List.map_cons, List.map_nil, hp1, hp2, Option.getD_some]
  have h12 : p1 ≠ p2 := by rintro rfl; exact hpart rfl
  have hpass := proveAndVerify_passes hE henv hns _ (by simp) hv hs (by
      rw [hby]
      simp [totalAmount, Finset.sum_insert, h12, latest, lastPut, h12.symm]) (hexEncode b2) p2 (by rw [hid]; exact hp2)
    (by rw [hby]; simp) (by
      rw [hby]
      have l1 := (hwf _ _ hp1).1
      have l2 := (hwf _ _ hp2).1
      have hn : ¬ p2.dropLast <+: p1 := by
        intro hc
        apply hpart
        rw [List.prefix_iff_eq_take] at hc
        rw [hc, List.dropLast_eq_take]
        simp [l1, l2]
      have hyes : p2.dropLast <+: p2 := List.dropLast_prefix p2
      simp [writesBelow, hn, hyes]) rnd hrnd (hne pp ls hgen hs) 101 (by
      rw [hby]; simp [latest, lastPut])
  rw [hid, hpp] at hpass
  exact obind_step hgen (obind_step hs1 (obind_step hs2 hpass))

/-- **C94 fails for `TestPolSparse`** if the paths of the two identifiers differ in the last step only: for all secrets
of the setup but eight, the test does not pass, whatever else is drawn. -/
theorem C94_pol_sparse_violated (f : Str → Option (List ℕ)) (b1 b2 : Bytes) (p1 p2 : List ℕ)
    (hp1 : f (hexEncode b1) = some p1) (hp2 : f (hexEncode b2) = some p2) (h12 : p1 ≠ p2)
    (hsame : p1.dropLast = p2.dropLast) (hl1 : p1.length = 91 ∧ ∀ x ∈ p1, x < 7) (hl2 : p2.length = 91 ∧ ∀ x ∈ p2, x < 7) :
    ∃ S : Finset Zr, S.card ≤ 8 ∧ ∀ α ∉ S, ∀ {E : Curve G1 G2 GT}, E.Lawful → E.NonDegenerate → E.genG1 ≠ 0 →
      hexId2Path E 7 = some f → ∀ {env : Env}, env.Lawful → ∀ α' rnd, testPolSparse E env α α' b1 b2 rnd ≠ some true := by
  have hby : byPath f [(hexEncode b1, (100 : ℤ)), (hexEncode b2, 101)] = [(p1, 100), (p2, 101)] := by
    simp only [byPath, List.map_cons, List.map_nil, hp1, hp2, Option.getD_some]
  obtain ⟨S, hS, hall⟩ := C47_violated_generally (G1 := G1) (G2 := G2) (GT := GT) f (F := 7) (L := 91) (by norm_num)
    [(hexEncode b1, 100), (hexEncode b2, 101)] (by
      intro e he
      simp only [List.mem_cons, List.not_mem_nil, or_false] at he
      rcases he with rfl | rfl
      exacts [⟨p1, hp1, hl1⟩, ⟨p2, hp2, hl2⟩]) (by simp) (by rw [hby]; simpa using h12) (by simp) (hexEncode b2) p2 hp2
    (by rw [hby]; simp) (by
      rw [hby]
      have h1 : p2.dropLast <+: p1 := by rw [← hsame]; exact List.dropLast_prefix p1
      have hyes : p2.dropLast <+: p2 := List.dropLast_prefix p2
      simp [writesBelow, h1, hyes])
  refine ⟨S, hS, fun α hα E hE hnd hg hf env henv α' rnd htest => ?_⟩
  obtain ⟨L, pp, hL, hgen, hfit, hwf⟩ := C54_sparse E α 7 f hf
  obtain rfl : L = 91 := (Option.some.inj hL).symm
  obtain ⟨hns, hid, hpp⟩ := C54_new_set E α α' _ 91 pp hfit (fun _ => []) f
  unfold testPolSparse at htest
  rw [hgen] at htest
  change ((newLiabilitySet E α' pp (fun _ => []) f).set E env (hexEncode b1) 100 >>= fun ls =>
    ls.set E env (hexEncode b2) 101 >>= fun ls => proveAndVerify E env pp f ls (hexEncode b2) 101 rnd) = some true at htest
  obtain ⟨ls1, hs1, htest⟩ := obind_elim htest
  obtain ⟨ls, hs2, htest⟩ := obind_elim htest
  have hs : (newLiabilitySet E α' pp (fun _ => []) f).sets E env [(hexEncode b1, 100), (hexEncode b2, 101)] = some ls := by
    unfold LiabilitySet.sets
    exact obind_step hs1 (obind_step hs2 rfl)
  unfold proveAndVerify at htest
  obtain ⟨r, hr, htest⟩ := obind_elim htest
  obtain ⟨⟨root, ls2⟩, hroot, htest⟩ := obind_elim htest
  dsimp only at htest
  split at htest
  · rename_i n proof vRoot wRoot _
    obtain ⟨b, hb, hbt⟩ := obind_elim htest
    have hbt' : n = 101 ∧ b = true := by simpa using hbt
    rw [hbt'.2] at hb
    have := hall α hα hE hnd hg henv hns hid hs rnd n proof hr vRoot wRoot
    rw [hpp] at this
    exact this hb
  · exact absurd htest (by simp)

/-- `TestPolDense` passes for all secrets and all scalars drawn, if no challenge of the proof is zero. -/
theorem C94_pol_dense {E : Curve G1 G2 GT} (hE : E.Lawful) {env : Env} (henv : env.Lawful) (α α' : Zr) (rnd : ProveRand)
    (hrnd : RandSized 7 11 rnd)
    (hne : ∀ f pp ls, generatePublicParams E α 7 .dense = some (f, pp) →
      (newLiabilitySet E α' pp (fun _ => []) f).sets E env [("987654321".toList, 100)] = some ls →
      NonzeroChallenges E env ls rnd "987654321".toList) :
    testPolDense E env α α' rnd = some true := by
  obtain ⟨f, hf, hL11, hpath⟩ := digit7
  obtain ⟨p, hp, lp, blt, -⟩ := hpath "987654321".toList ⟨by decide, by unfold IsDecimal; decide⟩ (by decide +kernel)
  obtain ⟨L, pp, hL, hgen, hfit⟩ := C54_dense E α 7 f hf (by decide)
  obtain rfl : L = 11 := by rw [hL11] at hL; exact (Option.some.inj hL).symm
  obtain ⟨hns, hid, hpp⟩ := C54_new_set E α α' _ 11 pp hfit (fun _ => []) f
  have hv : ValidIds (newLiabilitySet E α' pp (fun _ => []) f).tree.id2Path 7 11 [("987654321".toList, 100)] := by
    intro e he
    rw [List.mem_singleton] at he
    subst he
    exact ⟨p, hp, lp, blt⟩
  obtain ⟨ls, hs⟩ := C43_sets_return hE henv hns _ hv (by simp)
  have hs1 : (newLiabilitySet E α' pp (fun _ => []) f).set E env "987654321".toList 100 = some ls := by
    unfold LiabilitySet.sets at hs
    rw [List.foldlM_cons] at hs
    obtain ⟨ls1, h1, h2⟩ := obind_elim hs
    rw [h1]; exact h2
  have hby : byPath (newLiabilitySet E α' pp (fun _ => []) f).tree.id2Path [("987654321".toList, (100 : ℤ))]
      = [(p, 100)] := by
    rw [hid]
    simp only [byPath, List.map_cons, List.map_nil, hp, Option.getD_some]
  have hpass := proveAndVerify_passes hE henv hns _ (by simp) hv hs (by
      rw [hby]
      simp [totalAmount, latest, lastPut]) _ p (by rw [hid]; exact hp) (by rw [hby]; simp) (by
      rw [hby]
      have hyes : p.dropLast <+: p := List.dropLast_prefix p
      simp [writesBelow, hyes]) rnd hrnd (hne f pp ls hgen hs) 100 (by rw [hby]; simp [latest, lastPut])
  rw [hid, hpp] at hpass
  exact obind_step hgen (obind_step hs1 (obind_step hf hpass))

/-- `TestProveTot` passes for all secrets and all identifiers drawn that have paths. -/
theorem C94_prove_tot {E : Curve G1 G2 GT} (hE : E.Lawful) {env : Env} (henv : env.Lawful) (α α' : Zr) (b1 b2 : Bytes)
    (f : Str → Option (List ℕ)) (hf : hexId2Path E 7 = some f) (h1 : (f (hexEncode b1)).isSome)
    (h2 : (f (hexEncode b2)).isSome) : testProveTot E env α α' b1 b2 = some true := by
  obtain ⟨p1, hp1⟩ := Option.isSome_iff_exists.1 h1
  obtain ⟨p2, hp2⟩ := Option.isSome_iff_exists.1 h2
  have hby : byPath f [(hexEncode b1, (50 : ℤ)), (hexEncode b2, 50)] = [(p1, 50), (p2, 50)] := by
    simp only [byPath, List.map_cons, List.map_nil, hp1, hp2, Option.getD_some]
  obtain ⟨pp, ls, tp, V, W, ls', e1, e2, e3, -, e5, e6⟩ := C44_sparse_end_to_end hE henv α α' 7 f hf (fun _ => [])
    [(hexEncode b1, 50), (hexEncode b2, 50)] (by simp) (by
      intro e he
      simp only [List.mem_cons, List.not_mem_nil, or_false] at he
      rcases he with rfl | rfl
      exacts [⟨h1, by norm_num⟩, ⟨h2, by norm_num⟩]) (by
      rw [hby]
      by_cases h12 : p1 = p2
      · subst h12
        simp [totalAmount, latest, lastPut]
      · simp [totalAmount, Finset.sum_insert, h12, latest, lastPut, Ne.symm h12])
  obtain ⟨ls1, hs1, hs2⟩ := sets_two e2
  exact obind_step e1 (obind_step hs1 (obind_step hs2 (obind_step e3 (obind_step e5 e6))))

/-! ## The hypotheses can be met -/

/-- An identifier with a value of the right size has the digits of the value as its path, whatever the hash. -/
theorem path7 (E : Curve G1 G2 GT) (hE : E.Lawful) (f : Str → Option (List ℕ)) (hf : hexId2Path E 7 = some f) (s : Str)
    (hid : IsSparseId s) (q : List ℕ) (hq : q.length = 91 ∧ ∀ x ∈ q, x < 7) (hval : hexValue s = Nat.ofDigits 7 q)
    (hb : 7 ^ 90 ≤ hexValue s ∧ hexValue s < 7 ^ 91) : f s = some q := by
  have hto : (7 : UInt16).toNat = 7 := rfl
  obtain ⟨p, hp, i, hi, hdig⟩ := C28_returns E hE 7 f hf 91 rfl _ hid 0 (by
    rw [Function.iterate_zero, id, hto]; exact hb)
  obtain rfl : i = 0 := Nat.le_zero.1 hi
  obtain ⟨h1, h2⟩ := C28_paths_well_formed E 7 f hf _ p hp
  rw [Function.iterate_zero, id, hval, hto] at hdig
  have hl : p.length = 91 := (Option.some.inj h1).symm
  rw [hp]
  congr 1
  exact Nat.ofDigits_inj_of_len_eq (b := 7) (by norm_num) (hl.trans hq.1.symm) h2 hq.2 hdig

/-- For examples: the 32 bytes of `7^90`, of `2·7^90`, and of `7^90 + 1`. -/
def drawn₁ : Bytes := natToBE 32 (7 ^ 90)
@[inherit_doc drawn₁] def drawn₂ : Bytes := natToBE 32 (2 * 7 ^ 90)
@[inherit_doc drawn₁] def drawn₃ : Bytes := natToBE 32 (7 ^ 90 + 1)

theorem drawn₁_path (E : Curve G1 G2 GT) (hE : E.Lawful) (f : Str → Option (List ℕ)) (hf : hexId2Path E 7 = some f) :
    f (hexEncode drawn₁) = some (List.replicate 90 0 ++ [1]) :=
  path7 E hE f hf _ (by unfold IsSparseId IsHex; decide +kernel) _ (by decide +kernel) (by decide +kernel) (by decide +kernel)

theorem drawn₂_path (E : Curve G1 G2 GT) (hE : E.Lawful) (f : Str → Option (List ℕ)) (hf : hexId2Path E 7 = some f) :
    f (hexEncode drawn₂) = some (List.replicate 90 0 ++ [2]) :=
  path7 E hE f hf _ (by unfold IsSparseId IsHex; decide +kernel) _ (by decide +kernel) (by decide +kernel) (by decide +kernel)

theorem drawn₃_path (E : Curve G1 G2 GT) (hE : E.Lawful) (f : Str → Option (List ℕ)) (hf : hexId2Path E 7 = some f) :
    f (hexEncode drawn₃) = some (1 :: List.replicate 89 0 ++ [1]) :=
  path7 E hE f hf _ (by unfold IsSparseId IsHex; decide +kernel) _ (by decide +kernel) (by decide +kernel) (by decide +kernel)

/-- A concrete case of `C94_pol_sparse_violated`: the test draws `7^90` and `2·7^90`, each as 32 bytes. -/
theorem C94_pol_sparse_violated_witness {E : Curve G1 G2 GT} (hE : E.Lawful) (hnd : E.NonDegenerate) (hg : E.genG1 ≠ 0)
    (f : Str → Option (List ℕ)) (hf : hexId2Path E 7 = some f) : ∃ S : Finset Zr, S.card ≤ 8 ∧ ∀ α ∉ S,
    ∀ {env : Env}, env.Lawful → ∀ α' rnd, testPolSparse E env α α' drawn₁ drawn₂ rnd ≠ some true := by
  obtain ⟨S, hS, hall⟩ := C94_pol_sparse_violated (G1 := G1) (G2 := G2) (GT := GT) f _ _ _ _ (drawn₁_path E hE f hf)
    (drawn₂_path E hE f hf) (by simp) (by simp) (by constructor <;> simp) (by constructor <;> simp)
  exact ⟨S, hS, fun α hα env henv α' rnd => hall α hα hE hnd hg hf henv α' rnd⟩

theorem hexId2Path_seven (E : Curve G1 G2 GT) : ∃ f, hexId2Path E 7 = some f :=
  ⟨_, (hexId2Path_eq_some_iff E 7 _).2 ⟨91, rfl, rfl⟩⟩

/-- For examples: the scalars drawn by one run with fan-out 7 and `m` equalities. -/
def seven (m : ℕ) : ProveRand where
  range i := ⟨List.replicate 8 5, (i : Zr), 6, 7, List.replicate 512 8, List.replicate 504 9, 10, 11⟩
  sum := ⟨List.replicate 8 5, 9⟩
  eq := ⟨List.replicate m (1, 2, 3), 7, 8⟩

theorem seven_range (m i : ℕ) : ((seven m).range i).WellFormed 8 :=
  ⟨List.length_replicate, List.length_replicate, List.length_replicate⟩

theorem seven_sized (κ L : ℕ) (h1 : 1 ≤ κ) (h2 : κ ≤ 15) (h3 : L - 1 ≤ 2 ^ κ) (h4 : 2 ^ (κ - 1) < L - 1) :
    RandSized 7 L (seven (2 ^ κ)) where
  range i _ := seven_range _ i
  sum := List.length_replicate
  eq := by
    have hl : (seven (2 ^ κ)).eq.uην.length = 2 ^ κ := List.length_replicate
    refine ⟨⟨κ, h1, h2, hl⟩, by rw [hl]; exact h3, fun i _ hi => ?_⟩
    rw [hl]
    refine Nat.pow_le_pow_right (by norm_num) ?_
    by_contra hc
    have : 2 ^ i ≤ 2 ^ (κ - 1) := Nat.pow_le_pow_right (by norm_num) (by omega)
    omega

example : testPolSparse toyCurve toyEnv 2 3 drawn₁ drawn₃ (seven (2 ^ 7)) = some true := by
  obtain ⟨f, hf⟩ := hexId2Path_seven toyCurve
  exact C94_pol_sparse_partial toyCurve_lawful toyEnv_lawful 2 3 _ _ _
    (seven_sized 7 91 (by norm_num) (by norm_num) (by norm_num) (by norm_num))
    f hf _ _ (drawn₁_path _ toyCurve_lawful f hf) (drawn₃_path _ toyCurve_lawful f hf) (by decide)
    fun _ _ _ _ => toy_challenges _ _ _

example : testPolDense toyCurve toyEnv 2 3 (seven (2 ^ 4)) = some true :=
  C94_pol_dense toyCurve_lawful toyEnv_lawful 2 3 _
    (seven_sized 4 11 (by norm_num) (by norm_num) (by norm_num) (by norm_num)) fun _ _ _ _ _ => toy_challenges _ _ _

example : testProveTot toyCurve toyEnv 2 3 drawn₁ drawn₂ = some true := by
  obtain ⟨f, hf⟩ := hexId2Path_seven toyCurve
  exact C94_prove_tot toyCurve_lawful toyEnv_lawful 2 3 _ _ f hf (by rw [drawn₁_path _ toyCurve_lawful f hf]; rfl)
    (by rw [drawn₂_path _ toyCurve_lawful f hf]; rfl)

example : testInnerProdArgument toyCurve [1, 2, 3, 4, 5, 6, 7, 8] [1, 0, 1, 1, 0, 0, 1, 2] = some true :=
  C94_inner_prod_argument toyCurve toyCurve_lawful _ _ rfl rfl fun _ _ _ _ _ _ => toy_ippChallenges _ _

example : testRangeProof toyCurve 3 ((seven 0).range 0) = some true :=
  C94_range_proof toyCurve toyCurve_lawful 3 _ (seven_range 0 0)
    fun _ _ _ _ _ _ => toy_rangeChallenges_ne _ _ _ _

example : testSumArgument toyCurve ((List.range 63).map (Nat.cast)) 3 ⟨List.replicate 64 5, 9⟩ = some true :=
  C94_sum_argument toyCurve toyCurve_lawful _ (by simp) 3 _ List.length_replicate fun _ _ _ _ _ => toy_sum_challenges _ _

example : testAggregatedSumArgument toyCurve (List.replicate 100 ((List.range 63).map (Nat.cast), 3)) ⟨List.replicate 64 5, 9⟩
    = some true :=
  C94_aggregated_sum_argument toyCurve toyCurve_lawful _ List.length_replicate (by
    intro d hd
    rw [List.eq_of_mem_replicate hd]; simp) _ List.length_replicate fun _ _ _ _ _ => toy_sum_challenges _ _

/-- Instance of the libraries whose hash is `40 00 … 00`, and then the first byte hashed. -/
def headCurve : Curve Zr Zr Zr := { toyCurve with sha256 := fun b => 0x40 :: List.replicate 30 0 ++ [b.headD 0] }

theorem headCurve_lawful : headCurve.Lawful :=
  { genGt_eq := toyCurve_lawful.genGt_eq
    sha_len := fun _ => rfl
    hmac_len := toyCurve_lawful.hmac_len
    g1_roundtrip := toyCurve_lawful.g1_roundtrip
    g1_nonempty := toyCurve_lawful.g1_nonempty
    g1_len := toyCurve_lawful.g1_len }

theorem head_path (fanout : UInt16) (f : Str → Option (List ℕ)) (hf : hexId2Path headCurve fanout = some f) (L : ℕ)
    (hL : expectedHexPathLength fanout.toNat = some L) (s : Str)
    (hb : fanout.toNat ^ (L - 1) ≤ hexValue (hashId headCurve s) ∧ hexValue (hashId headCurve s) < fanout.toNat ^ L) :
    ∃ p, f (hashId headCurve s) = some p ∧ Nat.ofDigits fanout.toNat p = hexValue (hashId headCurve s) := by
  obtain ⟨p, hp, i, hi, hdig⟩ := C28_returns headCurve headCurve_lawful fanout f hf L hL _
    (hashId_isSparseId headCurve headCurve_lawful s) 0 (by rw [Function.iterate_zero, id]; exact hb)
  obtain rfl : i = 0 := Nat.le_zero.1 hi
  exact ⟨p, hp, hdig⟩

theorem head_value (s : Str) (b : UInt8) (bs : Bytes) (h : strBytes (String.ofList s) = b :: bs) :
    hashId headCurve s = hexEncode (0x40 :: List.replicate 30 0 ++ [b]) := by
  unfold hashId
  rw [h]; rfl

example : testVerkleTree headCurve toyEnv 2 = some true ∧ testSerializeVerkleTree headCurve toyEnv 2 = some true := by
  have hf : hexId2Path headCurve 1023 = some (hexPathLoop headCurve 1023 26) :=
    (hexId2Path_eq_some_iff _ _ _).2 ⟨26, rfl, rfl⟩
  have va : hexValue (hashId headCurve "a".toList) = 2 ^ 254 + 97 := by
    rw [head_value "a".toList 97 [] (by decide +kernel)]; decide +kernel
  have vb : hexValue (hashId headCurve "b".toList) = 2 ^ 254 + 98 := by
    rw [head_value "b".toList 98 [] (by decide +kernel)]; decide +kernel
  have hto : (1023 : UInt16).toNat = 1023 := rfl
  obtain ⟨p, hp, dp⟩ := head_path 1023 _ hf 26 rfl "a".toList (by rw [va, hto]; norm_num)
  obtain ⟨q, hq, dq⟩ := head_path 1023 _ hf 26 rfl "b".toList (by rw [vb, hto]; norm_num)
  refine ⟨C94_verkle_tree headCurve_lawful toyEnv_lawful 2 _ hf p q hp hq ?_,
    C94_serialize_verkle_tree headCurve_lawful toyEnv_lawful 2 _ hf p q hp hq⟩
  rintro rfl
  rw [dp, va, vb] at dq
  norm_num at dq

/-- A draw of the tests of `poe`: two vectors of `n` scalars, and the bytes that select the positions. -/
def toyDraw (n : ℕ) (d : EqDraw) : EqDraw := { d with v := List.replicate n 4, w := List.replicate n 5 }

example (d : EqDraw) : testProofOfEquality toyCurve (List.replicate 10 (2, toyDraw 64 d, 3, 4, 5)) = some true :=
  C94_equality toyCurve toyCurve_lawful _ fun q hq => by
    rw [List.eq_of_mem_replicate hq]; exact ⟨List.length_replicate, List.length_replicate⟩

example (d : EqDraw) : testProofOfEqualities toyCurve 2 (List.replicate 128 (toyDraw 32 d)) (seven 128).eq = some true :=
  C94_equalities toyCurve toyCurve_lawful 2 _ List.length_replicate (fun q hq => by
    rw [List.eq_of_mem_replicate hq]; exact ⟨List.length_replicate, List.length_replicate⟩) _ List.length_replicate
    fun _ _ _ _ _ _ => toy_poe_challenges _ _

example : testSparsePowerTwoSummationTree headCurve = some true := by
  have hf : hexId2Path headCurve 7 = some (hexPathLoop headCurve 7 91) :=
    (hexId2Path_eq_some_iff _ _ _).2 ⟨91, rfl, rfl⟩
  have hto : (7 : UInt16).toNat = 7 := rfl
  have v1 : hexValue (hashId headCurve "1".toList) = 2 ^ 254 + 49 := by
    rw [head_value "1".toList 49 [] (by decide +kernel)]; decide +kernel
  have v2 : hexValue (hashId headCurve "2".toList) = 2 ^ 254 + 50 := by
    rw [head_value "2".toList 50 [] (by decide +kernel)]; decide +kernel
  have v3 : hexValue (hashId headCurve "3".toList) = 2 ^ 254 + 51 := by
    rw [head_value "3".toList 51 [] (by decide +kernel)]; decide +kernel
  have v4 : hexValue (hashId headCurve "4".toList) = 2 ^ 254 + 52 := by
    rw [head_value "4".toList 52 [] (by decide +kernel)]; decide +kernel
  have v5 : hexValue (hashId headCurve "5".toList) = 2 ^ 254 + 53 := by
    rw [head_value "5".toList 53 [] (by decide +kernel)]; decide +kernel
  obtain ⟨p1, a1, d1⟩ := head_path 7 _ hf 91 rfl "1".toList (by rw [v1, hto]; norm_num)
  obtain ⟨p2, a2, d2⟩ := head_path 7 _ hf 91 rfl "2".toList (by rw [v2, hto]; norm_num)
  obtain ⟨p3, a3, d3⟩ := head_path 7 _ hf 91 rfl "3".toList (by rw [v3, hto]; norm_num)
  obtain ⟨p4, a4, d4⟩ := head_path 7 _ hf 91 rfl "4".toList (by rw [v4, hto]; norm_num)
  obtain ⟨p5, a5, d5⟩ := head_path 7 _ hf 91 rfl "5".toList (by rw [v5, hto]; norm_num)
  refine C94_sparse_power_two_summation_tree headCurve _ hf p1 p2 p3 p4 p5 a1 a2 a3 a4 a5
    (List.Nodup.of_map (Nat.ofDigits 7) ?_)
  rw [hto] at d1 d2 d3 d4 d5
  simp only [List.map_cons, List.map_nil, d1, d2, d3, d4, d5, v1, v2, v3, v4, v5]
  decide +kernel

example : testHexPathIsInCorrectLength headCurve [7] (fun _ => [drawn₁, drawn₂, drawn₃]) = some true := by
  refine C94_hex_path_is_in_correct_length headCurve _ _ (by simp only [List.mem_singleton, forall_eq]; rfl) (by simp) ?_
  intro fanout hfan f hf b hb
  rw [List.mem_singleton] at hfan
  subst hfan
  simp only [List.mem_cons, List.not_mem_nil, or_false] at hb
  rcases hb with rfl | rfl | rfl
  · rw [drawn₁_path _ headCurve_lawful f hf]; rfl
  · rw [drawn₂_path _ headCurve_lawful f hf]; rfl
  · rw [drawn₃_path _ headCurve_lawful f hf]; rfl

end PoL.Props

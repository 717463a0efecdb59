import Verif.Proofs.Raw

/-!
# Residues of the integer model: commitments, range proofs, sum arguments, equality proofs
-/

set_option linter.unusedSectionVars false
set_option linter.unusedVariables false

namespace PoL.Raw

open BP

variable {G1 G2 GT : Type} [AddCommGroup G1] [Module Zr G1] [AddCommGroup G2] [Module Zr G2]
  [AddCommGroup GT] [Module Zr GT] [DecidableEq G1] [DecidableEq GT]
variable {S : ScalarLib}

theorem of_map_id {α : Type} {x y : Option α} (h : x.map id = y) : x = y := by rwa [Option.map_id, id] at h

/-! ## `pp/pointproofs.go` -/

theorem newPublicParams_eq (hS : S.Lawful) (E : Curve G1 G2 GT) (α : Zr) (N : ℕ) :
    newPublicParams S E α N = PoL.PP.newPublicParams E α N := by
  unfold newPublicParams PoL.PP.newPublicParams
  simp only [PoL.res, hS.pow_res, res_canon]

theorem ppCommit_eq (hS : S.Lawful) (pp : PoL.PP G1 G2 GT) (m : List ℤ) : ppCommit S pp m = pp.commit (resV m) := by
  unfold ppCommit PoL.PP.commit
  rw [resV_length]
  split_ifs
  · rfl
  · refine of_map_id (sim_same fun g _ => sim_eq (mulV_eq hS g m) fun a _ => ?_)
    rw [Option.map_id, id]

/-- The opening of the first model. -/
def resOpen (x : ℤ × G1) : Zr × G1 := (res x.1, x.2)

theorem sim_openAt (hS : S.Lawful) (pp : PoL.PP G1 G2 GT) (i : ℕ) (m : List ℤ) :
    (openAt S pp i m).map resOpen = pp.openAt i (resV m) := by
  unfold openAt PoL.PP.openAt
  split_ifs
  · rfl
  · refine sim_same fun es _ => sim_bind (c := resV) (sim_mapM (fun j => sim_getElem m _) _) fun xs _ => ?_
    refine sim_eq (mulV_eq hS es xs) fun a _ => sim_same fun π _ => sim_bind (sim_getElem m i) fun mi _ => rfl

theorem ppVerify_eq (E : Curve G1 G2 GT) (pp : PoL.PP G1 G2 GT) (mi : ℤ) (π C : G1) (i : ℕ) :
    ppVerify E pp mi π C i = pp.verify E (res mi) π C i := rfl

theorem update_eq (pp : PoL.PP G1 G2 GT) (C : G1) (m : List ℤ) (mi : ℤ) (i : ℕ) :
    update pp C m mi i = pp.update C (resV m) (res mi) i :=
  of_map_id (sim_same fun _ _ => sim_bind (sim_getElem m i) fun _ _ => rfl)

theorem sim_ppRo (E : Curve G1 G2 GT) (pp : PoL.PP G1 G2 GT) (cs : List G1) (i : ℕ) :
    (ppRo E pp cs i).map res = pp.ro E cs i := sim_fe _

theorem aggregate_eq (pp : PoL.PP G1 G2 GT) (cs ps : List G1) {RO : PoL.PP G1 G2 GT → List G1 → ℕ → Option ℤ}
    {RO' : PoL.PP G1 G2 GT → List G1 → ℕ → Option Zr} (h : ∀ p c i, (RO p c i).map res = RO' p c i) :
    aggregate pp cs ps RO = pp.aggregate cs ps RO' := by
  unfold aggregate PoL.PP.aggregate
  split_ifs
  · rfl
  · refine of_map_id (sim_bind (c := List.map id) (sim_mapM (fun j => ?_) _) fun a _ => ?_)
    · exact sim_bind (h _ _ _) fun x _ => sim_same fun p _ => rfl
    · rw [List.map_id, Option.map_id, id]

theorem verifyAggregation_eq (E : Curve G1 G2 GT) (pp : PoL.PP G1 G2 GT) (is : List ℕ) (cs : List G1) (π : G1) (sig : ℤ)
    {RO : PoL.PP G1 G2 GT → List G1 → ℕ → Option ℤ} {RO' : PoL.PP G1 G2 GT → List G1 → ℕ → Option Zr}
    (h : ∀ p c i, (RO p c i).map res = RO' p c i) :
    verifyAggregation E pp is cs π sig RO = pp.verifyAggregation E is cs π (res sig) RO' := by
  refine of_map_id (sim_bind (c := resV) (sim_mapM (fun i => h _ _ _) _) fun xs _ => sim_same fun g _ => ?_)
  refine sim_eq (mulv2_eq g xs) fun a _ => sim_same fun l _ => sim_same fun p _ => rfl

/-! ## `bp/range.go` -/

theorem sim_rangeF (hS : S.Lawful) (n : ℕ) (xs : List ℤ) : (rangeF S n xs).map resV = BP.rangeF n (resV xs) :=
  sim_mapM (fun i => sim_same fun b _ => sim_bind (sim_powBitVec xs b) fun p _ => sim_product hS p) _

theorem sim_computeD (hS : S.Lawful) (n m : ℕ) (f : List ℤ) (x : ℤ) :
    (computeD S n m f x).map resV = BP.computeD n m (resV f) (res x) := by
  refine sim_bind (c := List.map resV) (sim_mapM (fun i => ?_) _) fun d _ => ?_
  · refine sim_bind (sim_getElem f i) fun fi _ => ?_
    have : ∀ l : List ℕ, resV (l.map fun j => S.mul (pow2 S j) fi) = l.map fun j => PoL.pow2 j * res fi := by
      intro l
      rw [resV, List.map_map]
      refine List.map_congr_left fun j _ => ?_
      have := res_pow2 hS j
      simp only [res] at this
      simp only [Function.comp_apply, res, hS.mul_res, this]
    exact congrArg some (this _)
  · refine congrArg some ?_
    rw [resV_append, resV_mul hS]
    exact congrArg (· ++ _) List.map_flatten

theorem sim_rangeY (hS : S.Lawful) (E : Curve G1 G2 GT) (pp : RPPP G1) (Q R : G1) {x : ℤ} (hx : Reduced x) (t : UInt8) :
    (rangeY S E pp Q R x t).map res = BP.rangeY E pp Q R (res x) t := by
  unfold rangeY BP.rangeY
  rw [hS.bytes_red x hx]
  exact sim_fe _

theorem sim_computeZ (hS : S.Lawful) (E : Curve G1 G2 GT) (pp : RPPP G1) (C1 C2 Q R : G1) {y0 y1 : ℤ} (h0 : Reduced y0)
    (h1 : Reduced y1) : (computeZ E pp C1 C2 Q R (S.bytes y0) (S.bytes y1)).map res
      = BP.computeZ E pp C1 C2 Q R (zrBytes (res y0)) (zrBytes (res y1)) := by
  rw [hS.bytes_red y0 h0, hS.bytes_red y1 h1]
  exact sim_fe _

theorem computeP_eq (hS : S.Lawful) (pp : RPPP G1) (ρ : ℤ) (Q R : G1) (z : ℤ) (y1v : List ℤ) (n m : ℕ) (Fp : List G1)
    (d : List ℤ) (y1 : ℤ) :
    computeP S pp ρ Q R z y1v n m Fp d y1 = BP.computeP pp (res ρ) Q R (res z) (resV y1v) n m Fp (resV d) (res y1) := by
  refine of_map_id (sim_same fun a _ => sim_eq (mulV_eq hS a y1v) fun b _ => sim_same fun c _ => sim_eq ?_ fun d _ =>
    sim_same fun e _ => sim_same fun f _ => sim_eq (mulV_eq hS f y1v) fun g _ => sim_same fun h _ => rfl)
  rw [mulV_eq hS, resV_mul hS, show PoL.res (S.mul y1 y1) = PoL.res y1 * PoL.res y1 from hS.mul_res _ _]

/-- The step lemmas for two runs whose results are both mapped. -/
theorem simB {α β γ δ : Type} {ε : Type} {c : α → β} {d : γ → ε} {e : δ → ε} {x : Option α} {y : Option β} {k : α → Option γ}
    {k' : β → Option δ} (h : x.map c = y) (hk : ∀ a, x = some a → (k a).map d = (k' (c a)).map e) :
    (x.bind k).map d = (y.bind k').map e := by
  subst h
  cases x with
  | none => rfl
  | some a => exact hk a rfl

theorem simS {α γ δ ε : Type} {d : γ → ε} {e : δ → ε} {x : Option α} {k : α → Option γ} {k' : α → Option δ}
    (hk : ∀ a, x = some a → (k a).map d = (k' a).map e) : (x.bind k).map d = (x.bind k').map e := by
  cases x with
  | none => rfl
  | some a => exact hk a rfl

theorem simE {α γ δ ε : Type} {d : γ → ε} {e : δ → ε} {x y : Option α} {k : α → Option γ} {k' : α → Option δ} (h : x = y)
    (hk : ∀ a, x = some a → (k a).map d = (k' a).map e) : (x.bind k).map d = (y.bind k').map e := by
  subst h
  exact simS hk

theorem verifyRange_eq (hS : S.Lawful) (E : Curve G1 G2 GT) (pp : RPPP G1) (rp : RangeProof G1) (V : G1) :
    verifyRange S E pp rp V = BP.verifyRange E pp rp.res V := by
  refine of_map_id ?_
  refine simB (e := Prod.fst) (sim_fe _) fun x hx => simS fun ppR _ => simB (sim_iterativeVerify hS E ppR _ rp.Δ rp.u) fun o _ => ?_
  have rx := fe_reduced hx
  match o with
  | none => rfl
  | some (xs, u) =>
    refine simB (c := resV) ?_ fun f _ => simB (sim_computeD hS _ _ f x) fun d _ => simB (sim_rangeY hS E pp _ _ rx 0) fun y0 hy0 =>
      simB (sim_rangeY hS E pp _ _ rx 1) fun y1 hy1 => ?_
    · rw [sim_rangeF hS, resV_reverse]
    have r0 : Reduced y0 := fe_reduced hy0
    have r1 : Reduced y1 := fe_reduced hy1
    have e1 : PoL.Vec.mul (BP.expand (intToZr 1) (pp.Gs.length * 63)) (PoL.res y1)
        = resV (Vec.mul S (expand 1 (pp.Gs.length * 63)) y1) := by
      rw [resV_mul hS, resV_expand]
      simp [intToZr, PoL.res]
    have e2 : PoL.powerSeries (pp.Gs.length * 63) (PoL.res y0) = resV (powerSeries S (pp.Gs.length * 63) y0) :=
      (resV_powerSeries hS _ _).symm
    have e3 : BP.expand (intToZr 1) (pp.Gs.length * 63) = resV (expand 1 (pp.Gs.length * 63)) := by
      rw [resV_expand]
      simp [intToZr, PoL.res]
    refine simB (sim_computeZ hS E pp _ _ _ _ r0 r1) fun z _ => simE ?_ fun Fp _ => simS fun ip _ => simE ?_ fun P _ => ?_
    · rw [mulV_eq hS, resV_powerSeries hS, show PoL.res (S.inv y0) = (PoL.res y0)⁻¹ from hS.inv_res _]
    · rw [computeP_eq hS, e1]
      rfl
    refine simE (ipp_verify_eq hS E _ ip) fun b _ => ?_
    cases b with
    | false => rfl
    | true =>
      refine simB (c := PoL.res) ?_ fun β1 _ => simB (c := PoL.res) ?_ fun β2 _ => simB (sim_sliceTo d _) fun d' _ =>
        simB (c := PoL.res) ?_ fun β3 _ => ?_
      · rw [sim_innerProd hS, e2, e3]
      · rw [sim_innerProd hS, e2, e3]
      · rw [sim_innerProd hS, e3]
      · simp only [PoL.res, hS.plus_res, hS.mul_res]
        rfl

/-- The proof and the parameters of the first model. -/
def resRP (x : RangeProof G1 × BP.PP G1) : BP.RangeProof G1 × BP.PP G1 := (x.1.res, x.2)

theorem res_add (hS : S.Lawful) (a b : ℤ) : PoL.res (S.plus a b) = PoL.res a + PoL.res b := hS.plus_res a b

theorem res_mul' (hS : S.Lawful) (a b : ℤ) : PoL.res (S.mul a b) = PoL.res a * PoL.res b := hS.mul_res a b

theorem res_c (x : Zr) : PoL.res (canon x) = x := res_canon x

theorem res_neg (hS : S.Lawful) (x : ℤ) : PoL.res (negZr S x) = PoL.negZr (PoL.res x) := res_negZr hS x

theorem sim_proveRangeUnchecked (hS : S.Lawful) (E : Curve G1 G2 GT) (pp : RPPP G1) (rnd : RangeRand) (V : G1)
    (v : List ℤ) (hv : ∀ x ∈ v, Reduced x) (r : ℤ) :
    (proveRangeUnchecked S E pp rnd V v r).map resRP = BP.proveRangeUnchecked E pp rnd V (resV v) (res r) := by
  have eone : BP.expand (intToZr 1) (pp.Gs.length * 63) = resV (expand 1 (pp.Gs.length * 63)) := by
    rw [resV_expand]
    simp [intToZr, PoL.res]
  have ezero : BP.expand (intToZr 0) pp.Gs.length = resV (expand 0 pp.Gs.length) := by
    rw [resV_expand]
    simp [intToZr, PoL.res]
  have ebits : resV (intsToZr (Vec.vbits S v 63) ++ rnd.w.map canon) = PoL.intsToZr (PoL.Vec.vbits (resV v) 63) ++ rnd.w := by
    rw [resV_append, resV_canon, resV_ints, vbits_eq hS v hv]
  refine sim_eq ?_ fun m1 _ => sim_same fun s1 _ => sim_bind (c := resV) ?_ fun vb _ => sim_bind (c := resV) ?_ fun wc _ =>
    sim_eq ?_ fun m2 _ => sim_same fun s2 _ => sim_same fun F1 _ => sim_eq (mulV_eq hS F1 wc) fun m3 _ => sim_same fun s3 _ => ?_
  · rw [mulV_eq hS, resV_canon]
  · rw [sim_sliceTo, ebits]
  · rw [sim_sub hS, eone]
  · rw [mulV_eq hS, ebits]
  refine sim_bind (c := PoL.res) (d := resRP) ?_ fun x hx => sim_same fun ppR _ => sim_bind (c := resV) ?_ fun wr _ =>
    sim_bind (c := resRed) ?_ fun red _ => ?_
  · rw [res_c, res_c]
    exact sim_fe _
  · rw [sim_add hS, resV_mul hS, resV_canon]
  · rw [sim_iterativeReduce hS, res_neg hS, res_add hS, res_mul' hS, res_c]
  have rx : Reduced x := fe_reduced hx
  obtain ⟨Δ, xs, u⟩ := red
  refine sim_bind (c := resV) (d := resRP) ?_ fun f _ => sim_bind (sim_computeD hS _ _ f x) fun d _ => sim_eq ?_ fun m4 _ =>
    sim_same fun s4 _ => sim_same fun F2 _ => sim_eq ?_ fun m5 _ => sim_same fun s5 _ => sim_bind (c := PoL.res) ?_ fun y0 hy0 =>
    sim_bind (c := PoL.res) ?_ fun y1 hy1 => ?_
  · rw [sim_rangeF hS, resV_reverse]
  · rw [mulV_eq hS, resV_canon]
  · rw [mulV_eq hS, resV_canon]
  · rw [sim_rangeY hS _ _ _ _ rx]
    simp only [res_c]
  · rw [sim_rangeY hS _ _ _ _ rx]
    simp only [res_c]
  have r0 : Reduced y0 := fe_reduced hy0
  have r1 : Reduced y1 := fe_reduced hy1
  have e1 : PoL.Vec.mul (BP.expand (intToZr 1) (pp.Gs.length * 63)) (PoL.res y1)
      = resV (Vec.mul S (expand 1 (pp.Gs.length * 63)) y1) := by
    rw [resV_mul hS, resV_expand]
    simp [intToZr, PoL.res]
  have e2 : PoL.powerSeries (pp.Gs.length * 63) (PoL.res y0) = resV (powerSeries S (pp.Gs.length * 63) y0) :=
    (resV_powerSeries hS _ _).symm
  have et : PoL.Vec.hadamardProd (PoL.powerSeries (pp.Gs.length * 63) (PoL.res y0)) rnd.t
      = (Vec.hadamardProd S (powerSeries S (pp.Gs.length * 63) y0) (rnd.t.map canon)).map resV := by
    rw [sim_hadamard hS, e2, resV_canon]
  refine sim_bind (c := resV) (d := resRP) ?_ fun aP _ => sim_bind (c := resV) ?_ fun b1 _ => sim_bind (c := resV) ?_ fun h1 _ =>
    sim_bind (c := resV) ?_ fun bP _ => sim_bind (sim_sliceTo aP _) fun a1 _ => sim_bind et.symm fun h2 _ =>
    sim_bind (sim_innerProd hS a1 h2) fun c1 _ => sim_bind (c := PoL.res) ?_ fun c1' _ => sim_bind (c := resV) ?_ fun st _ =>
    sim_bind et.symm fun h3 _ => sim_bind (sim_innerProd hS st h3) fun c2 _ => ?_
  · rw [sim_add hS, ebits, resV_append, ← e1, ← ezero]
    rfl
  · rw [sim_add hS, resV_mul hS, resV_mul hS, res_mul' hS, resV_append, ← e2, ← ezero]
    rfl
  · rw [sim_hadamard hS, e2]
  · rw [sim_add hS, resV_append, ← ezero]
    rfl
  · rw [sim_innerProd hS, resV_canon]
  · rw [sim_sliceTo, resV_canon]
  refine sim_bind (c := PoL.res) (d := resRP) ?_ fun z _ => sim_eq ?_ fun Fp _ => sim_bind (c := resV) ?_ fun a _ =>
    sim_bind et.symm fun h4 _ => sim_bind (c := resV) ?_ fun b _ => sim_bind (sim_innerProd hS a b) fun c _ =>
    sim_same fun ip _ => sim_bind (sim_newIpa hS ip a b) fun ipa _ => sim_bind (sim_prove hS E ipa) fun ipp _ => ?_
  · rw [sim_computeZ hS _ _ _ _ _ _ r0 r1]
    simp only [res_c, res_add hS]
  · rw [mulV_eq hS, resV_powerSeries hS, show PoL.res (S.inv y0) = (PoL.res y0)⁻¹ from hS.inv_res _]
  · rw [sim_add hS, resV_mul hS, resV_canon]
  · rw [sim_add hS, resV_mul hS, resV_append, ← ezero]
    rfl
  · simp only [Option.pure_def, Option.map_some, resRP, RangeProof.res, Option.some.injEq, Prod.mk.injEq, and_true]
    have q1 := res_neg hS (S.plus r (S.mul x (canon rnd.rPrime)))
    have q2 := res_neg hS (S.plus (canon rnd.ν) (S.mul (canon rnd.η) z))
    simp only [res_add hS, res_mul' hS, res_c] at q1 q2
    simp only [res_c, res_add hS]
    congr 1
    rw [res_mul' hS, res_mul' hS, res_mul' hS, res_c, res_c]

theorem sim_proveRange (hS : S.Lawful) (E : Curve G1 G2 GT) (pp : RPPP G1) (rnd : RangeRand) (V : G1)
    (v : List ℤ) (hv : ∀ x ∈ v, Reduced x) (r : ℤ) :
    (proveRange S E pp rnd V v r).map RangeProof.res = BP.proveRange E pp rnd V (resV v) (res r) := by
  refine sim_bind (sim_proveRangeUnchecked hS E pp rnd V v hv r) fun x _ => ?_
  obtain ⟨rp, ip⟩ := x
  refine sim_eq (ipp_verify_eq hS E rp.ipp ip) fun b _ => ?_
  cases b <;> rfl

/-! ## `sum/sa.go` -/

theorem sim_challenge (hS : S.Lawful) (E : Curve G1 G2 GT) (V : List G1) (m : ℕ) :
    (createHVZKChallenge S E V m).map resV = Sum.createHVZKChallenge E V m := by
  refine sim_bind (sim_fe _) fun t _ => ?_
  refine congrArg some ((resV_powerSeriesLoop hS t m 1).trans ?_)
  simp [intToZr, PoL.res]

theorem sim_cvw (hS : S.Lawful) (E : Curve G1 G2 GT) {c : ℤ} (hc : Reduced c) (V W : G1) :
    (randomOracleCVW S E c V W).map res = Sum.randomOracleCVW E (res c) V W := by
  unfold randomOracleCVW Sum.randomOracleCVW
  rw [hS.bytes_red c hc]
  exact sim_fe _

/-- The argument and the proof of the first model. -/
def resArg (x : Sum.Argument G1 × SumProof G1) : Sum.Argument G1 × Sum.Proof G1 := (x.1, x.2.res)

theorem sim_newArgument (hS : S.Lawful) (E : Curve G1 G2 GT) (pp : Sum.PP G1) (rnd : Sum.Rand) (V : G1) (v : List ℤ) (r : ℤ) :
    (newArgument S E pp rnd V v r).map resArg = Sum.newArgument E pp rnd V (resV v) (res r) := by
  refine sim_eq ?_ fun m1 _ => sim_same fun s1 _ => sim_bind (c := PoL.res) ?_ fun c hc => sim_bind (c := PoL.res) ?_ fun x _ =>
    sim_same fun ip _ => sim_bind (c := resV) ?_ fun a _ => sim_bind (c := InnerProdArgument.res) ?_ fun ipa _ =>
    sim_bind (sim_prove hS E ipa) fun π _ => ?_
  · rw [mulV_eq hS, resV_canon]
  · rw [sim_innerProd hS, resV_canon, resV_canon]
  · rw [sim_cvw hS E (innerProd_reduced hc), res_c]
  · rw [sim_add hS, resV_mul hS, resV_canon]
  · rw [sim_newIpa hS, resV_canon]
  · have q1 := res_neg hS (S.plus r (S.mul (canon rnd.rPrime) x))
    simp only [res_add hS, res_mul' hS, res_c] at q1
    simp only [Option.pure_def, Option.map_some, resArg, SumProof.res, res_c]
    rw [show ((negZr S (S.plus r (S.mul (canon rnd.rPrime) x)) : ℤ) : Zr) = _ from q1]

theorem sum_verify_eq (hS : S.Lawful) (E : Curve G1 G2 GT) (p : SumProof G1) (hc : Reduced p.c) (pp : Sum.PP G1)
    (a : Sum.Argument G1) : p.verify S E pp a = p.res.verify E pp a := by
  refine of_map_id ?_
  refine simB (e := Prod.fst) (sim_cvw hS E hc a.V p.W) fun x _ => simS fun ip _ => ?_
  rw [ipp_verify_eq hS]
  simp only [InnerProductProof.res, SumProof.res]
  rw [hS.mul_res]
  cases BP.InnerProductProof.verify E _ ip <;> rfl

theorem sum_verifyAggregated_eq (hS : S.Lawful) (E : Curve G1 G2 GT) (p : SumProof G1) (hc : Reduced p.c) (pp : Sum.PP G1)
    (V : List G1) : p.verifyAggregated S E pp V = p.res.verifyAggregated E pp V := by
  refine of_map_id (sim_bind (sim_challenge hS E V _) fun t _ => sim_eq (mulV_eq hS V t) fun m _ => sim_same fun s _ => ?_)
  rw [Option.map_id, id, sum_verify_eq hS E p hc]

theorem sim_newAggregatedArgument (hS : S.Lawful) (E : Curve G1 G2 GT) (pp : Sum.PP G1) (rnd : Sum.Rand) (V : List G1)
    (v : List (List ℤ)) (r : List ℤ) : (newAggregatedArgument S E pp rnd V v r).map SumProof.res
      = Sum.newAggregatedArgument E pp rnd V (v.map resV) (resV r) := by
  refine sim_bind (c := resV) ?_ fun t _ => sim_bind (c := resV) ?_ fun v0 _ => sim_bind (c := resV) ?_ fun va _ =>
    sim_bind (c := PoL.res) ?_ fun ra _ => sim_eq (mulV_eq hS V t) fun m _ => sim_same fun s _ =>
    sim_bind (sim_newArgument hS E pp rnd s va ra) fun x _ => rfl
  · rw [sim_challenge hS, List.length_map]
  · simp
  · rw [resV_length]
    refine sim_mapM (fun i => sim_bind (c := resV) ?_ fun vi _ => sim_innerProd hS vi t) _
    exact sim_mapM' (fun w => sim_getElem w i) v
  · rw [sim_innerProd hS]

/-! ## `poe/poe.go` -/

theorem sim_callRO (RO : Poe.ROFun G1) (gs : List G1) (is : List ℕ) (d : Bytes) (n : ℕ) :
    (callRO RO gs is d n).map resV = RO gs is d n := by
  unfold callRO
  rw [Option.map_map]
  cases RO gs is d n with
  | none => rfl
  | some xs => exact congrArg some (resV_canon xs)

theorem eqsVerify_eq (hS : S.Lawful) (E : Curve G1 G2 GT) (e : Poe.Equalities G1 G2 GT) (p : AggregatedProof G1) :
    eqsVerify S E e p = e.verify E p.res := by
  refine of_map_id ?_
  refine simB (e := Prod.fst) (sim_callRO e.RO _ _ _ _) fun xs _ => simB (sim_getElem xs 0) fun x _ => simB (sim_callRO e.RO _ _ _ _)
    fun ts _ => simS fun gV _ => simS fun gW _ => simS fun s1 _ => simB (sim_evens ts) fun ev _ => simE (mulV_eq hS s1 ev) fun m1 _ =>
    simS fun n1 _ => simS fun s2 _ => simB (sim_odds ts) fun od _ => simE (mulV_eq hS s2 od) fun m2 _ => simS fun n2 _ => simS fun d1 _ =>
    simS fun g0 _ => simS fun ge _ => simS fun d2 _ => ?_
  dsimp only
  split_ifs
  · rfl
  · refine simB (sim_evens ts) fun ev _ => simB (sim_odds ts) fun od _ => simB (sim_add hS ev od) fun b _ =>
      simE (mulV_eq hS e.PP.H b) fun m3 _ => simS fun s3 _ => simS fun ip _ => ?_
    rw [ipp_verify_eq hS]
    simp only [InnerProductProof.res, AggregatedProof.res]
    cases BP.InnerProductProof.verify E _ ip <;> rfl

theorem proveStep_eq (hS : S.Lawful) (pp : PoL.PP G1 G2 GT) (n : ℕ) (u η ν : ℤ) (I J : ℕ) (v w : List ℤ) :
    proveStep S pp n u η ν I J v w = Poe.proveStep pp n (res u) (res η) (res ν) I J (resV v) (resV w) := by
  refine of_map_id ?_
  unfold proveStep Poe.proveStep
  split_ifs
  · rfl
  · exact sim_same fun a _ => sim_same fun b _ => sim_same fun c _ => sim_same fun d _ => sim_same fun e _ => sim_same fun f _ =>
      sim_bind (sim_openAt hS pp I v) fun x _ => sim_bind (sim_openAt hS pp J w) fun y _ => rfl

theorem sim_eqsProve (hS : S.Lawful) (E : Curve G1 G2 GT) (e : Poe.Equalities G1 G2 GT) (rnd : Poe.EqsRand)
    (vs ws : List (List ℤ)) :
    (eqsProve S E e rnd vs ws).map AggregatedProof.res = e.prove E rnd (vs.map resV) (ws.map resV) := by
  unfold eqsProve Poe.Equalities.prove
  rw [List.length_map, List.length_map]
  dsimp only
  split_ifs
  · rfl
  · rfl
  · rfl
  have eu : resV ((rnd.uην.take e.V.length).map fun t => canon t.1) = (rnd.uην.take e.V.length).map fun t => t.1 := by
    rw [resV, List.map_map]
    exact List.map_congr_left fun t _ => res_canon t.1
  have ev : ∀ (l : List (List ℤ)) (k : ℕ), (l[k]?).map resV = (l.map resV)[k]? := fun l k => by simp
  refine sim_bind (ev vs 0) fun v0 _ => sim_eq ?_ fun steps _ => sim_bind (sim_callRO e.RO _ _ _ _) fun xs _ =>
    sim_bind (sim_getElem xs 0) fun x _ => sim_bind (c := resV) ?_ fun v _ => sim_eq ?_ fun m1 _ => sim_same fun s1 _ =>
    sim_eq (mulV_eq hS e.PP.G v) fun m2 _ => sim_same fun s2 _ => sim_bind (c := resV) ?_ fun ts _ => sim_same fun g1 _ =>
    sim_bind (sim_evens ts) fun ev _ => sim_eq (mulV_eq hS g1 ev) fun m3 _ => sim_same fun Ω1 _ => sim_same fun g2 _ =>
    sim_bind (sim_odds ts) fun od _ => sim_eq (mulV_eq hS g2 od) fun m4 _ => sim_same fun Ω2 _ => sim_bind (c := resV) ?_ fun a _ =>
    sim_bind (sim_evens ts) fun ev' _ => sim_bind (sim_odds ts) fun od' _ => sim_bind (sim_add hS ev' od') fun b _ =>
    sim_eq (mulV_eq hS e.PP.H b) fun m5 _ => sim_same fun s5 _ => sim_same fun ip _ => sim_bind (sim_newIpa hS ip a b) fun ipa _ =>
    sim_bind (c := InnerProductProof.res) ?_ fun ipp _ => ?_
  · refine congrArg (fun f => List.mapM f (List.range _)) (funext fun k => of_map_id ?_)
    · refine sim_same fun t _ => sim_same fun I _ => sim_same fun J _ => sim_bind (ev vs k) fun v _ => sim_bind (ev ws k) fun w _ => ?_
      rw [Option.map_id, id, proveStep_eq hS, resV_length, res_c, res_c, res_c]
  · exact sim_mapM (fun i => sim_bind (ev vs i) fun w _ => sim_same fun I _ => sim_getElem w I) _
  · rw [mulV_eq hS, eu]
  · rw [sim_callRO, res_c, res_c]
  · rw [sim_add hS, resV_mul hS, eu]
  · rw [sim_prove hS]
    have q1 := res_neg hS (S.plus (S.mul (canon rnd.r1) x) (canon rnd.r2))
    simp only [res_add hS, res_mul' hS, res_c] at q1
    simp only [InnerProdArgument.res, q1, res_c]
  · have q1 := res_neg hS (S.plus (S.mul (canon rnd.r1) x) (canon rnd.r2))
    simp only [res_add hS, res_mul' hS, res_c] at q1
    simp only [Option.pure_def, Option.map_some, AggregatedProof.res, res_c, q1]
    rfl

theorem eqVerify_eq (hS : S.Lawful) (E : Curve G1 G2 GT) (e : Poe.Equality G1 G2 GT) (p : EqProof G1) :
    eqVerify S E e p = e.verify E p.res := by
  refine of_map_id ?_
  refine sim_bind (sim_callRO e.RO _ _ _ _) fun xs _ => sim_bind (sim_getElem xs 0) fun x _ => sim_bind (sim_callRO e.RO _ _ _ _)
    fun ts _ => sim_bind (sim_getElem ts 0) fun t0 _ => sim_bind (sim_getElem ts 1) fun t1 _ => sim_same fun a _ => sim_same fun b _ =>
    sim_same fun c _ => sim_same fun d _ => sim_same fun e _ => sim_same fun f _ => sim_same fun g _ => sim_same fun h _ => ?_
  rw [res_mul' hS, res_add hS]
  rfl

theorem equals_eq (hS : S.Lawful) {a b : ℤ} (ha : Reduced a) (hb : Reduced b) :
    S.equals a b = decide (PoL.res a = PoL.res b) := by
  by_cases h : PoL.res a = PoL.res b
  · rw [ha.eq_of_res hb h, hS.equals_refl, decide_eq_true rfl]
  · rw [decide_eq_false h]
    cases e : S.equals a b with
    | false => rfl
    | true => exact absurd (hS.equals_res a b e) h

theorem sim_eqProve (hS : S.Lawful) (E : Curve G1 G2 GT) (e : Poe.Equality G1 G2 GT) (u η ν : Zr) (v w : List ℤ)
    (hv : ∀ x ∈ v, Reduced x) (hw : ∀ x ∈ w, Reduced x) :
    (eqProve S E e u η ν v w).map EqProof.res = e.prove E u η ν (resV v) (resV w) := by
  refine sim_bind (sim_getElem v _) fun vI hI => sim_bind (sim_getElem w _) fun wJ hJ => ?_
  rw [equals_eq hS (hv _ (List.mem_of_getElem? hI)) (hw _ (List.mem_of_getElem? hJ)), resV_length, resV_length]
  by_cases h : PoL.res vI = PoL.res wJ
  · rw [decide_eq_true h, if_neg (by simp), if_neg (not_not.2 h)]
    by_cases hl : v.length ≠ w.length
    · rw [if_pos hl, if_pos hl]
      rfl
    rw [if_neg hl, if_neg hl]
    refine sim_same fun a _ => sim_same fun b _ => sim_same fun c _ => sim_same fun d _ => sim_same fun f _ => sim_same fun g _ =>
      sim_bind (c := resV) ?_ fun xs _ => sim_bind (sim_getElem xs 0) fun x _ => sim_bind (c := resV) ?_ fun ts _ =>
      sim_bind (sim_getElem ts 0) fun t0 _ => sim_bind (sim_getElem ts 1) fun t1 _ => sim_bind (sim_openAt hS _ _ v) fun o1 _ =>
      sim_bind (sim_openAt hS _ _ w) fun o2 _ => ?_
    · rw [sim_callRO, res_c, res_c, res_c]
    · rw [sim_callRO, res_c, res_c, res_c, res_add hS, res_mul' hS, res_c]
    · have q := res_add hS vI (S.mul (canon u) x)
      rw [res_mul' hS, res_c] at q
      simp only [Option.pure_def, Option.map_some, EqProof.res, res_c]
      rw [show ((S.plus vI (S.mul (canon u) x) : ℤ) : Zr) = _ from q]
      rfl
  · rw [decide_eq_false h, if_pos (by simp), if_pos h]
    rfl

/-! ## `sum.NewCommitment` -/

/-- What the two models of `NewCommitment` have in common. -/
theorem newCommitment_raw (hS : S.Lawful) (pp : Sum.PP G1) (v : List ℤ) (r : ℤ) :
    newCommitment S pp v r = (Gv.mulV pp.Gs (resV v)).bind fun a => (Gv.sum a).bind fun s => (v[0]?).bind fun v0 =>
      (v[v.length - 1]?).bind fun l => if !S.equals l (((v.take (v.length - 1)).drop 1).foldl S.plus v0) then none
        else some { V := res r • pp.F + s } := by
  rw [← mulV_eq hS]
  rfl

theorem newCommitment_model (pp : Sum.PP G1) (v : List ℤ) (r : ℤ) :
    Sum.newCommitment pp (resV v) (res r) = (Gv.mulV pp.Gs (resV v)).bind fun a => (Gv.sum a).bind fun s => (v[0]?).bind fun v0 =>
      (v[v.length - 1]?).bind fun l => if PoL.res l ≠ (resV ((v.take (v.length - 1)).drop 1)).foldl (· + ·) (PoL.res v0) then none
        else some { V := res r • pp.F + s } := by
  refine (of_map_id (sim_same fun a _ => sim_same fun s _ => sim_bind (sim_getElem v 0) fun v0 _ => sim_bind (c := PoL.res) ?_ fun l _ => ?_)).symm
  · rw [resV_length]
    exact sim_getElem v _
  · rw [Option.map_id, id, resV_length, resV, List.map_drop, List.map_take]
    rfl

/-- What the integer model commits to, the first model commits to. -/
theorem newCommitment_sound (hS : S.Lawful) {pp : Sum.PP G1} {v : List ℤ} {r : ℤ} {A : Sum.Argument G1}
    (h : newCommitment S pp v r = some A) : Sum.newCommitment pp (resV v) (res r) = some A := by
  rw [newCommitment_raw hS] at h
  rw [newCommitment_model]
  obtain ⟨a, ha, h⟩ := Option.bind_eq_some_iff.1 h
  obtain ⟨s, hs, h⟩ := Option.bind_eq_some_iff.1 h
  obtain ⟨v0, h0, h⟩ := Option.bind_eq_some_iff.1 h
  obtain ⟨l, hl, h⟩ := Option.bind_eq_some_iff.1 h
  rw [ha, Option.bind_some, hs, Option.bind_some, h0, Option.bind_some, hl, Option.bind_some]
  cases e : S.equals l (((v.take (v.length - 1)).drop 1).foldl S.plus v0) with
  | false =>
    rw [e] at h
    cases h
  | true =>
    rw [e] at h
    rw [if_neg (not_not.2 ((hS.equals_res _ _ e).trans (res_foldl_plus hS _ _)))]
    exact h

/-- A sum that needs no reduction is exact. -/
theorem foldl_plus_small (hS : S.Lawful) : ∀ (l : List ℤ) (a : ℤ), 0 ≤ a → (∀ x ∈ l, 0 ≤ x) → a + l.sum < order →
    l.foldl S.plus a = a + l.sum
  | [], a, _, _, _ => by simp
  | x :: l, a, ha, hl, h => by
    have hx : 0 ≤ x := hl x (by simp)
    have hl' : ∀ y ∈ l, 0 ≤ y := fun y hy => hl y (by simp [hy])
    have hs : 0 ≤ l.sum := List.sum_nonneg hl'
    rw [List.sum_cons] at h
    rw [List.foldl_cons, hS.plus_small a x ha hx (by omega), foldl_plus_small hS l (a + x) (by omega) hl' (by omega), List.sum_cons]
    omega

end PoL.Raw

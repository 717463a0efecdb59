import Verif.Model.Sum
import Verif.Proofs.Range
import Mathlib.Algebra.BigOperators.Group.List.Basic

/-!
# Helper lemmas about the sum argument (`sum/sa.go`)
-/

set_option linter.unusedSectionVars false

namespace PoL.Sum

open BP

variable {G1 G2 GT : Type} [AddCommGroup G1] [Module Zr G1] [AddCommGroup G2] [Module Zr G2]
  [AddCommGroup GT] [Module Zr GT] [DecidableEq G1]

/-- Parameters for vectors of length `n`. -/
structure PP.Sized (pp : PP G1) (n : ℕ) : Prop where
  gs : pp.Gs.length = n
  hs : pp.H.length = n
  b_eq : pp.b = List.replicate (n - 1) 1 ++ [-1]
  B_eq : pp.B = dot pp.b pp.H
  pos : 0 < n

theorem PP.Sized.b_length {pp : PP G1} {n : ℕ} (h : pp.Sized n) : pp.b.length = n := by
  have := h.pos
  rw [h.b_eq]; simp; omega

theorem bVector_eq {n : ℕ} (h : 0 < n) : bVector n = some (List.replicate (n - 1) 1 ++ [-1]) := by
  obtain ⟨m, rfl⟩ : ∃ m, n = m + 1 := ⟨n - 1, by omega⟩
  rw [bVector, if_neg (by omega), intToZr_one, negZr_eq, List.replicate_succ']
  simp

theorem newPublicParams_sized (E : Curve G1 G2 GT) {n : ℕ} (h : 0 < n) :
    ∃ pp, newPublicParams E n = some pp ∧ pp.Sized n := by
  obtain ⟨U, hU⟩ := randGenVec_zero E "IPA u"
  obtain ⟨G, hG⟩ := randGenVec_zero E "sum argument G"
  obtain ⟨F, hF⟩ := randGenVec_zero E "sum argument F"
  have l1 : (randGenVec E n "sum argument Gs").length = n := by simp [randGenVec]
  have l2 : (randGenVec E n "sum argument H").length = n := by simp [randGenVec]
  obtain ⟨q1, q2⟩ := gv_mulV_sum (g := randGenVec E n "sum argument H") (v := List.replicate (n - 1) 1 ++ [-1]) l2
    (by simp; omega) h
  refine ⟨_, obind_step hU (obind_step hG (obind_step hF (obind_step (bVector_eq h) (obind_step q1
    (obind_step q2 rfl))))), ⟨l1, l2, rfl, rfl, h⟩⟩

/-- `<v, (1,…,1,-1)>` is the sum of all entries but the last, minus the last. -/
theorem dot_b (v : List Zr) (s : Zr) (n : ℕ) (h : v.length = n) :
    dot (v ++ [s]) (List.replicate n (1 : Zr) ++ [-1]) = v.sum - s := by
  rw [dot_append _ _ _ _ (by simp [h]), dot_comm v, dot_one_left n v h, dot_cons, dot_nil_left]
  simp [smul_eq_mul, sub_eq_add_neg]

theorem ipaParams_eq (E : Curve G1 G2 GT) (pp : PP G1) (h : pp.Gs.length ≤ pp.H.length) :
    ∃ d, ipaParams E pp = some { digest := d, G := pp.Gs, H := pp.H, U := pp.U } := by
  obtain ⟨d, hd⟩ := setupDigest_isSome E { digest := [], G := pp.Gs, H := pp.H, U := pp.U } (Or.inr h)
  exact ⟨d, hd⟩

theorem verify_steps (E : Curve G1 G2 GT) (W : G1) (c ρ : Zr) (π : InnerProductProof G1)
    (pp : PP G1) (V : G1) {x : Zr} {ipaPP : BP.PP G1}
    {bv : Bool} (h1 : randomOracleCVW E c V W = some x) (h2 : ipaParams E pp = some ipaPP)
    (h3 : InnerProductProof.verify E { π with C := c * x, P := ρ • pp.F + V + x • W + pp.B } ipaPP
      = some bv) : Proof.verify E ⟨W, c, ρ, π⟩ pp ⟨V⟩ = some bv := by
  have : Proof.verifyState E ⟨W, c, ρ, π⟩ pp ⟨V⟩ = some (bv,
      ⟨W, c, ρ, { π with C := c * x, P := ρ • pp.F + V + x • W + pp.B }⟩) := by
    unfold Proof.verifyState
    exact obind_step h1 (obind_step h2 (obind_step h3 rfl))
  rw [Proof.verify, this]
  rfl

/-- What `NewArgument` returns and what `Verify` says about it, for any `V`. -/
theorem newArgument_verdict (E : Curve G1 G2 GT) (hE : E.Lawful) (pp : PP G1) (k : ℕ) (hpp : pp.Sized (2 ^ k))
    (rnd : Rand) (hw : rnd.w.length = 2 ^ k) (V : G1) (v : List Zr) (hv : v.length = 2 ^ k) (r : Zr) :
    ∃ p ipaPP xI, newArgument E pp rnd V v r = some ({ V := V }, p) ∧ ipaParams E pp = some ipaPP ∧
      (∀ P, fieldElementFromBytes (E.sha256 (instanceHashInput ipaPP P)) = some xI) ∧
      ((∀ y ∈ ippChallenges E ipaPP p.π, y ≠ 0) →
        p.verify E pp { V := V } = some (decide ((xI * dot v pp.b) • pp.U = V - (r • pp.F + dot v pp.Gs)))) := by
  have hpos := hpp.pos
  have lb := hpp.b_length
  obtain ⟨hGs, hHs, hb, hB, -⟩ := hpp
  obtain ⟨d, hd⟩ := ipaParams_eq E pp (by omega)
  obtain ⟨q1, q2⟩ := gv_mulV_sum hGs hw hpos
  have hc : Vec.innerProd rnd.w pp.b = some (dot rnd.w pp.b) := Vec.innerProd_eq (by omega)
  obtain ⟨x, hx⟩ := fieldElementFromBytes_isSome (hE.sha_len (zrBytes (dot rnd.w pp.b) ++ E.g1Bytes V
    ++ E.g1Bytes (rnd.rPrime • pp.F + dot rnd.w pp.Gs)))
  have hx' : randomOracleCVW E (dot rnd.w pp.b) V (rnd.rPrime • pp.F + dot rnd.w pp.Gs) = some x := hx
  have ha : Vec.add v (Vec.mul rnd.w x) = some (List.zipWith (· + ·) v (Vec.mul rnd.w x)) :=
    Vec.add_eq (by simp [hv, hw])
  set a := List.zipWith (· + ·) v (Vec.mul rnd.w x) with hadef
  have la : a.length = 2 ^ k := by simp [hadef, hv, hw]
  set ipaPP : BP.PP G1 := { digest := d, G := pp.Gs, H := pp.H, U := pp.U } with hipaPP
  obtain ⟨π, xI, hπ, -, -, -, hxI, hver⟩ := prove_verify E hE ipaPP a pp.b (dot a pp.b)
    (dot a pp.Gs + dot pp.b pp.H) k la lb hGs hHs
  have hipa : newInnerProdArgument ipaPP a pp.b
      = some { pp := ipaPP, a := a, b := pp.b, C := dot a pp.b, P := dot a pp.Gs + dot pp.b pp.H } := by
    rw [newInnerProdArgument, Vec.innerProd_eq (by omega), BP.commit_eq ipaPP a pp.b (by omega)
      (by intro h; rw [h] at la; simp only [List.length_nil] at la; omega) (by simp only [hipaPP]; omega)
      (by simp only [hipaPP]; omega)]
    rfl
  refine ⟨⟨rnd.rPrime • pp.F + dot rnd.w pp.Gs, dot rnd.w pp.b, negZr (r + rnd.rPrime * x), π⟩, ipaPP, xI, ?_, hd, fun P => hxI, fun hne => ?_⟩
  · unfold newArgument
    exact obind_step q1 (obind_step q2 (obind_step hc (obind_step hx' (obind_step hd (obind_step ha
      (obind_step hipa (obind_step hπ rfl)))))))
  · have hV := hver hne (negZr (r + rnd.rPrime * x) • pp.F + V + x • (rnd.rPrime • pp.F + dot rnd.w pp.Gs) + pp.B)
      (dot rnd.w pp.b * x) rfl
    rw [verify_steps E (rnd.rPrime • pp.F + dot rnd.w pp.Gs) (dot rnd.w pp.b) (negZr (r + rnd.rPrime * x)) π pp V
      hx' hd hV, Option.some_inj]
    apply decide_eq_decide.2
    have hdab : dot a pp.b = dot v pp.b + x * dot rnd.w pp.b := by
      rw [hadef, dot_add_left _ _ _ (by simp [hv, hw]), Vec.dot_mul, smul_eq_mul]
    have hdag : dot a pp.Gs = dot v pp.Gs + x • dot rnd.w pp.Gs := by
      rw [hadef, dot_add_left _ _ _ (by simp [hv, hw]), Vec.dot_mul]
    rw [hB, hdab, hipaPP, negZr_eq]
    dsimp only
    rw [hdag]
    rw [← sub_eq_zero (a := (xI * dot v pp.b) • pp.U), ← sub_eq_zero]
    have e : ∀ A B : G1, A = B → (A = 0 ↔ B = 0) := fun _ _ h => by rw [h]
    apply e
    module

/-- The weights of `createHVZKChallenge`. -/
theorem createHVZKChallenge_eq (E : Curve G1 G2 GT) (hE : E.Lawful) (V : List G1) (m : ℕ) :
    ∃ t, createHVZKChallenge E V m = some t ∧ t.length = m := by
  obtain ⟨τ, hτ⟩ := fieldElementFromBytes_isSome (hE.sha_len (g1vBytes E V))
  exact ⟨_, obind_step hτ rfl, by rw [powerSeriesLoop_eq]; simp⟩

/-- Entrywise combination of vectors. -/
theorem dot_aggr {M : Type} [AddCommGroup M] [Module Zr M] (n : ℕ) (g : List M) (hg : g.length = n) :
    ∀ (v : List (List Zr)) (t : List Zr), (∀ u ∈ v, u.length = n) → v.length = t.length →
    dot ((List.range n).map fun i => dot (v.map fun u => u.getD i 0) t) g = dot t (v.map fun u => dot u g)
  | [], [], _, _ => by
    simp only [List.map_nil, dot_nil_left, List.map_const', List.length_range]
    exact dot_replicate_zero n g
  | u :: v, a :: t, hu, hl => by
    have ih := dot_aggr n g hg v t (fun w hw => hu w (by simp [hw])) (by simpa using hl)
    have hu0 := hu u (by simp)
    have e : ((List.range n).map fun i => dot ((u :: v).map fun w => w.getD i 0) (a :: t))
        = List.zipWith (· + ·) (u.map fun z => z * a) ((List.range n).map fun i => dot (v.map fun w => w.getD i 0) t) := by
      apply List.ext_getElem (by simp [hu0])
      intro i h1 h2
      simp at h1
      simp [List.getD_eq_getElem?_getD, List.getElem?_eq_getElem (show i < u.length by omega)]
    rw [e, dot_add_left _ _ _ (by simp [hu0]), ih, dot_mul_left, List.map_cons, dot_cons]

/-- What `NewAggregatedArgument` returns for any `V`, and what `VerifyAggregated` says about it. -/
theorem newAggregatedArgument_run (E : Curve G1 G2 GT) (hE : E.Lawful) (pp : PP G1) (k : ℕ)
    (hpp : pp.Sized (2 ^ k)) (rnd : Rand) (hw : rnd.w.length = 2 ^ k) (V : List G1) (v : List (List Zr)) (r : List Zr)
    (h0 : v ≠ []) (hv : ∀ u ∈ v, u.length = 2 ^ k) (hVl : V.length = v.length) (hr : r.length = v.length) :
    ∃ p t ipaPP xI, newAggregatedArgument E pp rnd V v r = some p ∧ createHVZKChallenge E V v.length = some t ∧
      t.length = v.length ∧ ipaParams E pp = some ipaPP ∧
      (∀ P, fieldElementFromBytes (E.sha256 (instanceHashInput ipaPP P)) = some xI) ∧
      (V = List.zipWith (fun u ρ => ρ • pp.F + dot u pp.Gs) v r → (∀ y ∈ ippChallenges E ipaPP p.π, y ≠ 0) →
        p.verifyAggregated E pp V = some (decide ((xI * dot t (v.map fun u => dot u pp.b)) • pp.U = 0))) := by
  have lb := hpp.b_length
  obtain ⟨t, ht, lt⟩ := createHVZKChallenge_eq E hE V v.length
  have hvl : 0 < v.length := List.length_pos_iff.2 h0
  have hva : ((List.range (2 ^ k)).mapM fun i => do
      let vi ← v.mapM fun vj => vj[i]?
      Vec.innerProd vi t) = some ((List.range (2 ^ k)).map fun i => dot (v.map fun u => u.getD i 0) t) := by
    apply mapM_some
    intro i hi
    have hi := List.mem_range.1 hi
    rw [mapM_some (fun vj : List Zr => vj[i]?) (fun u => u.getD i 0) v]
    · rw [Option.bind_eq_bind, Option.bind_some, Vec.innerProd_eq (by simp [lt])]
    · intro u hu
      have := hv u hu
      rw [List.getD_eq_getElem?_getD, List.getElem?_eq_getElem (by omega)]
      rfl
  have hra : Vec.innerProd r t = some (dot r t) := Vec.innerProd_eq (by omega)
  obtain ⟨q1, q2⟩ := gv_mulV_sum (g := V) (v := t) hVl lt hvl
  set va := (List.range (2 ^ k)).map fun i => dot (v.map fun u => u.getD i 0) t with hvadef
  obtain ⟨p, ipaPP, xI, h1, h2, h3, h4⟩ := newArgument_verdict E hE pp k hpp rnd hw (dot t V) va (by simp [hvadef]) (dot r t)
  refine ⟨p, t, ipaPP, xI, ?_, ht, lt, h2, h3, fun hV hne => ?_⟩
  · unfold newAggregatedArgument
    obtain ⟨v0, v', rfl⟩ := List.exists_cons_of_ne_nil h0
    have hv0 := hv v0 (by simp)
    refine obind_step ht (obind_step (a := v0) rfl (obind_step ?_ (obind_step hra (obind_step q1 (obind_step q2
      (obind_step h1 rfl))))))
    rw [hv0]; exact hva
  · unfold Proof.verifyAggregated
    rw [hVl]
    refine obind_step ht (obind_step q1 (obind_step q2 ?_))
    rw [h4 hne, hvadef, dot_aggr _ _ lb _ _ hv lt.symm, dot_aggr _ _ hpp.gs _ _ hv lt.symm]
    have e : dot t V = dot r t • pp.F + dot t (v.map fun u => dot u pp.Gs) := by
      rw [hV, dot_comm r]
      clear * - hr lt
      induction v generalizing r t with
      | nil => simp_all
      | cons u v ih =>
        cases r with
        | nil => simp at hr
        | cons a r =>
          cases t with
          | nil => simp at lt
          | cons b t =>
            simp only [List.zipWith_cons_cons, List.map_cons, dot_cons, ih r (by simpa using hr) t (by simpa using lt)]
            simp only [smul_eq_mul]
            module
    rw [e, sub_self]

/-- What `NewAggregatedArgument` returns and what `VerifyAggregated` says about it. -/
theorem newAggregatedArgument_verdict (E : Curve G1 G2 GT) (hE : E.Lawful) (pp : PP G1) (k : ℕ)
    (hpp : pp.Sized (2 ^ k)) (rnd : Rand) (hw : rnd.w.length = 2 ^ k) (V : List G1) (v : List (List Zr)) (r : List Zr)
    (h0 : v ≠ []) (hv : ∀ u ∈ v, u.length = 2 ^ k) (hVl : V.length = v.length) (hr : r.length = v.length)
    (hV : V = List.zipWith (fun u ρ => ρ • pp.F + dot u pp.Gs) v r) :
    ∃ p t ipaPP xI, newAggregatedArgument E pp rnd V v r = some p ∧ createHVZKChallenge E V v.length = some t ∧
      t.length = v.length ∧ ipaParams E pp = some ipaPP ∧
      (∀ P, fieldElementFromBytes (E.sha256 (instanceHashInput ipaPP P)) = some xI) ∧
      ((∀ y ∈ ippChallenges E ipaPP p.π, y ≠ 0) →
        p.verifyAggregated E pp V = some (decide ((xI * dot t (v.map fun u => dot u pp.b)) • pp.U = 0))) := by
  obtain ⟨p, t, ipaPP, xI, h1, h2, h3, h4, h5, h6⟩ := newAggregatedArgument_run E hE pp k hpp rnd hw V v r h0 hv hVl hr
  exact ⟨p, t, ipaPP, xI, h1, h2, h3, h4, h5, h6 hV⟩

end PoL.Sum

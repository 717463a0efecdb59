import Verif.Proofs.Poe
import Verif.Spec.PoeTranscripts
import Verif.Props.InnerProd
import Verif.Props.PointProofs

/-!
# C24–C27: equality proofs (`poe/poe.go`)
-/

set_option linter.unusedSectionVars false

namespace PoL.Props

open BP Poe

variable {G1 G2 GT : Type} [AddCommGroup G1] [Module Zr G1] [AddCommGroup G2] [Module Zr G2]
  [AddCommGroup GT] [Module Zr GT] [DecidableEq G1] [DecidableEq GT]

/-- The statement to be proved and its witnesses fit together: `m` pairs, the parameters are for vectors of length `N`
(trapdoor `α`) and batches of size `m`, the challenge function returns as many scalars as asked for, the commitments
commit to the vectors, and all indices are below the last (blinding) position. -/
structure BatchWellFormed (E : Curve G1 G2 GT) (e : Equalities G1 G2 GT) (α : Zr) (N m : ℕ) (vs ws : List (List Zr)) :
    Prop where
  vc : e.PP.vc = PP.newPublicParams E α N
  G : e.PP.G.length = m
  H : e.PP.H.length = m
  RO : ∀ gs is d n, ∃ l, e.RO gs is d n = some l ∧ l.length = n
  vs_length : vs.length = m
  ws_length : ws.length = m
  V : vs.mapM (PP.commit e.PP.vc) = some e.V
  W : ws.mapM (PP.commit e.PP.vc) = some e.W
  I : e.I.length = m
  J : e.J.length = m
  I_lt : ∀ i ∈ e.I, i < N - 1
  J_lt : ∀ i ∈ e.J, i < N - 1

/-- `NewPublicParams(n, m)` has the shape required by C24 and C25. -/
theorem C24_new_params (E : Curve G1 G2 GT) (α : Zr) (n m : ℕ) : ∃ pp, Poe.newPublicParams E α n m = some pp ∧
    pp.vc = PP.newPublicParams E α n ∧ pp.G.length = m ∧ pp.H.length = m := by
  obtain ⟨F, hF⟩ := randGenVec_zero E "POE F"
  exact ⟨_, obind_step hF rfl, rfl, by simp [Poe.PP.setupDigest, randGenVec], by simp [Poe.PP.setupDigest, randGenVec]⟩

/-- The code's challenge function returns as many scalars as asked for. -/
theorem C24_ro_total (E : Curve G1 G2 GT) (hE : E.Lawful) (gs : List G1) (is : List ℕ) (d : Bytes) (n : ℕ) :
    ∃ l, ro E gs is d n = some l ∧ l.length = n := ro_total E hE gs is d n

theorem commit_mapM_lengths (E : Curve G1 G2 GT) (α : Zr) (N : ℕ) : ∀ (vs : List (List Zr)) (V : List G1),
    vs.mapM (PP.commit (PP.newPublicParams E α N)) = some V → ∀ v ∈ vs, v.length = N := by
  intro vs
  induction vs with
  | nil => intro V _ v hv; simp at hv
  | cons v0 vs ih =>
    intro V h v hv
    rw [List.mapM_cons] at h
    obtain ⟨C, hC, h⟩ := obind_elim h
    obtain ⟨V', hV', h⟩ := obind_elim h
    rcases List.mem_cons.1 hv with rfl | hv
    · by_contra hne
      rw [PP.commit, if_pos (by simpa using hne)] at hC
      simp at hC
    · exact ih V' hV' v hv

theorem commit_mapM_eq (E : Curve G1 G2 GT) (α : Zr) (N : ℕ) (hN : 0 < N) (vs : List (List Zr)) (V : List G1)
    (h : vs.mapM (PP.commit (PP.newPublicParams E α N)) = some V) :
    V = vs.map fun v => PP.expo α v • E.genG1 := by
  have hl := commit_mapM_lengths E α N vs V h
  rw [mapM_some _ (fun v => PP.expo α v • E.genG1) vs (fun v hv => PP.commit_eq E α N v (hl v hv) hN)] at h
  exact (Option.some_inj.1 h).symm

theorem batch_verdict (E : Curve G1 G2 GT) (hE : E.Lawful) (e : Equalities G1 G2 GT) (α : Zr) (N k : ℕ) (hN : 2 ≤ N)
    (vs ws : List (List Zr)) (h : BatchWellFormed E e α N (2 ^ k) vs ws) (rnd : EqsRand) (hrnd : rnd.uην.length = 2 ^ k) :
    ∃ p ts, e.prove E rnd vs ws = some p ∧
      e.RO (p.Vaggr ++ p.Waggr ++ e.V ++ e.W ++ [p.U] ++ [p.V]) [] e.PP.digest (2 * 2 ^ k) = some ts ∧
      ((∀ y ∈ p.challenges E e.PP, y ≠ 0) → e.verify E p = some (decide (E.pair
        ((α ^ (N + 1) * ∑ k ∈ Finset.range (2 ^ k), ts.getD (2 * k + 1) 0 *
          ((ws.getD k []).getD (e.J.getD k 0) 0 - (vs.getD k []).getD (e.I.getD k 0) 0)) • E.genG1) E.genG2 = 0))) := by
  have hV := h.V; have hW := h.W
  rw [h.vc] at hV hW
  obtain ⟨p, ts, q, h1, h2, h3, -, h4⟩ := prove_verdict E hE e α N k (2 ^ k) rfl hN h.vc h.G h.H h.RO vs ws h.vs_length h.ws_length
    (commit_mapM_lengths E α N vs _ hV) (commit_mapM_lengths E α N ws _ hW) (commit_mapM_eq E α N (by omega) vs _ hV)
    (commit_mapM_eq E α N (by omega) ws _ hW) h.I h.J (fun i hi => by have := h.I_lt i hi; omega)
    (fun i hi => by have := h.J_lt i hi; omega) rnd hrnd
  refine ⟨p, ts, h1, h3, fun hne => h4 ?_⟩
  rw [AggregatedProof.challenges, h2] at hne
  exact hne

/-- **C24.** If `v_k[I_k] = w_k[J_k]` for every pair, `Prove` returns a proof, and `Verify` accepts it unless one of its
folding challenges is zero. -/
theorem C24_batch_equality_complete (E : Curve G1 G2 GT) (hE : E.Lawful) (e : Equalities G1 G2 GT) (α : Zr) (N k : ℕ)
    (hN : 2 ≤ N) (vs ws : List (List Zr)) (h : BatchWellFormed E e α N (2 ^ k) vs ws)
    (heq : ∀ k' < 2 ^ k, (vs.getD k' []).getD (e.I.getD k' 0) 0 = (ws.getD k' []).getD (e.J.getD k' 0) 0)
    (rnd : EqsRand) (hrnd : rnd.uην.length = 2 ^ k) :
    ∃ p, e.prove E rnd vs ws = some p ∧ ((∀ y ∈ p.challenges E e.PP, y ≠ 0) → e.verify E p = some true) := by
  obtain ⟨p, ts, h1, h2, h3⟩ := batch_verdict E hE e α N k hN vs ws h rnd hrnd
  refine ⟨p, h1, fun hne => ?_⟩
  rw [h3 hne, Finset.sum_eq_zero (fun j hj => by rw [heq j (Finset.mem_range.1 hj), sub_self, mul_zero])]
  simp

/-- **C25.** The honest prover's proof is accepted if and only if `Σ_k t_{2k+1}·(w_k[J_k] - v_k[I_k]) = 0`, where `ts` are the
challenges of the second round (trapdoor and target generator non-zero, folding challenges non-zero). -/
theorem C25_batch_accepted_iff (E : Curve G1 G2 GT) (hE : E.Lawful) (e : Equalities G1 G2 GT) (α : Zr) (N k : ℕ)
    (hN : 2 ≤ N) (hα : α ≠ 0) (hgt : E.genGt ≠ 0) (vs ws : List (List Zr)) (h : BatchWellFormed E e α N (2 ^ k) vs ws)
    (rnd : EqsRand) (hrnd : rnd.uην.length = 2 ^ k) :
    ∃ p ts, e.prove E rnd vs ws = some p ∧
      e.RO (p.Vaggr ++ p.Waggr ++ e.V ++ e.W ++ [p.U] ++ [p.V]) [] e.PP.digest (2 * 2 ^ k) = some ts ∧
      ((∀ y ∈ p.challenges E e.PP, y ≠ 0) →
        (e.verify E p = some true ↔ ∑ k' ∈ Finset.range (2 ^ k), ts.getD (2 * k' + 1) 0 *
          ((ws.getD k' []).getD (e.J.getD k' 0) 0 - (vs.getD k' []).getD (e.I.getD k' 0) 0) = 0) ∧
        e.verify E p ≠ none) := by
  obtain ⟨p, ts, h1, h2, h3⟩ := batch_verdict E hE e α N k hN vs ws h rnd hrnd
  refine ⟨p, ts, h1, h2, fun hne => ?_⟩
  rw [h3 hne]
  refine ⟨?_, by simp⟩
  rw [Option.some_inj, decide_eq_true_eq, map_smul, LinearMap.smul_apply, ← hE.genGt_eq, smul_eq_zero, mul_eq_zero]
  simp [hα, hgt]

/-- **C25**, consequence: if exactly one pair is unequal and its challenge is non-zero, the proof is rejected. -/
theorem C25_single_unequal_pair_rejected (E : Curve G1 G2 GT) (hE : E.Lawful) (e : Equalities G1 G2 GT) (α : Zr) (N k : ℕ)
    (hN : 2 ≤ N) (hα : α ≠ 0) (hgt : E.genGt ≠ 0) (vs ws : List (List Zr)) (h : BatchWellFormed E e α N (2 ^ k) vs ws)
    (k₀ : ℕ) (hk₀ : k₀ < 2 ^ k)
    (hne0 : (vs.getD k₀ []).getD (e.I.getD k₀ 0) 0 ≠ (ws.getD k₀ []).getD (e.J.getD k₀ 0) 0)
    (heq : ∀ k' < 2 ^ k, k' ≠ k₀ → (vs.getD k' []).getD (e.I.getD k' 0) 0 = (ws.getD k' []).getD (e.J.getD k' 0) 0)
    (rnd : EqsRand) (hrnd : rnd.uην.length = 2 ^ k) :
    ∃ p ts, e.prove E rnd vs ws = some p ∧
      e.RO (p.Vaggr ++ p.Waggr ++ e.V ++ e.W ++ [p.U] ++ [p.V]) [] e.PP.digest (2 * 2 ^ k) = some ts ∧
      ((∀ y ∈ p.challenges E e.PP, y ≠ 0) → ts.getD (2 * k₀ + 1) 0 ≠ 0 → e.verify E p = some false) := by
  obtain ⟨p, ts, h1, h2, h3⟩ := C25_batch_accepted_iff E hE e α N k hN hα hgt vs ws h rnd hrnd
  refine ⟨p, ts, h1, h2, fun hne ht => ?_⟩
  obtain ⟨h4, h5⟩ := h3 hne
  rw [Finset.sum_eq_single k₀ (fun j hj hjk => by rw [heq j (Finset.mem_range.1 hj) hjk, sub_self, mul_zero])
    (fun hc => absurd (Finset.mem_range.2 hk₀) hc)] at h4
  have h6 : e.verify E p ≠ some true := by
    intro hc
    rcases mul_eq_zero.1 (h4.1 hc) with h7 | h7
    · exact ht h7
    · exact hne0 (sub_eq_zero.1 h7).symm
  match hv : e.verify E p with
  | none => exact absurd hv h5
  | some true => exact absurd hv h6
  | some false => rfl

/-- The hypotheses of C24/C25 are met: two pairs of vectors of length 3 with equal entries at (0,1) and (1,1). -/
theorem toy_batch (a : Zr) : ∃ e : Equalities Zr Zr Zr, e.I = [0, 1] ∧ e.J = [1, 1] ∧
    BatchWellFormed toyCurve e 5 3 (2 ^ 1) [[4, 7, 1], [2, 6, 1]] [[9, a, 2], [0, 6, 3]] := by
  obtain ⟨pp, -, h1, h2, h3⟩ := C24_new_params toyCurve 5 3 2
  have hc : ∀ vs : List (List Zr), (∀ v ∈ vs, v.length = 3) → ∃ V, vs.mapM (PP.commit pp.vc) = some V := by
    intro vs hvs
    rw [h1]
    exact ⟨_, mapM_some _ _ vs fun v hv => PP.commit_eq toyCurve 5 3 v (hvs v hv) (by norm_num)⟩
  obtain ⟨V, hV⟩ := hc [[4, 7, 1], [2, 6, 1]] (by simp)
  obtain ⟨W, hW⟩ := hc [[9, a, 2], [0, 6, 3]] (by simp)
  exact ⟨{ RO := ro toyCurve, PP := pp, V := V, W := W, I := [0, 1], J := [1, 1] }, rfl, rfl,
    { vc := h1, G := h2, H := h3, RO := ro_total toyCurve toyCurve_lawful, vs_length := rfl, ws_length := rfl, V := hV, W := hW
      I := rfl, J := rfl, I_lt := by simp, J_lt := by simp }⟩

theorem toy_poe_challenges (pp : Poe.PP Zr Zr Zr) (p : AggregatedProof Zr) : ∀ y ∈ p.challenges toyCurve pp, y ≠ 0 := by
  intro y hy
  unfold AggregatedProof.challenges at hy
  split at hy
  · exact toy_ippChallenges _ _ y hy
  · simp at hy

/-- C24 gives accepted proofs. -/
example : ∃ (e : Equalities Zr Zr Zr) (p : AggregatedProof Zr), e.verify toyCurve p = some true := by
  obtain ⟨e, hI, hJ, h⟩ := toy_batch 4
  obtain ⟨p, -, h2⟩ := C24_batch_equality_complete toyCurve toyCurve_lawful e 5 3 1 (by norm_num) _ _ h
    (by rw [hI, hJ]; intro k hk; interval_cases k <;> rfl) ⟨[(1, 2, 3), (4, 5, 6)], 7, 8⟩ rfl
  exact ⟨e, p, h2 (toy_poe_challenges _ _)⟩

/-- The hypotheses of `C25_single_unequal_pair_rejected` are met with `k₀ = 0` (entries 4 and 5). -/
example : ∃ e : Equalities Zr Zr Zr,
    BatchWellFormed toyCurve e 5 3 (2 ^ 1) [[4, 7, 1], [2, 6, 1]] [[9, 5, 2], [0, 6, 3]] ∧
    ([[4, 7, 1], [2, 6, 1]].getD 0 []).getD (e.I.getD 0 0) (0 : Zr) ≠ ([[9, 5, 2], [0, 6, 3]].getD 0 []).getD (e.J.getD 0 0) 0 ∧
    ∀ k' < 2 ^ 1, k' ≠ 0 → ([[4, 7, 1], [2, 6, 1]].getD k' []).getD (e.I.getD k' 0) (0 : Zr)
      = ([[9, 5, 2], [0, 6, 3]].getD k' []).getD (e.J.getD k' 0) 0 := by
  obtain ⟨e, hI, hJ, h⟩ := toy_batch 5
  refine ⟨e, h, ?_, ?_⟩
  · rw [hI, hJ]
    intro h
    exact one_ne_zero (α := Zr) (by have h' : (4 : Zr) = 5 := h; linear_combination -h')
  · rw [hI, hJ]
    intro k hk h0
    interval_cases k
    · exact absurd rfl h0
    · rfl

/-! ## C26 -/

/-- **C26**, refusals: `Prove` panics if the entries differ, and if the lengths differ. -/
theorem C26_prove_refuses (E : Curve G1 G2 GT) (e : Equality G1 G2 GT) (u η ν : Zr) (v w : List Zr)
    (h : v[e.I]? ≠ w[e.J]? ∨ v.length ≠ w.length) : e.prove E u η ν v w = none := by
  unfold Equality.prove
  cases hv : v[e.I]? with
  | none => rfl
  | some a =>
    cases hw : w[e.J]? with
    | none => rfl
    | some b =>
      refine obind_step (a := a) rfl (obind_step (a := b) rfl ?_)
      by_cases hab : a = b
      · rw [if_neg (by simpa using hab), if_pos (by rw [hv, hw, hab] at h; simpa using h)]
      · rw [if_pos hab]

/-- `Verify` of a single equality proof computes the verification equation with the hash challenges. -/
theorem C27_verify_iff (E : Curve G1 G2 GT) (e : Equality G1 G2 GT) (α : Zr) (N : ℕ)
    (hvc : e.PP.vc = PP.newPublicParams E α N) (hI : e.I < N) (hJ : e.J < N) (p : Poe.Proof G1) (x t₀ t₁ : Zr)
    (hx : e.RO [e.V, e.W, p.V, p.W] [] e.PP.digest 1 = some [x])
    (ht : e.RO [e.V, e.W, x • p.V, x • p.W, p.C • E.genG1] [e.I, e.J] e.PP.digest 2 = some [t₀, t₁]) :
    (e.verify E p = some true ↔ eqAccepts E α N e.V e.W e.I e.J x t₀ t₁ p) ∧
    (e.verify E p = some false ↔ ¬ eqAccepts E α N e.V e.W e.I e.J x t₀ t₁ p) := by
  have hG2 : ∀ i < N, fromEnd e.PP.vc.G2s i = some (α ^ (N - i) • E.genG2) := by
    intro i hi
    have hl : e.PP.vc.G2s.length = N := by rw [hvc]; exact PP.new_G2s_length E α N
    rw [fromEnd, if_pos (by omega), hl, hvc, PP.new_G2s_lt E α N (by omega)]
    congr 3; omega
  have hG1 : e.PP.vc.G1s[0]? = some (α • E.genG1) := by
    rw [hvc, PP.new_G1s_lt E α N (by omega)]; simp
  classical
  have key : e.verify E p = some (decide (eqAccepts E α N e.V e.W e.I e.J x t₀ t₁ p)) := by
    unfold Equality.verify
    refine obind_step hx (obind_step (a := x) rfl ?_)
    refine obind_step ht (obind_step (a := t₀) rfl (obind_step (a := t₁) rfl (obind_step (hG2 _ hI)
      (obind_step (pairProd_singleton E _ _) (obind_step (hG2 _ hJ) (obind_step (pairProd_singleton E _ _)
      (obind_step (pairProd_singleton E _ _) (obind_step hG1 (obind_step (hG2 0 (by omega))
      (obind_step (pairProd_singleton E _ _) ?_))))))))))
    simp only [eqAccepts, Option.pure_def]
    congr
  rw [key]
  simp

/-- **C26.** For committed vectors with equal entries at `I` and `J` (both below the blinding position), `Prove` returns a
proof that `Verify` accepts, for any random values and any challenge function. -/
theorem C26_equality_complete (E : Curve G1 G2 GT) (e : Equality G1 G2 GT) (α : Zr) (N : ℕ)
    (hN : 2 ≤ N) (hvc : e.PP.vc = PP.newPublicParams E α N)
    (hRO : ∀ gs is d n, ∃ l, e.RO gs is d n = some l ∧ l.length = n) (v w : List Zr)
    (hV : PP.commit e.PP.vc v = some e.V) (hW : PP.commit e.PP.vc w = some e.W)
    (hI : e.I < N - 1) (hJ : e.J < N - 1) (heq : v[e.I]? = w[e.J]?) (u η ν : Zr) :
    ∃ p, e.prove E u η ν v w = some p ∧ e.verify E p = some true := by
  rw [hvc] at hV hW
  have hv : v.length = N := by
    by_contra hne
    rw [PP.commit, if_pos (by simpa using hne)] at hV; simp at hV
  have hw : w.length = N := by
    by_contra hne
    rw [PP.commit, if_pos (by simpa using hne)] at hW; simp at hW
  rw [PP.commit_eq E α N v hv (by omega), Option.some_inj] at hV
  rw [PP.commit_eq E α N w hw (by omega), Option.some_inj] at hW
  have gv : v[e.I]? = some (v.getD e.I 0) := by
    rw [List.getD_eq_getElem?_getD, List.getElem?_eq_getElem (by omega)]; rfl
  have gw : w[e.J]? = some (w.getD e.J 0) := by
    rw [List.getD_eq_getElem?_getD, List.getElem?_eq_getElem (by omega)]; rfl
  have hval : v.getD e.I 0 = w.getD e.J 0 := by rw [gv, gw] at heq; exact Option.some_inj.1 heq
  have g : e.PP.vc.G1s[v.length - 1]? = some (α ^ N • E.genG1) := by
    rw [hvc, hv, PP.new_G1s_lt E α N (by omega)]; congr 3; omega
  have gI : e.PP.vc.G1s[e.I]? = some (α ^ (e.I + 1) • E.genG1) := by rw [hvc, PP.new_G1s_lt E α N (by omega)]
  have gJ : e.PP.vc.G1s[e.J]? = some (α ^ (e.J + 1) • E.genG1) := by rw [hvc, PP.new_G1s_lt E α N (by omega)]
  have fI : fromEnd e.PP.vc.G1s e.I = some (α ^ (2 * N - e.I) • E.genG1) := by rw [hvc, fromEnd_G1s E α N e.I (by omega)]
  have fJ : fromEnd e.PP.vc.G1s e.J = some (α ^ (2 * N - e.J) • E.genG1) := by rw [hvc, fromEnd_G1s E α N e.J (by omega)]
  have oI : PP.openAt e.PP.vc e.I v = some (v.getD e.I 0, PP.openExpo α N e.I v • E.genG1) := by
    rw [hvc, PP.openAt_eq E α N v hv hN e.I (by omega)]
  have oJ : PP.openAt e.PP.vc e.J w = some (w.getD e.J 0, PP.openExpo α N e.J w • E.genG1) := by
    rw [hvc, PP.openAt_eq E α N w hw hN e.J (by omega)]
  obtain ⟨V', hV'⟩ : ∃ V', V' = u • α ^ (e.I + 1) • E.genG1 + ν • α ^ N • E.genG1 := ⟨_, rfl⟩
  obtain ⟨W', hW'⟩ : ∃ W', W' = u • α ^ (e.J + 1) • E.genG1 + η • α ^ N • E.genG1 := ⟨_, rfl⟩
  obtain ⟨lx, hx, llx⟩ := hRO [e.V, e.W, V', W'] [] e.PP.digest 1
  obtain ⟨x, rfl⟩ := List.length_eq_one_iff.1 llx
  obtain ⟨lt, ht, llt⟩ := hRO [e.V, e.W, x • V', x • W', (v.getD e.I 0 + u * x) • E.genG1] [e.I, e.J] e.PP.digest 2
  obtain ⟨t₀, t₁, rfl⟩ := List.length_eq_two.1 llt
  obtain ⟨p, hp⟩ : ∃ p : Poe.Proof G1, p = ⟨v.getD e.I 0 + u * x, V', W',
      t₀ • (x • ν • α ^ (2 * N - e.I) • E.genG1 + PP.openExpo α N e.I v • E.genG1)
      + t₁ • (x • η • α ^ (2 * N - e.J) • E.genG1 + PP.openExpo α N e.J w • E.genG1)⟩ := ⟨_, rfl⟩
  refine ⟨p, ?_, ?_⟩
  · unfold Equality.prove
    refine obind_step gv (obind_step gw ?_)
    rw [if_neg (by simpa using hval), if_neg (by omega)]
    refine obind_step gI (obind_step g (obind_step fI (obind_step gJ (obind_step g (obind_step fJ ?_)))))
    dsimp only
    rw [← hV', ← hW']
    refine obind_step hx (obind_step (a := x) rfl ?_)
    refine obind_step ht (obind_step (a := t₀) rfl (obind_step (a := t₁) rfl (obind_step oI (obind_step oJ ?_))))
    rw [hp]; rfl
  · refine ((C27_verify_iff E e α N hvc (by omega) (by omega) p x t₀ t₁ (by rw [hp]; exact hx) (by rw [hp]; exact ht)).1).2 ?_
    have o1 := PP.openExpo_add α N e.I v hv (by omega)
    have o2 := PP.openExpo_add α N e.J w hw (by omega)
    have pw : ∀ i, i + 1 < N → α ^ (N - i) * α ^ (i + 1) = α ^ (N + 1) ∧ α ^ (N - i) * α ^ N = α ^ (2 * N - i) := by
      intro i hi
      rw [← pow_add, ← pow_add]
      exact ⟨by congr 1; omega, by congr 1; omega⟩
    obtain ⟨w1, w2⟩ := pw e.I (by omega)
    obtain ⟨w3, w4⟩ := pw e.J (by omega)
    rw [eqAccepts, hp, ← hV, ← hW, hV', hW']
    simp only [map_smul, LinearMap.smul_apply, smul_smul, ← add_smul]
    congr 1
    rw [← hval] at o2
    linear_combination (-t₀) * o1 - t₁ * o2 + t₀ * x * u * w1 + t₀ * x * ν * w2 + t₁ * x * u * w3 + t₁ * x * η * w4

/-- The hypotheses of C26 are met. -/
example : ∃ (e : Equality Zr Zr Zr) (p : Poe.Proof Zr), e.prove toyCurve 3 4 5 [1, 7, 2, 5] [7, 8, 3, 6] = some p ∧
    e.verify toyCurve p = some true ∧ e.prove toyCurve 3 4 5 [1, 9, 2, 5] [7, 8, 3, 6] = none := by
  obtain ⟨pp, -, h1, h2, h3⟩ := C24_new_params toyCurve 5 4 2
  have hV := PP.commit_eq toyCurve 5 4 [1, 7, 2, 5] rfl (by norm_num)
  have hW := PP.commit_eq toyCurve 5 4 [7, 8, 3, 6] rfl (by norm_num)
  rw [← h1] at hV hW
  obtain ⟨p, hp1, hp2⟩ := C26_equality_complete toyCurve
    { RO := ro toyCurve, PP := pp, V := PP.expo 5 [1, 7, 2, 5] • toyCurve.genG1, W := PP.expo 5 [7, 8, 3, 6] • toyCurve.genG1,
      I := 1, J := 0 } 5 4 (by norm_num) h1 (ro_total toyCurve toyCurve_lawful) _ _ hV hW (by norm_num) (by norm_num) rfl 3 4 5
  refine ⟨_, p, hp1, hp2, C26_prove_refuses _ _ _ _ _ _ _ (Or.inl ?_)⟩
  simp only [List.getElem?_cons_succ, List.getElem?_cons_zero, ne_eq, Option.some_inj]
  intro h
  exact two_ne_zero_zr (by linear_combination h)

/-! ## C27 -/

/-- **C27.** After the prover has sent `V'` and `W'`: from its answers to two distinct challenges `x`, each with two linearly
independent pairs `(t₀,t₁)`, the openings computed from those answers alone are accepted for `V` at `I` and for `W` at `J`,
with the same value. -/
theorem C27_equality_special_sound (E : Curve G1 G2 GT) (hE : E.Lawful) (hn : E.NonDegenerate) (α : Zr) (N : ℕ) (V W V' W' : G1)
    (I J : ℕ) (hI : I < N) (hJ : J < N) (b₁ b₂ : EqBranch G1) (hx : b₁.x ≠ b₂.x) (hd₁ : b₁.det ≠ 0) (hd₂ : b₂.det ≠ 0)
    (h₁ : b₁.Accepted E α N V W I J V' W') (h₂ : b₂.Accepted E α N V W I J V' W') :
    PP.verify E (PP.newPublicParams E α N) (extractedValue b₁ b₂) (extractedLeft b₁ b₂) V I = some true ∧
    PP.verify E (PP.newPublicParams E α N) (extractedValue b₁ b₂) (extractedRight b₁ b₂) W J = some true := by
  have conv : ∀ (x t₀ t₁ : Zr) (p : Poe.Proof G1), eqAccepts E α N V W I J x t₀ t₁ p →
      p.Ω = t₀ • α ^ (N - I) • (x • p.V + V) + t₁ • α ^ (N - J) • (x • p.W + W)
        - (p.C * (t₀ + t₁) * α ^ (N + 1)) • E.genG1 := by
    intro x t₀ t₁ p h
    rw [eq_comm, ← sub_eq_zero]
    apply hn
    rw [eqAccepts] at h
    simp only [map_smul, map_add, map_sub, LinearMap.smul_apply, LinearMap.add_apply, LinearMap.sub_apply, smul_smul, smul_add,
      pow_succ] at h ⊢
    rw [← sub_eq_zero] at h
    rw [← h]
    module
  have branch : ∀ b : EqBranch G1, b.det ≠ 0 → b.Accepted E α N V W I J V' W' →
      b.left = α ^ (N - I) • (b.x • V' + V) - (b.C * α ^ (N + 1)) • E.genG1 ∧
      b.right = α ^ (N - J) • (b.x • W' + W) - (b.C * α ^ (N + 1)) • E.genG1 := by
    intro b hd ⟨e1, e2⟩
    have c1 := conv _ _ _ _ e1
    have c2 := conv _ _ _ _ e2
    dsimp only at c1 c2
    constructor
    · rw [EqBranch.left, inv_smul_eq_iff₀ hd, c1, c2, EqBranch.det]
      module
    · rw [EqBranch.right, inv_smul_eq_iff₀ hd, c1, c2, EqBranch.det]
      module
  have hx' : b₁.x - b₂.x ≠ 0 := sub_ne_zero.2 hx
  obtain ⟨l1, r1⟩ := branch b₁ hd₁ h₁
  obtain ⟨l2, r2⟩ := branch b₂ hd₂ h₂
  have e1 : (b₁.x - b₂.x) * extractedValue b₁ b₂ = b₁.x * b₂.C - b₂.x * b₁.C := by
    rw [extractedValue, mul_inv_cancel_left₀ hx']
  rw [C02_verify_iff E hE hn α N _ _ _ _ hI, C02_verify_iff E hE hn α N _ _ _ _ hJ]
  constructor
  · rw [extractedLeft, inv_smul_eq_iff₀ hx', l1, l2, smul_sub (b₁.x - b₂.x), smul_smul (b₁.x - b₂.x) (extractedValue b₁ b₂ * α ^ (N + 1)),
      ← mul_assoc, e1]
    module
  · rw [extractedRight, inv_smul_eq_iff₀ hx', r1, r2, smul_sub (b₁.x - b₂.x), smul_smul (b₁.x - b₂.x) (extractedValue b₁ b₂ * α ^ (N + 1)),
      ← mul_assoc, e1]
    module

/-- The hypotheses of C27 are met by answers of the shape an honest prover gives (generators 1, trapdoor 5). -/
example : ∃ (b₁ b₂ : EqBranch Zr), b₁.x ≠ b₂.x ∧ b₁.det ≠ 0 ∧ b₂.det ≠ 0 ∧
    b₁.Accepted toyCurve 5 4 (5 * 7) (5 ^ 2 * 7) 0 1 (5 * 3) (5 ^ 2 * 3) ∧
    b₂.Accepted toyCurve 5 4 (5 * 7) (5 ^ 2 * 7) 0 1 (5 * 3) (5 ^ 2 * 3) := by
  have key : ∀ x : Zr, EqBranch.Accepted toyCurve 5 4 (5 * 7) (5 ^ 2 * 7) 0 1 (5 * 3) (5 ^ 2 * 3)
      ⟨x, 7 + 3 * x, 1, 0, 0, 0, 1, 0⟩ := by
    intro x
    constructor
    · simp only [eqAccepts, toyCurve, LinearMap.mul_apply', smul_eq_mul]; ring
    · simp only [eqAccepts, toyCurve, LinearMap.mul_apply', smul_eq_mul]; ring
  refine ⟨⟨1, 7 + 3 * 1, 1, 0, 0, 0, 1, 0⟩, ⟨2, 7 + 3 * 2, 1, 0, 0, 0, 1, 0⟩, ?_, ?_, ?_, key 1, key 2⟩
  · intro h; exact one_ne_zero (α := Zr) (by linear_combination -h)
  · simp [EqBranch.det]
  · simp [EqBranch.det]

end PoL.Props

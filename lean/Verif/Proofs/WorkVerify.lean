import Verif.Proofs.WorkRange

/-!
# Counting points: verifiers
-/

namespace PoL.Ptr

open Spec

variable {C M α β : Type}

/-- A step that makes at most `k` points. -/
theorem Costs.upto {m : Run C α} {f : α → Run C β} {k B : ℕ} (c : Costs m fun _ n => n ≤ k)
    (hf : ∀ a, Costs (f a) fun _ j => k + j ≤ B) : Costs (m >>= f) fun _ n => n ≤ B :=
  Costs.bind c fun a n e => (hf a).imp fun _ j h => by omega

theorem nonZero_le_length (v : List Zr) : nonZero v ≤ v.length := by
  induction v with
  | nil => exact le_rfl
  | cons x v ih =>
    rw [nonZero, List.length_cons]
    split <;> omega

theorem ipaVerifyWork_le (L : ℕ) : ipaVerifyWork L ≤ 9 * L + 3 := by
  induction L using Nat.strongRecOn with
  | ind L ih =>
    rw [ipaVerifyWork]
    split
    · omega
    · have := ih (L / 2) (by omega)
      omega

section

variable [AddCommGroup M] [Module Zr M]

theorem costs_mulv2 (k : Kind C M) (g : List Ref) (v : List Zr) :
    Costs (Gv.mulv2 k g v) fun rs n => n = g.length ∧ rs.length = g.length := by
  unfold Gv.mulv2
  split
  · exact Costs.crash
  · rename_i hlen
    refine (costs_mapM (c := fun _ => 1) fun e _ => costs_mulBy k _ _).imp ?_
    rintro rs n ⟨rfl, h⟩
    simp only [List.map_const', List.sum_replicate, List.length_zip, smul_eq_mul, mul_one] at h ⊢
    omega

end

variable {G1 G2 GT : Type} [AddCommGroup G1] [Module Zr G1] [AddCommGroup G2] [Module Zr G2] [AddCommGroup GT] [Module Zr GT]

theorem costs_pairProd (E : Curve G1 G2 GT) (g1v g2v : List Ref) :
    Costs (pairProd E g1v g2v) fun _ n => n = g1v.length + 1 ∧ g1v.length = g2v.length := by
  unfold pairProd
  split
  · exact Costs.crash
  · rename_i hlen
    rw [not_not] at hlen
    split
    · rename_i p ps q qs
      refine Costs.free (costs_load _ _) fun _ => Costs.free (costs_load _ _) fun _ => Costs.step (costs_new _ _) fun prod => ?_
      refine Costs.step (costs_forM (c := 1) fun e _ => ?_) fun _ => (costs_copy _ _).imp ?_
      · refine Costs.free (costs_load _ _) fun _ => Costs.free (costs_load _ _) fun _ => Costs.step (costs_new _ _) fun _ => ?_
        exact (costs_addTo _ _ _).imp (by rintro _ _ rfl; rfl)
      · rintro _ _ rfl
        simp only [List.length_cons, List.length_zip] at hlen ⊢
        omega
    · exact Costs.crash

variable [DecidableEq G1]

theorem costs_ippVerify_le (E : Curve G1 G2 GT) (ipp : PoL.BP.InnerProductProof Ref) (pp : PoL.BP.PP Ref) (hl : pp.G.length = pp.H.length)
    (hne : pp.G ≠ []) : Costs (BP.InnerProductProof.verify E ipp pp) fun _ n => n ≤ 9 * pp.G.length + 6 :=
  (BP.costs_ippVerify E ipp pp hl hne).imp fun _ n h => by
    have := ipaVerifyWork_le pp.G.length
    omega

omit [AddCommGroup G2] [Module Zr G2] [AddCommGroup GT] [Module Zr GT] in
theorem costs_mulVSum_le (gl : Globals) (g : List Ref) (v : List Zr) :
    Costs (BP.mulVSum gl g v : Run (Cell G1 G2 GT) Ref) fun _ n => n ≤ g.length + 1 :=
  (BP.costs_mulVSum gl g v).imp fun _ n h => by
    have := nonZero_le_length v
    omega

namespace BP

open PoL.BP

theorem costs_iterVerifyLoop (E : Curve G1 G2 GT) (digest : Bytes) (vF : Zr) : ∀ (n : ℕ) (G : List Ref) (prevV : Ref)
    (Δ : List (Ref × Ref × Ref)) (fV : Option Ref) (xs : List Zr), n = G.length / 2 →
    Costs (iterVerifyLoop E digest vF n G prevV Δ fV xs) fun _ k => k ≤ 4 * G.length := by
  intro n
  induction n using Nat.strongRecOn with
  | ind n ih =>
    intro G prevV Δ fV xs hn
    rw [iterVerifyLoop.eq_def E digest vF n]
    split
    · refine Costs.lift fun g hg => Costs.step (costs_mulBy _ _ _) fun _ => Costs.lift fun _ _ => ?_
      refine Costs.free (costs_load _ _) fun _ => Costs.free (costs_load _ _) fun _ => ?_
      have : 0 < G.length := by
        obtain ⟨h, -⟩ := List.getElem?_eq_some_iff.1 hg
        exact h
      split
      · exact Costs.pure (by omega)
      · exact Costs.pure (by omega)
    · rename_i hn0
      split
      · exact Costs.crash
      · rename_i A B V Δ'
        refine Costs.free (costs_irChallenge E _ _ _ _) fun x => Costs.step (costs_mulBy _ _ _) fun _ => ?_
        refine Costs.step (costs_mulBy _ _ _) fun _ => Costs.free (costs_addTo _ _ _) fun _ => Costs.free (costs_addTo _ _ _) fun _ => ?_
        refine Costs.free (costs_load _ _) fun _ => Costs.free (costs_load _ _) fun _ => ?_
        split
        · exact Costs.pure (by omega)
        · refine Costs.lift fun GL hGL => Costs.lift fun GR hGR => Costs.bind (costs_mul _ _ _) ?_
          rintro GRx _ ⟨rfl, hx⟩
          refine Costs.bind (costs_add _ _ _) ?_
          rintro G' _ ⟨rfl, hG', -⟩
          obtain ⟨-, rfl⟩ := sliceTo_some hGL
          obtain ⟨-, rfl⟩ := sliceFrom_some hGR
          rw [List.length_take] at hG'
          refine (ih (n / 2) (by omega) G' _ _ _ _ (by omega)).imp ?_
          intro _ k hk
          simp only [List.length_take, List.length_drop] at *
          omega

theorem costs_iterativeVerify (E : Curve G1 G2 GT) (pp : PoL.BP.PP Ref) (prevV : Ref) (Δ : List (Ref × Ref × Ref)) (vF : Zr) :
    Costs (iterativeVerify E pp prevV Δ vF) fun _ k => k ≤ 4 * pp.G.length := by
  refine Costs.lift fun b _ => ?_
  split
  · exact Costs.crash
  · exact costs_iterVerifyLoop E _ _ _ _ _ _ _ _ rfl

omit [AddCommGroup G2] [Module Zr G2] [AddCommGroup GT] [Module Zr GT] in
theorem costs_computeP (gl : Globals) (pp : RPPP Ref) (ρ : Zr) (Q R : Ref) (z : Zr) (y1v : List Zr) (n m : ℕ) (F : List Ref)
    (d : List Zr) (y1 : Zr) : Costs (computeP gl pp ρ Q R z y1v n m F d y1 : Run (Cell G1 G2 GT) Ref)
      fun _ k => k ≤ 2 * (n * m) + F.length + 5 := by
  refine Costs.step (costs_mulBy _ _ _) fun _ => Costs.free (costs_addTo _ _ _) fun _ => Costs.step (costs_mulBy _ _ _) fun _ => ?_
  refine Costs.free (costs_addTo _ _ _) fun _ => Costs.lift fun H hH => Costs.bind (costs_mulVSum_le _ _ _) ?_
  intro _ k1 h1
  refine Costs.free (costs_addTo _ _ _) fun _ => Costs.bind (costs_mulVSum_le _ _ _) ?_
  intro _ k2 h2
  refine Costs.free (costs_addTo _ _ _) fun _ => Costs.lift fun F' hF' => Costs.bind (costs_mulVSum_le _ _ _) ?_
  intro _ k3 h3
  refine Costs.free (costs_addTo _ _ _) fun _ => Costs.pure ?_
  obtain ⟨-, rfl⟩ := sliceTo_some hH
  obtain ⟨-, rfl⟩ := sliceTo_some hF'
  simp only [List.length_take] at *
  omega

theorem costs_verifyRange (E : Curve G1 G2 GT) (gl : Globals) (pp : RPPP Ref) (rp : RangeProof Ref) (V : Ref)
    (hHs : pp.Hs.length = 64 * pp.Gs.length) (hFs : pp.Fs.length = 64 * pp.Gs.length) (hne : pp.Gs ≠ []) :
    Costs (verifyRangeState E gl pp rp V) fun _ n => n ≤ 834 * pp.Gs.length + 20 := by
  have hpos := List.length_pos_iff.2 hne
  unfold verifyRangeState
  dsimp only
  refine Costs.free (costs_RO1 E _ _ _ _) fun x => Costs.step (costs_mulBy _ _ _) fun U => Costs.free (costs_addTo _ _ _) fun _ => ?_
  refine Costs.step (costs_mulBy _ _ _) fun _ => Costs.free (costs_addTo _ _ _) fun _ => Costs.bind (costs_rdxPP E _) ?_
  rintro ppRdx _ ⟨rfl, hrdx⟩
  refine Costs.bind (costs_iterativeVerify E _ _ _ _) ?_
  intro r k1 h1
  rw [hrdx] at h1
  rcases r with _ | ⟨xs, u⟩
  · exact Costs.pure (by omega)
  dsimp only
  refine Costs.lift fun f _ => Costs.lift fun d _ => Costs.free (costs_rangeY E _ _ _ _ _) fun y0 => ?_
  refine Costs.free (costs_rangeY E _ _ _ _ _) fun y1 => Costs.free (costs_computeZ E _ _ _ _ _ _ _) fun z => ?_
  refine Costs.bind (costs_mulV _ _ _ _) ?_
  rintro Fp k2 ⟨h2, hFp, -⟩
  have h2' := nonZero_le_length (powerSeries pp.Fs.length y0⁻¹)
  rw [powerSeries_length] at h2'
  refine Costs.bind (costs_ipaPP E _ _) ?_
  rintro ipaPP _ ⟨rfl, hG, hH⟩
  refine Costs.bind (costs_computeP _ _ _ _ _ _ _ _ _ _ _ _) ?_
  intro P k3 h3
  refine Costs.bind (costs_ippVerify_le E _ _ (by rw [hG, hH]; omega) (by rw [hG]; exact List.length_pos_iff.1 (by omega))) ?_
  intro b k4 h4
  rw [hG] at h4
  split
  · exact Costs.pure (by omega)
  · refine Costs.lift fun _ _ => Costs.lift fun _ _ => Costs.lift fun _ _ => Costs.lift fun _ _ => ?_
    refine Costs.step (costs_mulBy _ _ _) fun _ => Costs.step (costs_mulBy _ _ _) fun _ => Costs.free (costs_addTo _ _ _) fun _ => ?_
    refine Costs.step (costs_mulBy _ _ _) fun _ => Costs.free (costs_addTo _ _ _) fun _ => Costs.step (costs_mulBy _ _ _) fun _ => ?_
    refine Costs.step (costs_mulBy _ _ _) fun _ => Costs.free (costs_addTo _ _ _) fun _ => ?_
    refine Costs.free (costs_load _ _) fun _ => Costs.free (costs_load _ _) fun _ => Costs.pure ?_
    omega

end BP

namespace PP

variable [DecidableEq GT]

omit [DecidableEq G1] [DecidableEq GT] in
theorem costs_ro (E : Curve G1 G2 GT) (pp : PoL.PP Ref Ref Ref) (cs : List Ref) (i : ℕ) : Costs (ro E pp cs i) fun _ n => n = 0 :=
  Costs.free (costs_loads _ _) fun _ => costs_lift

omit [DecidableEq G1] in
theorem costs_verifyAggregation (E : Curve G1 G2 GT) (gl : Globals) (pp : PoL.PP Ref Ref Ref) (indices : List ℕ) (cs : List Ref) (π : Ref)
    (sig : Zr) : Costs (verifyAggregation E gl pp indices cs π sig) fun _ n => n = 2 * cs.length + 4 := by
  refine Costs.free ((costs_mapM (c := fun _ => 0) fun i _ => costs_ro E pp cs i).imp fun _ n h => by simpa using h.1) fun exps => ?_
  refine Costs.lift fun g2s _ => Costs.bind (costs_mulv2 _ _ _) ?_
  rintro g2x _ ⟨rfl, hx⟩
  refine Costs.bind (costs_pairProd E _ _) ?_
  rintro _ _ ⟨rfl, hl⟩
  refine Costs.bind (costs_pairProd E _ _) ?_
  rintro _ _ ⟨rfl, -⟩
  refine Costs.step (costs_mulBy _ _ _) fun _ => Costs.free (costs_addTo _ _ _) fun _ => ?_
  refine Costs.free (costs_load _ _) fun _ => Costs.free (costs_load _ _) fun _ => Costs.pure ?_
  simp only [List.length_singleton]
  omega

omit [DecidableEq G1] in
theorem costs_verify (E : Curve G1 G2 GT) (gl : Globals) (pp : PoL.PP Ref Ref Ref) (mi : Zr) (π C : Ref) (i : ℕ) :
    Costs (PP.verify E gl pp mi π C i) fun _ n => n = 5 := by
  unfold PP.verify
  split
  · exact Costs.crash
  · refine Costs.lift fun _ _ => Costs.bind (costs_pairProd E _ _) ?_
    rintro _ _ ⟨rfl, -⟩
    refine Costs.bind (costs_pairProd E _ _) ?_
    rintro _ _ ⟨rfl, -⟩
    refine Costs.step (costs_mulBy _ _ _) fun _ => Costs.free (costs_addTo _ _ _) fun _ => ?_
    exact Costs.free (costs_load _ _) fun _ => Costs.free (costs_load _ _) fun _ => Costs.pure rfl

omit [AddCommGroup G2] [Module Zr G2] [AddCommGroup GT] [Module Zr GT] [DecidableEq GT] in
theorem costs_commit (gl : Globals) (pp : PoL.PP Ref Ref Ref) (m : List Zr) :
    Costs (commit gl pp m : Run (Cell G1 G2 GT) Ref) fun _ n => n = nonZero m + 1 := by
  unfold commit
  split
  · exact Costs.crash
  · refine Costs.lift fun _ _ => Costs.bind (costs_mulV _ _ _ _) ?_
    rintro _ _ ⟨rfl, -, -⟩
    exact (costs_sum _ _).imp (by rintro _ _ rfl; rfl)

end PP

namespace Sum

open PoL.Sum

omit [DecidableEq G1] in
theorem costs_challenge (E : Curve G1 G2 GT) (V : List Ref) (n : ℕ) : Costs (createHVZKChallenge E V n) fun _ n => n = 0 :=
  Costs.free (costs_loads _ _) fun _ => costs_lift

theorem costs_verifyAggregated (E : Curve G1 G2 GT) (gl : Globals) (p : PoL.Sum.Proof Ref) (pp : PoL.Sum.PP Ref) (V : List Ref)
    (hl : pp.Gs.length = pp.H.length) (hne : pp.Gs ≠ []) :
    Costs (verifyAggregated E gl p pp V) fun _ n => n ≤ V.length + 9 * pp.Gs.length + 9 := by
  refine Costs.free (costs_challenge E _ _) fun t => Costs.bind (costs_mulVSum_le _ _ _) ?_
  intro A k1 h1
  refine Costs.free (Costs.free (costs_load _ _) fun _ => Costs.free (costs_load _ _) fun _ => costs_lift) fun x => ?_
  refine Costs.step (costs_mulBy _ _ _) fun _ => Costs.free (costs_addTo _ _ _) fun _ => Costs.step (costs_mulBy _ _ _) fun _ => ?_
  refine Costs.free (costs_addTo _ _ _) fun _ => Costs.free (costs_addTo _ _ _) fun _ => Costs.bind (BP.costs_setupDigest E _) ?_
  rintro ipaPP _ ⟨rfl, hG, hH⟩
  dsimp only at hG hH ⊢
  refine Costs.bind (costs_ippVerify_le E _ _ (by rw [hG, hH, hl]) (by rwa [hG])) ?_
  intro b k2 h2
  rw [hG] at h2
  exact Costs.pure (by omega)

end Sum

namespace Poe

open PoL.Poe

variable [DecidableEq GT]

omit [DecidableEq G1] [AddCommGroup G2] [Module Zr G2] [AddCommGroup GT] [Module Zr GT] [AddCommGroup G1] [Module Zr G1] [DecidableEq GT] in
theorem costs_callRO (RO : ROFun G1) (gs : List Ref) (is : List ℕ) (d : Bytes) (n : ℕ) :
    Costs (callRO RO gs is d n : Run (Cell G1 G2 GT) _) fun _ k => k = 0 :=
  Costs.free (costs_loads _ _) fun _ => costs_lift

theorem costs_eqsVerify (E : Curve G1 G2 GT) (gl : Globals) (RO : ROFun G1) (e : Equalities Ref Ref Ref) (p : AggregatedProof Ref)
    (hl : e.PP.G.length = e.PP.H.length) (hne : e.PP.G ≠ []) :
    Costs (eqsVerifyState E gl RO e p) fun _ n => p.Vaggr.length + p.Waggr.length ≤ n ∧
      n ≤ p.Vaggr.length + p.Waggr.length + 3 * e.V.length + 3 * e.W.length + 10 * e.PP.G.length + 18 := by
  unfold eqsVerifyState
  dsimp only
  refine Costs.free (costs_callRO _ _ _ _ _) fun _ => Costs.lift fun x _ => Costs.free (costs_callRO _ _ _ _ _) fun ts => ?_
  refine Costs.lift fun g2sV _ => Costs.lift fun g2sW _ => Costs.bind (costs_mul _ _ _) ?_
  rintro Vx _ ⟨rfl, -⟩
  refine Costs.bind (costs_add _ _ _) ?_
  rintro vs _ ⟨rfl, hvs, -⟩
  refine Costs.lift fun ev _ => Costs.bind (costs_mulV _ _ _ _) ?_
  rintro vs' k1 ⟨h1, hvs', he⟩
  have h1' := nonZero_le_length ev
  refine Costs.bind (costs_pairProd E _ _) ?_
  rintro num k2 ⟨h2, -⟩
  refine Costs.bind (costs_mul _ _ _) ?_
  rintro Wx _ ⟨rfl, -⟩
  refine Costs.bind (costs_add _ _ _) ?_
  rintro ws _ ⟨rfl, hws, -⟩
  refine Costs.lift fun od _ => Costs.bind (costs_mulV _ _ _ _) ?_
  rintro ws' k3 ⟨h3, hws', ho⟩
  have h3' := nonZero_le_length od
  refine Costs.bind (costs_pairProd E _ _) ?_
  rintro _ k4 ⟨h4, -⟩
  refine Costs.free (costs_addTo _ _ _) fun _ => Costs.step (costs_copy _ _) fun _ => Costs.bind (costs_pairProd E _ _) ?_
  rintro _ _ ⟨rfl, -⟩
  refine Costs.lift fun _ _ => Costs.step (costs_mulBy _ _ _) fun _ => Costs.lift fun _ _ => Costs.bind (costs_pairProd E _ _) ?_
  rintro _ _ ⟨rfl, -⟩
  refine Costs.free (costs_addTo _ _ _) fun _ => Costs.free (costs_load _ _) fun _ => Costs.free (costs_load _ _) fun _ => ?_
  simp only [List.length_singleton]
  split
  · exact Costs.pure (by omega)
  · refine Costs.lift fun _ _ => Costs.lift fun _ _ => Costs.lift fun b _ => Costs.step (costs_mulBy _ _ _) fun _ => ?_
    refine Costs.step (costs_mulBy _ _ _) fun _ => Costs.free (costs_addTo _ _ _) fun _ => Costs.free (costs_addTo _ _ _) fun _ => ?_
    refine Costs.bind (costs_mulVSum_le _ _ _) ?_
    intro _ k5 h5
    refine Costs.free (costs_addTo _ _ _) fun _ => ?_
    refine Costs.bind (P := fun q n => n = 1 ∧ q.G = e.PP.G ∧ q.H = e.PP.H) ?_ ?_
    · refine Costs.step (BP.costs_randGenVec E 1 _) fun u => Costs.lift fun U _ => (BP.costs_setupDigest E _).imp ?_
      rintro p n ⟨rfl, h, h'⟩
      exact ⟨rfl, h, h'⟩
    rintro ipaPP _ ⟨rfl, hG, hH⟩
    refine Costs.bind (costs_ippVerify_le E _ _ (by rw [hG, hH, hl]) (by rwa [hG])) ?_
    intro _ k6 h6
    rw [hG] at h6
    exact Costs.pure (by omega)

end Poe

namespace Pol

open PoL.Pol

set_option linter.unusedSectionVars false in
theorem costs_checkLeaf (E : Curve G1 G2 GT) (lp : LiabilityProof Ref) (i : ℕ) : Costs (checkLeaf E lp i) fun _ n => n = 0 := by
  refine Costs.lift fun _ _ => Costs.free (costs_load _ _) fun _ => Costs.lift fun _ _ => ?_
  split
  · exact Costs.crash
  · exact Costs.lift fun _ _ => Costs.pure rfl

set_option linter.unusedSectionVars false in
theorem costs_checkInner (E : Curve G1 G2 GT) (lp : LiabilityProof Ref) (i : ℕ) : Costs (checkInner E lp i) fun _ n => n = 0 := by
  refine Costs.lift fun _ _ => Costs.lift fun _ _ => Costs.free (costs_load _ _) fun _ => Costs.free (costs_load _ _) fun _ =>
    Costs.lift fun _ _ => ?_
  split
  · exact Costs.crash
  · exact Costs.lift fun _ _ => Costs.pure rfl

theorem costs_verifyLoop (E : Curve G1 G2 GT) (gl : Globals) (lp : LiabilityProof Ref) (pp : PublicParams Ref Ref Ref) (n : ℕ)
    (hHs : pp.RPPP.Hs.length = 64 * pp.RPPP.Gs.length) (hFs : pp.RPPP.Fs.length = 64 * pp.RPPP.Gs.length) (hne : pp.RPPP.Gs ≠ []) :
    ∀ (rest i : ℕ) (err : Bool), Costs (verifyLoop E gl lp pp n i rest err) fun _ k => k ≤ rest * (834 * pp.RPPP.Gs.length + 20) := by
  intro rest
  induction rest with
  | zero => intro i err; exact Costs.pure (by omega)
  | succ rest ih =>
    intro i err
    have hs : (rest + 1) * (834 * pp.RPPP.Gs.length + 20) = 834 * pp.RPPP.Gs.length + 20 + rest * (834 * pp.RPPP.Gs.length + 20) := by
      rw [Nat.succ_mul, Nat.add_comm]
    rw [verifyLoop, hs]
    split
    · exact Costs.crash
    · refine Costs.lift fun rp _ => Costs.lift fun v _ => Costs.upto (BP.costs_verifyRange E gl _ _ _ hHs hFs hne) fun r => ?_
      have go : ∀ (i : ℕ) (err : Bool), Costs (verifyLoop E gl lp pp n i rest err) fun _ k =>
          834 * pp.RPPP.Gs.length + 20 + k ≤ 834 * pp.RPPP.Gs.length + 20 + rest * (834 * pp.RPPP.Gs.length + 20) :=
        fun i err => (ih i err).imp fun _ k h => by omega
      split
      · refine Costs.free (costs_checkLeaf E _ _) fun ok => ?_
        split
        · exact Costs.pure (by omega)
        · exact go _ _
      · split
        · refine Costs.free (costs_checkInner E _ _) fun ok => ?_
          split
          · exact Costs.pure (by omega)
          · exact go _ _
        · exact go _ _

theorem mapM_length {α β : Type} {f : α → Option β} : ∀ {l : List α} {r : List β}, l.mapM f = some r → r.length = l.length
  | [], r, h => by
    rw [List.mapM_nil] at h
    rw [← Option.some.inj h]
    rfl
  | a :: l, r, h => by
    rw [List.mapM_cons] at h
    simp only [Option.bind_eq_bind, Option.bind_eq_some_iff] at h
    obtain ⟨x, -, xs, hxs, h⟩ := h
    rw [← Option.some.inj h, List.length_cons, List.length_cons, mapM_length hxs]

theorem equalitiesOf_sizes {pp : PoL.Poe.PP Ref Ref Ref} {fanOut : ℕ} {path : List ℕ} {V : List Ref} {zero : Ref} {n : ℕ}
    {e : PoL.Poe.Equalities Ref Ref Ref} (h : equalitiesOf pp fanOut path V zero n = some e) :
    e.PP = pp ∧ e.V.length = path.length - 1 + n ∧ e.W.length = path.length - 1 + n := by
  simp only [equalitiesOf, Option.bind_eq_bind, Option.bind_eq_some_iff] at h
  obtain ⟨Vs, h1, Ws, h2, h⟩ := h
  have h1 := mapM_length h1
  have h2 := mapM_length h2
  rw [← Option.some.inj h]
  simp [h1, h2]

theorem nonZero_zeros (n : ℕ) : nonZero (List.replicate n (intToZr 0)) = 0 := by
  induction n with
  | zero => rfl
  | succ n ih =>
    rw [List.replicate_succ, nonZero, ih]
    simp [intToZr]

theorem costs_verify [DecidableEq GT] (E : Curve G1 G2 GT) (gl : Globals) (lp : LiabilityProof Ref) (pp : PublicParams Ref Ref Ref)
    (id : Str) (V W : Ref) (id2path : Str → Option (List ℕ)) (path : List ℕ) (hpath : id2path id = some path) (M : ℕ)
    (hpad : padLoop ((path.length - 1 : ℕ) : ℤ) = some (M : ℤ)) (hM : path.length - 1 ≤ M)
    (hHs : pp.RPPP.Hs.length = 64 * pp.RPPP.Gs.length) (hFs : pp.RPPP.Fs.length = 64 * pp.RPPP.Gs.length) (hne : pp.RPPP.Gs ≠ [])
    (hs : pp.SAPP.Gs.length = pp.SAPP.H.length) (hsne : pp.SAPP.Gs ≠ []) (hG : pp.POEPP.G.length = M) (hH : pp.POEPP.H.length = M)
    (hM0 : 0 < M) :
    Costs (verify E gl lp pp id V W id2path) fun b n => n ≤ path.length * (834 * pp.RPPP.Gs.length + 20) + 2 * path.length +
        9 * pp.SAPP.Gs.length + 16 * M + 37 + (lp.V.length + lp.equalityProof.Vaggr.length + lp.equalityProof.Waggr.length) ∧
      (b = true → lp.equalityProof.Vaggr.length + lp.equalityProof.Waggr.length ≤ n) := by
  refine Costs.lift fun path' hp' => ?_
  obtain rfl : path = path' := Option.some.inj (hpath.symm.trans hp')
  split
  · exact Costs.pure ⟨by omega, by simp⟩
  rename_i hW
  rw [not_or, not_not, not_not] at hW
  obtain ⟨hW, -⟩ := hW
  refine Costs.lift fun _ _ => Costs.free (costs_load _ _) fun _ => Costs.free (costs_load _ _) fun _ => ?_
  split
  · exact Costs.pure ⟨by omega, by simp⟩
  refine Costs.lift fun _ _ => Costs.free (costs_load _ _) fun _ => Costs.free (costs_load _ _) fun _ => ?_
  split
  · exact Costs.pure ⟨by omega, by simp⟩
  refine Costs.bind (costs_verifyLoop E gl lp pp _ hHs hFs hne _ _ _) ?_
  intro r k1 h1
  generalize path.length * (834 * pp.RPPP.Gs.length + 20) = K at h1 ⊢
  rcases r with _ | err
  · exact Costs.pure ⟨by omega, by simp⟩
  dsimp only
  refine Costs.bind (PP.costs_verifyAggregation E gl _ _ _ _ _) ?_
  intro _ k2 h2
  split
  · exact Costs.pure ⟨by omega, by simp⟩
  refine Costs.bind (Sum.costs_verifyAggregated E gl _ _ _ hs hsne) ?_
  intro _ k3 h3
  split
  · exact Costs.pure ⟨by omega, by simp⟩
  refine Costs.bind (PP.costs_commit gl _ _) ?_
  rw [nonZero_zeros]
  rintro zero _ rfl
  refine Costs.lift fun padded hpad' => Costs.lift fun e he => ?_
  obtain rfl : (M : ℤ) = padded := Option.some.inj (hpad.symm.trans hpad')
  obtain ⟨ePP, eV, eW⟩ := equalitiesOf_sizes he
  have hpd : path.length - 1 + ((M : ℤ) - ((path.length - 1 : ℕ) : ℤ)).toNat = M := by omega
  rw [hpd] at eV eW
  refine Costs.bind (Poe.costs_eqsVerify E gl _ e _ (by rw [ePP, hG, hH]) (by rw [ePP]; exact List.length_pos_iff.1 (by omega))) ?_
  rintro _ k4 ⟨h4, h5⟩
  rw [ePP, hG, eV, eW] at h5
  split
  · exact Costs.pure ⟨by omega, by simp⟩
  split
  · exact Costs.pure ⟨by omega, by simp⟩
  refine Costs.lift fun _ _ => Costs.lift fun _ _ => (PP.costs_verify E gl _ _ _ _ _).imp ?_
  rintro b _ rfl
  exact ⟨by omega, fun _ => by omega⟩

end Pol

end PoL.Ptr

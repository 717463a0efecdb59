import Verif.Proofs.Work

/-!
# Counting points: arguments
-/

namespace PoL.Ptr.BP

open Spec PoL.BP

variable {G1 G2 GT : Type} [AddCommGroup G1] [Module Zr G1] [AddCommGroup G2] [Module Zr G2] [AddCommGroup GT] [Module Zr GT]

theorem sliceTo_some {α : Type} {l l' : List α} {n : ℕ} (h : sliceTo l n = some l') : n ≤ l.length ∧ l' = l.take n := by
  rw [sliceTo] at h
  split at h
  · rename_i hn
    exact ⟨hn, (Option.some.inj h).symm⟩
  · exact nomatch h

theorem sliceFrom_some {α : Type} {l l' : List α} {n : ℕ} (h : sliceFrom l n = some l') : n ≤ l.length ∧ l' = l.drop n := by
  rw [sliceFrom] at h
  split at h
  · rename_i hn
    exact ⟨hn, (Option.some.inj h).symm⟩
  · exact nomatch h

theorem vecAdd_some {v w r : List Zr} (h : Vec.add v w = some r) : v.length = w.length ∧ r = List.zipWith (· + ·) v w := by
  rw [Vec.add] at h
  split at h
  · exact nomatch h
  · rename_i hn
    exact ⟨not_not.1 hn, (Option.some.inj h).symm⟩

theorem vecSub_some {v w r : List Zr} (h : Vec.sub v w = some r) : v.length = w.length ∧ r = List.zipWith (· - ·) v w := by
  by_cases hl : v.length = w.length
  · rw [Vec.sub_eq hl] at h
    exact ⟨hl, (Option.some.inj h).symm⟩
  · rw [Vec.sub, if_pos hl] at h
    exact nomatch h

theorem costs_setupDigest (E : Curve G1 G2 GT) (pp : BP.PP Ref) :
    Costs (setupDigest E pp) fun p n => n = 0 ∧ p.G = pp.G ∧ p.H = pp.H := by
  refine Costs.free ?_ fun _ => Costs.pure ⟨rfl, rfl, rfl⟩
  refine Costs.free ((costs_mapM (c := fun _ => 0) fun i _ => ?_).imp fun _ n h => by simpa using h.1) fun _ => ?_
  · refine Costs.lift fun _ _ => Costs.free (costs_load _ _) fun _ => ?_
    split
    · exact Costs.lift fun _ _ => Costs.free (costs_load _ _) fun _ => Costs.pure rfl
    · exact Costs.pure rfl
  · exact Costs.free (costs_load _ _) fun _ => Costs.pure rfl

omit [AddCommGroup G2] [Module Zr G2] [AddCommGroup GT] [Module Zr GT] in
theorem costs_commit (pp : BP.PP Ref) (a b : List Zr) :
    Costs (commit pp a b false : Run (Cell G1 G2 GT) Ref) fun _ n => n = 2 * a.length := by
  unfold commit
  split
  · exact Costs.crash
  · rename_i hlen
    rw [not_not] at hlen
    split
    · rename_i a0 as b0 bs g0 gs h0 hs _ _
      split
      · exact Costs.crash
      · rename_i hl
        simp only [List.length_cons] at hlen
        refine Costs.step (costs_mulBy _ _ _) fun _ => Costs.step (costs_mulBy _ _ _) fun _ => ?_
        refine Costs.step (costs_forM (c := 2) fun e _ => ?_) fun _ => ?_
        · refine Costs.step (costs_mulBy _ _ _) fun _ => Costs.free (costs_addTo _ _ _) fun _ => ?_
          exact Costs.step (costs_mulBy _ _ _) fun _ => (costs_addTo _ _ _).imp (by rintro _ _ rfl; rfl)
        · refine Costs.free (costs_addTo _ _ _) fun _ => Costs.pure ?_
          simp only [List.length_zip, List.length_cons]
          omega
    · exact Costs.crash

omit [AddCommGroup G2] [Module Zr G2] [AddCommGroup GT] [Module Zr GT] in
theorem costs_newInnerProdArgument (pp : BP.PP Ref) (a b : List Zr) :
    Costs (newInnerProdArgument pp a b : Run (Cell G1 G2 GT) _) fun arg n => n = 2 * a.length ∧ arg.pp = pp := by
  refine Costs.lift fun _ _ => Costs.step (costs_commit pp a b) fun _ => Costs.pure ⟨rfl, rfl⟩

theorem costs_instance (E : Curve G1 G2 GT) (pp : BP.PP Ref) (P : Ref) (c : Zr) :
    Costs (computeInstanceSpecificParams E pp P c) fun r n => n = 3 ∧ r.1.G = pp.G ∧ r.1.H = pp.H := by
  refine Costs.lift fun _ _ => Costs.step (costs_copy _ _) fun _ => Costs.step (costs_mulBy _ _ _) fun _ => ?_
  refine Costs.free (costs_addTo _ _ _) fun _ => Costs.step (costs_mulBy _ _ _) fun _ => ?_
  refine Costs.bind (costs_setupDigest E _) ?_
  rintro p n ⟨rfl, h1, h2⟩
  exact Costs.pure ⟨rfl, h1, h2⟩

theorem costs_randomOracle (E : Curve G1 G2 GT) (L R : Ref) (x : Bytes) : Costs (randomOracle E L R x) fun _ n => n = 0 :=
  Costs.free (costs_load _ _) fun _ => Costs.free (costs_load _ _) fun _ => Costs.pure rfl

theorem costs_next (E : Curve G1 G2 GT) (L R : Ref) (pp : BP.PP Ref) (g h : List Ref) (P : Ref) (hgh : g.length = h.length) :
    Costs (computeNextParams E L R pp g h P) fun np n =>
      n = 2 * g.length + 2 * (g.length / 2) + 3 ∧ np.g.length = g.length / 2 ∧ np.h.length = g.length / 2 := by
  unfold computeNextParams
  dsimp only
  refine Costs.free (costs_randomOracle E _ _ _) fun _ => Costs.lift fun _ _ => Costs.lift fun g1 hg1 => ?_
  refine Costs.bind (costs_mul _ _ _) ?_
  rintro gl _ ⟨rfl, hgl⟩
  refine Costs.lift fun g2 hg2 => Costs.bind (costs_mul _ _ _) ?_
  rintro gr _ ⟨rfl, hgr⟩
  refine Costs.bind (costs_add _ _ _) ?_
  rintro ng _ ⟨rfl, hng, -⟩
  refine Costs.lift fun h1 hh1 => Costs.bind (costs_mul _ _ _) ?_
  rintro hl _ ⟨rfl, hhl⟩
  refine Costs.lift fun h2 hh2 => Costs.bind (costs_mul _ _ _) ?_
  rintro hr _ ⟨rfl, hhr⟩
  refine Costs.bind (costs_add _ _ _) ?_
  rintro nh _ ⟨rfl, hnh, -⟩
  refine Costs.step (costs_mulBy _ _ _) fun _ => Costs.step (costs_mulBy _ _ _) fun _ => Costs.step (costs_copy _ _) fun _ => ?_
  refine Costs.free (costs_addTo _ _ _) fun _ => Costs.free (costs_addTo _ _ _) fun _ => Costs.pure ?_
  obtain ⟨-, rfl⟩ := sliceTo_some hg1
  obtain ⟨-, rfl⟩ := sliceFrom_some hg2
  obtain ⟨-, rfl⟩ := sliceTo_some hh1
  obtain ⟨-, rfl⟩ := sliceFrom_some hh2
  simp only [List.length_take, List.length_drop] at *
  omega

theorem costs_proveLoop (E : Curve G1 G2 GT) : ∀ (fuel : ℕ) (pp : BP.PP Ref) (a b : List Zr) (P : Ref) (g h : List Ref),
    Costs (proveLoop E fuel pp a b P g h) fun _ n => n = ipaProveWork g.length ∧ g.length = h.length := by
  intro fuel
  induction fuel with
  | zero =>
    intro pp a b P g h
    unfold proveLoop
    split_ifs with h1 h2 h3
    · exact Costs.crash
    · refine Costs.lift fun _ _ => Costs.lift fun _ _ => Costs.pure ⟨?_, not_not.1 h1⟩
      rw [ipaProveWork, if_pos h2.le]
    · exact Costs.crash
    · exact Costs.crash
  | succ fuel ih =>
    intro pp a b P g h
    unfold proveLoop
    split_ifs with h1 h2 h3
    · exact Costs.crash
    · refine Costs.lift fun _ _ => Costs.lift fun _ _ => Costs.pure ⟨?_, not_not.1 h1⟩
      rw [ipaProveWork, if_pos h2.le]
    · exact Costs.crash
    · dsimp only
      rw [not_not] at h1
      refine Costs.lift fun aL haL => Costs.lift fun aR haR => Costs.lift fun bL hbL => Costs.lift fun bR hbR => ?_
      refine Costs.lift fun cL _ => Costs.lift fun cR _ => ?_
      refine Costs.lift fun g2 hg2 => Costs.bind (costs_exp _ _ _) ?_
      rintro L _ ⟨rfl, l1⟩
      refine Costs.lift fun h1' hh1 => Costs.bind (costs_exp _ _ _) ?_
      rintro Lh _ ⟨rfl, l2⟩
      refine Costs.free (costs_addTo _ _ _) fun _ => Costs.step (costs_mulBy _ _ _) fun _ => Costs.free (costs_addTo _ _ _) fun _ => ?_
      refine Costs.lift fun g1 hg1 => Costs.bind (costs_exp _ _ _) ?_
      rintro R _ ⟨rfl, l3⟩
      refine Costs.lift fun h2' hh2 => Costs.bind (costs_exp _ _ _) ?_
      rintro Rh _ ⟨rfl, l4⟩
      refine Costs.free (costs_addTo _ _ _) fun _ => Costs.step (costs_mulBy _ _ _) fun _ => Costs.free (costs_addTo _ _ _) fun _ => ?_
      refine Costs.bind (costs_next E _ _ _ _ _ _ h1) ?_
      rintro np _ ⟨rfl, ng, nh⟩
      refine Costs.lift fun a' _ => Costs.lift fun b' _ => Costs.bind (ih _ _ _ _ _ _) ?_
      rintro r _ ⟨rfl, -⟩
      refine Costs.pure ⟨?_, h1⟩
      obtain ⟨ha, rfl⟩ := sliceTo_some haL
      obtain ⟨hb, rfl⟩ := sliceTo_some hbL
      obtain ⟨-, rfl⟩ := sliceFrom_some haR
      obtain ⟨-, rfl⟩ := sliceFrom_some hbR
      obtain ⟨-, rfl⟩ := sliceTo_some hg1
      obtain ⟨-, rfl⟩ := sliceFrom_some hg2
      obtain ⟨-, rfl⟩ := sliceTo_some hh1
      obtain ⟨-, rfl⟩ := sliceFrom_some hh2
      rw [ng, ipaProveWork.eq_def g.length, if_neg (by omega)]
      simp only [List.length_take, List.length_drop] at *
      omega

theorem costs_ipaProve (E : Curve G1 G2 GT) (arg : InnerProdArgument Ref) :
    Costs (InnerProdArgument.prove E arg) fun _ n => n = 3 + ipaProveWork arg.pp.G.length ∧ arg.pp.G.length = arg.pp.H.length := by
  refine Costs.bind (costs_instance E _ _ _) ?_
  rintro s _ ⟨rfl, -, -⟩
  refine Costs.bind (costs_proveLoop E _ _ _ _ _ _ _) ?_
  rintro r _ ⟨rfl, hl⟩
  exact Costs.pure ⟨rfl, hl⟩

variable [DecidableEq G1]

theorem costs_verifyLoop (E : Curve G1 G2 GT) (pp : BP.PP Ref) (a b : Zr) : ∀ (m : ℕ) (P : Ref) (g h LRs : List Ref), LRs.length ≤ m →
    g.length = h.length → g ≠ [] → Costs (verifyLoop E pp P g h LRs a b) fun _ n => n = ipaVerifyWork g.length := by
  intro m
  induction m with
  | zero =>
    intro P g h LRs hm hgh hg
    obtain rfl : LRs = [] := List.length_eq_zero_iff.1 (by omega)
    unfold verifyLoop
    split
    · rename_i h1
      refine Costs.step (costs_mulBy _ _ _) fun _ => Costs.lift fun _ _ => Costs.step (costs_mulBy _ _ _) fun _ => ?_
      refine Costs.free (costs_addTo _ _ _) fun _ => Costs.lift fun _ _ => Costs.step (costs_mulBy _ _ _) fun _ => ?_
      refine Costs.free (costs_addTo _ _ _) fun _ => Costs.free (costs_load _ _) fun _ => Costs.free (costs_load _ _) fun _ => ?_
      refine Costs.pure ?_
      rw [ipaVerifyWork, if_pos h1.le]
    · exact Costs.crash
  | succ m ih =>
    intro P g h LRs hm hgh hg
    unfold verifyLoop
    split
    · rename_i h1
      refine Costs.step (costs_mulBy _ _ _) fun _ => Costs.lift fun _ _ => Costs.step (costs_mulBy _ _ _) fun _ => ?_
      refine Costs.free (costs_addTo _ _ _) fun _ => Costs.lift fun _ _ => Costs.step (costs_mulBy _ _ _) fun _ => ?_
      refine Costs.free (costs_addTo _ _ _) fun _ => Costs.free (costs_load _ _) fun _ => Costs.free (costs_load _ _) fun _ => ?_
      refine Costs.pure ?_
      rw [ipaVerifyWork, if_pos h1.le]
    · rename_i h1
      split
      · rename_i L R LRs'
        have hpos : 0 < g.length := List.length_pos_iff.2 hg
        refine Costs.bind (costs_next E L R pp g h P hgh) ?_
        rintro np _ ⟨rfl, ng, nh⟩
        have hng : np.g ≠ [] := by
          rw [← List.length_pos_iff]
          omega
        refine (ih np.P np.g np.h LRs' (by simp at hm; omega) (by omega) hng).imp ?_
        rintro _ _ rfl
        rw [ng, ipaVerifyWork.eq_def g.length, if_neg (by omega)]
      · exact Costs.crash

theorem costs_ippVerify (E : Curve G1 G2 GT) (ipp : InnerProductProof Ref) (pp : BP.PP Ref) (hl : pp.G.length = pp.H.length) (hne : pp.G ≠ []) :
    Costs (InnerProductProof.verify E ipp pp) fun _ n => n = 3 + ipaVerifyWork pp.G.length := by
  refine Costs.bind (costs_instance E _ _ _) ?_
  rintro s _ ⟨rfl, h1, h2⟩
  rw [h1, h2]
  exact (costs_verifyLoop E _ _ _ _ _ _ _ _ le_rfl hl hne).imp (by rintro _ _ rfl; rfl)

omit [DecidableEq G1] in
theorem costs_irChallenge (E : Curve G1 G2 GT) (digest : Bytes) (A B V : Ref) : Costs (irChallenge E digest A B V) fun _ n => n = 0 :=
  Costs.free (costs_randomOracle E _ _ _) fun _ => Costs.free (costs_load _ _) fun _ => costs_lift

theorem halve_eq {n : ℕ} {v : List Zr} {x : Zr} :
    List.zipWith (· + ·) (v.take n) (Vec.mul (v.drop n) x) = halve n v x := by
  rw [halve, Vec.mul, List.zipWith_map_right]

theorem costs_iterReduceLoop (E : Curve G1 G2 GT) (gl : Globals) (digest : Bytes) : ∀ (n : ℕ) (G : List Ref) (v : List Zr) (V : Ref)
    (Δ : List (Ref × Ref × Ref)) (xs : List Zr), n = G.length / 2 →
    Costs (iterReduceLoop E gl digest n G v V Δ xs) fun r k =>
      ∃ ys, r.2.1 = xs ++ ys ∧ k = reduceWork G.length + foldNonZero n v ys := by
  intro n
  induction n using Nat.strongRecOn with
  | ind n ih =>
    intro G v V Δ xs hn
    unfold iterReduceLoop
    split
    · rename_i h0
      split
      · refine Costs.pure ⟨[], by simp, ?_⟩
        rw [reduceWork, if_pos (by omega)]
        rfl
      · exact Costs.crash
    · rename_i h0
      refine Costs.lift fun GL hGL => Costs.lift fun GR hGR => Costs.lift fun vL hvL => Costs.lift fun vR hvR => ?_
      refine Costs.bind (costs_mulV _ _ _ _) ?_
      rintro r1 _ ⟨rfl, -, -⟩
      refine Costs.step (costs_sum _ _) fun A => Costs.bind (costs_mulV _ _ _ _) ?_
      rintro r2 _ ⟨rfl, -, -⟩
      refine Costs.step (costs_sum _ _) fun B => Costs.free (costs_irChallenge E _ _ _ _) fun x => Costs.bind (costs_mul _ _ _) ?_
      rintro r3 _ ⟨rfl, -⟩
      refine Costs.bind (costs_add _ _ _) ?_
      rintro G' _ ⟨rfl, hG', -⟩
      refine Costs.lift fun v' hv' => Costs.bind (costs_mulV _ _ _ _) ?_
      rintro r4 _ ⟨rfl, -, -⟩
      obtain ⟨hle, rfl⟩ := sliceTo_some hGL
      obtain ⟨-, rfl⟩ := sliceFrom_some hGR
      obtain ⟨-, rfl⟩ := sliceTo_some hvL
      obtain ⟨-, rfl⟩ := sliceFrom_some hvR
      obtain ⟨-, rfl⟩ := vecAdd_some hv'
      rw [halve_eq]
      have hG'n : G'.length = n := by rw [hG', List.length_take]; omega
      refine Costs.step (costs_sum _ _) fun V' => (ih (n / 2) (by omega) G' _ V' _ _ (by rw [hG'n])).imp ?_
      rintro r _ ⟨ys, hys, rfl⟩
      refine ⟨x :: ys, by rw [hys]; simp, ?_⟩
      rw [foldNonZero, reduceWork.eq_def G.length, if_neg (by omega), hG'n, ← hn]
      simp only [List.length_take, List.length_drop] at *
      omega

theorem costs_iterativeReduce (E : Curve G1 G2 GT) (gl : Globals) (pp : BP.PP Ref) (v : List Zr) (V : Ref) :
    Costs (iterativeReduce E gl pp v V) fun r k => k = reduceWork pp.G.length + foldNonZero (pp.G.length / 2) v r.2.1 := by
  refine Costs.lift fun b _ => ?_
  split
  · exact Costs.crash
  · refine (costs_iterReduceLoop E gl _ _ _ _ _ _ _ rfl).imp ?_
    rintro r _ ⟨ys, hys, rfl⟩
    rw [hys]
    rfl

end PoL.Ptr.BP

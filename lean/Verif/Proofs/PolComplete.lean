import Verif.Proofs.PolParams
import Verif.Proofs.PolVerify
import Verif.Spec.PolForge
import Verif.Proofs.VerkleMore

/-! The parts of a liability proof made from vectors: each is accepted. -/

set_option linter.unusedSectionVars false

namespace PoL.Pol
open Spec BP PP Verkle

variable {G1 G2 GT : Type} [AddCommGroup G1] [Module Zr G1] [AddCommGroup G2] [Module Zr G2]
  [AddCommGroup GT] [Module Zr GT] [DecidableEq G1] [DecidableEq GT]

/-- The commitment of a layer. -/
def Src.V (E : Curve G1 G2 GT) (α : Zr) (s : Src) : G1 := com E α (s.values ++ [s.bf])

variable {E : Curve G1 G2 GT} {α : Zr} {F L : ℕ} {pp : PublicParams G1 G2 GT}

theorem fits_F_bound (h : Fits E α F L pp) : F + 2 < 65536 ∧ 3 ≤ F := by
  obtain ⟨k, h1, h2, h3⟩ := h.power
  have : 2 ^ k ≤ 2 ^ 15 := Nat.pow_le_pow_right (by omega) h2
  have : 2 ^ 2 ≤ 2 ^ k := Nat.pow_le_pow_right (by omega) h1
  omega

theorem fits_L_bound (h : Fits E α F L pp) : L - 1 ≤ 32768 := by
  obtain ⟨M, ⟨⟨j, -, hj, rfl⟩, h2, -⟩, -⟩ := h.poe_size
  have : 2 ^ j ≤ 2 ^ 15 := Nat.pow_le_pow_right (by omega) hj
  omega

/-- A commitment in terms of the bases of the sum argument and the range proofs. -/
theorem com_split (F : ℕ) (v : List Zr) (hv : v.length = F + 1) (r : Zr) (Fb : G1)
    (hF : (newPublicParams E α (F + 2)).G1s[F + 1]? = some Fb) :
    com E α (v ++ [r]) = r • Fb + dot v ((newPublicParams E α (F + 2)).G1s.take (F + 1)) := by
  rw [new_G1s_lt E α _ (by omega), Option.some.injEq] at hF
  have h1 : (newPublicParams E α (F + 2)).G1s.take (F + 1)
      = (List.range (F + 1)).map fun k => α ^ (k + 1) • E.genG1 := by
    have := new_G1s_take E α (F + 2)
    have h2 : (newPublicParams E α (F + 2)).G1s.take (F + 1)
        = ((newPublicParams E α (F + 2)).G1s.take (F + 2)).take (F + 1) := by
      rw [List.take_take]; congr 1; omega
    rw [h2, this, ← List.map_take, List.take_range]
    congr 2; omega
  unfold com
  rw [h1, ← dot_crs E.genG1 α (F + 2) (v ++ [r]) (by simp [hv]), List.range_succ, List.map_append,
    dot_append _ _ _ _ (by simp [hv]), ← hF]
  simp [add_comm]

theorem Src.V_sa (h : Fits E α F L pp) (s : Src) (hs : s.values.length = F + 1) :
    s.V E α = s.bf • pp.SAPP.F + dot s.values pp.SAPP.Gs := by
  have hF := h.sa_F
  rw [h.PPPP] at hF
  rw [h.sa_Gs, h.PPPP]
  exact com_split F s.values hs s.bf _ hF

theorem Src.V_rp (h : Fits E α F L pp) (s : Src) (hs : s.values.length = F + 1) :
    s.V E α = s.bf • pp.RPPP.F + dot s.values pp.RPPP.Gs := by
  have hF := h.rp_F
  rw [h.PPPP] at hF
  rw [h.rp_Gs, h.PPPP]
  exact com_split F s.values hs s.bf _ hF

theorem fits_sized (h : Fits E α F L pp) : pp.SAPP.Sized (F + 1) where
  gs := by
    rw [h.sa_Gs, h.PPPP, List.length_take, new_G1s_length E α _ (by omega)]; omega
  hs := h.sa_H
  b_eq := h.sa_b
  B_eq := h.sa_B
  pos := by omega

/-- The range proof of a layer. -/
theorem range_part (hE : E.Lawful) (h : Fits E α F L pp) (s : Src) (hs : s.values.length = F + 1)
    (hrange : ∀ x ∈ s.values, x.val < 2 ^ 63) (rnd : RangeRand) (hrnd : rnd.WellFormed (F + 1))
    (hne : ∀ rp ipaPP, proveRangeUnchecked E pp.RPPP rnd (s.V E α) s.values s.bf = some (rp, ipaPP) →
      ∀ x ∈ rangeChallenges E pp.RPPP (s.V E α) rp ipaPP, x ≠ 0) :
    ∃ rp, proveRange E pp.RPPP rnd (s.V E α) s.values s.bf = some rp ∧
      verifyRange E pp.RPPP rp (s.V E α) = some true := by
  obtain ⟨k, hk1, hk2, hk⟩ := h.power
  have hGs : pp.RPPP.Gs.length = F + 1 := by
    rw [h.rp_Gs, h.PPPP, List.length_take, new_G1s_length E α _ (by omega)]; omega
  have h1 := h.rp_Hs
  have h2 := h.rp_Fs
  rw [hk] at hs hrnd hGs h1 h2
  obtain ⟨rp, ipaPP, h3, h4⟩ := Props.C16_range_proof_complete E hE pp.RPPP k (by omega) hk2 hGs h1 h2 rnd hrnd
    s.values hs hrange s.bf (s.V E α) (s.V_rp h (by rw [hs, hk]))
  exact ⟨rp, h4 (hne rp ipaPP h3)⟩

/-- The sum argument of the layers. -/
theorem sum_part (hE : E.Lawful) (h : Fits E α F L pp) (l : List Src) (hl : l ≠ [])
    (hs : ∀ s ∈ l, s.values.length = F + 1 ∧ Balanced s.values) (rnd : Sum.Rand) (hrnd : rnd.w.length = F + 1) :
    ∃ p, Sum.newAggregatedArgument E pp.SAPP rnd (l.map (Src.V E α)) (l.map Src.values) (l.map Src.bf) = some p ∧
      ((∀ y ∈ p.challenges E pp.SAPP, y ≠ 0) → p.verifyAggregated E pp.SAPP (l.map (Src.V E α)) = some true) := by
  obtain ⟨k, hk1, hk2, hk⟩ := h.power
  refine Props.C20_aggregated_sum_argument_complete E hE pp.SAPP k (by rw [← hk]; exact fits_sized h) rnd
    (by rw [hrnd, hk]) _ _ _ (by simpa using hl) ?_ ?_ (by simp) ?_
  · intro u hu
    obtain ⟨s, hs', rfl⟩ := List.mem_map.1 hu
    rw [(hs s hs').1, hk]
  · intro u hu
    obtain ⟨s, hs', rfl⟩ := List.mem_map.1 hu
    exact (hs s hs').2
  · rw [List.zipWith_map, List.zipWith_self]
    apply List.map_congr_left
    intro s hs'
    exact s.V_sa h (hs s hs').1

/-- The opening of the digests of the layers but the last. -/
theorem agg_part (hE : E.Lawful) (h : Fits E α F L pp) (ds : List (List Zr)) (idx : List ℕ)
    (hd : ∀ d ∈ ds, d.length = F + 2) (hi : ∀ i ∈ idx, i < F) (hl : ds.length = idx.length) (hne : ds ≠ []) :
    ∃ ts π, (List.range ds.length).mapM (fun k => PP.ro E pp.PPPP (ds.map (com E α)) k) = some ts ∧
      pp.PPPP.aggregate (ds.map (com E α)) (List.zipWith (fun d i => openExpo α (F + 2) i d • E.genG1) ds idx) (PP.ro E)
        = some π ∧ ts.length = ds.length ∧
      pp.PPPP.verifyAggregation E idx (ds.map (com E α)) π (dot ts (List.zipWith (fun d i => d.getD i 0) ds idx)) (PP.ro E)
        = some true := by
  rw [h.PPPP]
  have hmem : ∀ it ∈ ds.zip idx, it.1.length = F + 2 ∧ it.2 < F + 2 := by
    intro it hit
    have := hi _ (List.of_mem_zip hit).2
    exact ⟨hd _ (List.of_mem_zip hit).1, by omega⟩
  obtain ⟨Cs, opens, ts, π, h1, h2, -, h4, h5, h6⟩ := Props.C07_aggregation_verifies E hE α (F + 2) (by omega)
    (PP.ro E) (ds.zip idx) (by
      intro hc
      have := congrArg List.length hc
      rw [List.length_zip, List.length_nil, ← hl, Nat.min_self] at this
      exact hne (List.length_eq_zero_iff.1 this)) hmem
    (fun cs k _ => fieldElementFromBytes_isSome (hE.sha_len _))
  rw [mapM_some _ (fun it => com E α it.1) _ (fun it hit => commit_eq E α (F + 2) it.1 (hmem it hit).1 (by omega)),
    Option.some.injEq] at h1
  rw [mapM_some _ (fun it => (it.1.getD it.2 0, openExpo α (F + 2) it.2 it.1 • E.genG1)) _ (fun it hit =>
    openAt_eq E α (F + 2) it.1 (hmem it hit).1 (by omega) it.2 (hmem it hit).2), Option.some.injEq] at h2
  have hCs : Cs = ds.map (com E α) := by
    rw [← h1]
    have : (fun it : List Zr × ℕ => com E α it.1) = com E α ∘ Prod.fst := rfl
    rw [this, ← List.map_map, List.map_fst_zip hl.le]
  have e1 : opens.map Prod.snd = List.zipWith (fun d i => openExpo α (F + 2) i d • E.genG1) ds idx := by
    rw [← h2, List.map_map, ← List.map_uncurry_zip_eq_zipWith]
    rfl
  have e2 : opens.map Prod.fst = List.zipWith (fun (d : List Zr) i => d.getD i 0) ds idx := by
    rw [← h2, List.map_map, ← List.map_uncurry_zip_eq_zipWith]
    rfl
  rw [List.map_snd_zip hl.ge] at h6
  rw [List.length_zip, ← hl, Nat.min_self] at h4
  rw [hCs] at h4 h5 h6
  rw [e1] at h5
  rw [e2] at h6
  exact ⟨ts, π, h4, h5, by simpa using mapM_length _ _ _ h4, h6⟩

theorem getD_vec (s : Src) (i : ℕ) (hs : i < s.values.length) : s.vec.getD i 0 = s.values.getD i 0 := by
  unfold Src.vec
  rw [List.getD_eq_getElem?_getD, List.getElem?_append_left hs, ← List.getD_eq_getElem?_getD]

/-- The pairs of neighbouring layers are a well-formed batch. -/
theorem path_wellFormed (hE : E.Lawful) (h : Fits E α F L pp) (path : List ℕ)
    (hpath : path.length = L) (hlt : ∀ x ∈ path, x < F) (l : List Src) (hl : L ≤ l.length)
    (hs : ∀ s ∈ l, s.values.length = F + 1) (M : ℕ) (hM2 : IsPadded (L - 1) M) :
    Props.BatchWellFormed E
      (pathEqualities E pp path (l.map (Src.V E α)) (com E α (List.replicate (F + 2) 0)) (M - (L - 1))) α (F + 2) M
      ((l.take (L - 1)).map Src.vec ++ List.replicate (M - (L - 1)) (List.replicate (F + 2) 0))
      (((l.drop 1).take (L - 1)).map Src.vec ++ List.replicate (M - (L - 1)) (List.replicate (F + 2) 0)) := by
  have hL2 := h.depth
  have hzero : commit (newPublicParams E α (F + 2)) (List.replicate (F + 2) 0)
      = some (com E α (List.replicate (F + 2) 0)) := commit_eq E α (F + 2) _ (by simp) (by omega)
  obtain ⟨M', hM', hG, hH⟩ := h.poe_size
  rw [isPadded_unique hM' hM2] at hG hH
  have hML : L - 1 ≤ M := hM2.2.1
  have hpath1 : (path.take (path.length - 1)).length = L - 1 := by rw [List.length_take]; omega
  have hcommit : ∀ l' : List Src, (∀ s ∈ l', s.values.length = F + 1) → ∀ n,
      (l'.map Src.vec ++ List.replicate n (List.replicate (F + 2) 0)).mapM (PP.commit pp.POEPP.vc)
        = some (l'.map (Src.V E α) ++ List.replicate n (com E α (List.replicate (F + 2) 0))) := by
    intro l' hl' n
    rw [mapM_some _ (com E α), List.map_append, List.map_map, List.map_replicate]
    · rfl
    · intro x hx
      rw [h.poe_vc, h.PPPP]
      rcases List.mem_append.1 hx with hx | hx
      · obtain ⟨s, hs', rfl⟩ := List.mem_map.1 hx
        exact commit_eq E α (F + 2) _ (by simp [Src.vec, hl' s hs']) (by omega)
      · rw [(List.mem_replicate.1 hx).2]
        exact hzero
  exact
    { vc := by unfold pathEqualities; dsimp only; rw [h.poe_vc, h.PPPP]
      G := hG
      H := hH
      RO := fun gs is d n => Props.C24_ro_total E hE gs is d n
      vs_length := by simp; omega
      ws_length := by simp; omega
      V := by
        unfold pathEqualities
        dsimp only
        rw [hcommit _ (fun s hs' => hs s (List.mem_of_mem_take hs')), hpath, List.map_take]
      W := by
        unfold pathEqualities
        dsimp only
        rw [hcommit _ (fun s hs' => hs s (List.mem_of_mem_drop (List.mem_of_mem_take hs'))), hpath, List.map_take,
          List.map_drop]
      I := by simp [pathEqualities]; omega
      J := by simp [pathEqualities]; omega
      I_lt := by
        intro i hi
        rcases List.mem_append.1 hi with hi | hi
        · have := hlt i (List.mem_of_mem_take hi); omega
        · rw [(List.mem_replicate.1 hi).2]; omega
      J_lt := by
        intro i hi
        rcases List.mem_append.1 hi with hi | hi
        · rw [(List.mem_replicate.1 hi).2, h.fanout]; omega
        · rw [(List.mem_replicate.1 hi).2]; omega }

/-- Neighbouring layers agree at the entries compared. -/
theorem path_entries (h : Fits E α F L pp) (path : List ℕ) (zero : G1)
    (hpath : path.length = L) (hlt : ∀ x ∈ path, x < F) (l : List Src) (hl : L ≤ l.length)
    (hs : ∀ s ∈ l, s.values.length = F + 1)
    (hlink : ∀ i, i + 1 < L → ∀ s s', l[i]? = some s → l[i + 1]? = some s' →
      s.values.getD (path.getD i 0) 0 = s'.values.getD F 0) (M : ℕ) (hM2 : IsPadded (L - 1) M) : ∀ k < M,
    (((l.take (L - 1)).map Src.vec ++ List.replicate (M - (L - 1)) (List.replicate (F + 2) 0)).getD k []).getD
        ((pathEqualities E pp path (l.map (Src.V E α)) zero (M - (L - 1))).I.getD k 0) 0
      = ((((l.drop 1).take (L - 1)).map Src.vec ++ List.replicate (M - (L - 1)) (List.replicate (F + 2) 0)).getD k []).getD
        ((pathEqualities E pp path (l.map (Src.V E α)) zero (M - (L - 1))).J.getD k 0) 0 := by
  have hL2 := h.depth
  have hML : L - 1 ≤ M := hM2.2.1
  have hpath1 : (path.take (path.length - 1)).length = L - 1 := by rw [List.length_take]; omega
  intro k hk
  unfold pathEqualities
  dsimp only
  by_cases hkL : k < L - 1
  · have hk0 : k < l.length := by omega
    have hk1 : k + 1 < l.length := by omega
    have e1 : ((l.take (L - 1)).map Src.vec ++ List.replicate (M - (L - 1)) (List.replicate (F + 2) 0)).getD k []
        = l[k].vec := by
      rw [List.getD_eq_getElem?_getD, List.getElem?_append_left (by simp; omega)]
      simp [hkL, hk0]
    have e2 : (((l.drop 1).take (L - 1)).map Src.vec
        ++ List.replicate (M - (L - 1)) (List.replicate (F + 2) 0)).getD k [] = l[k + 1].vec := by
      rw [List.getD_eq_getElem?_getD, List.getElem?_append_left (by simp; omega)]
      rw [List.getElem?_map, List.getElem?_take_of_lt hkL, List.getElem?_drop, Nat.add_comm 1 k,
        List.getElem?_eq_getElem hk1]
      rfl
    have e3 : (path.take (path.length - 1) ++ List.replicate (M - (L - 1)) 0).getD k 0 = path.getD k 0 := by
      rw [List.getD_eq_getElem?_getD, List.getElem?_append_left (by omega), List.getElem?_take_of_lt (by omega),
        ← List.getD_eq_getElem?_getD]
    have e4 : (List.replicate (path.length - 1) pp.fanout ++ List.replicate (M - (L - 1)) 0).getD k 0 = F := by
      rw [List.getD_eq_getElem?_getD, List.getElem?_append_left (by simp; omega), h.fanout]
      rw [List.getElem?_replicate, if_pos (by omega)]
      rfl
    rw [e1, e2, e3, e4]
    have hp : path.getD k 0 < F := by
      rw [List.getD_eq_getElem?_getD, List.getElem?_eq_getElem (by omega)]
      exact hlt _ (List.getElem_mem _)
    rw [getD_vec _ _ (by rw [hs _ (List.getElem_mem _)]; omega), getD_vec _ _ (by rw [hs _ (List.getElem_mem _)]; omega)]
    exact hlink k (by omega) _ _ (List.getElem?_eq_getElem hk0) (List.getElem?_eq_getElem hk1)
  · have e1 : ∀ l' : List Src, l'.length = L - 1 →
        (l'.map Src.vec ++ List.replicate (M - (L - 1)) (List.replicate (F + 2) (0 : Zr))).getD k []
          = List.replicate (F + 2) 0 := by
      intro l' hl'
      rw [List.getD_eq_getElem?_getD, List.getElem?_append_right (by simp; omega), List.getElem?_replicate, if_pos]
      · rfl
      · simp; omega
    have e2 : ∀ i, (List.replicate (F + 2) (0 : Zr)).getD i 0 = 0 := by
      intro i
      rw [List.getD_eq_getElem?_getD, List.getElem?_replicate]
      split_ifs <;> rfl
    rw [e1 _ (by simp; omega), e1 _ (by simp; omega), e2, e2]

/-- The equality proof. -/
theorem eq_part (hE : E.Lawful) (h : Fits E α F L pp) (path : List ℕ)
    (hpath : path.length = L) (hlt : ∀ x ∈ path, x < F) (l : List Src) (hl : L ≤ l.length)
    (hs : ∀ s ∈ l, s.values.length = F + 1)
    (hlink : ∀ i, i + 1 < L → ∀ s s', l[i]? = some s → l[i + 1]? = some s' →
      s.values.getD (path.getD i 0) 0 = s'.values.getD F 0)
    (rnd : Poe.EqsRand) (hrnd : IsPadded (L - 1) rnd.uην.length) :
    ∃ zero M p, pp.PPPP.commit (List.replicate (F + 2) 0) = some zero ∧
      padLoop ((L - 1 : ℕ) : ℤ) = some ((M : ℕ) : ℤ) ∧
      (pathEqualities E pp path (l.map (Src.V E α)) zero (M - (L - 1))).prove E rnd
        ((l.take (L - 1)).map Src.vec ++ List.replicate (M - (L - 1)) (List.replicate (F + 2) 0))
        (((l.drop 1).take (L - 1)).map Src.vec ++ List.replicate (M - (L - 1)) (List.replicate (F + 2) 0))
        = some p ∧
      ((∀ y ∈ p.challenges E pp.POEPP, y ≠ 0) →
        (pathEqualities E pp path (l.map (Src.V E α)) zero (M - (L - 1))).verify E p = some true) := by
  have hL2 := h.depth
  obtain ⟨M, hM1, hM2⟩ := padLoop_spec (m := L - 1) (by omega) (fits_L_bound h)
  have hzero : commit (newPublicParams E α (F + 2)) (List.replicate (F + 2) 0)
      = some (com E α (List.replicate (F + 2) 0)) := commit_eq E α (F + 2) _ (by simp) (by omega)
  have hrM := isPadded_unique hrnd hM2
  obtain ⟨j, -, -, hj⟩ := hM2.1
  refine ⟨com E α (List.replicate (F + 2) 0), M, ?_⟩
  have hbwf := path_wellFormed hE h path hpath hlt l hl hs M hM2
  have hent := path_entries h path (com E α (List.replicate (F + 2) 0)) hpath hlt l hl hs hlink M hM2
  rw [hj] at hbwf hent ⊢
  obtain ⟨p, hp1, hp2⟩ := Props.C24_batch_equality_complete E hE _ α (F + 2) j (by omega) _ _ hbwf hent rnd
    (by rw [hrM, hj])
  exact ⟨p, by rw [h.PPPP]; exact hzero, by rw [← hj]; exact hM1, hp1, hp2⟩

/-- A proof with all these parts is accepted. -/
theorem accepted_of_parts (hE : E.Lawful) (h : Fits E α F L pp) (path : List ℕ)
    (hpath : path.length = L) (hlt : ∀ x ∈ path, x < F) (l : List Src) (hl : L ≤ l.length) (last : Src)
    (hlast : l.getLast? = some last)
    (hs : ∀ s ∈ l, s.values.length = F + 1) (ds : List (List Zr)) (hd : ds.length + 1 = L)
    (lp : LiabilityProof G1) (hV : lp.V = l.map (Src.V E α)) (hW : lp.W = ds.map (com E α))
    (hdig : lp.digests.length = L)
    (hdigest : ∀ i, 1 ≤ i → i + 1 < L → ∀ C D, lp.V[i]? = some C → lp.W[i]? = some D →
      IsHashOf E (E.g1Bytes C ++ E.g1Bytes D) (lp.digests.getD (i - 1) 0))
    (hleaf : ∀ C, lp.V[L - 1]? = some C → IsHashOf E (E.g1Bytes C) (lp.digests.getD (L - 2) 0))
    (hrange : ∀ i < L, ∃ rp C, lp.rangeProofs[i]? = some rp ∧ lp.V[i]? = some C ∧
      verifyRange E pp.RPPP rp C = some true)
    (hagg : pp.PPPP.verifyAggregation E (path.take (L - 1)) lp.W lp.pointProof lp.pointProofSum (PP.ro E) = some true)
    (hsum : lp.sumArgumentProof.verifyAggregated E pp.SAPP lp.V = some true)
    (heq : ∃ zero M, pp.PPPP.commit (List.replicate (F + 2) 0) = some zero ∧
      padLoop ((L - 1 : ℕ) : ℤ) = some ((M : ℕ) : ℤ) ∧
      (pathEqualities E pp path lp.V zero (M - (L - 1))).verify E lp.equalityProof = some true)
    (hopen : pp.PPPP.openAt (path.getLastD 0) last.vec = some (intToZr lp.total.sum, lp.total.liabilityProof)) :
    ∃ V W, lp.V[0]? = some V ∧ lp.W[0]? = some W ∧ Accepted E pp path V W lp := by
  have hL2 := h.depth
  have hVl : lp.V.length = l.length := by rw [hV]; simp
  have hWl : lp.W.length = ds.length := by rw [hW]; simp
  refine ⟨lp.V[0]'(by omega), lp.W[0]'(by omega), List.getElem?_eq_getElem _, List.getElem?_eq_getElem _, ?_⟩
  have hdg : ∀ i < L, lp.digests[i]? = some (lp.digests.getD i 0) := by
    intro i hi
    rw [List.getD_eq_getElem?_getD, List.getElem?_eq_getElem (by omega)]
    rfl
  exact
    { len_W := by omega
      len_digests := by omega
      len_V := by omega
      root_V := List.getElem?_eq_getElem _
      root_W := List.getElem?_eq_getElem _
      range_proofs := by rw [hpath]; exact hrange
      inner_digests := by
        intro i hi hi2
        rw [hpath] at hi2
        have h1 : lp.V[i]? = some (lp.V[i]'(by omega)) := List.getElem?_eq_getElem _
        have h2 : lp.W[i]? = some (lp.W[i]'(by omega)) := List.getElem?_eq_getElem _
        exact ⟨_, _, _, h1, h2, hdg (i - 1) (by omega), hdigest i hi hi2 _ _ h1 h2⟩
      leaf_digest := by
        rw [hpath]
        have h1 : lp.V[L - 1]? = some (lp.V[L - 1]'(by omega)) := List.getElem?_eq_getElem _
        exact ⟨_, _, h1, hdg (L - 2) (by omega), hleaf _ h1⟩
      point_proof := by rw [hpath]; exact hagg
      sum_argument := hsum
      equalities := by
        obtain ⟨zero, M, h1, h2, h3⟩ := heq
        refine ⟨zero, M, by rw [h.fanout]; exact h1, by rw [hpath]; exact h2, ?_⟩
        rw [hpath]
        have : ((M : ℤ) - ((L - 1 : ℕ) : ℤ)).toNat = M - (L - 1) := by omega
        rw [this]
        exact h3
      liability := by
        have hp : path.getLast? = some (path.getLastD 0) := by
          have hne : path ≠ [] := by rintro rfl; simp at hpath; omega
          rw [List.getLastD_eq_getLast?, List.getLast?_eq_some_getLast hne]
          rfl
        have hpl : path.getLastD 0 < F := hlt _ (List.mem_of_getLast? hp)
        have hlm := List.mem_of_getLast? hlast
        refine ⟨last.V E α, _, ?_, hp, ?_⟩
        · rw [hV, List.getLast?_map, hlast]; rfl
        · rw [h.PPPP] at hopen ⊢
          have hvl : last.vec.length = F + 2 := by simp [Src.vec, hs _ hlm]
          obtain ⟨C, mi, π, c1, c2, -, c4⟩ := Props.C01_opening_verifies E hE α (F + 2) (by omega) last.vec hvl
            (path.getLastD 0) (by omega)
          rw [hopen, Option.some.injEq, Prod.mk.injEq] at c2
          rw [← c2.1, ← c2.2] at c4
          rw [commit_eq E α (F + 2) _ hvl (by omega), Option.some.injEq] at c1
          rw [← c1] at c4
          exact c4 }

end PoL.Pol

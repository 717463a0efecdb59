import Verif.Proofs.PolHist

/-! `ProveLiability` does not check the commitments of the tree: it returns a proof whatever they are. -/

set_option linter.unusedSectionVars false

namespace PoL.Pol
open Spec BP PP Verkle

variable {G1 G2 GT : Type} [AddCommGroup G1] [Module Zr G1] [AddCommGroup G2] [Module Zr G2]
  [AddCommGroup GT] [Module Zr GT] [DecidableEq G1] [DecidableEq GT] {E : Curve G1 G2 GT} {α : Zr} {F L : ℕ}
  {pp : PublicParams G1 G2 GT}

/-- A range proof is made for any point `V`. -/
theorem range_made (hE : E.Lawful) (h : Fits E α F L pp) (V : G1) (v : List Zr) (hs : v.length = F + 1)
    (hrange : ∀ x ∈ v, x.val < 2 ^ 63) (bf : Zr) (rnd : RangeRand) (hrnd : rnd.WellFormed (F + 1))
    (hne : ∀ rp ipaPP, proveRangeUnchecked E pp.RPPP rnd V v bf = some (rp, ipaPP) →
      ∀ x ∈ rangeChallenges E pp.RPPP V rp ipaPP, x ≠ 0) :
    ∃ rp, proveRange E pp.RPPP rnd V v bf = some rp := by
  obtain ⟨k, hk1, hk2, hk⟩ := h.power
  have hGs : pp.RPPP.Gs.length = F + 1 := by
    rw [h.rp_Gs, h.PPPP, List.length_take, new_G1s_length E α _ (by omega)]; omega
  have h1 := h.rp_Hs
  have h2 := h.rp_Fs
  rw [hk] at hs hrnd hGs h1 h2
  obtain ⟨rp, ipaPP, h3, h4⟩ := range_run E hE pp.RPPP k ⟨by omega, hk2, hGs, h1, h2⟩ rnd hrnd v hs hrange bf V
  exact ⟨rp, (h4 (hne rp ipaPP h3)).1⟩

/-- A sum argument is made for any points. -/
theorem sum_made (hE : E.Lawful) (h : Fits E α F L pp) (l : List Src) (hl : l ≠ [])
    (hs : ∀ s ∈ l, s.values.length = F + 1) (V : List G1) (hV : V.length = l.length) (rnd : Sum.Rand)
    (hrnd : rnd.w.length = F + 1) :
    ∃ p, Sum.newAggregatedArgument E pp.SAPP rnd V (l.map Src.values) (l.map Src.bf) = some p := by
  obtain ⟨k, hk1, hk2, hk⟩ := h.power
  obtain ⟨p, -, -, -, h1, -⟩ := Sum.newAggregatedArgument_run E hE pp.SAPP k (by rw [← hk]; exact fits_sized h) rnd
    (by rw [hrnd, hk]) V (l.map Src.values) (l.map Src.bf) (by simpa using hl) (by
      intro u hu
      obtain ⟨s, hs', rfl⟩ := List.mem_map.1 hu
      rw [hs s hs', hk]) (by simp [hV]) (by simp)
  exact ⟨p, h1⟩

/-- An equality proof is made for any points. -/
theorem eq_made (hE : E.Lawful) (h : Fits E α F L pp) (path : List ℕ)
    (hpath : path.length = L) (hlt : ∀ x ∈ path, x < F) (l : List Src) (hl : L ≤ l.length)
    (hs : ∀ s ∈ l, s.values.length = F + 1) (V : List G1) (hV : V.length = L)
    (rnd : Poe.EqsRand) (hrnd : IsPadded (L - 1) rnd.uην.length) :
    ∃ zero M p, pp.PPPP.commit (List.replicate (F + 2) 0) = some zero ∧
      padLoop ((L - 1 : ℕ) : ℤ) = some ((M : ℕ) : ℤ) ∧
      (pathEqualities E pp path V zero (M - (L - 1))).prove E rnd
        ((l.take (L - 1)).map Src.vec ++ List.replicate (M - (L - 1)) (List.replicate (F + 2) 0))
        (((l.drop 1).take (L - 1)).map Src.vec ++ List.replicate (M - (L - 1)) (List.replicate (F + 2) 0))
        = some p := by
  have hL2 := h.depth
  obtain ⟨M, hM1, hM2⟩ := padLoop_spec (m := L - 1) (by omega) (fits_L_bound h)
  have hzero : commit (newPublicParams E α (F + 2)) (List.replicate (F + 2) 0)
      = some (com E α (List.replicate (F + 2) 0)) := commit_eq E α (F + 2) _ (by simp) (by omega)
  have hrM := isPadded_unique hrnd hM2
  obtain ⟨j, -, -, hj⟩ := hM2.1
  have hML : L - 1 ≤ M := hM2.2.1
  obtain ⟨M', hM', hG, hH⟩ := h.poe_size
  rw [isPadded_unique hM' hM2] at hG hH
  have hb := path_wellFormed hE h path hpath hlt l hl hs M hM2
  have hvec : ∀ l' : List Src, (∀ s ∈ l', s.values.length = F + 1) → ∀ n,
      ∀ v ∈ l'.map Src.vec ++ List.replicate n (List.replicate (F + 2) (0 : Zr)), v.length = F + 2 := by
    intro l' hl' n v hv
    rcases List.mem_append.1 hv with hv | hv
    · obtain ⟨s, hs', rfl⟩ := List.mem_map.1 hv
      simp [Src.vec, hl' s hs']
    · rw [(List.mem_replicate.1 hv).2]; simp
  obtain ⟨p, -, -, hp, -⟩ := Poe.prove_run E hE
    (pathEqualities E pp path V (com E α (List.replicate (F + 2) 0)) (M - (L - 1))) α (F + 2) j M hj (by omega)
    hb.vc hG hH hb.RO _ _ hb.vs_length hb.ws_length
    (hvec _ (fun s hs' => hs s (List.mem_of_mem_take hs')) _)
    (hvec _ (fun s hs' => hs s (List.mem_of_mem_drop (List.mem_of_mem_take hs'))) _)
    (by simp [pathEqualities]; omega) (by simp [pathEqualities]; omega) hb.I hb.J
    (fun i hi => by have := hb.I_lt i hi; omega) (fun i hi => by have := hb.J_lt i hi; omega) rnd hrM
  exact ⟨_, M, p, by rw [h.PPPP]; exact hzero, hM1, hp⟩

/-- What is needed of the vertices on a path for `ProveLiability` to return: nothing about the points `V`. -/
structure ReadPath (E : Curve G1 G2 GT) (α : Zr) (F L : ℕ) (path : List ℕ) (fx : ℕ → Verkle.Vertex G1) (m : ℤ) :
    Prop where
  W : ∀ i, i + 1 < L → (fx i).W = some (com E α (dvec F (fx i)))
  W_last : (fx (L - 1)).W = none
  small : ∀ i < L, ∀ x ∈ (fx i).valuesVec (F + 1), x.val < 2 ^ 63
  amount : ((fx (L - 1)).valuesVec (F + 1)).getD (path.getLastD 0) 0 = intToZr m

theorem prove_returns (hE : E.Lawful) {env : Env}
    (h : Fits E α F L pp) (ls : LiabilitySet G1 G2 GT) (hPP : ls.tree.PP = newPublicParams E α (F + 2))
    (hfan : ls.tree.fanOut = F) (hpp : ls.pp = pp) (id : Str) (path : List ℕ) (hp : ls.tree.id2Path id = some path)
    (hpL : path.length = L) (hlt : ∀ x ∈ path, x < F) (fx : ℕ → Verkle.Vertex G1) (n m : ℤ)
    (hget : ls.tree.get E env id ls.s.db = some (some (n, (List.range L).map fx)))
    (hx : ReadPath E α F L path fx m) (hm0 : 0 ≤ m) (hm1 : m < 2 ^ 63) (rnd : ProveRand) (hrnd : RandSized F L rnd)
    (hne : ∀ n vs i v rp ipaPP, ls.tree.get E env id ls.s.db = some (some (n, vs)) → vs[i]? = some v →
      proveRangeUnchecked E ls.pp.RPPP (rnd.range i) v.V (v.valuesVec (ls.tree.fanOut + 1)) v.blindingFactor
        = some (rp, ipaPP) → ∀ x ∈ rangeChallenges E ls.pp.RPPP v.V rp ipaPP, x ≠ 0) :
    ∃ lp, ls.proveLiability E env rnd id = some (some (m, lp)) ∧ lp.total.sum = m := by
  have hL2 := h.depth
  -- range proofs
  have hrange : ∀ i < L, ∃ rp, proveRange E pp.RPPP (rnd.range i) (fx i).V ((fx i).valuesVec (F + 1))
      (fx i).blindingFactor = some rp := by
    intro i hi
    refine range_made hE h _ _ (valuesVec_length _ _) (hx.small i hi) _ (rnd.range i) (hrnd.range i hi) ?_
    intro rp ipaPP hpr
    have := hne n _ i (fx i) rp ipaPP hget (by simp [hi]) (by rw [hfan, hpp]; exact hpr)
    rw [hpp] at this
    exact this
  have hrpne : Nonempty (RangeProof G1) := by
    obtain ⟨rp, -⟩ := hrange 0 (by omega)
    exact ⟨rp⟩
  choose! rp hrp1 using hrange
  -- layers
  set dv : ℕ → List Zr := fun i => dvec F (fx i) with hdv
  have hdvl : ∀ i, (dv i).length = F + 2 := by intro i; simp [hdv, dvec]
  have hpi : ∀ i < L, path[i]? = some (path.getD i 0) ∧ path.getD i 0 < F := by
    intro i hi
    have : path[i]? = some (path.getD i 0) := by
      rw [List.getD_eq_getElem?_getD, List.getElem?_eq_getElem (by omega)]; rfl
    exact ⟨this, hlt _ (List.mem_of_getElem? this)⟩
  set lay : ℕ → Layer G1 := fun i =>
    ⟨fx i, rp i, (dv i).getD (path.getD i 0) 0, openExpo α (F + 2) (path.getD i 0) (dv i) • E.genG1⟩ with hlay
  have hlayers : (List.range path.length).mapM (fun i => proveLayer E ls rnd path ((List.range L).map fx) i)
      = some ((List.range L).map lay) := by
    rw [hpL]
    apply mapM_some
    intro i hi
    rw [List.mem_range] at hi
    unfold proveLayer
    have e1 : ((List.range L).map fx)[i]? = some (fx i) := by simp [hi]
    refine obind_step e1 ?_
    rw [hfan, hpp]
    refine obind_step (hrp1 i hi) ?_
    refine obind_step (hpi i hi).1 ?_
    have e2 : (List.range (F + 2)).map (fun j => ((fx i).digests (UInt16.ofNat j)).getD (intToZr 0)) = dv i := by
      rw [hdv, intToZr_zero]; rfl
    rw [e2, hPP]
    exact obind_step (openAt_eq E α (F + 2) (dv i) (hdvl i) (by omega) _ (by have := (hpi i hi).2; omega)) rfl
  have hrL : List.range L = List.range (L - 1) ++ [L - 1] := by
    rw [← List.range_succ]; congr 1; omega
  have hlast : ((List.range L).map lay).getLast? = some (lay (L - 1)) := by
    rw [hrL, List.map_append]; simp
  have hplast : path.getLast? = some (path.getLastD 0) := by
    have hne : path ≠ [] := by rintro rfl; simp at hpL; omega
    rw [List.getLastD_eq_getLast?, List.getLast?_eq_some_getLast hne]
    rfl
  have hplt : path.getLastD 0 < F := hlt _ (List.mem_of_getLast? hplast)
  -- the opening for the client
  have hopen : pp.PPPP.openAt (path.getLastD 0) (srcOf F (fx (L - 1))).vec
      = some (intToZr m, openExpo α (F + 2) (path.getLastD 0) (srcOf F (fx (L - 1))).vec • E.genG1) := by
    have hvl : (srcOf F (fx (L - 1))).vec.length = F + 2 := by simp [Src.vec, srcOf, valuesVec_length]
    rw [h.PPPP, openAt_eq E α (F + 2) _ hvl (by omega) _ (by omega)]
    rw [getD_vec _ _ (by unfold srcOf; dsimp only; rw [valuesVec_length]; omega)]
    have := hx.amount
    unfold srcOf
    dsimp only
    rw [this]
  have hclient : ls.openForClient (fx (L - 1)) (path.getLastD 0)
      = some (intToZr m, openExpo α (F + 2) (path.getLastD 0) (srcOf F (fx (L - 1))).vec • E.genG1) := by
    unfold LiabilitySet.openForClient
    have hN : ls.pp.PPPP.N = F + 2 := by rw [hpp, h.PPPP]; rfl
    rw [hN, if_neg (by omega), hpp]
    exact hopen
  -- commitments
  have hVs : ((List.range L).map lay).map (fun y => y.v.V) = (List.range L).map fun i => (fx i).V := by
    rw [List.map_map]; rfl
  have hWlast : (lay (L - 1)).v.W = none := hx.W_last
  have hWs : ((List.range L).map lay).filterMap (fun y => y.v.W) = ((List.range (L - 1)).map dv).map (com E α) := by
    rw [hrL, List.map_append, List.filterMap_append, List.filterMap_map, List.map_map]
    have e1 : List.filterMap ((fun y : Layer G1 => y.v.W) ∘ lay) (List.range (L - 1))
        = List.filterMap (fun i => some ((com E α ∘ dv) i)) (List.range (L - 1)) := by
      apply List.filterMap_congr
      intro i hi
      rw [List.mem_range] at hi
      exact hx.W i (by omega)
    rw [e1, List.filterMap_eq_map']
    simp [hWlast]
  have hπs : ((List.range L).map lay).filterMap (fun y => y.v.W.map fun _ => y.π)
      = List.zipWith (fun d i => openExpo α (F + 2) i d • E.genG1) ((List.range (L - 1)).map dv) (path.take (L - 1)) := by
    rw [take_eq_map_range path (L - 1) (by omega), zipWith_map_range, hrL, List.map_append, List.filterMap_append,
      List.filterMap_map]
    have e1 : List.filterMap ((fun y : Layer G1 => y.v.W.map fun _ => y.π) ∘ lay) (List.range (L - 1))
        = List.filterMap (fun i => some (openExpo α (F + 2) (path.getD i 0) (dv i) • E.genG1)) (List.range (L - 1)) := by
      apply List.filterMap_congr
      intro i hi
      rw [List.mem_range] at hi
      have : (lay i).v.W = some _ := hx.W i (by omega)
      simp only [Function.comp, this, Option.map_some]
      rfl
    rw [e1, List.filterMap_eq_map']
    simp [hWlast]
  obtain ⟨ts, π, a1, a2, a3, a4⟩ := agg_part hE h ((List.range (L - 1)).map dv) (path.take (L - 1))
    (by intro d hd; obtain ⟨i, -, rfl⟩ := List.mem_map.1 hd; exact hdvl i)
    (fun i hi => hlt i (List.mem_of_mem_take hi)) (by simp; omega) (by
      intro hc
      have := congrArg List.length hc
      simp at this; omega)
  simp only [List.length_map, List.length_range] at a1 a3
  have hdigs : (((List.range L).map lay).map Layer.digest).take ts.length
      = List.zipWith (fun (d : List Zr) i => d.getD i 0) ((List.range (L - 1)).map dv) (path.take (L - 1)) := by
    rw [a3, take_eq_map_range path (L - 1) (by omega), zipWith_map_range, List.map_map, ← List.map_take,
      List.take_range, Nat.min_eq_left (by omega)]
    rfl
  have hsig := Vec.innerProd_eq (v := (((List.range L).map lay).map Layer.digest).take ts.length) (w := ts) (by
    simp [a3])
  rw [hdigs, dot_comm] at hsig
  -- sum argument
  set l : List Src := (List.range L).map fun i => srcOf F (fx i) with hl
  have hll : l.length = L := by simp [hl]
  have hlmem : ∀ s ∈ l, s.values.length = F + 1 := by
    intro s hs
    obtain ⟨i, hi, rfl⟩ := List.mem_map.1 hs
    exact valuesVec_length _ _
  obtain ⟨sp, hsp1⟩ := sum_made hE h l (by
      intro hc
      rw [hc] at hll; simp at hll; omega) hlmem ((List.range L).map fun i => (fx i).V) (by simp [hll]) rnd.sum hrnd.sum
  have hsum : sumArgument E pp.SAPP rnd.sum (((List.range L).map lay).map Layer.v) = some sp := by
    unfold sumArgument
    rw [h.sa_H]
    have e1 : (((List.range L).map lay).map Layer.v).map Verkle.Vertex.V = (List.range L).map fun i => (fx i).V := by
      rw [← hVs, List.map_map]; rfl
    have e2 : (((List.range L).map lay).map Layer.v).map (fun v => v.valuesVec (F + 1)) = l.map Src.values := by
      rw [hl, List.map_map, List.map_map, List.map_map]; rfl
    have e3 : (((List.range L).map lay).map Layer.v).map Verkle.Vertex.blindingFactor = l.map Src.bf := by
      rw [hl, List.map_map, List.map_map, List.map_map]; rfl
    rw [e1, e2, e3]
    exact hsp1
  -- equality proof
  obtain ⟨zero, M, ep, hz, hM, hep1⟩ := eq_made hE h path hpL hlt l (by omega) hlmem ((List.range L).map fun i => (fx i).V)
    (by simp) rnd.eq hrnd.eq
  have hpad : ((M : ℤ) - ((path.length - 1 : ℕ) : ℤ)).toNat = M - (L - 1) := by rw [hpL]; omega
  have hvEQ : (((List.range L).map lay).take (path.length - 1)).map (fun y => eqVector y.v ls.tree.fanOut)
      = (l.take (L - 1)).map Src.vec := by
    rw [hpL, hfan, hl, ← List.map_take, ← List.map_take, List.map_map, List.map_map]; rfl
  have hwEQ : (((List.range L).map lay).drop 1).map (fun y => eqVector y.v ls.tree.fanOut)
      = ((l.drop 1).take (L - 1)).map Src.vec := by
    rw [hfan, List.take_of_length_le (by simp [hll]), hl, ← List.map_drop, ← List.map_drop, List.map_map, List.map_map]
    rfl
  obtain ⟨lp, hlp⟩ : ∃ lp : LiabilityProof G1, lp =
      { pointProofSum := dot ts (List.zipWith (fun (d : List Zr) i => d.getD i 0) ((List.range (L - 1)).map dv)
          (path.take (L - 1)))
        pointProof := π
        sumArgumentProof := sp
        V := (List.range L).map fun i => (fx i).V
        W := ((List.range (L - 1)).map dv).map (com E α)
        digests := ((List.range L).map lay).map Layer.digest
        rangeProofs := ((List.range L).map lay).map Layer.rangeProof
        equalityProof := ep
        total := ⟨openExpo α (F + 2) (path.getLastD 0) (srcOf F (fx (L - 1))).vec • E.genG1, m⟩ } := ⟨_, rfl⟩
  have hsteps : ls.proveLiability E env rnd id = some (some (m, lp)) := by
    rw [hlp]
    unfold LiabilitySet.proveLiability
    refine obind_step hp (obind_step hget ?_)
    dsimp only
    rw [if_neg (by omega)]
    refine obind_step hlayers (obind_step hlast (obind_step hplast (obind_step hclient
      (obind_step (zrInt_intToZr hm0 hm1) ?_))))
    dsimp only
    rw [hVs, hWs, hπs, hPP, ← h.PPPP, hpp]
    have a1' : (List.range (path.length - 1)).mapM (fun i => PP.ro E pp.PPPP (((List.range (L - 1)).map dv).map (com E α)) i)
        = some ts := by rw [hpL]; exact a1
    refine obind_step a1' ?_
    rw [hdigs]
    refine obind_step hsig (obind_step a2 (obind_step hsum ?_))
    rw [hfan, intToZr_zero]
    refine obind_step hz ?_
    have hM' : padLoop ((path.length - 1 : ℕ) : ℤ) = some ((M : ℕ) : ℤ) := by rw [hpL]; exact hM
    refine obind_step hM' ?_
    rw [hpad]
    have heqs := equalitiesOf_eq E pp path ((List.range L).map fun i => (fx i).V) zero (M - (L - 1)) (by simp [hpL]) (by omega)
    rw [h.fanout] at heqs
    refine obind_step heqs ?_
    rw [hfan] at hvEQ hwEQ
    rw [hvEQ, hwEQ]
    exact obind_step hep1 rfl
  exact ⟨lp, hsteps, by rw [hlp]⟩

end PoL.Pol

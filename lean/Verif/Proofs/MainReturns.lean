import Verif.Proofs.Returns
import Verif.Model.Schedule

/-! The main goroutine of `ProveLiability`. -/

set_option linter.unusedSectionVars false

namespace PoL.Pol
open Spec BP PP Verkle

variable {G1 G2 GT : Type} [AddCommGroup G1] [Module Zr G1] [AddCommGroup G2] [Module Zr G2]
  [AddCommGroup GT] [Module Zr GT] [DecidableEq G1] [DecidableEq GT] {E : Curve G1 G2 GT} {α : Zr} {F L : ℕ}
  {pp : PublicParams G1 G2 GT}

/-- What the main goroutine of `ProveLiability` needs of the vertices on a path: nothing about the points `V`, nor about the
sizes of the values. -/
structure MainPath (E : Curve G1 G2 GT) (α : Zr) (F L : ℕ) (path : List ℕ) (fx : ℕ → Verkle.Vertex G1) (m : ℤ) :
    Prop where
  W : ∀ i, i + 1 < L → (fx i).W = some (com E α (dvec F (fx i)))
  W_last : (fx (L - 1)).W = none
  amount : ((fx (L - 1)).valuesVec (F + 1)).getD (path.getLastD 0) 0 = intToZr m

/-- The main goroutine of `ProveLiability` returns whatever the range proofs do. -/
theorem main_returns (hE : E.Lawful)
    (h : Fits E α F L pp) (ls : LiabilitySet G1 G2 GT) (hPP : ls.tree.PP = newPublicParams E α (F + 2))
    (hfan : ls.tree.fanOut = F) (hpp : ls.pp = pp) (path : List ℕ)
    (hpL : path.length = L) (hlt : ∀ x ∈ path, x < F) (fx : ℕ → Verkle.Vertex G1) (m : ℤ)
    (hx : MainPath E α F L path fx m) (hm0 : 0 ≤ m) (hm1 : m < 2 ^ 63) (rnd : ProveRand) (hrnd : RandSized F L rnd) :
    ∃ layers f, (List.range path.length).mapM (fun i => mainLayer ls path ((List.range L).map fx) i) = some layers ∧
      mainRest E ls rnd path layers = some f ∧ ∀ rps, (f rps).1 = m ∧ (f rps).2.rangeProofs = rps := by
  have hL2 := h.depth
  -- layers
  set dv : ℕ → List Zr := fun i => dvec F (fx i) with hdv
  have hdvl : ∀ i, (dv i).length = F + 2 := by intro i; simp [hdv, dvec]
  have hpi : ∀ i < L, path[i]? = some (path.getD i 0) ∧ path.getD i 0 < F := by
    intro i hi
    have : path[i]? = some (path.getD i 0) := by
      rw [List.getD_eq_getElem?_getD, List.getElem?_eq_getElem (by omega)]; rfl
    exact ⟨this, hlt _ (List.mem_of_getElem? this)⟩
  set lay : ℕ → Verkle.Vertex G1 × Zr × G1 := fun i =>
    ⟨fx i, (dv i).getD (path.getD i 0) 0, openExpo α (F + 2) (path.getD i 0) (dv i) • E.genG1⟩ with hlay
  have hlayers : (List.range path.length).mapM (fun i => mainLayer ls path ((List.range L).map fx) i)
      = some ((List.range L).map lay) := by
    rw [hpL]
    apply mapM_some
    intro i hi
    rw [List.mem_range] at hi
    unfold mainLayer
    have e1 : ((List.range L).map fx)[i]? = some (fx i) := by simp [hi]
    refine obind_step e1 ?_
    rw [hfan]
    refine obind_step (hpi i hi).1 ?_
    have e2 : (List.range (F + 2)).map (fun j => ((fx i).digests (UInt16.ofNat j)).getD (intToZr 0)) = dv i := by
      rw [hdv, intToZr_zero]; rfl
    rw [e2, hPP]
    exact obind_step (openAt_eq E α (F + 2) (dv i) (hdvl i) (by omega) _ (by have := (hpi i hi).2; omega)) rfl
  have hrL : List.range L = List.range (L - 1) ++ [L - 1] := by
    rw [← List.range_succ]; congr 1; omega
  have hlast : ((List.range L).map lay).getLast? = some (lay (L - 1)) := by
    rw [hrL, List.map_append]; simp
  have hplast : path.getLast? = some (path.getLastD 0) := by
    have hne : path ≠ [] := by rintro rfl; simp at hpL; omega
    rw [List.getLastD_eq_getLast?, List.getLast?_eq_some_getLast hne]
    rfl
  have hplt : path.getLastD 0 < F := hlt _ (List.mem_of_getLast? hplast)
  -- the opening for the client
  have hopen : pp.PPPP.openAt (path.getLastD 0) (srcOf F (fx (L - 1))).vec
      = some (intToZr m, openExpo α (F + 2) (path.getLastD 0) (srcOf F (fx (L - 1))).vec • E.genG1) := by
    have hvl : (srcOf F (fx (L - 1))).vec.length = F + 2 := by simp [Src.vec, srcOf, valuesVec_length]
    rw [h.PPPP, openAt_eq E α (F + 2) _ hvl (by omega) _ (by omega)]
    rw [getD_vec _ _ (by unfold srcOf; dsimp only; rw [valuesVec_length]; omega)]
    have := hx.amount
    unfold srcOf
    dsimp only
    rw [this]
  have hclient : ls.openForClient (fx (L - 1)) (path.getLastD 0)
      = some (intToZr m, openExpo α (F + 2) (path.getLastD 0) (srcOf F (fx (L - 1))).vec • E.genG1) := by
    unfold LiabilitySet.openForClient
    have hN : ls.pp.PPPP.N = F + 2 := by rw [hpp, h.PPPP]; rfl
    rw [hN, if_neg (by omega), hpp]
    exact hopen
  -- commitments
  have hVs : ((List.range L).map lay).map (fun y => y.1.V) = (List.range L).map fun i => (fx i).V := by
    rw [List.map_map]; rfl
  have hWlast : (lay (L - 1)).1.W = none := hx.W_last
  have hWs : ((List.range L).map lay).filterMap (fun y => y.1.W) = ((List.range (L - 1)).map dv).map (com E α) := by
    rw [hrL, List.map_append, List.filterMap_append, List.filterMap_map, List.map_map]
    have e1 : List.filterMap ((fun y : Verkle.Vertex G1 × Zr × G1 => y.1.W) ∘ lay) (List.range (L - 1))
        = List.filterMap (fun i => some ((com E α ∘ dv) i)) (List.range (L - 1)) := by
      apply List.filterMap_congr
      intro i hi
      rw [List.mem_range] at hi
      exact hx.W i (by omega)
    rw [e1, List.filterMap_eq_map']
    simp [hWlast]
  have hπs : ((List.range L).map lay).filterMap (fun y => y.1.W.map fun _ => y.2.2)
      = List.zipWith (fun d i => openExpo α (F + 2) i d • E.genG1) ((List.range (L - 1)).map dv) (path.take (L - 1)) := by
    rw [take_eq_map_range path (L - 1) (by omega), zipWith_map_range, hrL, List.map_append, List.filterMap_append,
      List.filterMap_map]
    have e1 : List.filterMap ((fun y : Verkle.Vertex G1 × Zr × G1 => y.1.W.map fun _ => y.2.2) ∘ lay) (List.range (L - 1))
        = List.filterMap (fun i => some (openExpo α (F + 2) (path.getD i 0) (dv i) • E.genG1)) (List.range (L - 1)) := by
      apply List.filterMap_congr
      intro i hi
      rw [List.mem_range] at hi
      have : (lay i).1.W = some _ := hx.W i (by omega)
      simp only [Function.comp, this, Option.map_some]
      rfl
    rw [e1, List.filterMap_eq_map']
    simp [hWlast]
  obtain ⟨ts, π, a1, a2, a3, a4⟩ := agg_part hE h ((List.range (L - 1)).map dv) (path.take (L - 1))
    (by intro d hd; obtain ⟨i, -, rfl⟩ := List.mem_map.1 hd; exact hdvl i)
    (fun i hi => hlt i (List.mem_of_mem_take hi)) (by simp; omega) (by
      intro hc
      have := congrArg List.length hc
      simp at this; omega)
  simp only [List.length_map, List.length_range] at a1 a3
  have hdigs : (((List.range L).map lay).map (fun y => y.2.1)).take ts.length
      = List.zipWith (fun (d : List Zr) i => d.getD i 0) ((List.range (L - 1)).map dv) (path.take (L - 1)) := by
    rw [a3, take_eq_map_range path (L - 1) (by omega), zipWith_map_range, List.map_map, ← List.map_take,
      List.take_range, Nat.min_eq_left (by omega)]
    rfl
  have hsig := Vec.innerProd_eq (v := (((List.range L).map lay).map (fun y => y.2.1)).take ts.length) (w := ts) (by
    simp [a3])
  rw [hdigs, dot_comm] at hsig
  -- sum argument
  set l : List Src := (List.range L).map fun i => srcOf F (fx i) with hl
  have hll : l.length = L := by simp [hl]
  have hlmem : ∀ s ∈ l, s.values.length = F + 1 := by
    intro s hs
    obtain ⟨i, hi, rfl⟩ := List.mem_map.1 hs
    exact valuesVec_length _ _
  obtain ⟨sp, hsp1⟩ := sum_made hE h l (by
      intro hc
      rw [hc] at hll; simp at hll; omega) hlmem ((List.range L).map fun i => (fx i).V) (by simp [hll]) rnd.sum hrnd.sum
  have hsum : sumArgument E pp.SAPP rnd.sum (((List.range L).map lay).map (fun y => y.1)) = some sp := by
    unfold sumArgument
    rw [h.sa_H]
    have e1 : (((List.range L).map lay).map (fun y => y.1)).map Verkle.Vertex.V = (List.range L).map fun i => (fx i).V := by
      rw [← hVs, List.map_map]; rfl
    have e2 : (((List.range L).map lay).map (fun y => y.1)).map (fun v => v.valuesVec (F + 1)) = l.map Src.values := by
      rw [hl, List.map_map, List.map_map, List.map_map]; rfl
    have e3 : (((List.range L).map lay).map (fun y => y.1)).map Verkle.Vertex.blindingFactor = l.map Src.bf := by
      rw [hl, List.map_map, List.map_map, List.map_map]; rfl
    rw [e1, e2, e3]
    exact hsp1
  -- equality proof
  obtain ⟨zero, M, ep, hz, hM, hep1⟩ := eq_made hE h path hpL hlt l (by omega) hlmem ((List.range L).map fun i => (fx i).V)
    (by simp) rnd.eq hrnd.eq
  have hpad : ((M : ℤ) - ((path.length - 1 : ℕ) : ℤ)).toNat = M - (L - 1) := by rw [hpL]; omega
  have hvEQ : (((List.range L).map lay).take (path.length - 1)).map (fun y => eqVector y.1 ls.tree.fanOut)
      = (l.take (L - 1)).map Src.vec := by
    rw [hpL, hfan, hl, ← List.map_take, ← List.map_take, List.map_map, List.map_map]; rfl
  have hwEQ : (((List.range L).map lay).drop 1).map (fun y => eqVector y.1 ls.tree.fanOut)
      = ((l.drop 1).take (L - 1)).map Src.vec := by
    rw [hfan, List.take_of_length_le (by simp [hll]), hl, ← List.map_drop, ← List.map_drop, List.map_map, List.map_map]
    rfl
  suffices hs : ∃ f, mainRest E ls rnd path ((List.range L).map lay) = some f ∧
      ∀ rps, (f rps).1 = m ∧ (f rps).2.rangeProofs = rps by
    obtain ⟨f, h1, h2⟩ := hs
    exact ⟨_, f, hlayers, h1, h2⟩
  refine ⟨fun rps => (m,
      { pointProofSum := dot ts (List.zipWith (fun (d : List Zr) i => d.getD i 0) ((List.range (L - 1)).map dv)
          (path.take (L - 1)))
        pointProof := π
        sumArgumentProof := sp
        V := (List.range L).map fun i => (fx i).V
        W := ((List.range (L - 1)).map dv).map (com E α)
        digests := ((List.range L).map lay).map (fun y => y.2.1)
        rangeProofs := rps
        equalityProof := ep
        total := ⟨openExpo α (F + 2) (path.getLastD 0) (srcOf F (fx (L - 1))).vec • E.genG1, m⟩ }), ?_,
    fun rps => ⟨rfl, rfl⟩⟩
  · unfold mainRest
    refine obind_step hlast (obind_step hplast (obind_step hclient
      (obind_step (zrInt_intToZr hm0 hm1) ?_)))
    dsimp only
    rw [hVs, hWs, hπs, hPP, ← h.PPPP, hpp]
    have a1' : (List.range (path.length - 1)).mapM (fun i => PP.ro E pp.PPPP (((List.range (L - 1)).map dv).map (com E α)) i)
        = some ts := by rw [hpL]; exact a1
    refine obind_step a1' ?_
    rw [hdigs]
    refine obind_step hsig (obind_step a2 (obind_step hsum ?_))
    rw [hfan, intToZr_zero]
    refine obind_step hz ?_
    have hM' : padLoop ((path.length - 1 : ℕ) : ℤ) = some ((M : ℕ) : ℤ) := by rw [hpL]; exact hM
    refine obind_step hM' ?_
    rw [hpad]
    have heqs := equalitiesOf_eq E pp path ((List.range L).map fun i => (fx i).V) zero (M - (L - 1)) (by simp [hpL]) (by omega)
    rw [h.fanout] at heqs
    refine obind_step heqs ?_
    rw [hfan] at hvEQ hwEQ
    rw [hvEQ, hwEQ]
    exact obind_step hep1 rfl

end PoL.Pol

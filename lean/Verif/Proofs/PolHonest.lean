import Verif.Proofs.PolComplete
import Verif.Proofs.PolTree
import Verif.Spec.PolRun

/-! The honest run of `ProveLiability`. -/

set_option linter.unusedSectionVars false

namespace PoL.Pol
open Spec BP PP Verkle

variable {G1 G2 GT : Type} [AddCommGroup G1] [Module Zr G1] [AddCommGroup G2] [Module Zr G2]
  [AddCommGroup GT] [Module Zr GT] [DecidableEq G1] [DecidableEq GT]

/-- The vector of digests opened by `ProveLiability`. -/
def dvec (F : ℕ) (x : Verkle.Vertex G1) : List Zr := (List.range (F + 2)).map fun j => (x.digests (UInt16.ofNat j)).getD 0

/-- The layer source of a vertex. -/
def srcOf (F : ℕ) (x : Verkle.Vertex G1) : Src := ⟨x.valuesVec (F + 1), x.blindingFactor⟩

theorem valuesVec_length (x : Verkle.Vertex G1) (n : ℕ) : (x.valuesVec n).length = n := by
  simp [Verkle.Vertex.valuesVec]

theorem zrInt_intToZr {n : ℤ} (h0 : 0 ≤ n) (h1 : n < 2 ^ 63) : zrInt (intToZr n) = some n := by
  unfold zrInt
  rw [intToZr_val h0 h1, if_pos (by omega)]
  congr 1
  omega

theorem zipWith_map_range {α β γ : Type} (f : ℕ → α) (g : ℕ → β) (h : α → β → γ) (n : ℕ) :
    List.zipWith h ((List.range n).map f) ((List.range n).map g) = (List.range n).map fun i => h (f i) (g i) := by
  rw [List.zipWith_map, List.zipWith_self]

theorem take_eq_map_range (l : List ℕ) (n : ℕ) (h : n ≤ l.length) : l.take n = (List.range n).map fun i => l.getD i 0 := by
  apply List.ext_getElem?
  intro i
  by_cases hi : i < n
  · rw [List.getElem?_take_of_lt hi, List.getElem?_map, List.getElem?_range hi, List.getElem?_eq_getElem (by omega),
      Option.map_some, List.getD_eq_getElem?_getD, List.getElem?_eq_getElem (by omega)]
    rfl
  · rw [List.getElem?_eq_none (by simp; omega), List.getElem?_eq_none (by simp; omega)]

/-- The commitments of the vertices, and what is needed of their contents. -/
structure HonestPath (E : Curve G1 G2 GT) (α : Zr) (F L : ℕ) (path : List ℕ) (fx : ℕ → Verkle.Vertex G1) (m : ℤ) :
    Prop where
  V : ∀ i < L, (fx i).V = (srcOf F (fx i)).V E α
  W : ∀ i, i + 1 < L → (fx i).W = some (com E α (dvec F (fx i)))
  W_last : (fx (L - 1)).W = none
  balanced : ∀ i < L, Balanced ((fx i).valuesVec (F + 1))
  small : ∀ i < L, ∀ x ∈ (fx i).valuesVec (F + 1), x.val < 2 ^ 63
  link : ∀ i, i + 1 < L → ((fx i).valuesVec (F + 1)).getD (path.getD i 0) 0
    = ((fx (i + 1)).valuesVec (F + 1)).getD F 0
  digest : ∀ i, i + 1 < L → (dvec F (fx i)).getD (path.getD i 0) 0 = dig E (fx (i + 1))
  amount : ((fx (L - 1)).valuesVec (F + 1)).getD (path.getLastD 0) 0 = intToZr m

theorem prove_honest {E : Curve G1 G2 GT} (hE : E.Lawful) {env : Env} {α : Zr} {F L : ℕ} {pp : PublicParams G1 G2 GT}
    (h : Fits E α F L pp) (ls : LiabilitySet G1 G2 GT) (hPP : ls.tree.PP = newPublicParams E α (F + 2))
    (hfan : ls.tree.fanOut = F) (hpp : ls.pp = pp) (id : Str) (path : List ℕ) (hp : ls.tree.id2Path id = some path)
    (hpL : path.length = L) (hlt : ∀ x ∈ path, x < F) (fx : ℕ → Verkle.Vertex G1) (n m : ℤ)
    (hget : ls.tree.get E env id ls.s.db = some (some (n, (List.range L).map fx)))
    (hx : HonestPath E α F L path fx m) (hm0 : 0 ≤ m) (hm1 : m < 2 ^ 63) (rnd : ProveRand) (hrnd : RandSized F L rnd)
    (hne : NonzeroChallenges E env ls rnd id) :
    ∃ lp W, ls.proveLiability E env rnd id = some (some (m, lp)) ∧ lp.total.sum = m ∧ (fx 0).W = some W ∧
      Accepted E pp path (fx 0).V W lp := by
  have hL2 := h.depth
  -- range proofs
  have hrange : ∀ i < L, ∃ rp, proveRange E pp.RPPP (rnd.range i) (fx i).V ((fx i).valuesVec (F + 1))
      (fx i).blindingFactor = some rp ∧ verifyRange E pp.RPPP rp (fx i).V = some true := by
    intro i hi
    have h1 := range_part hE h (srcOf F (fx i)) (valuesVec_length _ _) (hx.small i hi) (rnd.range i) (hrnd.range i hi) (by
      intro rp ipaPP hpr
      have := hne.range n _ i (fx i) rp ipaPP hget (by simp [hi]) (by
        rw [hfan, hpp, hx.V i hi]; exact hpr)
      rw [hpp, hx.V i hi] at this
      exact this)
    rw [← hx.V i hi] at h1
    exact h1
  have hrpne : Nonempty (RangeProof G1) := by
    obtain ⟨rp, -⟩ := hrange 0 (by omega)
    exact ⟨rp⟩
  choose! rp hrp1 hrp2 using hrange
  -- layers
  set dv : ℕ → List Zr := fun i => dvec F (fx i) with hdv
  have hdvl : ∀ i, (dv i).length = F + 2 := by intro i; simp [hdv, dvec]
  have hpi : ∀ i < L, path[i]? = some (path.getD i 0) ∧ path.getD i 0 < F := by
    intro i hi
    have : path[i]? = some (path.getD i 0) := by
      rw [List.getD_eq_getElem?_getD, List.getElem?_eq_getElem (by omega)]; rfl
    exact ⟨this, hlt _ (List.mem_of_getElem? this)⟩
  set lay : ℕ → Layer G1 := fun i =>
    ⟨fx i, rp i, (dv i).getD (path.getD i 0) 0, openExpo α (F + 2) (path.getD i 0) (dv i) • E.genG1⟩ with hlay
  have hlayers : (List.range path.length).mapM (fun i => proveLayer E ls rnd path ((List.range L).map fx) i)
      = some ((List.range L).map lay) := by
    rw [hpL]
    apply mapM_some
    intro i hi
    rw [List.mem_range] at hi
    unfold proveLayer
    have e1 : ((List.range L).map fx)[i]? = some (fx i) := by simp [hi]
    refine obind_step e1 ?_
    rw [hfan, hpp]
    refine obind_step (hrp1 i hi) ?_
    refine obind_step (hpi i hi).1 ?_
    have e2 : (List.range (F + 2)).map (fun j => ((fx i).digests (UInt16.ofNat j)).getD (intToZr 0)) = dv i := by
      rw [hdv, intToZr_zero]; rfl
    rw [e2, hPP]
    exact obind_step (openAt_eq E α (F + 2) (dv i) (hdvl i) (by omega) _ (by have := (hpi i hi).2; omega)) rfl
  have hrL : List.range L = List.range (L - 1) ++ [L - 1] := by
    rw [← List.range_succ]; congr 1; omega
  have hlast : ((List.range L).map lay).getLast? = some (lay (L - 1)) := by
    rw [hrL, List.map_append]; simp
  have hplast : path.getLast? = some (path.getLastD 0) := by
    have hne : path ≠ [] := by rintro rfl; simp at hpL; omega
    rw [List.getLastD_eq_getLast?, List.getLast?_eq_some_getLast hne]
    rfl
  have hplt : path.getLastD 0 < F := hlt _ (List.mem_of_getLast? hplast)
  -- the opening for the client
  have hopen : pp.PPPP.openAt (path.getLastD 0) (srcOf F (fx (L - 1))).vec
      = some (intToZr m, openExpo α (F + 2) (path.getLastD 0) (srcOf F (fx (L - 1))).vec • E.genG1) := by
    have hvl : (srcOf F (fx (L - 1))).vec.length = F + 2 := by simp [Src.vec, srcOf, valuesVec_length]
    rw [h.PPPP, openAt_eq E α (F + 2) _ hvl (by omega) _ (by omega)]
    rw [getD_vec _ _ (by unfold srcOf; dsimp only; rw [valuesVec_length]; omega)]
    have := hx.amount
    unfold srcOf
    dsimp only
    rw [this]
  have hclient : ls.openForClient (fx (L - 1)) (path.getLastD 0)
      = some (intToZr m, openExpo α (F + 2) (path.getLastD 0) (srcOf F (fx (L - 1))).vec • E.genG1) := by
    unfold LiabilitySet.openForClient
    have hN : ls.pp.PPPP.N = F + 2 := by rw [hpp, h.PPPP]; rfl
    rw [hN, if_neg (by omega), hpp]
    exact hopen
  -- commitments
  have hVs : ((List.range L).map lay).map (fun y => y.v.V) = ((List.range L).map fun i => srcOf F (fx i)).map (Src.V E α) := by
    rw [List.map_map, List.map_map]
    apply List.map_congr_left
    intro i hi
    exact hx.V i (List.mem_range.1 hi)
  have hWlast : (lay (L - 1)).v.W = none := hx.W_last
  have hWs : ((List.range L).map lay).filterMap (fun y => y.v.W) = ((List.range (L - 1)).map dv).map (com E α) := by
    rw [hrL, List.map_append, List.filterMap_append, List.filterMap_map, List.map_map]
    have e1 : List.filterMap ((fun y : Layer G1 => y.v.W) ∘ lay) (List.range (L - 1))
        = List.filterMap (fun i => some ((com E α ∘ dv) i)) (List.range (L - 1)) := by
      apply List.filterMap_congr
      intro i hi
      rw [List.mem_range] at hi
      exact hx.W i (by omega)
    rw [e1, List.filterMap_eq_map']
    simp [hWlast]
  have hπs : ((List.range L).map lay).filterMap (fun y => y.v.W.map fun _ => y.π)
      = List.zipWith (fun d i => openExpo α (F + 2) i d • E.genG1) ((List.range (L - 1)).map dv) (path.take (L - 1)) := by
    rw [take_eq_map_range path (L - 1) (by omega), zipWith_map_range, hrL, List.map_append, List.filterMap_append,
      List.filterMap_map]
    have e1 : List.filterMap ((fun y : Layer G1 => y.v.W.map fun _ => y.π) ∘ lay) (List.range (L - 1))
        = List.filterMap (fun i => some (openExpo α (F + 2) (path.getD i 0) (dv i) • E.genG1)) (List.range (L - 1)) := by
      apply List.filterMap_congr
      intro i hi
      rw [List.mem_range] at hi
      have : (lay i).v.W = some _ := hx.W i (by omega)
      simp only [Function.comp, this, Option.map_some]
      rfl
    rw [e1, List.filterMap_eq_map']
    simp [hWlast]
  obtain ⟨ts, π, a1, a2, a3, a4⟩ := agg_part hE h ((List.range (L - 1)).map dv) (path.take (L - 1))
    (by intro d hd; obtain ⟨i, -, rfl⟩ := List.mem_map.1 hd; exact hdvl i)
    (fun i hi => hlt i (List.mem_of_mem_take hi)) (by simp; omega) (by
      intro hc
      have := congrArg List.length hc
      simp at this; omega)
  simp only [List.length_map, List.length_range] at a1 a3
  have hdigs : (((List.range L).map lay).map Layer.digest).take ts.length
      = List.zipWith (fun (d : List Zr) i => d.getD i 0) ((List.range (L - 1)).map dv) (path.take (L - 1)) := by
    rw [a3, take_eq_map_range path (L - 1) (by omega), zipWith_map_range, List.map_map, ← List.map_take,
      List.take_range, Nat.min_eq_left (by omega)]
    rfl
  have hsig := Vec.innerProd_eq (v := (((List.range L).map lay).map Layer.digest).take ts.length) (w := ts) (by
    simp [a3])
  rw [hdigs, dot_comm] at hsig
  -- sum argument
  set l : List Src := (List.range L).map fun i => srcOf F (fx i) with hl
  have hll : l.length = L := by simp [hl]
  have hlmem : ∀ s ∈ l, s.values.length = F + 1 ∧ Balanced s.values := by
    intro s hs
    obtain ⟨i, hi, rfl⟩ := List.mem_map.1 hs
    exact ⟨valuesVec_length _ _, hx.balanced i (List.mem_range.1 hi)⟩
  obtain ⟨sp, hsp1, hsp2⟩ := sum_part hE h l (by
      intro hc
      rw [hc] at hll; simp at hll; omega) hlmem rnd.sum hrnd.sum
  have hsum : sumArgument E pp.SAPP rnd.sum (((List.range L).map lay).map Layer.v) = some sp := by
    unfold sumArgument
    rw [h.sa_H]
    have e1 : (((List.range L).map lay).map Layer.v).map Verkle.Vertex.V = l.map (Src.V E α) := by
      rw [← hVs, List.map_map]; rfl
    have e2 : (((List.range L).map lay).map Layer.v).map (fun v => v.valuesVec (F + 1)) = l.map Src.values := by
      rw [hl, List.map_map, List.map_map, List.map_map]; rfl
    have e3 : (((List.range L).map lay).map Layer.v).map Verkle.Vertex.blindingFactor = l.map Src.bf := by
      rw [hl, List.map_map, List.map_map, List.map_map]; rfl
    rw [e1, e2, e3]
    exact hsp1
  -- equality proof
  have hli : ∀ i < L, l[i]? = some (srcOf F (fx i)) := by intro i hi; simp [hl, hi]
  obtain ⟨zero, M, ep, hz, hM, hep1, hep2⟩ := eq_part hE h path hpL hlt l (by omega) (fun s hs => (hlmem s hs).1) (by
    intro i hi s s' hs hs'
    rw [hli i (by omega), Option.some.injEq] at hs
    rw [hli (i + 1) hi, Option.some.injEq] at hs'
    rw [← hs, ← hs']
    exact hx.link i hi) rnd.eq hrnd.eq
  have hpad : ((M : ℤ) - ((path.length - 1 : ℕ) : ℤ)).toNat = M - (L - 1) := by rw [hpL]; omega
  have hvEQ : (((List.range L).map lay).take (path.length - 1)).map (fun y => eqVector y.v ls.tree.fanOut)
      = (l.take (L - 1)).map Src.vec := by
    rw [hpL, hfan, hl, ← List.map_take, ← List.map_take, List.map_map, List.map_map]; rfl
  have hwEQ : (((List.range L).map lay).drop 1).map (fun y => eqVector y.v ls.tree.fanOut)
      = ((l.drop 1).take (L - 1)).map Src.vec := by
    rw [hfan, List.take_of_length_le (by simp [hll]), hl, ← List.map_drop, ← List.map_drop, List.map_map, List.map_map]
    rfl
  obtain ⟨lp, hlp⟩ : ∃ lp : LiabilityProof G1, lp =
      { pointProofSum := dot ts (List.zipWith (fun (d : List Zr) i => d.getD i 0) ((List.range (L - 1)).map dv)
          (path.take (L - 1)))
        pointProof := π
        sumArgumentProof := sp
        V := l.map (Src.V E α)
        W := ((List.range (L - 1)).map dv).map (com E α)
        digests := ((List.range L).map lay).map Layer.digest
        rangeProofs := ((List.range L).map lay).map Layer.rangeProof
        equalityProof := ep
        total := ⟨openExpo α (F + 2) (path.getLastD 0) (srcOf F (fx (L - 1))).vec • E.genG1, m⟩ } := ⟨_, rfl⟩
  have hsteps : ls.proveLiability E env rnd id = some (some (m, lp)) := by
    rw [hlp]
    unfold LiabilitySet.proveLiability
    refine obind_step hp (obind_step hget ?_)
    dsimp only
    rw [if_neg (by omega)]
    refine obind_step hlayers (obind_step hlast (obind_step hplast (obind_step hclient
      (obind_step (zrInt_intToZr hm0 hm1) ?_))))
    dsimp only
    rw [hVs, hWs, hπs, hPP, ← h.PPPP, hpp]
    have a1' : (List.range (path.length - 1)).mapM (fun i => PP.ro E pp.PPPP (((List.range (L - 1)).map dv).map (com E α)) i)
        = some ts := by rw [hpL]; exact a1
    refine obind_step a1' ?_
    rw [hdigs]
    refine obind_step hsig (obind_step a2 (obind_step hsum ?_))
    rw [hfan, intToZr_zero]
    refine obind_step hz ?_
    have hM' : padLoop ((path.length - 1 : ℕ) : ℤ) = some ((M : ℕ) : ℤ) := by rw [hpL]; exact hM
    refine obind_step hM' ?_
    rw [hpad]
    have heqs := equalitiesOf_eq E pp path (l.map (Src.V E α)) zero (M - (L - 1)) (by simp [hll, hpL]) (by omega)
    rw [h.fanout] at heqs
    refine obind_step heqs ?_
    rw [hfan] at hvEQ hwEQ
    rw [hvEQ, hwEQ]
    exact obind_step hep1 rfl
  obtain ⟨hne1, hne2⟩ := hne.proof _ _ hsteps
  rw [hpp] at hne1 hne2
  have lV : lp.V = l.map (Src.V E α) := by rw [hlp]
  have lW : lp.W = ((List.range (L - 1)).map dv).map (com E α) := by rw [hlp]
  have ld : lp.digests = ((List.range L).map lay).map Layer.digest := by rw [hlp]
  have lr : lp.rangeProofs = ((List.range L).map lay).map Layer.rangeProof := by rw [hlp]
  have lt : lp.total = ⟨openExpo α (F + 2) (path.getLastD 0) (srcOf F (fx (L - 1))).vec • E.genG1, m⟩ := by rw [hlp]
  have lpp : lp.pointProof = π := by rw [hlp]
  have lps : lp.pointProofSum = dot ts (List.zipWith (fun (d : List Zr) i => d.getD i 0) ((List.range (L - 1)).map dv)
          (path.take (L - 1))) := by rw [hlp]
  have lsa : lp.sumArgumentProof = sp := by rw [hlp]
  have leq : lp.equalityProof = ep := by rw [hlp]
  clear hlp
  rw [← lpp, ← lps] at a4
  rw [lsa] at hne1
  rw [leq] at hne2
  have hs1 := hsp2 hne1
  rw [← lsa, ← lV] at hs1
  have he1 := hep2 hne2
  rw [← leq, ← lV] at he1
  have hlastsrc : l.getLast? = some (srcOf F (fx (L - 1))) := by rw [hl, hrL, List.map_append]; simp
  obtain ⟨V, W, hV0, hW0, hacc⟩ := accepted_of_parts hE h path hpL hlt l (by omega) _ hlastsrc
    (fun s hs => (hlmem s hs).1) ((List.range (L - 1)).map dv) (by simp; omega) lp lV lW (by rw [ld]; simp) (by
      intro i hi1 hi2 C D hC hD
      rw [lV] at hC
      rw [lW] at hD
      have e1 : (((List.range L).map lay).map Layer.digest).getD (i - 1) 0 = dig E (fx i) := by
        rw [List.getD_eq_getElem?_getD, List.getElem?_map, List.getElem?_map, List.getElem?_range (by omega)]
        have := hx.digest (i - 1) (by omega)
        rw [Nat.sub_add_cancel hi1] at this
        exact this
      rw [List.getElem?_map, hli i (by omega), Option.map_some, Option.some.injEq] at hC
      rw [List.getElem?_map, List.getElem?_map, List.getElem?_range (by omega), Option.map_some, Option.map_some,
        Option.some.injEq] at hD
      rw [ld, e1]
      have := digest_eq hE (fx i)
      unfold Verkle.Vertex.digest at this
      rw [hx.W i hi2, hx.V i (by omega), Option.map_some, Option.getD_some] at this
      unfold IsHashOf
      rw [← hC, ← hD]
      exact this) (by
      intro C hC
      rw [lV] at hC
      have e1 : (((List.range L).map lay).map Layer.digest).getD (L - 2) 0 = dig E (fx (L - 1)) := by
        rw [List.getD_eq_getElem?_getD, List.getElem?_map, List.getElem?_map, List.getElem?_range (by omega)]
        have := hx.digest (L - 2) (by omega)
        rw [show L - 2 + 1 = L - 1 by omega] at this
        exact this
      rw [List.getElem?_map, hli _ (by omega), Option.map_some, Option.some.injEq] at hC
      rw [ld, e1]
      have := digest_eq hE (fx (L - 1))
      unfold Verkle.Vertex.digest at this
      rw [hx.W_last, hx.V _ (by omega), Option.map_none, Option.getD_none, List.append_nil] at this
      unfold IsHashOf
      rw [← hC]
      exact this) (by
      intro i hi
      refine ⟨rp i, (fx i).V, ?_, ?_, hrp2 i hi⟩
      · rw [lr]; simp [hi, hlay]
      · rw [lV, List.getElem?_map, hli i hi, hx.V i hi]; rfl) (by rw [lW]; exact a4) hs1 ⟨zero, M, hz, hM, he1⟩ (by rw [lt]; exact hopen)
  refine ⟨_, com E α (dv 0), hsteps, by rw [lt], hx.W 0 (by omega), ?_⟩
  rw [lV] at hV0
  rw [lW] at hW0
  rw [List.getElem?_map, hli 0 (by omega), Option.map_some, Option.some.injEq, ← hx.V 0 (by omega)] at hV0
  rw [List.getElem?_map, List.getElem?_map, List.getElem?_range (by omega), Option.map_some, Option.map_some,
    Option.some.injEq] at hW0
  rw [hV0, hW0]
  exact hacc

end PoL.Pol

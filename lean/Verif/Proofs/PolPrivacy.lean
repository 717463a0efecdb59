import Verif.Proofs.PolHonest
import Verif.Spec.PolPrivacy
import Verif.Props.SumPrivacy
import Verif.Props.RangePrivacy
import Verif.Props.PoePrivacy

/-! What the output of `ProveLiability` depends on. -/

set_option linter.unusedSectionVars false

namespace PoL.Pol
open Spec BP PP Verkle

variable {G1 G2 GT : Type} [AddCommGroup G1] [Module Zr G1] [AddCommGroup G2] [Module Zr G2]
  [AddCommGroup GT] [Module Zr GT] [DecidableEq G1] [DecidableEq GT]

theorem mapM_zip {A B C : Type} (f : A → Option B) (g : A → B → C) : ∀ l : List A,
    l.mapM (fun i => (f i).map (g i)) = (l.mapM f).map (List.zipWith g l)
  | [] => rfl
  | a :: l => by
    rw [List.mapM_cons, List.mapM_cons, mapM_zip f g l]
    cases f a <;> cases l.mapM f <;> rfl

theorem mapM_congr_mem {A B : Type} {f g : A → Option B} : ∀ {l : List A}, (∀ a ∈ l, f a = g a) → l.mapM f = l.mapM g
  | [], _ => rfl
  | a :: l, h => by
    rw [List.mapM_cons, List.mapM_cons, h a (by simp), mapM_congr_mem fun b hb => h b (by simp [hb])]

/-- The proof, from its parts. -/
def frame (E : Curve G1 G2 GT) (α : Zr) (L : ℕ) (path : List ℕ) (m : ℤ) (dv : ℕ → List Zr) (Vs : List G1) (ts : List Zr)
    (π cl : G1) (rps : List (RangeProof G1)) (sp : Sum.Proof G1) (ep : Poe.AggregatedProof G1) : LiabilityProof G1 where
  pointProofSum := dot ts (List.zipWith (fun (d : List Zr) i => d.getD i 0) ((List.range (L - 1)).map dv)
    (path.take (L - 1)))
  pointProof := π
  sumArgumentProof := sp
  V := Vs
  W := ((List.range (L - 1)).map dv).map (com E α)
  digests := (List.range L).map fun i => (dv i).getD (path.getD i 0) 0
  rangeProofs := rps
  equalityProof := ep
  total := ⟨cl, m⟩

/-- `ProveLiability` along an honest path: three kinds of proofs with randomness, and a fixed rest. -/
theorem prove_eq {E : Curve G1 G2 GT} {env : Env} {α : Zr} {F L : ℕ} {pp : PublicParams G1 G2 GT}
    (h : Fits E α F L pp) (ls : LiabilitySet G1 G2 GT) (hPP : ls.tree.PP = newPublicParams E α (F + 2))
    (hfan : ls.tree.fanOut = F) (hpp : ls.pp = pp) (id : Str) (path : List ℕ) (hp : ls.tree.id2Path id = some path)
    (hpL : path.length = L) (hlt : ∀ x ∈ path, x < F) (fx : ℕ → Verkle.Vertex G1) (n m : ℤ)
    (hget : ls.tree.get E env id ls.s.db = some (some (n, (List.range L).map fx)))
    (hx : HonestPath E α F L path fx m) (hm0 : 0 ≤ m) (hm1 : m < 2 ^ 63) (dv : ℕ → List Zr) (hdv : ∀ i < L, dvec F (fx i) = dv i)
    (ts : List Zr) (π : G1) (M : ℕ)
    (a1 : (List.range (L - 1)).mapM (fun k => PP.ro E pp.PPPP (((List.range (L - 1)).map dv).map (com E α)) k) = some ts)
    (a2 : pp.PPPP.aggregate (((List.range (L - 1)).map dv).map (com E α))
      (List.zipWith (fun d i => openExpo α (F + 2) i d • E.genG1) ((List.range (L - 1)).map dv) (path.take (L - 1))) (PP.ro E)
        = some π) (a3 : ts.length = L - 1)
    (hM : padLoop ((L - 1 : ℕ) : ℤ) = some ((M : ℕ) : ℤ)) (l : List Src)
    (hl : l = (List.range L).map fun i => srcOf F (fx i)) (rnd : ProveRand) :
    ls.proveLiability E env rnd id =
      ((List.range L).mapM fun i => proveRange E pp.RPPP (rnd.range i) (fx i).V ((fx i).valuesVec (F + 1))
        (fx i).blindingFactor).bind fun rps =>
      (Sum.newAggregatedArgument E pp.SAPP rnd.sum (l.map (Src.V E α)) (l.map Src.values) (l.map Src.bf)).bind fun sp =>
      ((pathEqualities E pp path (l.map (Src.V E α)) (com E α (List.replicate (F + 2) 0)) (M - (L - 1))).prove E rnd.eq
        ((l.take (L - 1)).map Src.vec ++ List.replicate (M - (L - 1)) (List.replicate (F + 2) 0))
        (((l.drop 1).take (L - 1)).map Src.vec ++ List.replicate (M - (L - 1)) (List.replicate (F + 2) 0))).bind fun ep =>
      some (some (m, frame E α L path m dv (l.map (Src.V E α)) ts π
        (openExpo α (F + 2) (path.getLastD 0) (srcOf F (fx (L - 1))).vec • E.genG1) rps sp ep)) := by
  subst hl
  set l : List Src := (List.range L).map fun i => srcOf F (fx i) with hl
  have hL2 := h.depth
  have hdvl : ∀ i < L, (dv i).length = F + 2 := by intro i hi; rw [← hdv i hi]; simp [dvec]
  have hpi : ∀ i < L, path[i]? = some (path.getD i 0) ∧ path.getD i 0 < F := by
    intro i hi
    have : path[i]? = some (path.getD i 0) := by
      rw [List.getD_eq_getElem?_getD, List.getElem?_eq_getElem (by omega)]; rfl
    exact ⟨this, hlt _ (List.mem_of_getElem? this)⟩
  have hlayer : ∀ i < L, proveLayer E ls rnd path ((List.range L).map fx) i =
      (proveRange E pp.RPPP (rnd.range i) (fx i).V ((fx i).valuesVec (F + 1)) (fx i).blindingFactor).map fun rp =>
        (⟨fx i, rp, (dv i).getD (path.getD i 0) 0, openExpo α (F + 2) (path.getD i 0) (dv i) • E.genG1⟩ : Layer G1) := by
    intro i hi
    unfold proveLayer
    have e1 : ((List.range L).map fx)[i]? = some (fx i) := by simp [hi]
    refine obind_step e1 ?_
    rw [hfan, hpp]
    dsimp only
    cases hr : proveRange E pp.RPPP (rnd.range i) (fx i).V ((fx i).valuesVec (F + 1)) (fx i).blindingFactor with
    | none => rfl
    | some rp =>
      refine obind_step rfl (obind_step (hpi i hi).1 ?_)
      have e2 : (List.range (F + 2)).map (fun j => ((fx i).digests (UInt16.ofNat j)).getD (intToZr 0)) = dv i := by
        rw [← hdv i hi, intToZr_zero]; rfl
      rw [e2, hPP]
      exact obind_step (openAt_eq E α (F + 2) (dv i) (hdvl i hi) (by omega) _ (by have := (hpi i hi).2; omega)) rfl
  have hlayers : (List.range path.length).mapM (fun i => proveLayer E ls rnd path ((List.range L).map fx) i)
      = ((List.range L).mapM fun i => proveRange E pp.RPPP (rnd.range i) (fx i).V ((fx i).valuesVec (F + 1))
        (fx i).blindingFactor).map (List.zipWith (fun i rp =>
          (⟨fx i, rp, (dv i).getD (path.getD i 0) 0, openExpo α (F + 2) (path.getD i 0) (dv i) • E.genG1⟩ : Layer G1))
            (List.range L)) := by
    rw [hpL, ← mapM_zip]
    exact mapM_congr_mem fun i hi => hlayer i (List.mem_range.1 hi)
  unfold LiabilitySet.proveLiability
  refine obind_step hp (obind_step hget ?_)
  dsimp only
  rw [if_neg (by omega), hlayers]
  cases hrps : (List.range L).mapM fun i => proveRange E pp.RPPP (rnd.range i) (fx i).V ((fx i).valuesVec (F + 1))
        (fx i).blindingFactor with
  | none => rfl
  | some rps =>
  have lr : rps.length = L := by simpa using mapM_length _ _ _ hrps
  have hrpne : Nonempty (RangeProof G1) := ⟨rps[0]'(by omega)⟩
  obtain ⟨rp, hrp⟩ : ∃ rp : ℕ → RangeProof G1, rps = (List.range L).map rp :=
    ⟨fun i => rps.getD i (Classical.choice hrpne), by
      apply List.ext_getElem?
      intro i
      by_cases hi : i < L
      · rw [List.getElem?_map, List.getElem?_range hi, Option.map_some, List.getD_eq_getElem?_getD,
          List.getElem?_eq_getElem (by omega), Option.getD_some]
      · rw [List.getElem?_eq_none (by omega), List.getElem?_eq_none (by simp; omega)]⟩
  rw [Option.map_some, Option.bind_some, hrp, List.zipWith_map_right, List.zipWith_self]
  set lay : ℕ → Layer G1 := fun i =>
    ⟨fx i, rp i, (dv i).getD (path.getD i 0) 0, openExpo α (F + 2) (path.getD i 0) (dv i) • E.genG1⟩ with hlay
  have hrL : List.range L = List.range (L - 1) ++ [L - 1] := by
    rw [← List.range_succ]; congr 1; omega
  have hlast : ((List.range L).map lay).getLast? = some (lay (L - 1)) := by
    rw [hrL, List.map_append]; simp
  have hplast : path.getLast? = some (path.getLastD 0) := by
    have hne : path ≠ [] := by rintro rfl; simp at hpL; omega
    rw [List.getLastD_eq_getLast?, List.getLast?_eq_some_getLast hne]
    rfl
  have hplt : path.getLastD 0 < F := hlt _ (List.mem_of_getLast? hplast)
  -- the opening for the client
  have hopen : pp.PPPP.openAt (path.getLastD 0) (srcOf F (fx (L - 1))).vec
      = some (intToZr m, openExpo α (F + 2) (path.getLastD 0) (srcOf F (fx (L - 1))).vec • E.genG1) := by
    have hvl : (srcOf F (fx (L - 1))).vec.length = F + 2 := by simp [Src.vec, srcOf, valuesVec_length]
    rw [h.PPPP, openAt_eq E α (F + 2) _ hvl (by omega) _ (by omega)]
    rw [getD_vec _ _ (by unfold srcOf; dsimp only; rw [valuesVec_length]; omega)]
    have := hx.amount
    unfold srcOf
    dsimp only
    rw [this]
  have hclient : ls.openForClient (fx (L - 1)) (path.getLastD 0)
      = some (intToZr m, openExpo α (F + 2) (path.getLastD 0) (srcOf F (fx (L - 1))).vec • E.genG1) := by
    unfold LiabilitySet.openForClient
    have hN : ls.pp.PPPP.N = F + 2 := by rw [hpp, h.PPPP]; rfl
    rw [hN, if_neg (by omega), hpp]
    exact hopen
  -- commitments
  have hVs : ((List.range L).map lay).map (fun y => y.v.V) = l.map (Src.V E α) := by
    rw [List.map_map, List.map_map]
    apply List.map_congr_left
    intro i hi
    exact hx.V i (List.mem_range.1 hi)
  have hWlast : (lay (L - 1)).v.W = none := hx.W_last
  have hWs : ((List.range L).map lay).filterMap (fun y => y.v.W) = ((List.range (L - 1)).map dv).map (com E α) := by
    rw [hrL, List.map_append, List.filterMap_append, List.filterMap_map, List.map_map]
    have e1 : List.filterMap ((fun y : Layer G1 => y.v.W) ∘ lay) (List.range (L - 1))
        = List.filterMap (fun i => some ((com E α ∘ dv) i)) (List.range (L - 1)) := by
      apply List.filterMap_congr
      intro i hi
      rw [List.mem_range] at hi
      have := hx.W i (by omega)
      rw [hdv i (by omega)] at this
      exact this
    rw [e1, List.filterMap_eq_map']
    simp [hWlast]
  have hπs : ((List.range L).map lay).filterMap (fun y => y.v.W.map fun _ => y.π)
      = List.zipWith (fun d i => openExpo α (F + 2) i d • E.genG1) ((List.range (L - 1)).map dv) (path.take (L - 1)) := by
    rw [take_eq_map_range path (L - 1) (by omega), zipWith_map_range, hrL, List.map_append, List.filterMap_append,
      List.filterMap_map]
    have e1 : List.filterMap ((fun y : Layer G1 => y.v.W.map fun _ => y.π) ∘ lay) (List.range (L - 1))
        = List.filterMap (fun i => some (openExpo α (F + 2) (path.getD i 0) (dv i) • E.genG1)) (List.range (L - 1)) := by
      apply List.filterMap_congr
      intro i hi
      rw [List.mem_range] at hi
      have : (lay i).v.W = some _ := hx.W i (by omega)
      simp only [Function.comp, this, Option.map_some]
      rfl
    rw [e1, List.filterMap_eq_map']
    simp [hWlast]
  have hdigs : (((List.range L).map lay).map Layer.digest).take ts.length
      = List.zipWith (fun (d : List Zr) i => d.getD i 0) ((List.range (L - 1)).map dv) (path.take (L - 1)) := by
    rw [a3, take_eq_map_range path (L - 1) (by omega), zipWith_map_range, List.map_map, ← List.map_take,
      List.take_range, Nat.min_eq_left (by omega)]
    rfl
  have hsig := Vec.innerProd_eq (v := (((List.range L).map lay).map Layer.digest).take ts.length) (w := ts) (by
    simp [a3])
  rw [hdigs, dot_comm] at hsig
  have hll : l.length = L := by simp [l]
  have hsum : sumArgument E pp.SAPP rnd.sum (((List.range L).map lay).map Layer.v)
      = Sum.newAggregatedArgument E pp.SAPP rnd.sum (l.map (Src.V E α)) (l.map Src.values) (l.map Src.bf) := by
    unfold sumArgument
    rw [h.sa_H]
    have e1 : (((List.range L).map lay).map Layer.v).map Verkle.Vertex.V = l.map (Src.V E α) := by
      rw [← hVs, List.map_map]; rfl
    have e2 : (((List.range L).map lay).map Layer.v).map (fun v => v.valuesVec (F + 1)) = l.map Src.values := by
      rw [List.map_map, List.map_map, List.map_map]; rfl
    have e3 : (((List.range L).map lay).map Layer.v).map Verkle.Vertex.blindingFactor = l.map Src.bf := by
      rw [List.map_map, List.map_map, List.map_map]; rfl
    rw [e1, e2, e3]
  have hpad : ((M : ℤ) - ((path.length - 1 : ℕ) : ℤ)).toNat = M - (L - 1) := by rw [hpL]; omega
  have hvEQ : (((List.range L).map lay).take (path.length - 1)).map (fun y => eqVector y.v F)
      = (l.take (L - 1)).map Src.vec := by
    rw [hpL, ← List.map_take, ← List.map_take, List.map_map, List.map_map]; rfl
  have hwEQ : (((List.range L).map lay).drop 1).map (fun y => eqVector y.v F)
      = ((l.drop 1).take (L - 1)).map Src.vec := by
    rw [List.take_of_length_le (by simp [hll]), ← List.map_drop, ← List.map_drop, List.map_map, List.map_map]
    rfl
  refine obind_step rfl (obind_step hlast (obind_step hplast (obind_step hclient (obind_step (zrInt_intToZr hm0 hm1) ?_))))
  dsimp only
  rw [hVs, hWs, hπs, hPP, ← h.PPPP, hpp]
  have a1' : (List.range (path.length - 1)).mapM (fun i => PP.ro E pp.PPPP (((List.range (L - 1)).map dv).map (com E α)) i)
      = some ts := by rw [hpL]; exact a1
  refine obind_step a1' ?_
  rw [hdigs]
  refine obind_step hsig (obind_step a2 ?_)
  rw [hsum]
  cases Sum.newAggregatedArgument E pp.SAPP rnd.sum (l.map (Src.V E α)) (l.map Src.values) (l.map Src.bf) with
  | none => rfl
  | some sp =>
  refine obind_step rfl ?_
  rw [hfan, intToZr_zero, Option.bind_some]
  have hzero : pp.PPPP.commit (List.replicate (F + 2) 0) = some (com E α (List.replicate (F + 2) 0)) := by
    rw [h.PPPP]; exact commit_eq E α (F + 2) _ (by simp) (by omega)
  refine obind_step hzero ?_
  have hM' : padLoop ((path.length - 1 : ℕ) : ℤ) = some ((M : ℕ) : ℤ) := by rw [hpL]; exact hM
  refine obind_step hM' ?_
  rw [hpad]
  have heqs := equalitiesOf_eq E pp path (l.map (Src.V E α)) (com E α (List.replicate (F + 2) 0)) (M - (L - 1))
    (by simp [hll, hpL]) (by omega)
  rw [h.fanout] at heqs
  refine obind_step heqs ?_
  rw [hvEQ, hwEQ]
  cases (pathEqualities E pp path (l.map (Src.V E α)) (com E α (List.replicate (F + 2) 0)) (M - (L - 1))).prove E rnd.eq
        ((l.take (L - 1)).map Src.vec ++ List.replicate (M - (L - 1)) (List.replicate (F + 2) 0))
        (((l.drop 1).take (L - 1)).map Src.vec ++ List.replicate (M - (L - 1)) (List.replicate (F + 2) 0)) with
  | none => rfl
  | some ep =>
  have e1 : ((List.range L).map lay).map Layer.digest = (List.range L).map fun i => (dv i).getD (path.getD i 0) 0 := by
    rw [List.map_map]; rfl
  have e2 : ((List.range L).map lay).map Layer.rangeProof = (List.range L).map rp := by
    rw [List.map_map]; rfl
  rw [e1, e2]
  rfl

theorem finite_drawn (F L : ℕ) : Finite {rnd : ProveRand // Drawn F L rnd} := by
  have h1 := finite_rangeRand (F + 1)
  have h2 := Sum.finite_rand (F + 1)
  by_cases hM : ∃ M, IsPadded (L - 1) M
  · obtain ⟨M, hM⟩ := hM
    have h3 := Poe.finite_eqsRand M
    refine Finite.of_injective (fun r => ((fun i => ⟨r.1.range i, r.2.range i i.2⟩, ⟨r.1.sum, r.2.sum⟩,
      ⟨r.1.eq, isPadded_unique r.2.eq hM⟩) : (Fin L → {r : RangeRand // r.WellFormed (F + 1)}) ×
        {r : Sum.Rand // r.w.length = F + 1} × {r : Poe.EqsRand // r.uην.length = M})) ?_
    rintro ⟨⟨a1, a2, a3⟩, ha⟩ ⟨⟨b1, b2, b3⟩, hb⟩ h
    simp only [Prod.mk.injEq, Subtype.mk.injEq] at h
    obtain ⟨e1, rfl, rfl⟩ := h
    have : a1 = b1 := by
      funext i
      by_cases hi : i < L
      · have := congrFun e1 ⟨i, hi⟩
        simpa using this
      · exact (ha.unused i (by omega)).trans (hb.unused i (by omega)).symm
    subst this
    rfl
  · have : IsEmpty {rnd : ProveRand // Drawn F L rnd} := ⟨fun r => hM ⟨_, r.2.eq⟩⟩
    infer_instance

/-- Independent parts that are equally likely are so together. -/
theorem drawn_equiv {X Y Z : Type} (F L M : ℕ) (hM : IsPadded (L - 1) M) (pr pr' : ℕ → RangeRand → Option X)
    (sm sm' : Sum.Rand → Option Y) (eq eq' : Poe.EqsRand → Option Z) (rp : ℕ → X) (sp : Y) (ep : Z)
    (hR : ∀ i < L, EquallyLikely (fun r : RangeRand => r.WellFormed (F + 1)) (pr i) (pr' i) (rp i))
    (hS : EquallyLikely (fun r : Sum.Rand => r.w.length = F + 1) sm sm' sp)
    (hE : EquallyLikely (fun r : Poe.EqsRand => r.uην.length = M) eq eq' ep) :
    Nonempty ({a : ProveRand // Drawn F L a ∧ (∀ i < L, pr i (a.range i) = some (rp i)) ∧ sm a.sum = some sp ∧
        eq a.eq = some ep} ≃
      {a : ProveRand // Drawn F L a ∧ (∀ i < L, pr' i (a.range i) = some (rp i)) ∧ sm' a.sum = some sp ∧
        eq' a.eq = some ep}) := by
  have hR' : ∀ i : Fin L, Nonempty ({r : RangeRand // r.WellFormed (F + 1) ∧ pr i r = some (rp i)} ≃
    {r : RangeRand // r.WellFormed (F + 1) ∧ pr' i r = some (rp i)}) := fun i => (hR i i.2).equiv
  obtain ⟨eR⟩ := Classical.nonempty_pi.2 hR'
  obtain ⟨eS⟩ := hS.equiv
  obtain ⟨eE⟩ := hE.equiv
  refine equiv_of_matching (fun a b => (∀ i : Fin L, ∃ h, (eR i ⟨a.1.range i, h⟩).1 = b.1.range i) ∧
    (∃ h, (eS ⟨a.1.sum, h⟩).1 = b.1.sum) ∧ ∃ h, (eE ⟨a.1.eq, h⟩).1 = b.1.eq) ?_ ?_ ?_ ?_
  · rintro ⟨a, ha, h1, h2, h3⟩
    have q1 := fun i : Fin L => (eR i ⟨a.range i, ha.range i i.2, h1 i i.2⟩).2
    have q2 := (eS ⟨a.sum, ha.sum, h2⟩).2
    have q3 := (eE ⟨a.eq, isPadded_unique ha.eq hM, h3⟩).2
    refine ⟨⟨⟨fun i => if hi : i < L then (eR ⟨i, hi⟩ ⟨a.range i, ha.range i hi, h1 i hi⟩).1 else
      ⟨[], 0, 0, 0, [], [], 0, 0⟩, (eS ⟨a.sum, ha.sum, h2⟩).1, (eE ⟨a.eq, isPadded_unique ha.eq hM, h3⟩).1⟩,
      ⟨?_, ?_, q2.1, ?_⟩, ?_, q2.2, q3.2⟩, ?_, ⟨_, rfl⟩, ⟨_, rfl⟩⟩
    · intro i hi
      dsimp only
      rw [dif_pos hi]
      exact (q1 ⟨i, hi⟩).1
    · intro i hi
      dsimp only
      rw [dif_neg (by omega)]
    · dsimp only
      rw [q3.1]
      exact hM
    · intro i hi
      dsimp only
      rw [dif_pos hi]
      exact (q1 ⟨i, hi⟩).2
    · intro i
      refine ⟨⟨ha.range i i.2, h1 i i.2⟩, ?_⟩
      dsimp only
      rw [dif_pos i.2]
  · rintro ⟨a, ha, h1, h2, h3⟩
    have q1 := fun i : Fin L => ((eR i).symm ⟨a.range i, ha.range i i.2, h1 i i.2⟩).2
    have q2 := (eS.symm ⟨a.sum, ha.sum, h2⟩).2
    have q3 := (eE.symm ⟨a.eq, isPadded_unique ha.eq hM, h3⟩).2
    refine ⟨⟨⟨fun i => if hi : i < L then ((eR ⟨i, hi⟩).symm ⟨a.range i, ha.range i hi, h1 i hi⟩).1 else
      ⟨[], 0, 0, 0, [], [], 0, 0⟩, (eS.symm ⟨a.sum, ha.sum, h2⟩).1, (eE.symm ⟨a.eq, isPadded_unique ha.eq hM, h3⟩).1⟩,
      ⟨?_, ?_, q2.1, ?_⟩, ?_, q2.2, q3.2⟩, ?_, ⟨q2, ?_⟩, ⟨q3, ?_⟩⟩
    · intro i hi
      dsimp only
      rw [dif_pos hi]
      exact (q1 ⟨i, hi⟩).1
    · intro i hi
      dsimp only
      rw [dif_neg (by omega)]
    · dsimp only
      rw [q3.1]
      exact hM
    · intro i hi
      dsimp only
      rw [dif_pos hi]
      exact (q1 ⟨i, hi⟩).2
    · intro i
      have e1 : ∀ x : {r : RangeRand // r.WellFormed (F + 1) ∧ pr i r = some (rp i)}, ∀ y,
          x = (eR i).symm y → (eR i x).1 = y.1 := by
        rintro x y rfl
        rw [Equiv.apply_symm_apply]
      dsimp only
      rw [dif_pos i.2]
      exact ⟨q1 i, e1 _ ⟨a.range i, ha.range i i.2, h1 i i.2⟩ rfl⟩
    · dsimp only
      rw [Subtype.coe_eta, Equiv.apply_symm_apply]
    · dsimp only
      rw [Subtype.coe_eta, Equiv.apply_symm_apply]
  · rintro ⟨a, ha, ha'⟩ ⟨⟨b1, b2, b3⟩, hb, hb'⟩ ⟨⟨c1, c2, c3⟩, hc, hc'⟩ ⟨m1, ⟨_, m2⟩, _, m3⟩ ⟨n1, ⟨_, n2⟩, _, n3⟩
    have e1 : b1 = c1 := by
      funext i
      by_cases hi : i < L
      · obtain ⟨_, q⟩ := m1 ⟨i, hi⟩
        obtain ⟨_, q'⟩ := n1 ⟨i, hi⟩
        exact q.symm.trans q'
      · exact (hb.unused i (by omega)).trans (hc.unused i (by omega)).symm
    have e2 : b2 = c2 := m2.symm.trans n2
    have e3 : b3 = c3 := m3.symm.trans n3
    subst e1 e2 e3
    rfl
  · rintro ⟨⟨b1, b2, b3⟩, hb, hb'⟩ ⟨⟨c1, c2, c3⟩, hc, hc'⟩ ⟨a, ha, ha'⟩ ⟨m1, ⟨_, m2⟩, _, m3⟩ ⟨n1, ⟨_, n2⟩, _, n3⟩
    have e1 : b1 = c1 := by
      funext i
      by_cases hi : i < L
      · obtain ⟨_, q⟩ := m1 ⟨i, hi⟩
        obtain ⟨_, q'⟩ := n1 ⟨i, hi⟩
        have := (eR ⟨i, hi⟩).injective (Subtype.ext (q.trans q'.symm))
        exact congrArg Subtype.val this
      · exact (hb.unused i (by omega)).trans (hc.unused i (by omega)).symm
    have e2 : b2 = c2 := congrArg Subtype.val (eS.injective (Subtype.ext (m2.trans n2.symm)))
    have e3 : b3 = c3 := congrArg Subtype.val (eE.injective (Subtype.ext (m3.trans n3.symm)))
    subst e1 e2 e3
    rfl

/-- With the same public data along the path, `ProveLiability` answers equally likely. -/
theorem prove_likely {E : Curve G1 G2 GT} (hE : E.Lawful) {env env' : Env} {α : Zr} (hα : α ≠ 0) (hg : E.genG1 ≠ 0)
    (hcyc : PrimeOrder G1) {F L : ℕ} {pp : PublicParams G1 G2 GT}
    (h : Fits E α F L pp) (hH : pp.RPPP.H ≠ 0) (hPF : pp.POEPP.F ≠ 0) (ls ls' : LiabilitySet G1 G2 GT)
    (hPP : ls.tree.PP = newPublicParams E α (F + 2)) (hPP' : ls'.tree.PP = newPublicParams E α (F + 2))
    (hfan : ls.tree.fanOut = F) (hfan' : ls'.tree.fanOut = F) (hpp : ls.pp = pp) (hpp' : ls'.pp = pp) (id : Str)
    (path : List ℕ) (hp : ls.tree.id2Path id = some path) (hp' : ls'.tree.id2Path id = some path)
    (hpL : path.length = L) (hlt : ∀ x ∈ path, x < F) (fx fx' : ℕ → Verkle.Vertex G1) (n n' m : ℤ)
    (hget : ls.tree.get E env id ls.s.db = some (some (n, (List.range L).map fx)))
    (hget' : ls'.tree.get E env' id ls'.s.db = some (some (n', (List.range L).map fx')))
    (hx : HonestPath E α F L path fx m) (hx' : HonestPath E α F L path fx' m) (hm0 : 0 ≤ m) (hm1 : m < 2 ^ 63)
    (hV : ∀ i < L, (fx i).V = (fx' i).V) (hD : ∀ i < L, dvec F (fx i) = dvec F (fx' i)) (m' : ℤ) (lp : LiabilityProof G1)
    (hne : MasksNonzero E pp path lp) :
    EquallyLikely (Drawn F L) (fun rnd => ls.proveLiability E env rnd id) (fun rnd => ls'.proveLiability E env' rnd id)
      (some (m', lp)) := by
  have hL2 := h.depth
  refine equallyLikely_of_equiv (finite_drawn F L) ?_
  obtain ⟨M, hM1, hM2⟩ := padLoop_spec (m := L - 1) (by omega) (fits_L_bound h)
  obtain ⟨ts, π, a1, a2, a3, -⟩ := agg_part hE h ((List.range (L - 1)).map fun i => dvec F (fx i)) (path.take (L - 1))
    (by intro d hd; obtain ⟨i, -, rfl⟩ := List.mem_map.1 hd; simp [dvec])
    (fun i hi => hlt i (List.mem_of_mem_take hi)) (by simp; omega) (by
      intro hc
      have := congrArg List.length hc
      simp at this; omega)
  simp only [List.length_map, List.length_range] at a1 a3
  have q := fun rnd => prove_eq h ls hPP hfan hpp id path hp hpL hlt fx n m hget hx hm0 hm1 _ (fun i _ => rfl) ts π M a1
    a2 a3 hM1 _ rfl rnd
  have q' := fun rnd => prove_eq h ls' hPP' hfan' hpp' id path hp' hpL hlt fx' n' m hget' hx' hm0 hm1 _
    (fun i hi => (hD i hi).symm) ts π M a1 a2 a3 hM1 _ rfl rnd
  -- the fixed parts agree
  set l : List Src := (List.range L).map fun i => srcOf F (fx i) with hl
  set l' : List Src := (List.range L).map fun i => srcOf F (fx' i) with hl'
  have hll : l.length = L := by simp [hl]
  have hll' : l'.length = L := by simp [hl']
  have eV : l'.map (Src.V E α) = l.map (Src.V E α) := by
    rw [hl, hl', List.map_map, List.map_map]
    apply List.map_congr_left
    intro i hi
    rw [List.mem_range] at hi
    exact (hx'.V i hi).symm.trans ((hV i hi).symm.trans (hx.V i hi))
  have hplast : path.getLastD 0 < F := by
    have hne : path ≠ [] := by rintro rfl; simp at hpL; omega
    have : path.getLast? = some (path.getLastD 0) := by
      rw [List.getLastD_eq_getLast?, List.getLast?_eq_some_getLast hne]
      rfl
    exact hlt _ (List.mem_of_getLast? this)
  have hopen : ∀ fx : ℕ → Verkle.Vertex G1, HonestPath E α F L path fx m →
      openExpo α (F + 2) (path.getLastD 0) (srcOf F (fx (L - 1))).vec • E.genG1
        = α ^ (F + 2 - path.getLastD 0) • (fx (L - 1)).V - (intToZr m * α ^ (F + 2 + 1)) • E.genG1 := by
    intro fx hx
    have hvl : (srcOf F (fx (L - 1))).vec.length = F + 2 := by simp [Src.vec, srcOf, valuesVec_length]
    have e1 := openExpo_add α (F + 2) (path.getLastD 0) _ hvl (by omega)
    rw [getD_vec _ _ (by unfold srcOf; dsimp only; rw [valuesVec_length]; omega)] at e1
    have e2 := hx.amount
    unfold srcOf at e1
    dsimp only at e1
    rw [e2] at e1
    rw [hx.V (L - 1) (by omega)]
    unfold Src.V com
    rw [smul_smul, ← sub_smul]
    congr 1
    exact eq_sub_of_add_eq e1
  have ecl : openExpo α (F + 2) (path.getLastD 0) (srcOf F (fx' (L - 1))).vec • E.genG1
      = openExpo α (F + 2) (path.getLastD 0) (srcOf F (fx (L - 1))).vec • E.genG1 := by
    rw [hopen fx hx, hopen fx' hx', hV (L - 1) (by omega)]
  rw [eV, ecl] at q'
  -- either no random values lead to the output, or it has the right form
  by_cases hany : (∃ rnd, ls.proveLiability E env rnd id = some (some (m', lp))) ∨
      ∃ rnd, ls'.proveLiability E env' rnd id = some (some (m', lp))
  swap
  · rw [not_or, not_exists, not_exists] at hany
    have i1 : IsEmpty {r : ProveRand // Drawn F L r ∧ ls.proveLiability E env r id = some (some (m', lp))} :=
      ⟨fun r => hany.1 _ r.2.2⟩
    have i2 : IsEmpty {r : ProveRand // Drawn F L r ∧ ls'.proveLiability E env' r id = some (some (m', lp))} :=
      ⟨fun r => hany.2 _ r.2.2⟩
    exact ⟨Equiv.equivOfIsEmpty _ _⟩
  have hform : ∃ rps sp ep, rps.length = L ∧ m' = m ∧ lp = frame E α L path m (fun i => dvec F (fx i)) (l.map (Src.V E α)) ts π
      (openExpo α (F + 2) (path.getLastD 0) (srcOf F (fx (L - 1))).vec • E.genG1) rps sp ep := by
    rcases hany with ⟨rnd, hr⟩ | ⟨rnd, hr⟩
    · rw [q rnd] at hr
      obtain ⟨rps, h1, hr⟩ := Option.bind_eq_some_iff.1 hr
      obtain ⟨sp, -, hr⟩ := Option.bind_eq_some_iff.1 hr
      obtain ⟨ep, -, hr⟩ := Option.bind_eq_some_iff.1 hr
      simp only [Option.some.injEq, Prod.mk.injEq] at hr
      exact ⟨rps, sp, ep, by simpa using mapM_length _ _ _ h1, hr.1.symm, hr.2.symm⟩
    · rw [q' rnd] at hr
      obtain ⟨rps, h1, hr⟩ := Option.bind_eq_some_iff.1 hr
      obtain ⟨sp, -, hr⟩ := Option.bind_eq_some_iff.1 hr
      obtain ⟨ep, -, hr⟩ := Option.bind_eq_some_iff.1 hr
      simp only [Option.some.injEq, Prod.mk.injEq] at hr
      exact ⟨rps, sp, ep, by simpa using mapM_length _ _ _ h1, hr.1.symm, hr.2.symm⟩
  obtain ⟨rps, sp, ep, lr, hmm, hlp⟩ := hform
  obtain rfl : m = m' := hmm.symm
  obtain ⟨k, hk1, hk2, hk⟩ := h.power
  have hrpne : Nonempty (RangeProof G1) := ⟨rps[0]'(by omega)⟩
  obtain ⟨rp, hrp⟩ : ∃ rp : ℕ → RangeProof G1, ∀ i < L, rps[i]? = some (rp i) :=
    ⟨fun i => rps.getD i (Classical.choice hrpne), fun i hi => by
      dsimp only
      rw [List.getD_eq_getElem?_getD, List.getElem?_eq_getElem (by omega), Option.getD_some]⟩
  have hlV : lp.V = l.map (Src.V E α) := by rw [hlp]; rfl
  have hlR : lp.rangeProofs = rps := by rw [hlp]; rfl
  have hlS : lp.sumArgumentProof = sp := by rw [hlp]; rfl
  have hlE : lp.equalityProof = ep := by rw [hlp]; rfl
  have hli : ∀ i < L, lp.V[i]? = some (fx i).V := by
    intro i hi
    rw [hlV, hl, List.map_map, List.getElem?_map, List.getElem?_range hi, hx.V i hi]
    rfl
  have hmap : ∀ f : ℕ → Option (RangeProof G1), (List.range L).mapM f = some rps ↔ ∀ i < L, f i = some (rp i) := by
    intro f
    constructor
    · intro hf i hi
      exact (mapM_getElem f (List.range L) rps hf i i (by simp [hi])).trans (hrp i hi)
    · intro hf
      rw [mapM_some f rp _ fun i hi => hf i (List.mem_range.1 hi), Option.some.injEq]
      apply List.ext_getElem?
      intro i
      by_cases hi : i < L
      · rw [List.getElem?_map, List.getElem?_range hi, hrp i hi]; rfl
      · rw [List.getElem?_eq_none (by simp; omega), List.getElem?_eq_none (by omega)]
  -- the parts
  have hR : ∀ i < L, EquallyLikely (fun r : RangeRand => r.WellFormed (F + 1))
      (fun r => proveRange E pp.RPPP r (fx i).V ((fx i).valuesVec (F + 1)) (fx i).blindingFactor)
      (fun r => proveRange E pp.RPPP r (fx' i).V ((fx' i).valuesVec (F + 1)) (fx' i).blindingFactor) (rp i) := by
    intro i hi
    obtain ⟨x, y0, y1, z, c1, c2, c3, c4, c5, c6⟩ := hne.range i (rp i) (fx i).V (by rw [hlR]; exact hrp i hi) (hli i hi)
    have hsz : pp.RPPP.Sized k := by
      refine ⟨by omega, hk2, ?_, ?_, ?_⟩
      · rw [h.rp_Gs, h.PPPP, List.length_take, new_G1s_length E α _ (by omega)]; omega
      · rw [h.rp_Hs, hk]; ring
      · rw [h.rp_Fs, hk]; ring
    have hF : pp.RPPP.F ≠ 0 := by
      have := h.rp_F
      rw [h.PPPP, new_G1s_lt E α _ (by omega), Option.some.injEq] at this
      rw [← this]
      exact smul_ne_zero (pow_ne_zero _ hα) hg
    rw [← hV i hi, hk]
    exact Props.C73_range_proof_hides_values E hE pp.RPPP k hsz hcyc hF hH _ _ _ _ _ ((valuesVec_length _ _).trans rfl)
      ((valuesVec_length _ _).trans rfl) (hk ▸ hx.small i hi) (hk ▸ hx'.small i hi)
      (by rw [hx.V i hi, Src.V_rp h _ (valuesVec_length _ _)]; unfold srcOf; rw [hk])
      (by rw [hV i hi, hx'.V i hi, Src.V_rp h _ (valuesVec_length _ _)]; unfold srcOf; rw [hk])
      (rp i) x y0 y1 z c1 c2 c3 c4 c5 c6
  have hmem : ∀ fx : ℕ → Verkle.Vertex G1, HonestPath E α F L path fx m →
      ∀ s ∈ (List.range L).map (fun i => srcOf F (fx i)), s.values.length = F + 1 ∧ Balanced s.values := by
    intro fx hx s hs
    obtain ⟨i, hi, rfl⟩ := List.mem_map.1 hs
    exact ⟨valuesVec_length _ _, hx.balanced i (List.mem_range.1 hi)⟩
  have hzip : ∀ fx : ℕ → Verkle.Vertex G1, HonestPath E α F L path fx m → ∀ l, l = (List.range L).map (fun i => srcOf F (fx i)) →
      l.map (Src.V E α) = List.zipWith (fun u ρ => ρ • pp.SAPP.F + dot u pp.SAPP.Gs) (l.map Src.values) (l.map Src.bf) := by
    intro fx hx l hl
    rw [List.zipWith_map, List.zipWith_self]
    apply List.map_congr_left
    intro s hs
    exact s.V_sa h (hmem fx hx s (hl ▸ hs)).1
  have hS : EquallyLikely (fun r : Sum.Rand => r.w.length = F + 1)
      (fun r => Sum.newAggregatedArgument E pp.SAPP r (l.map (Src.V E α)) (l.map Src.values) (l.map Src.bf))
      (fun r => Sum.newAggregatedArgument E pp.SAPP r (l.map (Src.V E α)) (l'.map Src.values) (l'.map Src.bf)) sp := by
    obtain ⟨t, x, c1, c2, c3⟩ := hne.sum
    rw [hlV] at c1 c2
    rw [hlS] at c2
    have hval : ∀ l : List Src, (∀ s ∈ l, s.values.length = F + 1 ∧ Balanced s.values) →
        (∀ u ∈ l.map Src.values, u.length = F + 1) ∧ ∀ u ∈ l.map Src.values, Balanced u := by
      intro l hl
      constructor
      · intro u hu
        obtain ⟨s, hs, rfl⟩ := List.mem_map.1 hu
        exact (hl s hs).1
      · intro u hu
        obtain ⟨s, hs, rfl⟩ := List.mem_map.1 hu
        exact (hl s hs).2
    refine Props.C72_aggregated_sum_argument_hides_vectors E hE pp.SAPP (F + 1) (fits_sized h) _ _ _ _ _ ?_
      (hval l (hmem fx hx)).1 (hval l' (hmem fx' hx')).1 (hval l (hmem fx hx)).2 (hval l' (hmem fx' hx')).2 (by simp)
      (by simp [hll, hll']) (by simp) (by simp [hll, hll']) (hzip fx hx l hl) ?_ sp t c1 x c2 c3
    · intro hc
      have := congrArg List.length hc
      simp [hll] at this; omega
    · rw [← eV]
      exact hzip fx' hx' l' hl'
  have hlink : ∀ fx : ℕ → Verkle.Vertex G1, HonestPath E α F L path fx m → ∀ l, l = (List.range L).map (fun i => srcOf F (fx i)) →
      ∀ i, i + 1 < L → ∀ s s', l[i]? = some s → l[i + 1]? = some s' →
      s.values.getD (path.getD i 0) 0 = s'.values.getD F 0 := by
    rintro fx hx l rfl i hi s s' hs hs'
    rw [List.getElem?_map, List.getElem?_range (by omega), Option.map_some, Option.some.injEq] at hs
    rw [List.getElem?_map, List.getElem?_range hi, Option.map_some, Option.some.injEq] at hs'
    rw [← hs, ← hs']
    exact hx.link i hi
  have hQ : EquallyLikely (fun r : Poe.EqsRand => r.uην.length = M)
      (fun r => (pathEqualities E pp path (l.map (Src.V E α)) (com E α (List.replicate (F + 2) 0)) (M - (L - 1))).prove E r
        ((l.take (L - 1)).map Src.vec ++ List.replicate (M - (L - 1)) (List.replicate (F + 2) 0))
        (((l.drop 1).take (L - 1)).map Src.vec ++ List.replicate (M - (L - 1)) (List.replicate (F + 2) 0)))
      (fun r => (pathEqualities E pp path (l.map (Src.V E α)) (com E α (List.replicate (F + 2) 0)) (M - (L - 1))).prove E r
        ((l'.take (L - 1)).map Src.vec ++ List.replicate (M - (L - 1)) (List.replicate (F + 2) 0))
        (((l'.drop 1).take (L - 1)).map Src.vec ++ List.replicate (M - (L - 1)) (List.replicate (F + 2) 0))) ep := by
    obtain ⟨zero, M', e, x, c1, c2, rfl, c4, c5⟩ := hne.eq
    have hzero : pp.PPPP.commit (List.replicate (F + 2) 0) = some (com E α (List.replicate (F + 2) 0)) := by
      rw [h.PPPP]; exact commit_eq E α (F + 2) _ (by simp) (by omega)
    rw [h.fanout, hzero, Option.some.injEq] at c1
    rw [hpL, hM1, Option.some.injEq, Nat.cast_inj] at c2
    rw [← c1, ← c2, hlV, hlE, hpL] at c4
    have b1 := path_wellFormed hE h path hpL hlt l hll.ge (fun s hs => (hmem fx hx s hs).1) M hM2
    have b2 := path_wellFormed hE h path hpL hlt l' hll'.ge (fun s hs => (hmem fx' hx' s hs).1) M hM2
    have d1 := path_entries h path (com E α (List.replicate (F + 2) 0)) hpL hlt l hll.ge
      (fun s hs => (hmem fx hx s hs).1) (hlink fx hx l hl) M hM2
    have d2 := path_entries h path (com E α (List.replicate (F + 2) 0)) hpL hlt l' hll'.ge
      (fun s hs => (hmem fx' hx' s hs).1) (hlink fx' hx' l' hl') M hM2
    rw [eV] at b2 d2
    have hM0 : 0 < M := by have := hM2.2.1; omega
    exact Props.C74_batch_equality_hides_vectors E _ α hα hg (F + 2) M hM0 (by omega) hcyc hPF _ _ _ _ b1 b2 d1 d2 ep x
      c4 c5
  obtain ⟨e⟩ := drawn_equiv F L M hM2 _ _ _ _ _ _ rp sp ep hR hS hQ
  have inj : ∀ rps' sp' ep', frame E α L path m (fun i => dvec F (fx i)) (l.map (Src.V E α)) ts π
      (openExpo α (F + 2) (path.getLastD 0) (srcOf F (fx (L - 1))).vec • E.genG1) rps' sp' ep' = lp →
      rps' = rps ∧ sp' = sp ∧ ep' = ep := by
    rintro rps' sp' ep' rfl
    exact ⟨hlR, hlS, hlE⟩
  refine ⟨(Equiv.subtypeEquivRight fun rnd => and_congr_right fun _ => ?_).trans
    (e.trans (Equiv.subtypeEquivRight fun rnd => and_congr_right fun _ => ?_).symm)⟩
  · rw [q rnd, ← hmap fun i => proveRange E pp.RPPP (rnd.range i) (fx i).V ((fx i).valuesVec (F + 1)) (fx i).blindingFactor]
    constructor
    · intro hr
      obtain ⟨rps', h1, hr⟩ := Option.bind_eq_some_iff.1 hr
      obtain ⟨sp', h2, hr⟩ := Option.bind_eq_some_iff.1 hr
      obtain ⟨ep', h3, hr⟩ := Option.bind_eq_some_iff.1 hr
      simp only [Option.some.injEq, Prod.mk.injEq, true_and] at hr
      obtain ⟨rfl, rfl, rfl⟩ := inj _ _ _ hr
      exact ⟨h1, h2, h3⟩
    · rintro ⟨h1, h2, h3⟩
      rw [h1, Option.bind_some, h2, Option.bind_some, h3, Option.bind_some, hlp]
  · rw [q' rnd, ← hmap fun i => proveRange E pp.RPPP (rnd.range i) (fx' i).V ((fx' i).valuesVec (F + 1)) (fx' i).blindingFactor]
    constructor
    · intro hr
      obtain ⟨rps', h1, hr⟩ := Option.bind_eq_some_iff.1 hr
      obtain ⟨sp', h2, hr⟩ := Option.bind_eq_some_iff.1 hr
      obtain ⟨ep', h3, hr⟩ := Option.bind_eq_some_iff.1 hr
      simp only [Option.some.injEq, Prod.mk.injEq, true_and] at hr
      obtain ⟨rfl, rfl, rfl⟩ := inj _ _ _ hr
      exact ⟨h1, h2, h3⟩
    · rintro ⟨h1, h2, h3⟩
      rw [h1, Option.bind_some, h2, Option.bind_some, h3, Option.bind_some, hlp]

end PoL.Pol

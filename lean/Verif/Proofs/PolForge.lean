import Verif.Proofs.PolHist

/-! The forged proofs are accepted. -/

set_option linter.unusedSectionVars false

namespace PoL.Pol
open Spec BP PP Verkle

variable {G1 G2 GT : Type} [AddCommGroup G1] [Module Zr G1] [AddCommGroup G2] [Module Zr G2]
  [AddCommGroup GT] [Module Zr GT] [DecidableEq G1] [DecidableEq GT]

variable {E : Curve G1 G2 GT} {α : Zr} {F L : ℕ} {pp : PublicParams G1 G2 GT}

/-- `forge` is accepted if the layers are balanced, in range as far as the path goes, and linked by the path. -/
theorem forge_accepted (hE : E.Lawful) (h : Fits E α F L pp) (path : List ℕ) (hpL : path.length = L)
    (hlt : ∀ x ∈ path, x < F) (l : List Src) (hl : L ≤ l.length) (last : Src) (hlast : l.getLast? = some last)
    (hs : ∀ s ∈ l, s.values.length = F + 1 ∧ Balanced s.values)
    (hsmall : ∀ i < L, ∀ s, l[i]? = some s → ∀ x ∈ s.values, x.val < 2 ^ 63)
    (hlink : ∀ i, i + 1 < L → ∀ s s', l[i]? = some s → l[i + 1]? = some s' →
      s.values.getD (path.getD i 0) 0 = s'.values.getD F 0)
    (ds : List (List Zr)) (hd : ds.length + 1 = L) (hdl : ∀ d ∈ ds, d.length = F + 2)
    (m : ℤ) (hm : last.values.getD (path.getLastD 0) 0 = intToZr m)
    (rnd : ProveRand) (hrnd : RandSized F L rnd) (hne : ForgeChallenges E pp rnd path l ds m) :
    ∃ lp V W, forge E pp rnd path l ds m = some lp ∧ lp.total.sum = m ∧ lp.V = l.map (Src.V E α) ∧
      lp.W = ds.map (com E α) ∧ lp.V[0]? = some V ∧ lp.W[0]? = some W ∧ Accepted E pp path V W lp ∧
      ∀ i, i + 1 < L → ∃ C d, lp.V[i + 1]? = some C ∧ lp.digests[i]? = some d ∧
        IsHashOf E (E.g1Bytes C ++ ((lp.W[i + 1]?).map E.g1Bytes).getD []) d := by
  have hL2 := h.depth
  have hvl : ∀ s ∈ l, s.vec.length = F + 2 := by
    intro s hs'
    simp [Src.vec, (hs s hs').1]
  have hcom : ∀ s ∈ l, pp.PPPP.commit s.vec = some (s.V E α) := by
    intro s hs'
    rw [h.PPPP, commit_eq E α (F + 2) _ (hvl s hs') (by omega)]
    rfl
  have hV : l.mapM (fun s => pp.PPPP.commit s.vec) = some (l.map (Src.V E α)) := mapM_some _ _ l hcom
  have hW : ds.mapM (fun d => pp.PPPP.commit d) = some (ds.map (com E α)) := by
    apply mapM_some
    intro d hd'
    rw [h.PPPP, commit_eq E α (F + 2) _ (hdl d hd') (by omega)]
    rfl
  -- hashes
  have hli : ∀ i < L, ∃ s, l[i]? = some s ∧ s ∈ l := by
    intro i hi
    have : l[i]? = some l[i] := List.getElem?_eq_getElem (by omega)
    exact ⟨_, this, List.mem_of_getElem? this⟩
  have : Nonempty Src := ⟨last⟩
  choose! fs hfs1 hfs2 using hli
  have hVi : ∀ i < L, (l.map (Src.V E α))[i]? = some ((fs i).V E α) := by
    intro i hi
    rw [List.getElem?_map, hfs1 i hi]; rfl
  set hb : ℕ → Bytes := fun i => E.g1Bytes ((fs (i + 1)).V E α) ++ (((ds.map (com E α))[i + 1]?).map E.g1Bytes).getD []
    with hhb
  have hfe : ∀ i, ∃ d, fieldElementFromBytes (E.sha256 (hb i)) = some d :=
    fun i => fieldElementFromBytes_isSome (hE.sha_len _)
  choose fd hfd using hfe
  have hhash : (List.range (path.length - 1)).mapM (fun i => do
      fieldElementFromBytes (E.sha256 (E.g1Bytes (← (l.map (Src.V E α))[i + 1]?)
        ++ (((ds.map (com E α))[i + 1]?).map E.g1Bytes).getD []))) = some ((List.range (L - 1)).map fd) := by
    rw [hpL]
    apply mapM_some
    intro i hi
    rw [List.mem_range] at hi
    refine obind_step (hVi (i + 1) (by omega)) ?_
    exact hfd i
  -- range proofs
  have hrange : ∀ i < L, ∃ rp, proveRange E pp.RPPP (rnd.range i) ((fs i).V E α) (fs i).values (fs i).bf = some rp ∧
      verifyRange E pp.RPPP rp ((fs i).V E α) = some true := by
    intro i hi
    exact range_part hE h (fs i) (hs _ (hfs2 i hi)).1 (hsmall i hi _ (hfs1 i hi)) (rnd.range i) (hrnd.range i hi)
      (fun rp ipaPP hpr => hne.range i (fs i) _ rp ipaPP (hfs1 i hi) (hcom _ (hfs2 i hi)) hpr)
  have hrpne : Nonempty (RangeProof G1) := by
    obtain ⟨rp, -⟩ := hrange 0 (by omega)
    exact ⟨rp⟩
  choose! rp hrp1 hrp2 using hrange
  have hrps : (List.range path.length).mapM (fun i => do
      let s ← l[i]?
      proveRange E pp.RPPP (rnd.range i) (← (l.map (Src.V E α))[i]?) s.values s.bf) = some ((List.range L).map rp) := by
    rw [hpL]
    apply mapM_some
    intro i hi
    rw [List.mem_range] at hi
    exact obind_step (hfs1 i hi) (obind_step (hVi i hi) (hrp1 i hi))
  -- openings
  set dv : ℕ → List Zr := fun i => ds.getD i [] with hdv
  have hdsm : ds = (List.range (L - 1)).map dv := by
    apply List.ext_getElem?
    intro i
    by_cases hi : i < L - 1
    · rw [List.getElem?_map, List.getElem?_range hi, hdv, Option.map_some, List.getD_eq_getElem?_getD,
        List.getElem?_eq_getElem (by omega)]
      rfl
    · rw [List.getElem?_eq_none (by omega), List.getElem?_eq_none (by simp; omega)]
  have hdsi : ∀ i < L - 1, ds[i]? = some (dv i) := by
    intro i hi
    rw [hdv]
    dsimp only
    rw [List.getD_eq_getElem?_getD, List.getElem?_eq_getElem (by omega)]
    rfl
  have hpi : ∀ i < L, path[i]? = some (path.getD i 0) ∧ path.getD i 0 < F := by
    intro i hi
    have : path[i]? = some (path.getD i 0) := by
      rw [List.getD_eq_getElem?_getD, List.getElem?_eq_getElem (by omega)]; rfl
    exact ⟨this, hlt _ (List.mem_of_getElem? this)⟩
  have hopens : (List.range (path.length - 1)).mapM (fun i => do pp.PPPP.openAt (← path[i]?) (← ds[i]?))
      = some ((List.range (L - 1)).map fun i =>
        ((dv i).getD (path.getD i 0) 0, openExpo α (F + 2) (path.getD i 0) (dv i) • E.genG1)) := by
    rw [hpL]
    apply mapM_some
    intro i hi
    rw [List.mem_range] at hi
    refine obind_step (hpi i (by omega)).1 (obind_step (hdsi i hi) ?_)
    rw [h.PPPP]
    exact openAt_eq E α (F + 2) (dv i) (hdl _ (List.mem_of_getElem? (hdsi i hi))) (by omega) _
      (by have := (hpi i (by omega)).2; omega)
  obtain ⟨ts, π, a1, a2, a3, a4⟩ := agg_part hE h ds (path.take (L - 1)) hdl
    (fun i hi => hlt i (List.mem_of_mem_take hi)) (by simp; omega) (by
      rintro rfl
      simp at hd; omega)
  have hfst : ((List.range (L - 1)).map fun i =>
        ((dv i).getD (path.getD i 0) 0, openExpo α (F + 2) (path.getD i 0) (dv i) • E.genG1)).map Prod.fst
      = List.zipWith (fun (d : List Zr) i => d.getD i 0) ds (path.take (L - 1)) := by
    rw [take_eq_map_range path (L - 1) (by omega), hdsm, zipWith_map_range, List.map_map]
    rfl
  have hsnd : ((List.range (L - 1)).map fun i =>
        ((dv i).getD (path.getD i 0) 0, openExpo α (F + 2) (path.getD i 0) (dv i) • E.genG1)).map Prod.snd
      = List.zipWith (fun d i => openExpo α (F + 2) i d • E.genG1) ds (path.take (L - 1)) := by
    rw [take_eq_map_range path (L - 1) (by omega), hdsm, zipWith_map_range, List.map_map]
    rfl
  have hsig := Vec.innerProd_eq (v := List.zipWith (fun (d : List Zr) i => d.getD i 0) ds (path.take (L - 1))) (w := ts) (by
    rw [List.length_zipWith, a3, List.length_take]; omega)
  rw [dot_comm] at hsig
  have hd1 : ds.length = L - 1 := by omega
  rw [hd1] at a1
  -- sum argument
  obtain ⟨sp, hsp1, hsp2⟩ := sum_part hE h l (by rintro rfl; simp at hl; omega) hs rnd.sum hrnd.sum
  -- equality proof
  obtain ⟨zero, M, ep, hz, hM, hep1, hep2⟩ := eq_part hE h path hpL hlt l hl (fun s hs' => (hs s hs').1) hlink rnd.eq hrnd.eq
  have hpad : ((M : ℤ) - ((path.length - 1 : ℕ) : ℤ)).toNat = M - (L - 1) := by rw [hpL]; omega
  -- the opening
  have hplast : path.getLast? = some (path.getLastD 0) := by
    have hne : path ≠ [] := by rintro rfl; simp at hpL; omega
    rw [List.getLastD_eq_getLast?, List.getLast?_eq_some_getLast hne]
    rfl
  have hplt : path.getLastD 0 < F := hlt _ (List.mem_of_getLast? hplast)
  have hlastm := List.mem_of_getLast? hlast
  have hopen : pp.PPPP.openAt (path.getLastD 0) last.vec
      = some (intToZr m, openExpo α (F + 2) (path.getLastD 0) last.vec • E.genG1) := by
    rw [h.PPPP, openAt_eq E α (F + 2) _ (hvl _ hlastm) (by omega) _ (by omega),
      getD_vec _ _ (by rw [(hs _ hlastm).1]; omega), hm]
  obtain ⟨lp, hlp⟩ : ∃ lp : LiabilityProof G1, lp =
      { pointProofSum := dot ts (List.zipWith (fun (d : List Zr) i => d.getD i 0) ds (path.take (L - 1)))
        pointProof := π
        sumArgumentProof := sp
        V := l.map (Src.V E α)
        W := ds.map (com E α)
        digests := (List.range (L - 1)).map fd ++ [0]
        rangeProofs := (List.range L).map rp
        equalityProof := ep
        total := ⟨openExpo α (F + 2) (path.getLastD 0) last.vec • E.genG1, m⟩ } := ⟨_, rfl⟩
  have hsteps : forge E pp rnd path l ds m = some lp := by
    rw [hlp]
    unfold forge
    refine obind_step hV (obind_step hW (obind_step hhash (obind_step hrps (obind_step hopens ?_))))
    dsimp only
    have a1' : (List.range (path.length - 1)).mapM (fun i => PP.ro E pp.PPPP (ds.map (com E α)) i) = some ts := by
      rw [hpL]; exact a1
    refine obind_step a1' ?_
    rw [hfst, hsnd]
    refine obind_step hsig (obind_step a2 (obind_step hsp1 ?_))
    rw [h.fanout]
    refine obind_step hz ?_
    have hM' : padLoop ((path.length - 1 : ℕ) : ℤ) = some ((M : ℕ) : ℤ) := by rw [hpL]; exact hM
    refine obind_step hM' ?_
    rw [hpad]
    have heqs := equalitiesOf_eq E pp path (l.map (Src.V E α)) zero (M - (L - 1)) (by simp [hpL]; omega) (by omega)
    rw [h.fanout] at heqs
    refine obind_step heqs ?_
    rw [hpL]
    refine obind_step hep1 (obind_step hlast (obind_step hopen rfl))
  obtain ⟨hne1, hne2⟩ := hne.proof _ hsteps
  have lV : lp.V = l.map (Src.V E α) := by rw [hlp]
  have lW : lp.W = ds.map (com E α) := by rw [hlp]
  have ld : lp.digests = (List.range (L - 1)).map fd ++ [0] := by rw [hlp]
  have lr : lp.rangeProofs = (List.range L).map rp := by rw [hlp]
  have lt : lp.total = ⟨openExpo α (F + 2) (path.getLastD 0) last.vec • E.genG1, m⟩ := by rw [hlp]
  have lpp : lp.pointProof = π := by rw [hlp]
  have lps : lp.pointProofSum = dot ts (List.zipWith (fun (d : List Zr) i => d.getD i 0) ds (path.take (L - 1))) := by
    rw [hlp]
  have lsa : lp.sumArgumentProof = sp := by rw [hlp]
  have leq : lp.equalityProof = ep := by rw [hlp]
  clear hlp
  rw [← lpp, ← lps] at a4
  rw [lsa] at hne1
  rw [leq] at hne2
  have hs1 := hsp2 hne1
  rw [← lsa, ← lV] at hs1
  have he1 := hep2 hne2
  rw [← leq, ← lV] at he1
  have hdi : ∀ i < L - 1, lp.digests[i]? = some (fd i) := by
    intro i hi
    rw [ld, List.getElem?_append_left (by simpa using hi)]
    simp [hi]
  have hdi' : ∀ i < L - 1, lp.digests.getD i 0 = fd i := by
    intro i hi
    rw [List.getD_eq_getElem?_getD, hdi i hi]; rfl
  have hall : ∀ i, i + 1 < L → ∃ C d, lp.V[i + 1]? = some C ∧ lp.digests[i]? = some d ∧
        IsHashOf E (E.g1Bytes C ++ ((lp.W[i + 1]?).map E.g1Bytes).getD []) d := by
    intro i hi
    refine ⟨_, _, by rw [lV]; exact hVi (i + 1) hi, hdi i (by omega), ?_⟩
    rw [lW]
    exact hfd i
  obtain ⟨V, W, hV0, hW0, hacc⟩ := accepted_of_parts hE h path hpL hlt l hl _ hlast
    (fun s hs' => (hs s hs').1) ds hd lp lV lW (by rw [ld]; simp; omega) (by
      intro i hi1 hi2 C D hC hD
      obtain ⟨C', d, g1, g2, g3⟩ := hall (i - 1) (by omega)
      rw [Nat.sub_add_cancel hi1] at g1 g3
      rw [hC, Option.some.injEq] at g1
      subst g1
      rw [hD, Option.map_some, Option.getD_some] at g3
      rw [List.getD_eq_getElem?_getD, g2]
      exact g3) (by
      intro C hC
      obtain ⟨C', d, g1, g2, g3⟩ := hall (L - 2) (by omega)
      rw [show L - 2 + 1 = L - 1 by omega] at g1 g3
      rw [hC, Option.some.injEq] at g1
      subst g1
      rw [List.getElem?_eq_none (by rw [lW]; simp; omega), Option.map_none, Option.getD_none, List.append_nil] at g3
      rw [List.getD_eq_getElem?_getD, g2]
      exact g3) (by
      intro i hi
      refine ⟨rp i, (fs i).V E α, ?_, ?_, hrp2 i hi⟩
      · rw [lr]; simp [hi]
      · rw [lV]; exact hVi i hi) (by rw [lW]; exact a4) hs1 ⟨zero, M, hz, hM, he1⟩ (by rw [lt]; exact hopen)
  exact ⟨lp, V, W, hsteps, by rw [lt], lV, lW, hV0, hW0, hacc, hall⟩

/-! ### The layers of the forgery -/

theorem spike_length (F : ℕ) (x : Zr) (i : ℕ) : (spike F x i).values.length = F + 1 := by simp [spike]

theorem spike_balanced {F : ℕ} (x : Zr) {i : ℕ} (hi : i < F) : Balanced (spike F x i).values := by
  refine ⟨_, _, rfl, ?_⟩
  rw [sum_range_map, Finset.sum_ite_eq' _ _ (fun _ => x), if_pos (Finset.mem_range.2 hi)]

theorem spike_at {F : ℕ} (x : Zr) {i : ℕ} (hi : i < F) : (spike F x i).values.getD i 0 = x := by
  unfold spike
  dsimp only
  rw [List.getD_eq_getElem?_getD, List.getElem?_append_left (by simpa using hi)]
  simp [hi]

theorem spike_sum (F : ℕ) (x : Zr) (i : ℕ) : (spike F x i).values.getD F 0 = x := by
  unfold spike
  dsimp only
  rw [List.getD_eq_getElem?_getD, List.getElem?_append_right (by simp)]
  simp

theorem spike_small {F : ℕ} {x : Zr} {i : ℕ} (hx : x.val < 2 ^ 63) : ∀ y ∈ (spike F x i).values, y.val < 2 ^ 63 := by
  intro y hy
  unfold spike at hy
  simp only [List.mem_append, List.mem_map, List.mem_singleton] at hy
  rcases hy with ⟨j, -, rfl⟩ | rfl
  · split_ifs
    · exact hx
    · rw [ZMod.val_zero]; norm_num
  · exact hx

theorem forgedLayers_length (F : ℕ) (path : List ℕ) (root : Src) (m : ℤ) (h : path ≠ []) :
    (forgedLayers F path root m).length = path.length + 1 := by
  have := List.length_pos_iff.2 h
  unfold forgedLayers
  simp
  omega

theorem forgedLayers_zero (F : ℕ) (path : List ℕ) (root : Src) (m : ℤ) : (forgedLayers F path root m)[0]? = some root := rfl

theorem forgedLayers_mid (F : ℕ) (path : List ℕ) (root : Src) (m : ℤ) (i : ℕ) (hi : i + 1 < path.length) :
    (forgedLayers F path root m)[i + 1]?
      = some (spike F (root.values.getD (path.getD 0 0) 0) (path.getD (i + 1) 0)) := by
  unfold forgedLayers
  rw [List.cons_append, List.getElem?_cons_succ, List.getElem?_append_left (by simp; omega), List.getElem?_map,
    List.getElem?_drop, Nat.add_comm 1 i, List.getD_eq_getElem?_getD (i := i + 1), List.getElem?_eq_getElem hi]
  rfl

theorem forgedLayers_last (F : ℕ) (path : List ℕ) (root : Src) (m : ℤ) :
    (forgedLayers F path root m).getLast? = some (spike F (intToZr m) (path.getLastD 0)) := by
  unfold forgedLayers
  rw [List.getLast?_append]
  rfl

theorem forgedLayers_mem {F : ℕ} {path : List ℕ} {root : Src} {m : ℤ} {s : Src} (h : s ∈ forgedLayers F path root m) :
    s = root ∨ (∃ i ∈ path, s = spike F (root.values.getD (path.getD 0 0) 0) i) ∨
      s = spike F (intToZr m) (path.getLastD 0) := by
  unfold forgedLayers at h
  simp only [List.cons_append, List.mem_cons, List.mem_append, List.mem_map, List.not_mem_nil, or_false] at h
  rcases h with h | ⟨i, hi, rfl⟩ | h
  · exact .inl h
  · exact .inr (.inl ⟨i, List.mem_of_mem_drop hi, rfl⟩)
  · exact .inr (.inr h)

/-- The forged proof of any amount for a given root vertex is accepted. -/
theorem forgery (hE : E.Lawful) (h : Fits E α F L pp) (path : List ℕ) (hpL : path.length = L)
    (hlt : ∀ x ∈ path, x < F) (root : Src) (hroot : root.values.length = F + 1 ∧ Balanced root.values)
    (hsmall : ∀ x ∈ root.values, x.val < 2 ^ 63) (d0 : List Zr) (hd0 : d0.length = F + 2) (m : ℤ)
    (rnd : ProveRand) (hrnd : RandSized F L rnd)
    (hne : ForgeChallenges E pp rnd path (forgedLayers F path root m) (forgedDigests F path d0) m) :
    ∃ lp, forge E pp rnd path (forgedLayers F path root m) (forgedDigests F path d0) m = some lp ∧
      lp.total.sum = m ∧ Accepted E pp path (root.V E α) (com E α d0) lp ∧
      lp.V = (forgedLayers F path root m).map (Src.V E α) ∧ lp.W = (forgedDigests F path d0).map (com E α) ∧
      ∀ i, i + 1 < L → ∃ C d, lp.V[i + 1]? = some C ∧ lp.digests[i]? = some d ∧
        IsHashOf E (E.g1Bytes C ++ ((lp.W[i + 1]?).map E.g1Bytes).getD []) d := by
  have hL2 := h.depth
  have hne' : path ≠ [] := by rintro rfl; simp at hpL; omega
  have hplast : path.getLast? = some (path.getLastD 0) := by
    rw [List.getLastD_eq_getLast?, List.getLast?_eq_some_getLast hne']
    rfl
  have hplt : path.getLastD 0 < F := hlt _ (List.mem_of_getLast? hplast)
  have hpi : ∀ i < L, path.getD i 0 < F := by
    intro i hi
    have : path[i]? = some (path.getD i 0) := by
      rw [List.getD_eq_getElem?_getD, List.getElem?_eq_getElem (by omega)]; rfl
    exact hlt _ (List.mem_of_getElem? this)
  have hx : (root.values.getD (path.getD 0 0) 0).val < 2 ^ 63 := by
    have h0 := hpi 0 (by omega)
    have : root.values[path.getD 0 0]? = some (root.values.getD (path.getD 0 0) 0) := by
      rw [List.getD_eq_getElem?_getD (l := root.values), List.getElem?_eq_getElem (by omega)]; rfl
    exact hsmall _ (List.mem_of_getElem? this)
  have hlen := forgedLayers_length F path root m hne'
  obtain ⟨lp, V, W, g1, g2, g3, g4, g5, g6, g7, g8⟩ := forge_accepted hE h path hpL hlt (forgedLayers F path root m)
    (by omega) _ (forgedLayers_last F path root m) (by
      intro s hs
      rcases forgedLayers_mem hs with rfl | ⟨i, hi, rfl⟩ | rfl
      · exact hroot
      · exact ⟨spike_length _ _ _, spike_balanced _ (hlt i hi)⟩
      · exact ⟨spike_length _ _ _, spike_balanced _ hplt⟩) (by
      intro i hi s hs
      cases i with
      | zero =>
        rw [forgedLayers_zero, Option.some.injEq] at hs
        subst hs
        exact hsmall
      | succ i =>
        rw [forgedLayers_mid _ _ _ _ _ (by omega), Option.some.injEq] at hs
        subst hs
        exact spike_small hx) (by
      intro i hi s s' hs hs'
      rw [forgedLayers_mid _ _ _ _ _ (by omega), Option.some.injEq] at hs'
      subst hs'
      rw [spike_sum]
      cases i with
      | zero =>
        rw [forgedLayers_zero, Option.some.injEq] at hs
        subst hs
        rfl
      | succ i =>
        rw [forgedLayers_mid _ _ _ _ _ (by omega), Option.some.injEq] at hs
        subst hs
        exact spike_at _ (hpi (i + 1) (by omega))) (forgedDigests F path d0) (by simp [forgedDigests]; omega) (by
      intro d hd
      unfold forgedDigests at hd
      rcases List.mem_cons.1 hd with rfl | hd
      · exact hd0
      · rw [List.eq_of_mem_replicate hd, List.length_replicate]) m (spike_at _ hplt) rnd hrnd hne
  rw [g3, List.getElem?_map, forgedLayers_zero, Option.map_some, Option.some.injEq] at g5
  rw [g4] at g6
  unfold forgedDigests at g6
  rw [List.map_cons, List.getElem?_cons_zero, Option.some.injEq] at g6
  subst g5 g6
  exact ⟨lp, g1, g2, g7, g3, g4, g8⟩

end PoL.Pol

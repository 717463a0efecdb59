import Verif.Proofs.LiabilitySound
import Verif.Proofs.TreeSum
import Verif.Props.Pol

/-!
# C68: the proven amounts add up to at most the proven total (`pol/pol.go`)
-/

set_option linter.unusedSectionVars false

namespace PoL.Props

open Spec BP Finset Pol

variable {G1 G2 GT : Type} [AddCommGroup G1] [Module Zr G1] [AddCommGroup G2] [Module Zr G2]
  [AddCommGroup GT] [Module Zr GT] [DecidableEq G1] [DecidableEq GT]

/-- **C68.** There is a finder of breaks of the assumptions, computing from scalars only, such that: for any number of
liability proofs for different paths, with one commitment per layer, whose commitments agree wherever their paths agree,
and a proof of the total for their common root, if all transcripts are accepted, then everything found holds; and
unless something found is non-trivial (a linear relation among independent generators, or an equation for
`α^(N+1)·g1`), no amount is negative and the amounts add up to at most the total. -/
theorem C68_amounts_at_most_total :
    ∃ find : (M k κ : ℕ) → (path : Fin M → List ℕ) → (fanout : ℕ) → (xs xe : Zr) → (amount : Fin M → ℤ) → (total : ℤ) →
      (Fin M → LiabilityTree Unit) → Fin M → Findings,
    ∀ (G1 G2 GT : Type) [AddCommGroup G1] [Module Zr G1] [AddCommGroup G2] [Module Zr G2]
      [AddCommGroup GT] [Module Zr GT] [DecidableEq G1] [DecidableEq GT] (E : Curve G1 G2 GT) (α : Zr) (F L k κ M : ℕ)
      (pp : PublicParams G1 G2 GT) (hb : HashedBases G1) (path : Fin M → List ℕ) (V : Fin M → ℕ → G1) (amount : Fin M → ℤ)
      (tp : TotalProof G1) (t : Fin M → LiabilityTree G1),
      E.Lawful → E.NonDegenerate → Fits E α F L pp → F + 1 = 2 ^ k → pp.POEPP.G.length = 2 ^ κ → hb.xs ≠ 0 → hb.xe ≠ 0 →
      (∀ p, (path p).length = L ∧ ∀ x ∈ path p, x < F) → Function.Injective path →
      (∀ p q, ∀ i < L, (path p).take i = (path q).take i → V p i = V q i) →
      (∀ p, (t p).Accepted E α pp hb k κ (path p) (V p) (amount p)) → (∀ p, tp.verify E pp (V p 0) = some true) → 0 < M →
      (∀ p, -2 ^ 63 ≤ amount p ∧ amount p < 2 ^ 63) → -2 ^ 63 ≤ tp.sum ∧ tp.sum < 2 ^ 63 →
      (∀ p, (find M k κ path F hb.xs hb.xe amount tp.sum (fun q => (t q).scalars) p).Hold E α pp hb k κ (t p) tp.liabilityProof) ∧
      ((∀ p, (find M k κ path F hb.xs hb.xe amount tp.sum (fun q => (t q).scalars) p).Trivial k) →
        (∀ p, 0 ≤ amount p) ∧ ∑ p, amount p ≤ tp.sum) := by
  obtain ⟨ext, find, H⟩ := layer_facts
  refine ⟨fun M k κ path F xs xe amount total t p =>
    let f := find k κ (path p) F xs xe (amount p) total (t p)
    { f with
      range := f.range ++ (List.finRange M).flatMap fun q => (List.range (path p).length).flatMap fun i =>
        if (path p).take i = (path q).take i then
          [⟨(ext ((t p).range i)).1 - (ext ((t q).range i)).1, 0, 0, 0,
            fun j => (ext ((t p).range i)).2 j - (ext ((t q).range i)).2 j, fun _ => 0, fun _ => 0⟩]
        else [] }, ?_⟩
  intro G1 G2 GT _ _ _ _ _ _ _ _ E α F L k κ M pp hb path V amount tp t hE hn hfit hk hκ hxs hxe hpath hinj hcons hacc htot hM
    hamt hsum
  have key := fun p => H G1 G2 GT E α F L k κ pp hb (path p) (V p) (amount p) tp (t p) hE hn hfit hk hκ hxs hxe (hpath p).1
    (hpath p).2 (hacc p) (htot p)
  have hF := fits_F_bound hfit
  refine ⟨fun p => ⟨?_, (key p).2.1.sum, (key p).2.1.eq, (key p).2.1.opening⟩, fun htr => ?_⟩
  · intro q hq
    rcases List.mem_append.1 hq with hq | hq
    · exact (key p).2.1.range q hq
    · obtain ⟨p', -, hq⟩ := List.mem_flatMap.1 hq
      obtain ⟨i, hi, hq⟩ := List.mem_flatMap.1 hq
      have hi := List.mem_range.1 hi
      rw [(hpath p).1] at hi
      split at hq
      · rename_i hpre
        obtain rfl := List.mem_singleton.1 hq
        have h1 := (key p).1 i hi
        have h2 := (key p').1 i hi
        rw [hcons p p' i hi hpre, h2] at h1
        rw [← sub_eq_zero] at h1
        show RangeRel.eval ⟨(ext ((t p).range i).scalars).1 - (ext ((t p').range i).scalars).1, 0, 0, 0,
            fun j => (ext ((t p).range i).scalars).2 j - (ext ((t p').range i).scalars).2 j, fun _ => 0, fun _ => 0⟩
            (rangeGens pp.RPPP hb.Ur) (2 ^ k) = 0
        simp only [RangeRel.eval, sub_smul, Finset.sum_sub_distrib, zero_smul, Finset.sum_const_zero, add_zero]
        have hFe : (rangeGens pp.RPPP hb.Ur).F = pp.RPPP.F := rfl
        rw [hFe]
        linear_combination (norm := module) -h1
      · simp at hq
  · have facts := fun p => (key p).2.2 ⟨fun q hq => (htr p).range q (List.mem_append_left _ hq), (htr p).sum, (htr p).eq,
      (htr p).opening⟩
    have hL2 : 2 ≤ L := hfit.depth
    have hget : ∀ p, ∀ i < L, (path p).getD i 0 < F := by
      intro p i hi
      rw [List.getD_eq_getElem?_getD, List.getElem?_eq_getElem (by rw [(hpath p).1]; exact hi), Option.getD_some]
      exact (hpath p).2 _ (List.getElem_mem _)
    have hsm : ∀ p, ∀ i < L, ∀ j ≤ F, ((ext ((t p).range i).scalars).2 j).val < 2 ^ 63 := fun p i hi =>
      (facts p).small i (by rw [(hpath p).1]; exact hi)
    have hA : ∀ p, 0 ≤ amount p ∧ ((intToZr (amount p)).val : ℤ) = amount p := by
      intro p
      refine intToZr_small _ (hamt p).1 (hamt p).2 ?_
      rw [← (facts p).leaf, (hpath p).1]
      exact hsm p (L - 1) (by omega) _ (hget p (L - 1) (by omega)).le
    have p₀ : Fin M := ⟨0, hM⟩
    have hT : ((intToZr tp.sum).val : ℤ) = tp.sum := by
      refine (intToZr_small _ hsum.1 hsum.2 ?_).2
      rw [← (facts p₀).total]
      exact hsm p₀ 0 (by omega) F le_rfl
    refine ⟨fun p => (hA p).1, ?_⟩
    have tree := tree_sum F (L - 1) (Finset.univ : Finset (Fin M)) (fun p i => (path p).getD i 0)
      (fun p i j => ((ext ((t p).range i).scalars).2 j).val) (fun p => (intToZr (amount p)).val)
      (fun p _ i hi => hget p i (by omega))
      (fun p _ i hi => by
        rw [(facts p).balanced i (by rw [(hpath p).1]; omega)]
        exact val_sum_small F (by omega) _ fun j hj => hsm p i (by omega) j hj.le)
      (fun p _ i hi => by
        rw [(facts p).linked i (by rw [(hpath p).1]; omega)])
      (fun p _ => by
        have := (facts p).leaf
        rw [(hpath p).1] at this
        rw [this])
      (fun p _ q _ h => hinj (List.ext_getElem? fun i => by
        by_cases hi : i < L
        · have h1 := h i (by omega)
          rw [List.getD_eq_getElem?_getD, List.getD_eq_getElem?_getD] at h1
          rw [List.getElem?_eq_getElem (by rw [(hpath p).1]; exact hi),
            List.getElem?_eq_getElem (by rw [(hpath q).1]; exact hi)] at h1 ⊢
          simpa using h1
        · rw [List.getElem?_eq_none (by rw [(hpath p).1]; omega), List.getElem?_eq_none (by rw [(hpath q).1]; omega)]))
      (fun p _ q _ i hi h j hj => by
        have hpre : (path p).take i = (path q).take i := by
          refine List.ext_getElem? fun l => ?_
          by_cases hl : l < i
          · rw [List.getElem?_take_of_lt hl, List.getElem?_take_of_lt hl]
            have h1 := h l hl
            rw [List.getD_eq_getElem?_getD, List.getD_eq_getElem?_getD] at h1
            rw [List.getElem?_eq_getElem (by rw [(hpath p).1]; omega),
              List.getElem?_eq_getElem (by rw [(hpath q).1]; omega)] at h1 ⊢
            simpa using h1
          · rw [List.getElem?_eq_none (by rw [List.length_take]; omega), List.getElem?_eq_none (by rw [List.length_take]; omega)]
        have hz := (htr p).range ⟨(ext ((t p).range i).scalars).1 - (ext ((t q).range i).scalars).1, 0, 0, 0,
            fun j => (ext ((t p).range i).scalars).2 j - (ext ((t q).range i).scalars).2 j, fun _ => 0, fun _ => 0⟩
          (List.mem_append_right _ (List.mem_flatMap.2 ⟨q, List.mem_finRange q, List.mem_flatMap.2 ⟨i, List.mem_range.2
            (by rw [(hpath p).1]; omega), by rw [if_pos hpre]; exact List.mem_singleton.2 rfl⟩⟩))
        have := hz.2.2.2.2.1 j (by omega)
        rw [sub_eq_zero.1 this])
      p₀ (Finset.mem_univ _)
    have e0 : (ext ((t p₀).range 0).scalars).2 F = intToZr tp.sum := (facts p₀).total
    rw [e0] at tree
    have : ((∑ p, (intToZr (amount p)).val : ℕ) : ℤ) ≤ ((intToZr tp.sum).val : ℤ) := by exact_mod_cast tree
    rw [hT, Nat.cast_sum] at this
    rwa [Finset.sum_congr rfl fun p _ => (hA p).2] at this

/-- **C68**, link to the code: if `Verify` accepts a proof with one commitment per layer, then each of the arguments is
accepted by its verifier for the statements of the transcripts of C68 (C18, C23 and C67 say what this means for the
transcripts), and the last commitment is opened to the amount. -/
theorem C68_verify_checks (E : Curve G1 G2 GT) {α : Zr} {F L : ℕ} {pp : PublicParams G1 G2 GT} (hfit : Fits E α F L pp)
    (lp : LiabilityProof G1) (id : Str) (V W : G1) (id2path : Str → Option (List ℕ)) (path : List ℕ)
    (hp : id2path id = some path) (hL : path.length = L) (hV : lp.V.length = path.length) (τ : Zr)
    (hτ : fieldElementFromBytes (E.sha256 (lp.V.map E.g1Bytes).flatten) = some τ)
    (h : lp.verify E pp id V W id2path = some true) :
    lp.V.getD 0 0 = V ∧
    (∀ i < L, ∃ rp, lp.rangeProofs[i]? = some rp ∧ verifyRange E pp.RPPP rp (lp.V.getD i 0) = some true) ∧
    lp.sumArgumentProof.verify E pp.SAPP { V := ∑ i ∈ range L, τ ^ i • lp.V.getD i 0 } = some true ∧
    (∃ e : Poe.Equalities G1 G2 GT, e.verify E lp.equalityProof = some true ∧ e.PP = pp.POEPP ∧ e.RO = Poe.ro E ∧
      e.V.length = pp.POEPP.G.length ∧ e.W.length = pp.POEPP.G.length ∧ e.I.length = pp.POEPP.G.length ∧
      e.J.length = pp.POEPP.G.length ∧ Poe.pairsOf e = pathPairs pp.fanout path fun i => lp.V.getD i 0) ∧
    PP.verify E pp.PPPP (intToZr lp.total.sum) lp.total.liabilityProof (lp.V.getD (L - 1) 0) (path.getD (L - 1) 0)
      = some true := by
  obtain ⟨path', hp', a⟩ := (C51_accepted_iff E lp pp id V W id2path).1 h
  obtain rfl : path = path' := Option.some_inj.1 (hp.symm.trans hp')
  have hL2 : 2 ≤ L := hfit.depth
  have hget : ∀ i C, lp.V[i]? = some C → lp.V.getD i 0 = C := fun i C hC => by
    rw [List.getD_eq_getElem?_getD, hC]; rfl
  refine ⟨hget 0 V a.root_V, fun i hi => ?_, ?_, ?_, ?_⟩
  · obtain ⟨rp, C, h1, h2, h3⟩ := a.range_proofs i (by omega)
    exact ⟨rp, h1, by rw [hget i C h2]; exact h3⟩
  · have := a.sum_argument
    rw [C66_verify_aggregated E pp.SAPP _ lp.V (by intro h0; rw [h0] at hV; simp at hV; omega) τ hτ, hV, hL] at this
    exact this
  · obtain ⟨zero, padded, hz, hpad, hv⟩ := a.equalities
    have hz0 : zero = 0 := by
      rw [hfit.fanout, hfit.PPPP, PP.commit_eq E α (F + 2) _ (by simp) (by omega), Option.some_inj] at hz
      rw [← hz]
      unfold PP.expo
      rw [Finset.sum_eq_zero, zero_smul]
      intro j _
      rw [List.getD_eq_getElem?_getD, List.getElem?_replicate]
      split <;> simp
    subst hz0
    obtain ⟨M, hM, hM1, hM2⟩ := hfit.poe_size
    obtain ⟨M', hM', hM''⟩ := padLoop_spec (m := path.length - 1) (by omega) (by have := fits_L_bound hfit; omega)
    rw [hL] at hM''
    obtain rfl := isPadded_unique hM hM''
    rw [hpad, Option.some_inj] at hM'
    subst hM'
    have hle := hM.2.1
    have hlen : path.length - 1 + ((M : ℤ) - ((path.length - 1 : ℕ) : ℤ)).toNat = M := by omega
    refine ⟨_, hv, rfl, rfl, ?_, ?_, ?_, ?_, ?_⟩
    · simp only [pathEqualities, List.length_append, List.length_take, List.length_replicate]; omega
    · simp only [pathEqualities, List.length_append, List.length_take, List.length_replicate, List.length_drop]; omega
    · simp only [pathEqualities, List.length_append, List.length_take, List.length_replicate]; omega
    · simp only [pathEqualities, List.length_append, List.length_replicate]; omega
    · have app : ∀ {β : Type} (l : List β) (d : β) (n k : ℕ), (l ++ List.replicate n d).getD k d = if k < l.length then l.getD k d else d := by
        intro β l d n k
        rw [List.getD_eq_getElem?_getD, List.getD_eq_getElem?_getD]
        split
        · rw [List.getElem?_append_left (by assumption)]
        · rw [List.getElem?_append_right (by omega), List.getElem?_replicate]
          split <;> rfl
      unfold Poe.pairsOf pathPairs
      simp only [pathEqualities, app, List.length_take, List.length_drop, List.length_replicate]
      congr 1
      · funext k
        by_cases hk : k + 1 < path.length
        · rw [if_pos (by omega), if_pos hk, List.getD_eq_getElem?_getD, List.getElem?_take_of_lt (by omega), List.getD_eq_getElem?_getD]
        · rw [if_neg (by omega), if_neg hk]
      · funext k
        by_cases hk : k + 1 < path.length
        · rw [if_pos (by omega), if_pos hk, List.getD_eq_getElem?_getD, List.getElem?_take_of_lt (by omega), List.getElem?_drop,
            List.getD_eq_getElem?_getD, add_comm]
        · rw [if_neg (by omega), if_neg hk]
      · funext k
        by_cases hk : k + 1 < path.length
        · rw [if_pos (by omega), if_pos hk, List.getD_eq_getElem?_getD, List.getElem?_take_of_lt (by omega), List.getD_eq_getElem?_getD]
        · rw [if_neg (by omega), if_neg hk]
      · funext k
        by_cases hk : k + 1 < path.length
        · rw [if_pos (by omega), if_pos hk, List.getD_eq_getElem?_getD, List.getElem?_replicate, if_pos (by omega)]; rfl
        · rw [if_neg (by omega), if_neg hk]
  · obtain ⟨C, i, h1, h2, h3⟩ := a.liability
    rw [List.getLast?_eq_getElem?] at h1 h2
    rw [List.getD_eq_getElem?_getD, List.getD_eq_getElem?_getD, ← hL]
    rw [h2, ← hV, h1]
    exact h3

/-- The hypotheses of C68 are met: for any contents of the layers of a path that are small, balanced and linked, there are
accepted transcripts and an accepted proof of the total. -/
theorem C68_honest_tree (E : Curve G1 G2 GT) (hE : E.Lawful) (hn : E.NonDegenerate) {α : Zr} {F L k κ : ℕ}
    {pp : PublicParams G1 G2 GT} (hfit : Fits E α F L pp) (hk : F + 1 = 2 ^ k) (hκ : pp.POEPP.G.length = 2 ^ κ)
    (hb : HashedBases G1) (path : List ℕ) (hL : path.length = L) (hlt : ∀ x ∈ path, x < F) (r : ℕ → Zr) (v : ℕ → ℕ → Zr)
    (amount total : ℤ) (hv : LayerFacts F path v amount total) (V : ℕ → G1)
    (hV : ∀ i, V i = r i • pp.RPPP.F + ∑ j ∈ range (2 ^ k), v i j • pp.RPPP.Gs.getD j 0) :
    ∃ (t : LiabilityTree G1) (tp : TotalProof G1),
      t.Accepted E α pp hb k κ path V amount ∧ tp.verify E pp (V 0) = some true ∧ tp.sum = total := by
  subst hL
  have hL2 : 2 ≤ path.length := hfit.depth
  have hF := fits_F_bound hfit
  have hfan : pp.fanout = F := hfit.fanout
  have hLb := fits_L_bound hfit
  have hpath : ∀ i < path.length, path.getD i 0 < F := by
    intro i hi
    rw [List.getD_eq_getElem?_getD, List.getElem?_eq_getElem hi, Option.getD_some]
    exact hlt _ (List.getElem_mem hi)
  have hk50 : k ≤ 50 := by
    by_contra hc
    have : 2 ^ 50 ≤ 2 ^ k := Nat.pow_le_pow_right (by omega) (by omega)
    omega
  have hSF : pp.SAPP.F = pp.RPPP.F := Option.some_inj.1 (hfit.sa_F.symm.trans hfit.rp_F)
  have hSG : pp.SAPP.Gs = pp.RPPP.Gs := hfit.sa_Gs.trans hfit.rp_Gs.symm
  have hlenG : pp.RPPP.Gs.length = 2 ^ k := by
    rw [hfit.rp_Gs, hfit.PPPP, List.length_take, PP.new_G1s_length E α (F + 2) (by omega)]
    omega
  have hb1 : pp.SAPP.b = List.replicate (2 ^ k - 1) 1 ++ [-1] := by
    rw [hfit.sa_b, ← hk]; rfl
  -- range proofs
  have hR : ∀ i, ∃ t : RTree G1, i < path.length →
      t.WellFormed k ∧ t.Accepted (rangeGens pp.RPPP hb.Ur) (2 ^ k) (V i) := by
    intro i
    by_cases hi : i < path.length
    · obtain ⟨t, h1, h2⟩ := C18_honest_tree (rangeGens pp.RPPP hb.Ur) k hk50 (r i) (v i)
        (fun j hj => hv.small i hi j (by omega))
      exact ⟨t, fun _ => ⟨h1, by rw [hV i]; exact h2⟩⟩
    · obtain ⟨t, -⟩ := C18_honest_tree (rangeGens pp.RPPP hb.Ur) k hk50 0 (fun _ => 0) (fun j hj => by simp)
      exact ⟨t, fun h => absurd h hi⟩
  choose rt hrt using hR
  -- sum argument
  obtain ⟨sb, hs1, hs2⟩ := C66_honest_branches k path.length (by omega) hb.xs r (fun i => (List.range (2 ^ k)).map (v i))
    pp.SAPP.F pp.SAPP.Gs pp.SAPP.H pp.SAPP.U (by rw [hSG, hlenG]) (by rw [hfit.sa_H, hk]) (fun i _ => by simp)
    (fun i hi => by
      rw [← hk]
      refine ⟨(List.range F).map (v i), v i F, by rw [List.range_succ, List.map_append]; rfl, ?_⟩
      rw [hv.balanced i hi, list_sum_range])
  have hVs : ∀ i < path.length, r i • pp.SAPP.F + dot ((List.range (2 ^ k)).map (v i)) pp.SAPP.Gs = V i := by
    intro i _
    rw [hV i, hSF, hSG, dot_eq_sum_range _ _ (2 ^ k) (by simp) hlenG]
    congr 1
    refine Finset.sum_congr rfl fun j hj => ?_
    rw [getD_map_range _ _ (Finset.mem_range.1 hj)]
  -- equalities
  have hop : ∀ (C : G1) (a : Zr) (I : ℕ), I < F + 2 → PP.verify E (PP.newPublicParams E α (F + 2)) a
      (α ^ (F + 2 - I) • C - (a * α ^ (F + 2 + 1)) • E.genG1) C I = some true := by
    intro C a I hI
    exact (C02_verify_iff E hE hn α (F + 2) _ _ _ I hI).2 rfl
  have hpad : path.length - 1 ≤ 2 ^ κ := by
    obtain ⟨M', hM', e1, -⟩ := hfit.poe_size
    rw [← hκ, e1]
    exact hM'.2.1
  obtain ⟨M, -, hM1, hM2⟩ := hfit.poe_size
  have hIJ : ∀ i < 2 ^ κ, (pathPairs pp.fanout path V).I i < F + 2 ∧ (pathPairs pp.fanout path V).J i < F + 2 := by
    intro i _
    unfold pathPairs
    dsimp only
    split
    · have := hpath i (by omega); omega
    · omega
  obtain ⟨V', W', b₁, b₂, hx, hb₁, hb₂⟩ := C67_honest_branches E hE hn α (F + 2) κ (pathPairs pp.fanout path V) pp.POEPP.F pp.POEPP.G
    pp.POEPP.H hb.B hb.xe hIJ hκ (by rw [hM2, ← hM1, hκ]) (fun i => if i + 1 < path.length then v i (path.getD i 0) else 0)
    _ _ (fun i hi => hop _ _ _ (hIJ i hi).1) (fun i hi => hop _ _ _ (hIJ i hi).2)
  rw [← hfan] at hb₁ hb₂
  obtain ⟨πl, hπl⟩ : ∃ πl, πl = α ^ (F + 2 - path.getD (path.length - 1) 0) • V (path.length - 1)
    - (intToZr amount * α ^ (F + 2 + 1)) • E.genG1 := ⟨_, rfl⟩
  obtain ⟨πt, hπt⟩ : ∃ πt, πt = α ^ (F + 2 - F) • V 0 - (intToZr total * α ^ (F + 2 + 1)) • E.genG1 := ⟨_, rfl⟩
  refine ⟨{ range := rt, sum := fun i => sb ⟨i % path.length, Nat.mod_lt _ (by omega)⟩, V' := V', W' := W', eq₁ := b₁, eq₂ := b₂,
            π := πl }, ⟨πt, total⟩, ⟨fun i hi => (hrt i hi).1, fun i hi => (hrt i hi).2, fun i hi j hj hne => ?_, fun i hi => ?_, hx,
            hb₁, hb₂, ?_⟩, ?_, rfl⟩
  · refine hs1 _ _ fun h => hne ?_
    have := congrArg Fin.val h
    dsimp only at this
    rwa [Nat.mod_eq_of_lt hi, Nat.mod_eq_of_lt hj] at this
  · have h := hs2 ⟨i % path.length, Nat.mod_lt _ (by omega)⟩
    rw [hb1]
    refine ⟨h.1, fun q => ⟨(h.2 q).1, ?_⟩⟩
    have e : ∀ τ : Zr, ∑ i ∈ range path.length, τ ^ i • (r i • pp.SAPP.F + dot ((List.range (2 ^ k)).map (v i)) pp.SAPP.Gs)
        = ∑ i ∈ range path.length, τ ^ i • V i := fun τ => Finset.sum_congr rfl fun i hi => by
      rw [hVs i (Finset.mem_range.1 hi)]
    have h2 := (h.2 q).2
    rw [e] at h2
    exact h2
  · rw [hfit.PPPP, hπl]
    exact hop _ _ _ (by have := hpath (path.length - 1) (by omega); omega)
  · rw [TotalProof.verify, hfan, hfit.PPPP, hπt]
    exact hop _ _ _ (by omega)

/-- Contents of the layers as in `C68_honest_tree`: fan-out 3, two layers, amount 5 of a total of 12. -/
example : LayerFacts 3 [1, 0] (fun i j => (([[4, 5, 3, 12], [5, 0, 0, 5]] : List (List Zr)).getD i []).getD j 0) 5 12 := by
  have small : ∀ n : ℕ, n < 2 ^ 63 → ((n : ℕ) : Zr).val < 2 ^ 63 := fun n hn => by
    rw [ZMod.val_natCast_of_lt (lt_trans hn two_pow_63_lt_order)]; exact hn
  have s0 := small 0 (by norm_num)
  have s3 := small 3 (by norm_num)
  have s4 := small 4 (by norm_num)
  have s5 := small 5 (by norm_num)
  have s12 := small 12 (by norm_num)
  norm_num at s0 s3 s4 s5 s12
  constructor
  · intro i hi j hj
    simp only [List.length_cons, List.length_nil] at hi
    match i, j, hi, hj with
    | 0, 0, _, _ => simpa using s4
    | 0, 1, _, _ => simpa using s5
    | 0, 2, _, _ => simpa using s3
    | 0, 3, _, _ => simpa using s12
    | 1, 0, _, _ => simpa using s5
    | 1, 1, _, _ => simp
    | 1, 2, _, _ => simp
    | 1, 3, _, _ => simpa using s5
  · intro i hi
    simp only [List.length_cons, List.length_nil] at hi
    match i, hi with
    | 0, _ => simp [Finset.sum_range_succ]; norm_num
    | 1, _ => simp [Finset.sum_range_succ]
  · intro i hi
    simp only [List.length_cons, List.length_nil] at hi
    match i, hi with
    | 0, _ => simp
  · simp [intToZr]
  · simp [intToZr]

end PoL.Props

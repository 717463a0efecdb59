import Verif.Proofs.PolForge
import Verif.Proofs.PolToy

/-!
# Forged liability proofs (C49, C50)

`Spec/PolForge.lean` has the dishonest prover `forge`.
-/

set_option linter.unusedSectionVars false

namespace PoL.Props
open Spec Pol Verkle PP

variable {G1 G2 GT : Type} [AddCommGroup G1] [Module Zr G1] [AddCommGroup G2] [Module Zr G2]
  [AddCommGroup GT] [Module Zr GT] [DecidableEq G1] [DecidableEq GT]

/-! ## C49: is the amount bound to the root? -/

/-- C49 as far as it goes: two accepted proofs for an identifier that state different amounts and end in the same
commitment give the group element `α^(N+1) g₁`, which is left out of the parameters.  What is missing: the last
commitment of the proof is not tied to the root, see `C49_violated`. -/
theorem C49_bound_to_last_commitment_partial {E : Curve G1 G2 GT} (hE : E.Lawful) (hnd : E.NonDegenerate) {α : Zr}
    {F L : ℕ} {pp : PublicParams G1 G2 GT} (h : Fits E α F L pp) (id : Str) (id2path : Str → Option (List ℕ))
    (V W V' W' : G1) (lp lp' : LiabilityProof G1) (h1 : lp.verify E pp id V W id2path = some true)
    (h2 : lp'.verify E pp id V' W' id2path = some true) (hlast : lp.V.getLast? = lp'.V.getLast?)
    (hne : intToZr lp.total.sum ≠ intToZr lp'.total.sum) :
    (intToZr lp'.total.sum - intToZr lp.total.sum)⁻¹ • (lp.total.liabilityProof - lp'.total.liabilityProof)
      = α ^ (F + 2 + 1) • E.genG1 := by
  obtain ⟨path, hp, a⟩ := (verify_iff E lp pp id V W id2path).1 h1
  obtain ⟨path', hp', a'⟩ := (verify_iff E lp' pp id V' W' id2path).1 h2
  rw [hp, Option.some.injEq] at hp'
  subst hp'
  obtain ⟨C, i, hC, hi, hv⟩ := a.liability
  obtain ⟨C', i', hC', hi', hv'⟩ := a'.liability
  rw [hlast, hC', Option.some.injEq] at hC
  rw [hi, Option.some.injEq] at hi'
  subst hC hi'
  rw [h.PPPP] at hv hv'
  exact C03_position_binding E hE hnd α (F + 2) C' _ _ _ _ i hv hv' hne

/-- C49 fails: after any non-empty history of `Set`s with total below `2^63`, for every identifier with a path, even
one that was never set, and for every amount, however large, whoever knows the contents of the stored root can make
a proof of that amount that is accepted against the stored root. -/
theorem C49_violated {E : Curve G1 G2 GT} (hE : E.Lawful) {env : Env} (henv : env.Lawful) {α : Zr} {F L : ℕ}
    {ls ls' : LiabilitySet G1 G2 GT} (h : NewSet E α F L ls) (hist : List (Str × ℤ)) (hne : hist ≠ [])
    (hids : ValidIds ls.tree.id2Path F L hist) (hr : ls.sets E env hist = some ls')
    (htot : totalAmount (byPath ls.tree.id2Path hist) < 2 ^ 63) (id : Str) (path : List ℕ)
    (hp : ls.tree.id2Path id = some path) (hpL : path.length = L) (hlt : ∀ x ∈ path, x < F) (m : ℤ)
    (rnd : ProveRand) (hrnd : RandSized F L rnd)
    (hch : ∀ x, Verkle.Vertex.fromBytes E (ls'.s.db []) = some x →
      ForgeChallenges E ls.pp rnd path (forgedLayers F path ⟨x.valuesVec (F + 1), x.blindingFactor⟩ m)
        (forgedDigests F path ((List.range (F + 2)).map fun j => (x.digests (UInt16.ofNat j)).getD 0)) m) :
    ∃ (lp : LiabilityProof G1) (x : Verkle.Vertex G1) (W : G1), Verkle.Vertex.fromBytes E (ls'.s.db []) = some x ∧ x.W = some W ∧ lp.total.sum = m ∧
      lp.verify E ls.pp id x.V W ls.tree.id2Path = some true := by
  have hL := h.pp.depth
  obtain ⟨hn, t, s, hputs, rfl⟩ := (sets_iff E env hist ls ls').1 hr
  obtain ⟨x, hx, hval, hV, hW⟩ := root_onPath hE henv h.tree hL hist hne hids hputs
  have hnil : amountBelow (byPath ls.tree.id2Path hist) [] = totalAmount (byPath ls.tree.id2Path hist) := by
    unfold amountBelow totalAmount
    simp
  obtain ⟨lp, g1, g2, g3, -⟩ := forgery hE h.pp path hpL hlt ⟨x.valuesVec (F + 1), x.blindingFactor⟩ ⟨valuesVec_length _ _, by
      dsimp only
      rw [hval]
      have := values_balanced hids [] (by simp; omega)
      rw [hnil] at this
      exact this⟩ (by
      dsimp only
      rw [hval]
      intro y hy
      rw [← hnil] at hy
      exact values_small (F := F) hn htot [] y hy) ((List.range (F + 2)).map fun j => (x.digests (UInt16.ofNat j)).getD 0) (by simp) m rnd hrnd (hch x hx)
  refine ⟨lp, x, _, hx, hW, g2, ?_⟩
  refine (verify_iff E lp ls.pp id _ _ _).2 ⟨path, hp, ?_⟩
  rw [hV]
  exact g3

/-- The hypotheses of `C49_violated` are met: of a set with total 42, a proof that `000`, which was never set, has
`10^30`. -/
example : ∃ (ls ls' : LiabilitySet Zr Zr Zr) (lp : LiabilityProof Zr) (x : Verkle.Vertex Zr) (W : Zr),
    ls.sets toyCurve toyEnv toyHist = some ls' ∧ Verkle.Vertex.fromBytes toyCurve (ls'.s.db []) = some x ∧ x.W = some W ∧
    lp.total.sum = 10 ^ 30 ∧ lp.verify toyCurve ls.pp ['0', '0', '0'] x.V W ls.tree.id2Path = some true := by
  obtain ⟨ls, h, ht⟩ := toy_set
  have hids : ValidIds ls.tree.id2Path 3 3 toyHist := by rw [ht]; exact toyHist_valid
  have h42 : totalAmount (byPath ls.tree.id2Path toyHist) = 42 := by rw [ht]; decide
  have hL := h.pp.depth
  obtain ⟨t, s, hput⟩ := C39_writes_return toyCurve_lawful toyEnv_lawful h.tree (by omega) toyHist ls.s hids
  have hs := (sets_iff toyCurve toyEnv toyHist ls _).2 ⟨by decide, t, s, hput, rfl⟩
  obtain ⟨lp, x, W, h1, h2, h3, h4⟩ := C49_violated toyCurve_lawful toyEnv_lawful h toyHist (by decide) hids hs
    (by rw [h42]; norm_num) ['0', '0', '0'] [0, 0, 0] (by rw [ht]; rfl) rfl (by decide) (10 ^ 30) toyRand toyRand_sized
    (fun _ _ => ⟨fun _ _ V rp ipaPP _ _ _ => toy_rangeChallenges_ne _ V rp ipaPP,
      fun _ _ => ⟨toy_sum_challenges _ _, toy_poe_challenges _ _⟩⟩)
  exact ⟨ls, _, lp, x, W, hs, h1, h2, h3, h4⟩

/-! ## C50: is the hash chain checked? -/

/-- C50 as far as it goes: in an accepted proof, digest `i` is the hash of the commitments of layer `i + 1`.  What is
missing: that it is what layer `i` commits to in `W`, see `C50_violated`. -/
theorem C50_digests_are_hashes_partial {E : Curve G1 G2 GT} (pp : PublicParams G1 G2 GT) (id : Str)
    (id2path : Str → Option (List ℕ)) (V W : G1) (lp : LiabilityProof G1)
    (h : lp.verify E pp id V W id2path = some true) (path : List ℕ) (hp : id2path id = some path) (i : ℕ)
    (hi : i + 1 < path.length) :
    ∃ C d, lp.V[i + 1]? = some C ∧ lp.digests[i]? = some d ∧
      IsHashOf E (E.g1Bytes C ++ ((lp.W[i + 1]?).map E.g1Bytes).getD []) d := by
  obtain ⟨path', hp', a⟩ := (verify_iff E lp pp id V W id2path).1 h
  rw [hp, Option.some.injEq] at hp'
  subst hp'
  by_cases hl : i + 2 = path.length
  · obtain ⟨C, d, h1, h2, h3⟩ := a.leaf_digest
    refine ⟨C, d, by rw [← h1]; congr 1; omega, by rw [← h2]; congr 1; omega, ?_⟩
    rw [List.getElem?_eq_none (by have := a.len_W; omega), Option.map_none, Option.getD_none, List.append_nil]
    exact h3
  · obtain ⟨C, D, d, h1, h2, h3, h4⟩ := a.inner_digests (i + 1) (by omega) (by omega)
    refine ⟨C, d, h1, h3, ?_⟩
    rw [h2]
    exact h4

/-- C50 fails: for a root vertex with any balanced values in range, there is a scalar `c` such that whatever digests
`d0` the root commits to in `W`, a proof with the first digest `c` is accepted. -/
theorem C50_violated {E : Curve G1 G2 GT} (hE : E.Lawful) {α : Zr} {F L : ℕ} {pp : PublicParams G1 G2 GT}
    (h : Fits E α F L pp) (id : Str) (id2path : Str → Option (List ℕ)) (path : List ℕ) (hp : id2path id = some path)
    (hpL : path.length = L) (hlt : ∀ x ∈ path, x < F) (root : Src)
    (hroot : root.values.length = F + 1 ∧ Balanced root.values) (hsmall : ∀ x ∈ root.values, x.val < 2 ^ 63) (m : ℤ)
    (rnd : ProveRand) (hrnd : RandSized F L rnd) :
    ∃ c, ∀ d0 : List Zr, d0.length = F + 2 →
      ForgeChallenges E pp rnd path (forgedLayers F path root m) (forgedDigests F path d0) m →
      ∃ (lp : LiabilityProof G1) (V W : G1), pp.PPPP.commit root.vec = some V ∧ pp.PPPP.commit d0 = some W ∧
        lp.digests[0]? = some c ∧ lp.verify E pp id V W id2path = some true := by
  have hL2 := h.depth
  obtain ⟨C, hC⟩ : ∃ C, ((forgedLayers F path root m).map (Src.V E α))[1]? = some C := by
    rw [List.getElem?_map, forgedLayers_mid _ _ _ _ 0 (by omega)]
    exact ⟨_, rfl⟩
  have hW : ∀ d0, ((forgedDigests F path d0).map (com E α))[1]?
      = ((List.replicate (path.length - 2) (List.replicate (F + 2) 0)).map (com E α))[0]? := fun _ => rfl
  obtain ⟨e, he⟩ := fieldElementFromBytes_isSome (hE.sha_len (E.g1Bytes C
    ++ ((((List.replicate (path.length - 2) (List.replicate (F + 2) (0 : Zr))).map (com E α))[0]?).map E.g1Bytes).getD []))
  refine ⟨e, fun d0 hd0 hch => ?_⟩
  obtain ⟨lp, g1, g2, g3, g4, g5, g6⟩ := forgery hE h path hpL hlt root hroot hsmall d0 hd0 m rnd hrnd hch
  obtain ⟨C', d, k1, k2, k3⟩ := g6 0 (by omega)
  rw [g4, hC, Option.some.injEq] at k1
  subst k1
  rw [g5, hW] at k3
  unfold IsHashOf at k3
  rw [he, Option.some.injEq] at k3
  subst k3
  refine ⟨lp, root.V E α, com E α d0, ?_, ?_, k2, ?_⟩
  · rw [h.PPPP, commit_eq E α (F + 2) _ (by simp [Src.vec, hroot.1]) (by omega)]; rfl
  · rw [h.PPPP, commit_eq E α (F + 2) _ hd0 (by omega)]; rfl
  · exact (verify_iff E lp pp id _ _ _).2 ⟨path, hp, g3⟩

/-- A witness for `C50_violated`, for the root that has the amounts 10, 20, 30: the accepted proof's first digest is
not the one that the root's `W` commits to at the path's first index. -/
theorem C50_violated_witness : ∃ (pp : PublicParams Zr Zr Zr) (lp : LiabilityProof Zr) (d0 : List Zr) (V W c d : Zr),
    Fits toyCurve 2 3 3 pp ∧ pp.PPPP.commit (Src.vec ⟨[10, 20, 30, 60], 5⟩) = some V ∧ pp.PPPP.commit d0 = some W ∧
      d0[0]? = some d ∧ lp.digests[0]? = some c ∧ c ≠ d ∧
      toyPath ['0', '1', '2'] = some [0, 1, 2] ∧ lp.verify toyCurve pp ['0', '1', '2'] V W toyPath = some true := by
  obtain ⟨pp, h⟩ := toy_fits
  have hv : ∀ n : ℕ, n < 2 ^ 63 → ((n : Zr)).val < 2 ^ 63 := by
    intro n hn
    rw [ZMod.val_natCast_of_lt (lt_trans hn two_pow_63_lt_order)]
    exact hn
  obtain ⟨c, hc⟩ := C50_violated toyCurve_lawful h ['0', '1', '2'] toyPath [0, 1, 2] rfl rfl (by decide)
    ⟨[10, 20, 30, 60], 5⟩ ⟨rfl, [10, 20, 30], 60, rfl, by norm_num⟩ (by
      intro x hx
      simp only [List.mem_cons, List.not_mem_nil, or_false] at hx
      rcases hx with rfl | rfl | rfl | rfl
      · exact hv 10 (by norm_num)
      · exact hv 20 (by norm_num)
      · exact hv 30 (by norm_num)
      · exact hv 60 (by norm_num)) 1000 toyRand toyRand_sized
  obtain ⟨lp, V, W, h1, h2, h3, h4⟩ := hc (List.replicate 5 (c + 1)) rfl
    ⟨fun _ _ V rp ipaPP _ _ _ => toy_rangeChallenges_ne _ V rp ipaPP,
      fun _ _ => ⟨toy_sum_challenges _ _, toy_poe_challenges _ _⟩⟩
  exact ⟨pp, lp, _, V, W, c, c + 1, h, h1, h2, rfl, h3, fun hc => one_ne_zero (α := Zr) (by linear_combination -hc),
    rfl, h4⟩

end PoL.Props

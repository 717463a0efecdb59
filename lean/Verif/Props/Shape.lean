import Verif.Proofs.Cut
import Verif.Props.ProofSize
import Verif.Props.Generators

/-!
# C96: whether `Verify` answers depends on the lengths of a proof's lists, not on what is in them
-/

set_option linter.unusedSectionVars false

namespace PoL.Props

open BP Spec Verkle Pol

variable {G1 G2 GT : Type} [AddCommGroup G1] [Module Zr G1] [AddCommGroup G2] [Module Zr G2]
  [AddCommGroup GT] [Module Zr GT] [DecidableEq G1] [DecidableEq GT]

/-- The statement that `Verify` checks the equality proof against has one entry for every pair of layers after padding. -/
theorem pathEqualities_sizes (E : Curve G1 G2 GT) (pp : PublicParams G1 G2 GT) (path : List ℕ) (V : List G1) (zero : G1)
    (M : ℕ) (hp : 1 ≤ path.length) (hV : path.length ≤ V.length) (hM : path.length - 1 ≤ M) :
    let e := pathEqualities E pp path V zero (M - (path.length - 1))
    e.V.length = M ∧ e.W.length = M ∧ e.I.length = M ∧ e.J.length = M := by
  simp only [pathEqualities, List.length_append, List.length_take, List.length_drop, List.length_replicate]
  omega

/-- **C96.** Let the parameters be for fan-out `F = 2^k - 1` and paths of length `L`, let `2^κ` be the padded number of pairs
of layers, and let the path of the identifier fit.  Then `Verify` returns a verdict on every proof that has enough entries in
its lists: no choice of points and scalars, of the root, or of the `W`s and digests, makes it panic. -/
theorem C96_long_enough_is_answered {E : Curve G1 G2 GT} (hE : E.Lawful) {α : Zr} {F L : ℕ} {pp : PublicParams G1 G2 GT}
    (hpp : Fits E α F L pp) (k κ : ℕ) (hk : F + 1 = 2 ^ k) (hκ : IsPadded (L - 1) (2 ^ κ)) (id2path : Str → Option (List ℕ))
    (id : Str) (path : List ℕ) (hp : id2path id = some path) (hL : path.length = L) (hF : ∀ c ∈ path, c ≤ F)
    (lp : LiabilityProof G1) (hs : ProofShape k κ L lp) (V W : G1) :
    ∃ b, lp.verify E pp id V W id2path = some b := by
  have hL2 := hpp.depth
  obtain ⟨k', hk1, hk2, hk'⟩ := hpp.power
  obtain rfl : k' = k := Nat.pow_right_injective le_rfl (by simpa using hk'.symm.trans hk)
  have hG1 : pp.PPPP.G1s.length = 2 * (F + 2) := by rw [hpp.PPPP, PP.new_G1s_length E α _ (by omega)]
  have hsV := hs.V
  unfold LiabilityProof.verify
  refine Exists.imp (fun _ h => obind_step hp h) ?_
  split_ifs with h0
  · exact ⟨_, rfl⟩
  rw [not_or, not_not, not_not] at h0
  have hV0 : lp.V[0]? = some (lp.V[0]'(by omega)) := List.getElem?_eq_getElem _
  have hW0 : lp.W[0]? = some (lp.W[0]'(by omega)) := List.getElem?_eq_getElem _
  refine Exists.imp (fun _ h => obind_step hV0 h) ?_
  split_ifs with h1
  · exact ⟨_, rfl⟩
  refine Exists.imp (fun _ h => obind_step hW0 h) ?_
  split_ifs with h2
  · exact ⟨_, rfl⟩
  have hR : ∀ i < path.length, ∃ rp, lp.rangeProofs[i]? = some rp ∧ ∀ V, ∃ b, verifyRange E pp.RPPP rp V = some b := by
    intro i hi
    have hi' : i < lp.rangeProofs.length := by have := hs.rangeProofs; omega
    refine ⟨_, List.getElem?_eq_getElem hi', fun V => ?_⟩
    refine verifyRange_returns E hE pp.RPPP k' (by omega) hk2 ?_ ?_ ?_ _ V (hs.ranges _ ?_)
    · rw [hpp.rp_Gs, List.length_take, hG1]; omega
    · rw [hpp.rp_Hs, hk]
    · rw [hpp.rp_Fs, hk]
    · rw [List.mem_take_iff_getElem]
      exact ⟨i, by omega, rfl⟩
  obtain ⟨r, hr⟩ := verifyLoop_returns E hE lp pp path.length (by omega) (by omega) h0.1 h0.2 hR path.length 0 false (by omega)
  refine Exists.imp (fun _ h => obind_step hr h) ?_
  cases r with
  | none => exact ⟨_, rfl⟩
  | some err =>
    dsimp only
    obtain ⟨b1, hb1⟩ := verifyAggregation_returns E hE α (F + 2) (path.take (path.length - 1))
      (fun i hi => by have := hF i (List.mem_of_mem_take hi); omega)
      (List.ne_nil_of_length_pos (by rw [List.length_take]; omega)) lp.W (by rw [List.length_take]; omega)
      lp.pointProof lp.pointProofSum
    rw [← hpp.PPPP] at hb1
    refine Exists.imp (fun _ h => obind_step hb1 h) ?_
    cases b1
    · exact ⟨_, rfl⟩
    rw [if_neg (by simp)]
    have hsum : lp.sumArgumentProof.verifyAggregated E pp.SAPP lp.V ≠ none := by
      rw [ne_eq, Sum.verifyAggregated_none_iff E hE pp.SAPP k' (by rw [hpp.sa_Gs, List.length_take, hG1]; omega)
        (by rw [hpp.sa_H, hk])]
      have := hs.sum
      rw [not_or]
      exact ⟨List.ne_nil_of_length_pos (by omega), by omega⟩
    obtain ⟨b2, hb2⟩ := Option.ne_none_iff_exists'.1 hsum
    refine Exists.imp (fun _ h => obind_step hb2 h) ?_
    cases b2
    · exact ⟨_, rfl⟩
    rw [if_neg (by simp)]
    have hc := PP.commit_eq_dot E α (F + 2) (List.replicate (pp.fanout + 2) (intToZr 0))
      (by rw [List.length_replicate, hpp.fanout]) (by omega)
    rw [← hpp.PPPP] at hc
    obtain ⟨zero, hc⟩ : ∃ z, pp.PPPP.commit (List.replicate (pp.fanout + 2) (intToZr 0)) = some z := ⟨_, hc⟩
    obtain ⟨M, hpad, hM⟩ := padLoop_spec (m := path.length - 1) (by omega) (by
      obtain ⟨j, -, j2, hj⟩ := hκ.1
      have := hκ.2.1
      have h15 : 2 ^ j ≤ 2 ^ 15 := Nat.pow_le_pow_right (by norm_num) j2
      rw [hL]
      omega)
    have hMκ : M = 2 ^ κ := by
      rw [hL] at hM
      exact isPadded_unique hM hκ
    subst hMκ
    have hMle := hM.2.1
    obtain ⟨M', hM', hPG, hPH⟩ := hpp.poe_size
    obtain rfl : M' = 2 ^ κ := isPadded_unique hM' hκ
    refine Exists.imp (fun _ h => obind_step hc (obind_step hpad (obind_step
      (equalitiesOf_eq E pp path lp.V _ _ (by omega) (by omega)) h))) ?_
    rw [show (((2 ^ κ : ℕ) : ℤ) - (path.length - 1 : ℕ)).toNat = 2 ^ κ - (path.length - 1) by omega]
    obtain ⟨e1, e2, e3, e4⟩ := pathEqualities_sizes E pp path lp.V zero (2 ^ κ) (by omega) (by omega) hMle
    obtain ⟨b3, hb3⟩ := Poe.equalities_returns E hE (pathEqualities E pp path lp.V zero (2 ^ κ - (path.length - 1)))
      lp.equalityProof α (F + 2) κ (by omega) (by rw [pathEqualities, hpp.poe_vc, hpp.PPPP]) rfl e1 e2 e3 e4
      (by
        intro i hi
        rcases List.mem_append.1 hi with hi | hi
        · have := hF i (List.mem_of_mem_take hi); omega
        · rw [(List.mem_replicate.1 hi).2]; omega)
      (by
        intro i hi
        rcases List.mem_append.1 hi with hi | hi
        · rw [(List.mem_replicate.1 hi).2, hpp.fanout]; omega
        · rw [(List.mem_replicate.1 hi).2]; omega) hPG hPH hs.equalities
    refine Exists.imp (fun _ h => obind_step hb3 h) ?_
    cases b3
    · exact ⟨_, rfl⟩
    rw [if_neg (by simp)]
    split_ifs
    · exact ⟨_, rfl⟩
    · have hVne : lp.V ≠ [] := List.ne_nil_of_length_pos (by omega)
      have hpne : path ≠ [] := List.ne_nil_of_length_pos (by omega)
      refine Exists.imp (fun _ h => obind_step (List.getLast?_eq_some_getLast hVne) (obind_step
        (List.getLast?_eq_some_getLast hpne) h)) ?_
      rw [hpp.PPPP]
      have := hF _ (List.getLast_mem hpne)
      exact ⟨_, PP.verify_eq E hE α (F + 2) _ _ _ _ (by omega)⟩

/-- **C96**, conversely: a proof that `Verify` accepts has enough entries in all of its lists. -/
theorem C96_accepted_is_long_enough {E : Curve G1 G2 GT} (hE : E.Lawful) {α : Zr} {F L : ℕ} {pp : PublicParams G1 G2 GT}
    (hpp : Fits E α F L pp) (k κ : ℕ) (hk : F + 1 = 2 ^ k) (hκ : IsPadded (L - 1) (2 ^ κ)) (id2path : Str → Option (List ℕ))
    (id : Str) (path : List ℕ) (hp : id2path id = some path) (hL : path.length = L)
    (lp : LiabilityProof G1) (V W : G1) (h : lp.verify E pp id V W id2path = some true) : ProofShape k κ L lp := by
  have hL2 := hpp.depth
  obtain ⟨k', hk1, hk2, hk'⟩ := hpp.power
  obtain rfl : k' = k := Nat.pow_right_injective le_rfl (by simpa using hk'.symm.trans hk)
  have hG1 : pp.PPPP.G1s.length = 2 * (F + 2) := by rw [hpp.PPPP, PP.new_G1s_length E α _ (by omega)]
  obtain ⟨path', hp', hacc⟩ := (verify_iff E lp pp id V W id2path).1 h
  obtain rfl : path = path' := Option.some.inj (hp.symm.trans hp')
  have hRl : L ≤ lp.rangeProofs.length := by
    obtain ⟨rp, C, h1, -⟩ := hacc.range_proofs (path.length - 1) (by omega)
    obtain ⟨h1, -⟩ := List.getElem?_eq_some_iff.1 h1
    omega
  have hVl := hacc.len_V
  refine ⟨by omega, hRl, fun rp hrp => ?_, ?_, ?_⟩
  · rw [List.mem_take_iff_getElem] at hrp
    obtain ⟨i, hi, rfl⟩ := hrp
    obtain ⟨rp, C, h1, -, h3⟩ := hacc.range_proofs i (by omega)
    rw [List.getElem?_eq_getElem (by omega), Option.some.injEq] at h1
    rw [h1]
    refine verifyRange_shape E hE pp.RPPP k' (by omega) hk2 ?_ ?_ ?_ _ _ h3
    · rw [hpp.rp_Gs, List.length_take, hG1]; omega
    · rw [hpp.rp_Hs, hk]
    · rw [hpp.rp_Fs, hk]
  · have := (Sum.verifyAggregated_none_iff E hE pp.SAPP k' (by rw [hpp.sa_Gs, List.length_take, hG1]; omega)
        (by rw [hpp.sa_H, hk]) lp.sumArgumentProof lp.V).not.1 (by rw [hacc.sum_argument]; simp)
    rw [not_or] at this
    omega
  · obtain ⟨zero, padded, -, hpad, heq⟩ := hacc.equalities
    obtain ⟨M, hpad', hM⟩ := padLoop_spec (m := path.length - 1) (by omega) (by
      obtain ⟨j, -, j2, hj⟩ := hκ.1
      have := hκ.2.1
      have h15 : 2 ^ j ≤ 2 ^ 15 := Nat.pow_le_pow_right (by norm_num) j2
      rw [hL]
      omega)
    have hMκ : M = 2 ^ κ := by
      rw [hL] at hM
      exact isPadded_unique hM hκ
    subst hMκ
    have hMle := hM.2.1
    obtain ⟨M', hM', hPG, hPH⟩ := hpp.poe_size
    obtain rfl : M' = 2 ^ κ := isPadded_unique hM' hκ
    obtain rfl : ((2 ^ κ : ℕ) : ℤ) = padded := Option.some.inj (hpad'.symm.trans hpad)
    rw [show (((2 ^ κ : ℕ) : ℤ) - (path.length - 1 : ℕ)).toNat = 2 ^ κ - (path.length - 1) by omega] at heq
    obtain ⟨e1, e2, e3, e4⟩ := pathEqualities_sizes E pp path lp.V zero (2 ^ κ) (by omega) (by omega) hMle
    exact Poe.equalities_shape E hE _ _ κ e1 e2 hPG hPH heq

/-- **C96**, the parts.  The verifiers of the inner-product argument and of the sum argument panic exactly on too few rounds
of folding (and `VerifyAggregated` on no commitments at all); `IterativeVerify` and `VerifyRange` answer if there are enough
rounds, whatever is in them. -/
theorem C96_parts (E : Curve G1 G2 GT) (hE : E.Lawful) (k : ℕ) :
    (∀ (pp : BP.PP G1) (π : InnerProductProof G1), pp.G.length = 2 ^ k → pp.H.length = 2 ^ k →
      (π.verify E pp = none ↔ π.LRs.length < 2 * k)) ∧
    (∀ (pp : Sum.PP G1) (p : Sum.Proof G1) (a : Sum.Argument G1), pp.Gs.length = 2 ^ k → pp.H.length = 2 ^ k →
      (p.verify E pp a = none ↔ p.π.LRs.length < 2 * k)) ∧
    (∀ (pp : Sum.PP G1) (p : Sum.Proof G1) (V : List G1), pp.Gs.length = 2 ^ k → pp.H.length = 2 ^ k →
      (p.verifyAggregated E pp V = none ↔ V = [] ∨ p.π.LRs.length < 2 * k)) ∧
    (1 ≤ k → k ≤ 15 → ∀ (pp : BP.PP G1) (V : G1) (Δ : List (G1 × G1 × G1)) (u : Zr), pp.G.length = 2 ^ k → k ≤ Δ.length →
      ∃ r, iterativeVerify E pp V Δ u = some r) ∧
    (1 ≤ k → k ≤ 15 → ∀ (pp : RPPP G1) (rp : RangeProof G1) (V : G1), pp.Gs.length = 2 ^ k → pp.Hs.length = 2 ^ k * 64 →
      pp.Fs.length = 2 ^ k * 64 → RangeShape k rp → ∃ b, verifyRange E pp rp V = some b) := by
  refine ⟨fun pp π hG hH => ipp_none_iff E hE pp k hG hH π, fun pp p a hG hH => Sum.verify_none_iff E hE pp k hG hH p a,
    fun pp p V hG hH => Sum.verifyAggregated_none_iff E hE pp k hG hH p V, fun hk1 hk2 pp V Δ u hG hΔ => ?_,
    fun hk1 hk2 pp rp V hGs hHs hFs hs => verifyRange_returns E hE pp k hk1 hk2 hGs hHs hFs rp V hs⟩
  rcases iterativeVerify_returns E hE pp k hk1 hk2 hG V Δ hΔ u with h | ⟨xs, -, h⟩ <;> exact ⟨_, h⟩

/-- **C96**: what `ProveLiability` returns is long enough, and stays so whatever its points and scalars are replaced with;
it has nothing to spare. -/
theorem C96_honest_is_long_enough {E : Curve G1 G2 GT} (hE : E.Lawful) {env : Env} (henv : env.Lawful) {α : Zr} {F L : ℕ}
    {ls ls' : LiabilitySet G1 G2 GT} (h : NewSet E α F L ls) (hist : List (Str × ℤ))
    (hids : ValidIds ls.tree.id2Path F L hist) (hr : ls.sets E env hist = some ls') (id : Str) (p : List ℕ)
    (hp : ls.tree.id2Path id = some p) (hw : p ∈ (byPath ls.tree.id2Path hist).map Prod.fst) (rnd : ProveRand) (m : ℤ)
    (lp : LiabilityProof G1) (hpr : ls'.proveLiability E env rnd id = some (some (m, lp))) (k κ : ℕ) (hk : F + 1 = 2 ^ k)
    (hκ : IsPadded (L - 1) (2 ^ κ)) : ProofShape k κ L lp ∧ NoSurplus k κ L lp := by
  obtain ⟨q1, q2, q3, q4, q5, q6, q7, q8, q9⟩ := liability_proof_lengths hE henv h hist hids hr id p hp hw rnd m lp hpr k κ hk hκ
  refine ⟨⟨by omega, by omega, fun rp hrp => ?_, by omega, ⟨by omega, by omega, by omega⟩⟩,
    ⟨by omega, by omega, fun rp hrp => ?_, by omega, by omega, by omega, by omega⟩⟩
  · obtain ⟨e1, e2⟩ := q5 rp (List.mem_of_mem_take hrp)
    exact ⟨by omega, by omega⟩
  · obtain ⟨e1, e2⟩ := q5 rp hrp
    exact ⟨by omega, by omega⟩

/-- **C96**: an accepted proof without surplus entries, with any of its lists cut off at the end (other than the `W`s and the
digests, whose numbers `Verify` checks), makes `Verify` panic. -/
theorem C96_cut_panics {E : Curve G1 G2 GT} (hE : E.Lawful) {α : Zr} {F L : ℕ} {pp : PublicParams G1 G2 GT}
    (hpp : Fits E α F L pp) (k κ : ℕ) (hk : F + 1 = 2 ^ k) (hκ : IsPadded (L - 1) (2 ^ κ)) (id2path : Str → Option (List ℕ))
    (id : Str) (path : List ℕ) (hp : id2path id = some path) (hL : path.length = L) (lp lp' : LiabilityProof G1) (V W : G1)
    (h : lp.verify E pp id V W id2path = some true) (hs : NoSurplus k κ L lp) (hc : Cut lp lp') (hne : lp' ≠ lp) :
    lp'.verify E pp id V W id2path = none := by
  have hL2 := hpp.depth
  have hsh := C96_accepted_is_long_enough hE hpp k κ hk hκ id2path id path hp hL lp V W h
  obtain ⟨k', hk1, hk2, hk'⟩ := hpp.power
  obtain rfl : k' = k := Nat.pow_right_injective le_rfl (by simpa using hk'.symm.trans hk)
  have hG1 : pp.PPPP.G1s.length = 2 * (F + 2) := by rw [hpp.PPPP, PP.new_G1s_length E α _ (by omega)]
  have hrGs : pp.RPPP.Gs.length = 2 ^ k' := by rw [hpp.rp_Gs, List.length_take, hG1]; omega
  have hrHs : pp.RPPP.Hs.length = 2 ^ k' * 64 := by rw [hpp.rp_Hs, hk]
  have hrFs : pp.RPPP.Fs.length = 2 ^ k' * 64 := by rw [hpp.rp_Fs, hk]
  obtain ⟨path', hp', hacc⟩ := (verify_iff E lp pp id V W id2path).1 h
  obtain rfl : path = path' := Option.some.inj (hp.symm.trans hp')
  have eW : lp'.W = lp.W := by rw [hc.same]
  have eD : lp'.digests = lp.digests := by rw [hc.same]
  have ePP : lp'.pointProof = lp.pointProof := by rw [hc.same]
  have ePS : lp'.pointProofSum = lp.pointProofSum := by rw [hc.same]
  have hVget : ∀ (i : ℕ) C, lp'.V[i]? = some C → lp.V[i]? = some C := by
    intro i C hC
    obtain ⟨t, ht⟩ := hc.V
    obtain ⟨hi, -⟩ := List.getElem?_eq_some_iff.1 hC
    rw [← ht, List.getElem?_append_left hi, hC]
  unfold LiabilityProof.verify
  refine obind_step hp ?_
  rw [if_neg (by rw [eW, eD, not_or, not_not, not_not]; exact ⟨hacc.len_W, hacc.len_digests⟩)]
  rcases hV0 : lp'.V[0]? with _ | C
  · rfl
  have := hVget 0 C hV0
  rw [hacc.root_V, Option.some.injEq] at this
  subst this
  refine obind_step rfl ?_
  rw [if_neg (by simp)]
  refine obind_step (by rw [eW]; exact hacc.root_W) ?_
  rw [if_neg (by simp)]
  by_cases hall : ∀ j < L, RoundOk E pp lp' L j
  · -- the loop is passed: the layers are untouched
    have eV : lp'.V = lp.V := by
      have h1 := (hall (L - 2) (by omega)).1 (by omega)
      have h2 := hs.V
      exact hc.V.eq_of_length_le (by omega)
    have eR : lp'.rangeProofs = lp.rangeProofs := by
      have hl' : L ≤ lp'.rangeProofs.length := by
        obtain ⟨rp, C, h1, -⟩ := (hall (L - 1) (by omega)).2.1
        obtain ⟨h1, -⟩ := List.getElem?_eq_some_iff.1 h1
        omega
      have h1 := hs.rangeProofs
      have h2 := hc.rangeProofs
      refine List.ext_getElem (by omega) fun i h3 h4 => ?_
      have g1 := List.getElem?_eq_getElem h4
      have g2 := List.getElem?_eq_getElem h3
      obtain ⟨c1, c2, c3⟩ := hc.ranges i _ _ g1 g2
      obtain ⟨rp, C, r1, -, r3⟩ := (hall i (by omega)).2.1
      rw [g2, Option.some.injEq] at r1
      rw [← r1] at r3
      obtain ⟨s1, s2⟩ := verifyRange_shape E hE pp.RPPP k' (by omega) hk2 hrGs hrHs hrFs _ _ r3
      obtain ⟨b1, b2⟩ := hs.ranges _ (List.getElem_mem h4)
      rw [c2.eq_of_length_le (by omega), c3.eq_of_length_le (by omega)] at c1
      exact c1
    have hloop : lp'.verifyLoop E pp path.length 0 path.length false = some (some false) := by
      rw [verifyLoop_iff, hL]
      exact fun j _ hj => hall j (by omega)
    refine obind_step hloop ?_
    dsimp only
    rw [eW, ePP, ePS, eV]
    refine obind_step hacc.point_proof ?_
    rw [if_neg (by simp)]
    have hsa : ∀ p : Sum.Proof G1, p.verifyAggregated E pp.SAPP lp.V = none ↔ lp.V = [] ∨ p.π.LRs.length < 2 * k' :=
      fun p => Sum.verifyAggregated_none_iff E hE pp.SAPP k' (by rw [hpp.sa_Gs, List.length_take, hG1]; omega)
        (by rw [hpp.sa_H, hk]) p lp.V
    rcases prefix_eq_or_lt hc.sum with eS | hlt
    swap
    · refine obind_none ?_
      rw [hsa]
      have := hs.sum
      exact Or.inr (by omega)
    have eSum : lp'.sumArgumentProof = lp.sumArgumentProof := by rw [hc.same, eS]
    rw [eSum]
    refine obind_step hacc.sum_argument ?_
    rw [if_neg (by simp)]
    obtain ⟨zero, padded, hzero, hpad, heq⟩ := hacc.equalities
    have hz : intToZr 0 = 0 := by simp [intToZr]
    refine obind_step (by rw [hz]; exact hzero) (obind_step hpad
      (obind_step (equalitiesOf_eq E pp path lp.V zero _ hacc.len_V (by omega)) (obind_none ?_)))
    obtain ⟨M, hpad', hM⟩ := padLoop_spec (m := path.length - 1) (by omega) (by
      obtain ⟨j, -, j2, hj⟩ := hκ.1
      have := hκ.2.1
      have h15 : 2 ^ j ≤ 2 ^ 15 := Nat.pow_le_pow_right (by norm_num) j2
      rw [hL]
      omega)
    have hMκ : M = 2 ^ κ := by
      rw [hL] at hM
      exact isPadded_unique hM hκ
    subst hMκ
    have hMle := hM.2.1
    obtain ⟨M', hM', hPG, hPH⟩ := hpp.poe_size
    obtain rfl : M' = 2 ^ κ := isPadded_unique hM' hκ
    obtain rfl : ((2 ^ κ : ℕ) : ℤ) = padded := Option.some.inj (hpad'.symm.trans hpad)
    rw [show (((2 ^ κ : ℕ) : ℤ) - (path.length - 1 : ℕ)).toNat = 2 ^ κ - (path.length - 1) by omega] at heq ⊢
    obtain ⟨e1, e2, e3, e4⟩ := pathEqualities_sizes E pp path lp.V zero (2 ^ κ) (by omega) hacc.len_V hMle
    rcases prefix_eq_or_lt hc.Vaggr with eVa | hlt
    swap
    · refine Poe.equalities_short E _ _ (Or.inl ?_)
      have := hs.Vaggr
      rw [e1]
      omega
    rcases prefix_eq_or_lt hc.Waggr with eWa | hlt
    swap
    · refine Poe.equalities_short E _ _ (Or.inr ?_)
      have := hs.Waggr
      rw [e2]
      omega
    rcases prefix_eq_or_lt hc.folding with eF | hlt
    · exact absurd (by rw [hc.same, eV, eR, eS, eVa, eWa, eF]) hne
    · have eE : lp'.equalityProof = { lp.equalityProof with
          IPP := { lp.equalityProof.IPP with LRs := lp'.equalityProof.IPP.LRs } } := by
        conv_lhs => rw [hc.same]
        rw [eVa, eWa]
      rw [eE]
      have := hs.folding
      exact Poe.equalities_cut E hE _ _ κ hPG hPH heq _ (by omega)
  · -- some round is not passed: the first such round panics
    refine obind_none ?_
    push Not at hall
    classical
    obtain ⟨hj, hjbad⟩ := Nat.find_spec hall
    have hmin : ∀ i < Nat.find hall, RoundOk E pp lp' L i := by
      intro i hi
      by_contra hno
      exact Nat.find_min hall hi ⟨by omega, hno⟩
    generalize Nat.find hall = j at hj hjbad hmin
    rw [hL]
    refine verifyLoop_stuck E lp' pp L j ?_ j 0 L (by omega) hj fun i' _ h2 => hmin i' h2
    by_contra hgood
    simp only [not_or, not_exists, not_and] at hgood
    obtain ⟨g1, g2, g3, g4⟩ := hgood
    obtain ⟨rp', hrp'⟩ := Option.ne_none_iff_exists'.1 g2
    obtain ⟨C, hC⟩ := Option.ne_none_iff_exists'.1 g3
    obtain ⟨rp, C', hrp, hC', hv⟩ := hacc.range_proofs j (by omega)
    have hCC := hVget j C hC
    rw [hC', Option.some.injEq] at hCC
    subst hCC
    by_cases hrr : rp' = rp
    · refine hjbad ⟨fun h1 => by by_contra h2; exact g1 h1 (by omega), ⟨rp', C', hrp', hC, by rw [hrr]; exact hv⟩, fun h1 => ?_,
        fun h1 h2 => ?_⟩
      · rw [checkLeaf_iff]
        obtain ⟨D, d, l1, l2, l3⟩ := hacc.leaf_digest
        rw [show path.length - 1 = j by omega, hC', Option.some.injEq] at l1
        subst l1
        refine ⟨by omega, C', d, hC, ?_, l3⟩
        rw [eD, show j - 1 = path.length - 2 by omega]
        exact l2
      · rw [checkInner_iff]
        obtain ⟨D, D', d, l1, l2, l3, l4⟩ := hacc.inner_digests j h2 (by omega)
        rw [hC', Option.some.injEq] at l1
        subst l1
        exact ⟨h2, C', D', d, hC, by rw [eW]; exact l2, by rw [eD]; exact l3, l4⟩
    · obtain ⟨b1, b2⟩ := hs.ranges rp (List.mem_of_getElem? hrp)
      exact g4 rp' C' hrp' hC (verifyRange_cut E hE pp.RPPP k' (by omega) hk2 hrGs hrHs hrFs rp rp' C' hv b1 b2
        (hc.ranges j rp rp' hrp hrp') hrr)

/-- The hypotheses of C96 are met: in a set with three identifiers, the proof for one of them is accepted; with its
commitments, digests and point proof replaced by zero it is answered; with the last commitment missing, `Verify` panics. -/
example : ∃ (ls ls' : LiabilitySet Zr Zr Zr) (lp : LiabilityProof Zr) (V W : Zr), ls.sets toyCurve toyEnv toyHist = some ls' ∧
    ls'.proveLiability toyCurve toyEnv toyRand ['2', '2', '1'] = some (some (7, lp)) ∧
    lp.verify toyCurve ls.pp ['2', '2', '1'] V W ls.tree.id2Path = some true ∧
    (∃ b, { lp with V := lp.V.map fun _ => 0, pointProof := 0, digests := lp.digests.map fun _ => 0 }.verify toyCurve ls.pp
      ['2', '2', '1'] V W ls.tree.id2Path = some b) ∧
    { lp with V := lp.V.take 2 }.verify toyCurve ls.pp ['2', '2', '1'] V W ls.tree.id2Path = none := by
  obtain ⟨ls, h, ht⟩ := toy_set
  have hids : ValidIds ls.tree.id2Path 3 3 toyHist := by rw [ht]; exact toyHist_valid
  have h42 : totalAmount (byPath ls.tree.id2Path toyHist) = 42 := by rw [ht]; decide
  have h7 : latest (byPath ls.tree.id2Path toyHist) [2, 2, 1] = 7 := by rw [ht]; decide
  have hp : ls.tree.id2Path ['2', '2', '1'] = some [2, 2, 1] := by rw [ht]; rfl
  obtain ⟨ls', hs⟩ := C43_sets_return toyCurve_lawful toyEnv_lawful h toyHist hids (by decide)
  obtain ⟨lp, x, W, h1, h2, -, -, h4⟩ := C47_liability_proof_verifies_partial toyCurve_lawful toyEnv_lawful h toyHist hids hs
    (by rw [h42]; norm_num) ['2', '2', '1'] [2, 2, 1] hp (by rw [ht]; decide) (by rw [ht]; decide) toyRand
    toyRand_sized (toy_challenges _ _ _)
  rw [h7] at h1
  have hκ : IsPadded (3 - 1) (2 ^ 1) := ⟨⟨1, by norm_num, by norm_num, rfl⟩, by norm_num,
    fun i hi _ => le_self_pow₀ (by norm_num) (by omega)⟩
  obtain ⟨s1, s2⟩ := C96_honest_is_long_enough toyCurve_lawful toyEnv_lawful h toyHist hids hs ['2', '2', '1'] [2, 2, 1]
    hp (by rw [ht]; decide) toyRand 7 lp h1 2 1 rfl hκ
  refine ⟨ls, ls', lp, _, _, hs, h1, h4, ?_, ?_⟩
  · refine C96_long_enough_is_answered toyCurve_lawful h.pp 2 1 rfl hκ _ _ [2, 2, 1] hp rfl (by decide) _ ?_ _ _
    exact ⟨by simpa using s1.V, s1.rangeProofs, s1.ranges, s1.sum, s1.equalities⟩
  · refine C96_cut_panics toyCurve_lawful h.pp 2 1 rfl hκ _ _ [2, 2, 1] hp rfl lp _ _ _ h4 s2 ?_ ?_
    · exact ⟨rfl, List.take_prefix _ _, le_rfl, fun i rp rp' g1 g2 => by
        rw [g1, Option.some.injEq] at g2
        subst g2
        exact ⟨rfl, List.prefix_rfl, List.prefix_rfl⟩, List.prefix_rfl, List.prefix_rfl, List.prefix_rfl, List.prefix_rfl⟩
    · intro he
      have := congrArg (fun l => l.V.length) he
      have hV := s1.V
      simp only [List.length_take] at this
      omega

end PoL.Props

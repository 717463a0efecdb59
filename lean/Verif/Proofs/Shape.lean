import Verif.Spec.Shape
import Verif.Spec.PolParams
import Verif.Proofs.PolVerify
import Verif.Proofs.PolParams
import Verif.Proofs.RangeLink
import Verif.Proofs.IterReduce
import Verif.Proofs.Sum
import Verif.Proofs.Poe

/-!
# Verification returns a verdict on every proof that is long enough
-/

set_option linter.unusedSectionVars false

namespace PoL.BP
open Spec

variable {G1 G2 GT : Type} [AddCommGroup G1] [Module Zr G1] [AddCommGroup G2] [Module Zr G2]
  [AddCommGroup GT] [Module Zr GT] [DecidableEq G1] [DecidableEq GT]

theorem verifyLoop_none_iff (E : Curve G1 G2 GT) (hE : E.Lawful) (pp : BP.PP G1) (a b : Zr) (k : ℕ) :
    ∀ (P : G1) (g h LRs : List G1), g.length = 2 ^ k → h.length = 2 ^ k →
    (verifyLoop E pp P g h LRs a b = none ↔ LRs.length < 2 * k) := by
  induction k with
  | zero =>
    intro P g h LRs hg hh
    obtain ⟨g0, rfl⟩ := List.length_eq_one_iff.1 hg
    obtain ⟨h0, rfl⟩ := List.length_eq_one_iff.1 hh
    rw [verifyLoop.eq_def, if_pos (List.length_singleton)]
    simp
  | succ k ih =>
    intro P g h LRs hg hh
    have h1 : g.length ≠ 1 := by
      rw [hg, pow_succ]
      have : 0 < 2 ^ k := by positivity
      omega
    rw [pow_succ, mul_comm] at hg hh
    match LRs with
    | [] => rw [verifyLoop.eq_def, if_neg h1]; simp
    | [_] => rw [verifyLoop.eq_def, if_neg h1]; simp; omega
    | L :: R :: t =>
      obtain ⟨x, hx⟩ := fieldElementFromBytes_isSome (hE.sha_len (E.g1Bytes L ++ E.g1Bytes R ++ pp.digest))
      have hx' : fieldElementFromBytes (randomOracle E L R pp.digest) = some x := hx
      rw [verifyLoop_step E pp P L R g h t a b (2 ^ k) (by positivity) hg hh x hx',
        ih _ _ _ t (foldG_length hg) (foldG_length hh)]
      simp only [List.length_cons]
      omega

/-- The inner-product verifier panics exactly on too few rounds. -/
theorem ipp_none_iff (E : Curve G1 G2 GT) (hE : E.Lawful) (pp : BP.PP G1) (k : ℕ)
    (hG : pp.G.length = 2 ^ k) (hH : pp.H.length = 2 ^ k) (π : InnerProductProof G1) :
    π.verify E pp = none ↔ π.LRs.length < 2 * k := by
  obtain ⟨x, hx⟩ := fieldElementFromBytes_isSome (hE.sha_len (instanceHashInput pp π.P))
  obtain ⟨d, hd⟩ := computeInstance_eq E pp π.P π.C (Or.inr (by omega)) x hx
  rw [InnerProductProof.verify, hd]
  exact verifyLoop_none_iff E hE _ π.a π.b k _ _ _ _ hG hH

theorem ipp_returns (E : Curve G1 G2 GT) (hE : E.Lawful) (pp : BP.PP G1) (k : ℕ)
    (hG : pp.G.length = 2 ^ k) (hH : pp.H.length = 2 ^ k) (π : InnerProductProof G1) (h : 2 * k ≤ π.LRs.length) :
    ∃ b, π.verify E pp = some b := by
  rw [← Option.isSome_iff_exists, Option.isSome_iff_ne_none, ne_eq, ipp_none_iff E hE pp k hG hH]
  omega

theorem iterVerifyLoop_returns (E : Curve G1 G2 GT) (hE : E.Lawful) (digest : Bytes) (u : Zr) (j : ℕ) :
    ∀ (G : List G1) (V : G1) (Δ : List (G1 × G1 × G1)) (fV : Option G1) (ys : List Zr),
      G.length = 2 ^ j → j ≤ Δ.length → (j = 0 → fV ≠ none) →
      iterVerifyLoop E digest u (2 ^ j / 2) G V Δ fV ys = some none ∨
      ∃ xs, xs.length = j ∧ iterVerifyLoop E digest u (2 ^ j / 2) G V Δ fV ys = some (some (ys ++ xs, u)) := by
  induction j with
  | zero =>
    intro G V Δ fV ys hG _ hf
    obtain ⟨g0, rfl⟩ := List.length_eq_one_iff.1 hG
    obtain ⟨w, rfl⟩ := Option.ne_none_iff_exists'.1 (hf rfl)
    rw [iterVerifyLoop.eq_def]
    by_cases h : u • g0 = w
    · right; exact ⟨[], rfl, by simp [h]⟩
    · left; simp [h]
  | succ j ih =>
    intro G V Δ fV ys hG hΔ _
    have h2 : 2 ^ (j + 1) / 2 = 2 ^ j := by rw [pow_succ]; omega
    rw [pow_succ, mul_comm] at hG
    match Δ, hΔ with
    | (A, B, V') :: Δ, hΔ =>
      obtain ⟨x, hx⟩ := irChallenge_isSome E hE digest A B V
      rw [h2, iterVerifyLoop_step E digest u (2 ^ j) (by positivity) G hG V A B V' Δ fV ys x hx]
      split_ifs
      · rcases ih (foldG 1 x⁻¹ (2 ^ j) G) V' Δ (some V') (ys ++ [x]) (foldG_length hG) (by simpa using hΔ) (by simp)
          with h | ⟨xs, hl, h⟩
        · exact Or.inl h
        · exact Or.inr ⟨x :: xs, by simp [hl], by rw [h, List.append_assoc]; rfl⟩
      · exact Or.inl rfl

theorem iterativeVerify_returns (E : Curve G1 G2 GT) (hE : E.Lawful) (pp : BP.PP G1) (k : ℕ)
    (hk1 : 1 ≤ k) (hk2 : k ≤ 15) (hG : pp.G.length = 2 ^ k) (V : G1) (Δ : List (G1 × G1 × G1))
    (hΔ : k ≤ Δ.length) (u : Zr) :
    iterativeVerify E pp V Δ u = some none ∨ ∃ xs, xs.length = k ∧ iterativeVerify E pp V Δ u = some (some (xs, u)) := by
  have h : iterativeVerify E pp V Δ u = iterVerifyLoop E pp.digest u (2 ^ k / 2) pp.G V Δ none [] := by
    rw [iterativeVerify, hG, isPowerOfTwo_pow k hk1 hk2]; rfl
  rw [h]
  exact iterVerifyLoop_returns E hE pp.digest u k pp.G V Δ none [] hG hΔ (fun h => by omega)

theorem verifyRange_returns (E : Curve G1 G2 GT) (hE : E.Lawful) (pp : RPPP G1) (k : ℕ)
    (hk1 : 1 ≤ k) (hk2 : k ≤ 15) (hGs : pp.Gs.length = 2 ^ k) (hHs : pp.Hs.length = 2 ^ k * 64)
    (hFs : pp.Fs.length = 2 ^ k * 64) (rp : RangeProof G1) (V : G1) (hs : RangeShape k rp) :
    ∃ b, verifyRange E pp rp V = some b := by
  have hn : 0 < 2 ^ k := by positivity
  obtain ⟨x, hx⟩ : ∃ x, rangeProofRO1 E pp V rp.W rp.Q = some x := fieldElementFromBytes_isSome (hE.sha_len _)
  obtain ⟨d', U', hrdx⟩ := rangeRdxPP_eq E pp
  rcases iterativeVerify_returns E hE { digest := d', G := pp.Gs, H := [], U := U' } k hk1 hk2 hGs
    (rp.γ • pp.F + V + x • rp.W) rp.Δ hs.reduction rp.u with hfail | ⟨xs, lxs, hok⟩
  · have : verifyRangeState E pp rp V = some (false, rp) := by
      unfold verifyRangeState
      exact obind_step hx (obind_step hrdx (obind_step hfail rfl))
    exact ⟨false, by rw [verifyRange, this]; rfl⟩
  · obtain ⟨y0, hy0⟩ : ∃ y, rangeY E pp rp.Q rp.R x 0 = some y := fieldElementFromBytes_isSome (hE.sha_len _)
    obtain ⟨y1, hy1⟩ : ∃ y, rangeY E pp rp.Q rp.R x 1 = some y := fieldElementFromBytes_isSome (hE.sha_len _)
    obtain ⟨z, hz⟩ : ∃ z, computeZ E pp rp.C1 rp.C2 rp.Q rp.R (zrBytes y0) (zrBytes y1) = some z :=
      fieldElementFromBytes_isSome (hE.sha_len _)
    have hF : rangeF (2 ^ k) (Vec.reverse xs) = some ((List.range (2 ^ k)).map (bitMonomial xs.reverse)) := by
      have := rangeF_eq xs.reverse (by intro h; rw [List.reverse_eq_nil_iff] at h; rw [h] at lxs; simp at lxs; omega)
      rw [List.length_reverse, lxs] at this
      exact this
    have hD := computeD_eq 63 ((List.range (2 ^ k)).map (bitMonomial xs.reverse)) x
    rw [rangeWeights_eq, List.length_map, List.length_range] at hD
    obtain ⟨d, hd⟩ : ∃ d, d = (List.range (2 ^ k * 64)).map (rangeWeight (2 ^ k) xs.reverse x) := ⟨_, rfl⟩
    rw [← hd] at hD
    have ld : d.length = 2 ^ k * 64 := by simp [hd]
    obtain ⟨Fp, hFp, lFp⟩ : ∃ Fp, Gv.mulV pp.Fs (powerSeries pp.Fs.length y0⁻¹) = some Fp ∧ Fp.length = 2 ^ k * 64 :=
      ⟨_, Gv.mulV_eq (by simp), by simp [hFs]⟩
    obtain ⟨d'', U'', hipa⟩ := rangeIpaPP_eq E pp Fp (by omega)
    have hP := computeP_eq pp rp.ρ rp.Q rp.R z (Vec.mul (List.replicate (2 ^ k * 63) 1) y1) (2 ^ k) 63
      Fp d y1 (by omega) (by omega) (by omega) (by simp) (by omega) (by omega)
    have v1 : ∃ β, Vec.innerProd (List.replicate (2 ^ k * 63) (1 : Zr)) (powerSeries (2 ^ k * 63) y0) = some β :=
      ⟨_, Vec.innerProd_eq (by simp)⟩
    have v3 : sliceTo d (2 ^ k * 63) = some (d.take (2 ^ k * 63)) := sliceTo_eq (by omega)
    have v2 : ∃ β, Vec.innerProd (List.replicate (2 ^ k * 63) (1 : Zr)) (d.take (2 ^ k * 63)) = some β :=
      ⟨_, Vec.innerProd_eq (by rw [List.length_replicate, List.length_take]; omega)⟩
    obtain ⟨β1, v1⟩ := v1
    obtain ⟨β2, v2⟩ := v2
    generalize hPP : rp.ρ • pp.F + rp.Q + z • rp.R + dot (Vec.mul (List.replicate (2 ^ k * 63) 1) y1) (pp.Hs.take (2 ^ k * 63))
      + dot (Vec.mul d (y1 * y1)) Fp + dot (Vec.mul (List.replicate (2 ^ k * 63) 1) y1) (pp.Fs.take (2 ^ k * 63)) = P at hP
    obtain ⟨bv, hbv⟩ := ipp_returns E hE { digest := d'', G := pp.Hs, H := Fp, U := U'' } (k + 6) (by simp [hHs, pow_add])
      (by simp [lFp, pow_add]) { rp.ipp with C := rp.c, P := P } hs.folding
    exact ⟨_, verifyRangeState_steps E pp rp V (2 ^ k) hGs (expand_one _) hx hrdx hok hF hD hy0 hy1 rfl rfl hz hFp hipa hP hbv
      v1 v3 v2⟩

end PoL.BP

namespace PoL.Sum
open BP

variable {G1 G2 GT : Type} [AddCommGroup G1] [Module Zr G1] [AddCommGroup G2] [Module Zr G2]
  [AddCommGroup GT] [Module Zr GT] [DecidableEq G1] [DecidableEq GT]

/-- The verifier of the sum argument panics exactly on too few rounds. -/
theorem verify_none_iff (E : Curve G1 G2 GT) (hE : E.Lawful) (pp : PP G1) (k : ℕ) (hGs : pp.Gs.length = 2 ^ k)
    (hH : pp.H.length = 2 ^ k) (p : Proof G1) (a : Argument G1) :
    p.verify E pp a = none ↔ p.π.LRs.length < 2 * k := by
  obtain ⟨x, hx⟩ : ∃ x, randomOracleCVW E p.c a.V p.W = some x := fieldElementFromBytes_isSome (hE.sha_len _)
  obtain ⟨d, hd⟩ := ipaParams_eq E pp (by omega)
  have h := ipp_none_iff E hE { digest := d, G := pp.Gs, H := pp.H, U := pp.U } k hGs hH
    { p.π with C := p.c * x, P := p.ρ • pp.F + a.V + x • p.W + pp.B }
  rw [← h]
  rcases hb : InnerProductProof.verify E { p.π with C := p.c * x, P := p.ρ • pp.F + a.V + x • p.W + pp.B }
    { digest := d, G := pp.Gs, H := pp.H, U := pp.U } with _ | b
  · have : p.verifyState E pp a = none := by
      unfold Proof.verifyState
      refine obind_step hx (obind_step hd ?_)
      dsimp only
      rw [hb]
      rfl
    simp [Proof.verify, this]
  · obtain ⟨W, c, ρ, π⟩ := p
    obtain ⟨V⟩ := a
    simp [verify_steps E W c ρ π pp V hx hd hb]

theorem verifyAggregated_none_iff (E : Curve G1 G2 GT) (hE : E.Lawful) (pp : PP G1) (k : ℕ) (hGs : pp.Gs.length = 2 ^ k)
    (hH : pp.H.length = 2 ^ k) (p : Proof G1) (V : List G1) :
    p.verifyAggregated E pp V = none ↔ V = [] ∨ p.π.LRs.length < 2 * k := by
  obtain ⟨t, ht, tl⟩ := createHVZKChallenge_eq E hE V V.length
  by_cases hV : V = []
  · subst hV
    simp only [true_or, iff_true]
    unfold Proof.verifyAggregated
    refine obind_step ht ?_
    obtain rfl := List.length_eq_zero_iff.1 tl
    rfl
  · obtain ⟨q1, q2⟩ := gv_mulV_sum (g := V) rfl tl (List.length_pos_iff.2 hV)
    have : p.verifyAggregated E pp V = p.verify E pp { V := dot t V } := by
      unfold Proof.verifyAggregated
      exact obind_step ht (obind_step q1 (obind_step q2 rfl))
    rw [this, verify_none_iff E hE pp k hGs hH]
    simp [hV]

end PoL.Sum

namespace PoL.Poe
open BP Spec

variable {G1 G2 GT : Type} [AddCommGroup G1] [Module Zr G1] [AddCommGroup G2] [Module Zr G2]
  [AddCommGroup GT] [Module Zr GT] [DecidableEq G1] [DecidableEq GT]

theorem equalities_returns (E : Curve G1 G2 GT) (hE : E.Lawful) (e : Equalities G1 G2 GT) (p : AggregatedProof G1) (α : Zr)
    (N κ : ℕ) (hN : 0 < N) (hvc : e.PP.vc = PP.newPublicParams E α N) (hRO : e.RO = ro E)
    (hV : e.V.length = 2 ^ κ) (hW : e.W.length = 2 ^ κ) (hI : e.I.length = 2 ^ κ) (hJ : e.J.length = 2 ^ κ)
    (hIlt : ∀ i ∈ e.I, i < N) (hJlt : ∀ i ∈ e.J, i < N) (hG : e.PP.G.length = 2 ^ κ) (hH : e.PP.H.length = 2 ^ κ)
    (hs : EqualityShape κ p) : ∃ b, e.verify E p = some b := by
  obtain ⟨m, hm⟩ : ∃ m, m = 2 ^ κ := ⟨_, rfl⟩
  have hm0 : 0 < m := by rw [hm]; positivity
  have hVa := hs.Vaggr
  have hWa := hs.Waggr
  rw [← hm] at hV hW hI hJ hVa hWa
  obtain ⟨xs, hx, lx⟩ := ro_total E hE (p.Vaggr ++ p.Waggr ++ e.V ++ e.W) [] e.PP.digest 1
  obtain ⟨x, rfl⟩ := List.length_eq_one_iff.1 lx
  obtain ⟨ts, hts, htl⟩ := ro_total E hE (p.Vaggr ++ p.Waggr ++ e.V ++ e.W ++ [p.U] ++ [p.V]) [] e.PP.digest (2 * m)
  rw [← hRO] at hx hts
  have s1 := selectG2_eq E e.PP α N m hvc e.I hI hIlt
  have s2 := selectG2_eq E e.PP α N m hvc e.J hJ hJlt
  have ev := Vec.evens_tab htl
  have od := Vec.odds_tab htl
  obtain ⟨A, a1, lA⟩ : ∃ A, Gv.add e.V (Gv.mul p.Vaggr x) = some A ∧ A.length = m :=
    ⟨_, Gv.add_eq (by simp [Gv.mul]; omega), by simp [Gv.mul]; omega⟩
  obtain ⟨B, a2, lB⟩ : ∃ B, Gv.add e.W (Gv.mul p.Waggr x) = some B ∧ B.length = m :=
    ⟨_, Gv.add_eq (by simp [Gv.mul]; omega), by simp [Gv.mul]; omega⟩
  obtain ⟨A', b1, lA'⟩ : ∃ A', Gv.mulV A (tab m fun k => ts.getD (2 * k) 0) = some A' ∧ A'.length = m :=
    ⟨_, Gv.mulV_eq (by simp [lA]), by simp [lA]⟩
  obtain ⟨B', b2, lB'⟩ : ∃ B', Gv.mulV B (tab m fun k => ts.getD (2 * k + 1) 0) = some B' ∧ B'.length = m :=
    ⟨_, Gv.mulV_eq (by simp [lB]), by simp [lB]⟩
  have p1 := pairProd_eq E (ps := A') (qs := tab m fun k => α ^ (N - e.I.getD k 0) • E.genG2) (by simp [lA'])
    (List.ne_nil_of_length_pos (by omega))
  have p2 := pairProd_eq E (ps := B') (qs := tab m fun k => α ^ (N - e.J.getD k 0) • E.genG2) (by simp [lB'])
    (List.ne_nil_of_length_pos (by omega))
  have g1 : e.PP.vc.G1s[0]? = some (α ^ 1 • E.genG1) := by rw [hvc, PP.new_G1s_lt E α N hN]
  have g2 : fromEnd e.PP.vc.G2s 0 = some (α ^ N • E.genG2) := by
    rw [hvc, fromEnd_zero (PP.new_G2s_length E α N) hN, PP.new_G2s_lt E α N (by omega)]
    congr 3; omega
  have d1 := pairProd_singleton E p.Ω E.genG2
  have d2 := pairProd_singleton E (p.c • α ^ 1 • E.genG1) (α ^ N • E.genG2)
  have hb := Vec.add_tab m (fun k => ts.getD (2 * k) 0) (fun k => ts.getD (2 * k + 1) 0)
  obtain ⟨h1, h2⟩ := gv_mulV_sum (hH.trans hm.symm) (v := tab m fun k => ts.getD (2 * k) 0 + ts.getD (2 * k + 1) 0) (by simp) hm0
  obtain ⟨q, hq, qG, qH⟩ := ipaParams_eq E e.PP (by omega)
  rw [← Option.isSome_iff_exists, Equalities.verify, Option.isSome_map, Option.isSome_iff_exists]
  unfold Equalities.verifyState
  refine Exists.imp (fun _ h => obind_step hx (obind_step (a := x) rfl h)) ?_
  rw [hV]
  refine Exists.imp (fun _ h => obind_step hts (obind_step s1 (obind_step s2 (obind_step a1 (obind_step ev (obind_step b1
    (obind_step p1 (obind_step a2 (obind_step od (obind_step b2 (obind_step p2 (obind_step d1 (obind_step g1
    (obind_step g2 (obind_step d2 h))))))))))))))) ?_
  dsimp only
  split_ifs
  · exact ⟨_, rfl⟩
  · refine Exists.imp (fun _ h => obind_step ev (obind_step od (obind_step hb (obind_step h1 (obind_step h2 (obind_step hq h)))))) ?_
    obtain ⟨b, hb⟩ := ipp_returns E hE q κ (by rw [qG, hG]) (by rw [qH, hH]) { p.IPP with
      C := p.c, P := p.ρ • e.PP.F + x • p.U + p.V + dot (tab m fun k => ts.getD (2 * k) 0 + ts.getD (2 * k + 1) 0) e.PP.H } hs.folding
    exact ⟨_, obind_step hb rfl⟩

end PoL.Poe

namespace PoL.Pol
open BP Spec

variable {G1 G2 GT : Type} [AddCommGroup G1] [Module Zr G1] [AddCommGroup G2] [Module Zr G2]
  [AddCommGroup GT] [Module Zr GT] [DecidableEq G1] [DecidableEq GT]

theorem verifyAggregation_returns (E : Curve G1 G2 GT) (hE : E.Lawful) (α : Zr) (N : ℕ) (indices : List ℕ)
    (hi : ∀ i ∈ indices, i < N) (h0 : indices ≠ []) (Cs : List G1) (hl : Cs.length = indices.length) (π : G1) (sig : Zr) :
    ∃ b, (PP.newPublicParams E α N).verifyAggregation E indices Cs π sig (PP.ro E) = some b := by
  have hro : ∀ i : ℕ, ∃ x, PP.ro E (PP.newPublicParams E α N) Cs i = some x := fun i => fieldElementFromBytes_isSome (hE.sha_len _)
  choose f hf using hro
  have e1 := mapM_tab (m := indices.length) f fun k _ => hf k
  have e2 := mapM_some (fun i => if (PP.newPublicParams E α N).N < i + 1 then none
    else (PP.newPublicParams E α N).G2s[(PP.newPublicParams E α N).N - i - 1]?) (fun i => α ^ (N - i - 1 + 1) • E.genG2) indices
    fun i h => by
      have := hi i h
      rw [PP.new_N, if_neg (by omega), PP.new_G2s_lt E α N (by omega)]
  obtain ⟨Q, e3, lQ⟩ : ∃ Q, Gv.mulv2 (indices.map fun i => α ^ (N - i - 1 + 1) • E.genG2) (tab indices.length f) = some Q ∧
      Q.length = indices.length := ⟨_, Gv.mulv2_eq (by simp), by simp⟩
  have e4 := pairProd_eq E (ps := Cs) (qs := Q) (by omega) (List.ne_nil_of_length_pos (by
    have := List.length_pos_iff.2 h0; omega))
  unfold PP.verifyAggregation
  exact ⟨_, obind_step e1 (obind_step e2 (obind_step e3 (obind_step e4 (obind_step (pairProd_singleton E π E.genG2) rfl))))⟩

theorem checkLeaf_returns (E : Curve G1 G2 GT) (hE : E.Lawful) (lp : LiabilityProof G1) (i : ℕ) (hi : 0 < i)
    (hV : i < lp.V.length) (hd : i ≤ lp.digests.length) : ∃ b, lp.checkCommitmentToLeafVertex E i = some b := by
  obtain ⟨x, hx⟩ := fieldElementFromBytes_isSome (hE.sha_len (E.g1Bytes lp.V[i]))
  unfold LiabilityProof.checkCommitmentToLeafVertex
  refine Exists.imp (fun _ h => obind_step (List.getElem?_eq_getElem hV) (obind_step hx h)) ?_
  rw [if_neg (by omega)]
  exact ⟨_, obind_step (List.getElem?_eq_getElem (by omega)) rfl⟩

theorem checkInner_returns (E : Curve G1 G2 GT) (hE : E.Lawful) (lp : LiabilityProof G1) (i : ℕ) (hi : 0 < i)
    (hV : i < lp.V.length) (hW : i < lp.W.length) (hd : i ≤ lp.digests.length) :
    ∃ b, lp.checkCommitmentToInnerVertex E i = some b := by
  obtain ⟨x, hx⟩ := fieldElementFromBytes_isSome (hE.sha_len (E.g1Bytes lp.V[i] ++ E.g1Bytes lp.W[i]))
  unfold LiabilityProof.checkCommitmentToInnerVertex
  refine Exists.imp (fun _ h => obind_step (List.getElem?_eq_getElem hV) (obind_step (List.getElem?_eq_getElem hW)
    (obind_step hx h))) ?_
  rw [if_neg (by omega)]
  exact ⟨_, obind_step (List.getElem?_eq_getElem (by omega)) rfl⟩

theorem verifyLoop_returns (E : Curve G1 G2 GT) (hE : E.Lawful) (lp : LiabilityProof G1) (pp : PublicParams G1 G2 GT) (n : ℕ)
    (hn : 2 ≤ n) (hV : n ≤ lp.V.length) (hW : lp.W.length + 1 = n) (hd : lp.digests.length = n)
    (hR : ∀ i < n, ∃ rp, lp.rangeProofs[i]? = some rp ∧ ∀ V, ∃ b, verifyRange E pp.RPPP rp V = some b) :
    ∀ (rest i : ℕ) (err : Bool), i + rest = n → ∃ r, lp.verifyLoop E pp n i rest err = some r := by
  intro rest
  induction rest with
  | zero => intro i err _; exact ⟨_, rfl⟩
  | succ rest ih =>
    intro i err hi
    obtain ⟨rp, hrp, hb⟩ := hR i (by omega)
    obtain ⟨b, hb⟩ := hb (lp.V[i]'(by omega))
    unfold LiabilityProof.verifyLoop
    rw [if_neg (by omega)]
    refine Exists.imp (fun _ h => obind_step hrp (obind_step (List.getElem?_eq_getElem (by omega)) (obind_step hb h))) ?_
    split_ifs with h1 h2
    · obtain ⟨c, hc⟩ := checkLeaf_returns E hE lp i (by omega) (by omega) (by omega)
      refine Exists.imp (fun _ h => obind_step hc h) ?_
      split_ifs
      · exact ⟨_, rfl⟩
      · exact ih (i + 1) _ (by omega)
    · obtain ⟨c, hc⟩ := checkInner_returns E hE lp i (by omega) (by omega) (by omega) (by omega)
      refine Exists.imp (fun _ h => obind_step hc h) ?_
      split_ifs
      · exact ⟨_, rfl⟩
      · exact ih (i + 1) _ (by omega)
    · exact ih (i + 1) _ (by omega)

end PoL.Pol

/-! ## Accepted proofs are long enough -/

namespace PoL.BP
open Spec

variable {G1 G2 GT : Type} [AddCommGroup G1] [Module Zr G1] [AddCommGroup G2] [Module Zr G2]
  [AddCommGroup GT] [Module Zr GT] [DecidableEq G1] [DecidableEq GT]

theorem iterVerifyLoop_rounds (E : Curve G1 G2 GT) (hE : E.Lawful) (digest : Bytes) (u : Zr) (j : ℕ) :
    ∀ (G : List G1) (V : G1) (Δ : List (G1 × G1 × G1)) (fV : Option G1) (ys : List Zr) r,
      G.length = 2 ^ j → iterVerifyLoop E digest u (2 ^ j / 2) G V Δ fV ys = some (some r) → j ≤ Δ.length := by
  induction j with
  | zero => intros; omega
  | succ j ih =>
    intro G V Δ fV ys r hG h
    have h2 : 2 ^ (j + 1) / 2 = 2 ^ j := by rw [pow_succ]; omega
    rw [pow_succ, mul_comm] at hG
    have hpos : 0 < 2 ^ j := by positivity
    match Δ with
    | [] => rw [h2, iterVerifyLoop.eq_def, dif_neg (by omega)] at h; simp at h
    | (A, B, V') :: Δ =>
      obtain ⟨x, hx⟩ := irChallenge_isSome E hE digest A B V
      rw [h2, iterVerifyLoop_step E digest u (2 ^ j) hpos G hG V A B V' Δ fV ys x hx] at h
      split_ifs at h
      · have := ih _ _ _ _ _ _ (foldG_length hG) h
        simpa using this
      · simp at h

theorem iterativeVerify_rounds (E : Curve G1 G2 GT) (hE : E.Lawful) (pp : BP.PP G1) (k : ℕ)
    (hk1 : 1 ≤ k) (hk2 : k ≤ 15) (hG : pp.G.length = 2 ^ k) (V : G1) (Δ : List (G1 × G1 × G1)) (u : Zr) r
    (hr : iterativeVerify E pp V Δ u = some (some r)) : k ≤ Δ.length := by
  have h : iterativeVerify E pp V Δ u = iterVerifyLoop E pp.digest u (2 ^ k / 2) pp.G V Δ none [] := by
    rw [iterativeVerify, hG, isPowerOfTwo_pow k hk1 hk2]; rfl
  rw [h] at hr
  exact iterVerifyLoop_rounds E hE pp.digest u k pp.G V Δ none [] r hG hr

theorem ipp_rounds (E : Curve G1 G2 GT) (hE : E.Lawful) (pp : BP.PP G1) (k : ℕ)
    (hG : pp.G.length = 2 ^ k) (hH : pp.H.length = 2 ^ k) (π : InnerProductProof G1) {b : Bool} (h : π.verify E pp = some b) :
    2 * k ≤ π.LRs.length := by
  have := (ipp_none_iff E hE pp k hG hH π).not.1 (by rw [h]; simp)
  omega

theorem verifyRange_shape (E : Curve G1 G2 GT) (hE : E.Lawful) (pp : RPPP G1) (k : ℕ)
    (hk1 : 1 ≤ k) (hk2 : k ≤ 15) (hGs : pp.Gs.length = 2 ^ k) (hHs : pp.Hs.length = 2 ^ k * 64)
    (hFs : pp.Fs.length = 2 ^ k * 64) (rp : RangeProof G1) (V : G1) (h : verifyRange E pp rp V = some true) :
    RangeShape k rp := by
  rw [verifyRange, Option.map_eq_some_iff] at h
  obtain ⟨⟨b, rp'⟩, h, rfl⟩ := h
  unfold verifyRangeState at h
  obtain ⟨x, hx, h⟩ := obind_elim h
  obtain ⟨rdx, hrdx, h⟩ := obind_elim h
  obtain ⟨r, hr, h⟩ := obind_elim h
  obtain ⟨d', U', hrdx'⟩ := rangeRdxPP_eq E pp
  rw [hrdx', Option.some.injEq] at hrdx
  cases r with
  | none => simp at h
  | some r =>
    obtain ⟨xs, u⟩ := r
    have h1 := iterativeVerify_rounds E hE rdx k hk1 hk2 (by rw [← hrdx]; exact hGs) _ _ _ _ hr
    dsimp only at h
    obtain ⟨f, -, h⟩ := obind_elim h
    obtain ⟨d, -, h⟩ := obind_elim h
    obtain ⟨y0, -, h⟩ := obind_elim h
    obtain ⟨y1, -, h⟩ := obind_elim h
    obtain ⟨z, -, h⟩ := obind_elim h
    obtain ⟨Fp, hFp, h⟩ := obind_elim h
    obtain ⟨ipaPP, hipa, h⟩ := obind_elim h
    obtain ⟨P, -, h⟩ := obind_elim h
    obtain ⟨b, hb, h⟩ := obind_elim h
    have lFp : Fp.length = 2 ^ k * 64 := by
      rw [Gv.mulV_eq (by simp), Option.some.injEq] at hFp
      rw [← hFp]; simp [hFs]
    obtain ⟨d'', U'', hipa'⟩ := rangeIpaPP_eq E pp Fp (by omega)
    rw [hipa', Option.some.injEq] at hipa
    have h2 := ipp_rounds E hE ipaPP (k + 6) (by rw [← hipa]; simp [hHs, pow_add]) (by rw [← hipa]; simp [lFp, pow_add]) _ hb
    exact ⟨h1, h2⟩

end PoL.BP

namespace PoL.Poe
open BP Spec

variable {G1 G2 GT : Type} [AddCommGroup G1] [Module Zr G1] [AddCommGroup G2] [Module Zr G2]
  [AddCommGroup GT] [Module Zr GT] [DecidableEq G1] [DecidableEq GT]

theorem equalities_shape (E : Curve G1 G2 GT) (hE : E.Lawful) (e : Equalities G1 G2 GT) (p : AggregatedProof G1)
    (κ : ℕ) (hV : e.V.length = 2 ^ κ) (hW : e.W.length = 2 ^ κ) (hG : e.PP.G.length = 2 ^ κ) (hH : e.PP.H.length = 2 ^ κ)
    (h : e.verify E p = some true) : EqualityShape κ p := by
  rw [Equalities.verify, Option.map_eq_some_iff] at h
  obtain ⟨⟨b, p'⟩, h, rfl⟩ := h
  unfold Equalities.verifyState at h
  obtain ⟨xs, -, h⟩ := obind_elim h
  obtain ⟨x, -, h⟩ := obind_elim h
  obtain ⟨ts, -, h⟩ := obind_elim h
  obtain ⟨s1, -, h⟩ := obind_elim h
  obtain ⟨s2, -, h⟩ := obind_elim h
  obtain ⟨A, hA, h⟩ := obind_elim h
  obtain ⟨_, -, h⟩ := obind_elim h
  obtain ⟨_, -, h⟩ := obind_elim h
  obtain ⟨_, -, h⟩ := obind_elim h
  obtain ⟨B, hB, h⟩ := obind_elim h
  obtain ⟨_, -, h⟩ := obind_elim h
  obtain ⟨_, -, h⟩ := obind_elim h
  obtain ⟨_, -, h⟩ := obind_elim h
  obtain ⟨_, -, h⟩ := obind_elim h
  obtain ⟨_, -, h⟩ := obind_elim h
  obtain ⟨_, -, h⟩ := obind_elim h
  obtain ⟨_, -, h⟩ := obind_elim h
  dsimp only at h
  split_ifs at h
  · simp at h
  obtain ⟨_, -, h⟩ := obind_elim h
  obtain ⟨_, -, h⟩ := obind_elim h
  obtain ⟨_, -, h⟩ := obind_elim h
  obtain ⟨_, -, h⟩ := obind_elim h
  obtain ⟨_, -, h⟩ := obind_elim h
  obtain ⟨q, hq, h⟩ := obind_elim h
  obtain ⟨b, hb, h⟩ := obind_elim h
  obtain ⟨q', hq', qG, qH⟩ := ipaParams_eq E e.PP (by omega)
  rw [hq', Option.some.injEq] at hq
  subst hq
  have h3 := ipp_rounds E hE q' κ (by rw [qG, hG]) (by rw [qH, hH]) _ hb
  refine ⟨?_, ?_, h3⟩
  · unfold Gv.add at hA
    split_ifs at hA with hl
    simp only [Gv.mul, List.length_map] at hl
    omega
  · unfold Gv.add at hB
    split_ifs at hB with hl
    simp only [Gv.mul, List.length_map] at hl
    omega

end PoL.Poe

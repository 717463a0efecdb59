import Verif.Proofs.Cut
import Verif.Spec.Surplus

/-!
# Entries after those needed do not change what verification answers
-/

set_option linter.unusedSectionVars false

namespace PoL

theorem obind_same {α β γ : Type} {x : Option α} {f : α → Option β} {g : α → Option γ} {b : β} {c : γ}
    (h : (x >>= f) = some b) (hg : ∀ a, x = some a → f a = some b → g a = some c) : (x >>= g) = some c := by
  cases x with
  | none => simp at h
  | some a => exact hg a rfl h

end PoL

namespace PoL.BP
open Spec

variable {G1 G2 GT : Type} [AddCommGroup G1] [Module Zr G1] [AddCommGroup G2] [Module Zr G2]
  [AddCommGroup GT] [Module Zr GT] [DecidableEq G1] [DecidableEq GT]

theorem verifyLoop_more (E : Curve G1 G2 GT) (pp : PP G1) (a c : Zr) (b : Bool) (n : ℕ) :
    ∀ (P : G1) (g h LRs LRs' : List G1), LRs.length ≤ n → LRs <+: LRs' → verifyLoop E pp P g h LRs a c = some b →
      verifyLoop E pp P g h LRs' a c = some b := by
  induction n with
  | zero =>
    intro P g h LRs LRs' hl hpre hv
    obtain rfl : LRs = [] := List.eq_nil_of_length_eq_zero (by omega)
    unfold verifyLoop at hv ⊢
    split_ifs at hv ⊢ with hg
    exact hv
  | succ n ih =>
    intro P g h LRs LRs' hl hpre hv
    unfold verifyLoop at hv ⊢
    split_ifs at hv ⊢ with hg
    · exact hv
    · rcases LRs with _ | ⟨L, _ | ⟨R, LRs⟩⟩
      · simp at hv
      · simp at hv
      · obtain ⟨t, rfl⟩ := hpre
        dsimp only [List.cons_append] at hv ⊢
        rcases hnp : computeNextParams E L R pp g h P with _ | np
        · simp [hnp] at hv
        · rw [hnp] at hv
          dsimp only at hv ⊢
          exact ih _ _ _ _ _ (by simp only [List.length_cons] at hl; omega) (List.prefix_append _ _) hv

theorem ipp_more (E : Curve G1 G2 GT) (pp : PP G1) (π : InnerProductProof G1) (LRs' : List G1) (b : Bool)
    (h : π.verify E pp = some b) (hpre : π.LRs <+: LRs') :
    InnerProductProof.verify E { π with LRs := LRs' } pp = some b := by
  unfold InnerProductProof.verify at h ⊢
  refine obind_same h fun q _ h => ?_
  exact verifyLoop_more E _ _ _ _ _ _ _ _ _ _ le_rfl hpre h

theorem iterVerifyLoop_more (E : Curve G1 G2 GT) (digest : Bytes) (u : Zr) (Δ : List (G1 × G1 × G1)) :
    ∀ (n : ℕ) (G : List G1) (V : G1) (Δ' : List (G1 × G1 × G1)) (fV : Option G1) (ys : List Zr) r, Δ <+: Δ' →
      iterVerifyLoop E digest u n G V Δ fV ys = some r → iterVerifyLoop E digest u n G V Δ' fV ys = some r := by
  induction Δ with
  | nil =>
    intro n G V Δ' fV ys r _ h
    rw [iterVerifyLoop.eq_def] at h ⊢
    split_ifs at h ⊢ with hn
    exact h
  | cons t Δ ih =>
    intro n G V Δ' fV ys r hpre h
    obtain ⟨s, rfl⟩ := hpre
    obtain ⟨A, B, C⟩ := t
    rw [iterVerifyLoop.eq_def] at h ⊢
    split_ifs at h ⊢ with hn
    · exact h
    · dsimp only [List.cons_append] at h ⊢
      refine obind_same h fun x _ h => ?_
      split_ifs at h ⊢ with hV
      · exact h
      · refine obind_same h fun gL _ h => obind_same h fun gR _ h => obind_same h fun G' _ h => ?_
        exact ih _ _ _ _ _ _ _ (List.prefix_append _ _) h

theorem iterativeVerify_more (E : Curve G1 G2 GT) (pp : PP G1) (V : G1) (Δ Δ' : List (G1 × G1 × G1)) (u : Zr) r
    (hpre : Δ <+: Δ') (h : iterativeVerify E pp V Δ u = some r) : iterativeVerify E pp V Δ' u = some r := by
  unfold iterativeVerify at h ⊢
  refine obind_same h fun b _ h => ?_
  cases b
  · simp at h
  · exact iterVerifyLoop_more E _ _ _ _ _ _ _ _ _ _ hpre h

theorem verifyRange_more (E : Curve G1 G2 GT) (pp : RPPP G1) (rp rp' : RangeProof G1) (V : G1) (b : Bool)
    (hc : RangeCut rp' rp) (h : verifyRange E pp rp V = some b) : verifyRange E pp rp' V = some b := by
  obtain ⟨hsame, hcΔ, hcL⟩ := hc
  generalize hΔ : rp.Δ = Δ at hsame hcΔ
  generalize hLR : rp.ipp.LRs = LRs at hsame hcL
  subst hsame
  rw [verifyRange, Option.map_eq_some_iff] at h ⊢
  obtain ⟨⟨b, rp₁⟩, h, rfl⟩ := h
  refine Exists.imp (p := fun r => verifyRangeState E pp rp' V = some r ∧ r.1 = b) (fun r h => h) ?_
  suffices ∃ q, verifyRangeState E pp rp' V = some (b, q) by
    obtain ⟨q, hq⟩ := this
    exact ⟨(b, q), hq, rfl⟩
  unfold verifyRangeState at h ⊢
  obtain ⟨x, hx, h⟩ := obind_elim h
  obtain ⟨rdx, hrdx, h⟩ := obind_elim h
  obtain ⟨r, hr, h⟩ := obind_elim h
  dsimp only at hx hr h
  have hr' := iterativeVerify_more E rdx _ _ rp'.Δ _ _ hcΔ hr
  refine Exists.imp (fun _ h => obind_step hx (obind_step hrdx (obind_step hr' h))) ?_
  cases r with
  | none =>
    have := Option.some.inj h
    rw [Prod.mk.injEq] at this
    rw [← this.1]
    exact ⟨_, rfl⟩
  | some r =>
    obtain ⟨xs, u⟩ := r
    dsimp only at h ⊢
    obtain ⟨f, e1, h⟩ := obind_elim h
    obtain ⟨d, e2, h⟩ := obind_elim h
    obtain ⟨y0, e3, h⟩ := obind_elim h
    obtain ⟨y1, e4, h⟩ := obind_elim h
    obtain ⟨z, e5, h⟩ := obind_elim h
    obtain ⟨Fp, e6, h⟩ := obind_elim h
    obtain ⟨ipaPP, e7, h⟩ := obind_elim h
    obtain ⟨P, e8, h⟩ := obind_elim h
    refine Exists.imp (fun _ h => obind_step e1 (obind_step e2 (obind_step e3 (obind_step e4 (obind_step e5 (obind_step e6
      (obind_step e7 (obind_step e8 h)))))))) ?_
    obtain ⟨ok, e9, h⟩ := obind_elim h
    have e9' := ipp_more E ipaPP _ rp'.ipp.LRs ok e9 hcL
    refine Exists.imp (fun _ h => obind_step e9' h) ?_
    cases ok
    · have := Option.some.inj h
      rw [Prod.mk.injEq] at this
      rw [← this.1]
      exact ⟨_, rfl⟩
    · rw [if_neg (by simp)] at h
      simp only [Bool.not_true, Bool.false_eq_true, if_false]
      obtain ⟨β1, g1, h⟩ := obind_elim h
      obtain ⟨β2, g2, h⟩ := obind_elim h
      obtain ⟨sl, g3, h⟩ := obind_elim h
      obtain ⟨β3, g4, h⟩ := obind_elim h
      refine Exists.imp (fun _ h => obind_step g1 (obind_step g2 (obind_step g3 (obind_step g4 h)))) ?_
      have := Option.some.inj h
      rw [Prod.mk.injEq] at this
      rw [← this.1]
      exact ⟨_, rfl⟩

end PoL.BP

namespace PoL.Sum
open BP Spec

variable {G1 G2 GT : Type} [AddCommGroup G1] [Module Zr G1] [AddCommGroup G2] [Module Zr G2]
  [AddCommGroup GT] [Module Zr GT] [DecidableEq G1] [DecidableEq GT]

theorem verifyAggregated_more (E : Curve G1 G2 GT) (pp : Sum.PP G1) (p : Proof G1) (LRs' : List G1) (V : List G1) (b : Bool)
    (hpre : p.π.LRs <+: LRs') (h : p.verifyAggregated E pp V = some b) :
    Proof.verifyAggregated E { p with π := { p.π with LRs := LRs' } } pp V = some b := by
  unfold Proof.verifyAggregated at h ⊢
  refine obind_same h fun t _ h => obind_same h fun y _ h => obind_same h fun s _ h => ?_
  clear * - h hpre
  rw [Proof.verify, Option.map_eq_some_iff] at h ⊢
  obtain ⟨⟨b, p₁⟩, h, rfl⟩ := h
  unfold Proof.verifyState at h ⊢
  obtain ⟨x, e1, h⟩ := obind_elim h
  obtain ⟨q, e2, h⟩ := obind_elim h
  dsimp only at h
  obtain ⟨ok, e3, h⟩ := obind_elim h
  have e3' := ipp_more E q _ LRs' ok e3 hpre
  have := Option.some.inj h
  rw [Prod.mk.injEq] at this
  exact ⟨_, obind_step e1 (obind_step e2 (obind_step e3' rfl)), this.1⟩

end PoL.Sum

namespace PoL.Poe
open BP Spec

variable {G1 G2 GT : Type} [AddCommGroup G1] [Module Zr G1] [AddCommGroup G2] [Module Zr G2]
  [AddCommGroup GT] [Module Zr GT] [DecidableEq G1] [DecidableEq GT]

theorem equalities_more (E : Curve G1 G2 GT) (e : Equalities G1 G2 GT) (p : AggregatedProof G1) (LRs' : List G1) (b : Bool)
    (hpre : p.IPP.LRs <+: LRs') (h : e.verify E p = some b) :
    e.verify E { p with IPP := { p.IPP with LRs := LRs' } } = some b := by
  rw [Equalities.verify, Option.map_eq_some_iff] at h ⊢
  obtain ⟨⟨b, p'⟩, h, rfl⟩ := h
  suffices ∃ q, Equalities.verifyState E e { p with IPP := { p.IPP with LRs := LRs' } } = some (b, q) by
    obtain ⟨q, hq⟩ := this
    exact ⟨(b, q), hq, rfl⟩
  unfold Equalities.verifyState at h ⊢
  obtain ⟨xs, e1, h⟩ := obind_elim h
  obtain ⟨x, e2, h⟩ := obind_elim h
  obtain ⟨ts, e3, h⟩ := obind_elim h
  obtain ⟨s1, e4, h⟩ := obind_elim h
  obtain ⟨s2, e5, h⟩ := obind_elim h
  obtain ⟨A, e6, h⟩ := obind_elim h
  obtain ⟨_, e7, h⟩ := obind_elim h
  obtain ⟨_, e8, h⟩ := obind_elim h
  obtain ⟨n1, e9, h⟩ := obind_elim h
  obtain ⟨B, e10, h⟩ := obind_elim h
  obtain ⟨_, e11, h⟩ := obind_elim h
  obtain ⟨_, e12, h⟩ := obind_elim h
  obtain ⟨n2, e13, h⟩ := obind_elim h
  obtain ⟨d1, e14, h⟩ := obind_elim h
  obtain ⟨_, e15, h⟩ := obind_elim h
  obtain ⟨_, e16, h⟩ := obind_elim h
  obtain ⟨d2, e17, h⟩ := obind_elim h
  dsimp only at h
  refine Exists.imp (fun _ h => obind_step e1 (obind_step e2 (obind_step e3 (obind_step e4 (obind_step e5 (obind_step e6
    (obind_step e7 (obind_step e8 (obind_step e9 (obind_step e10 (obind_step e11 (obind_step e12 (obind_step e13 (obind_step e14
    (obind_step e15 (obind_step e16 (obind_step e17 h))))))))))))))))) ?_
  dsimp only
  split_ifs at h ⊢
  · have := Option.some.inj h
    rw [Prod.mk.injEq] at this
    rw [← this.1]
    exact ⟨_, rfl⟩
  obtain ⟨_, f1, h⟩ := obind_elim h
  obtain ⟨_, f2, h⟩ := obind_elim h
  obtain ⟨_, f3, h⟩ := obind_elim h
  obtain ⟨_, f4, h⟩ := obind_elim h
  obtain ⟨_, f5, h⟩ := obind_elim h
  obtain ⟨q, hq, h⟩ := obind_elim h
  obtain ⟨ok, e18, h⟩ := obind_elim h
  have e18' := ipp_more E q _ LRs' ok e18 hpre
  have := Option.some.inj h
  rw [Prod.mk.injEq] at this
  rw [← this.1]
  exact ⟨_, obind_step f1 (obind_step f2 (obind_step f3 (obind_step f4 (obind_step f5 (obind_step hq
    (obind_step e18' rfl))))))⟩

end PoL.Poe

namespace PoL.Pol
open BP Spec

variable {G1 G2 GT : Type} [AddCommGroup G1] [Module Zr G1] [AddCommGroup G2] [Module Zr G2]
  [AddCommGroup GT] [Module Zr GT] [DecidableEq G1] [DecidableEq GT]

theorem verifyLoop_more (E : Curve G1 G2 GT) (lp lp' : LiabilityProof G1) (pp : PublicParams G1 G2 GT) (n : ℕ)
    (hx : Extended lp lp') :
    ∀ (rest i : ℕ) (err : Bool) r, lp.verifyLoop E pp n i rest err = some r → lp'.verifyLoop E pp n i rest err = some r := by
  have eW : lp'.W = lp.W := by rw [hx.cut.same]
  have eD : lp'.digests = lp.digests := by rw [hx.cut.same]
  have eV := hx.V
  have inner : ∀ i, lp'.checkCommitmentToInnerVertex E i = lp.checkCommitmentToInnerVertex E i := by
    intro i
    unfold LiabilityProof.checkCommitmentToInnerVertex
    rw [eV, eW, eD]
  have leaf : ∀ i, lp'.checkCommitmentToLeafVertex E i = lp.checkCommitmentToLeafVertex E i := by
    intro i
    unfold LiabilityProof.checkCommitmentToLeafVertex
    rw [eV, eD]
  intro rest
  induction rest with
  | zero => intro i err r h; exact h
  | succ rest ih =>
    intro i err r h
    unfold LiabilityProof.verifyLoop at h ⊢
    rw [eV, leaf, inner]
    by_cases hV : i + 1 < n ∧ lp.V.length ≤ i + 1
    · rw [if_pos hV] at h
      exact absurd h (by simp)
    rw [if_neg hV] at h ⊢
    obtain ⟨rp, h1, h⟩ := obind_elim h
    obtain ⟨C, h2, h⟩ := obind_elim h
    obtain ⟨ok, h3, h⟩ := obind_elim h
    obtain ⟨rp', h1'⟩ : ∃ rp', lp'.rangeProofs[i]? = some rp' := by
      obtain ⟨hi, -⟩ := List.getElem?_eq_some_iff.1 h1
      exact ⟨_, List.getElem?_eq_getElem (lt_of_lt_of_le hi hx.cut.rangeProofs)⟩
    have h3' := verifyRange_more E pp.RPPP rp rp' C ok (hx.cut.ranges i _ _ h1' h1) h3
    refine obind_step h1' (obind_step h2 (obind_step h3' ?_))
    dsimp only at h ⊢
    by_cases c1 : i + 1 = n
    · rw [if_pos c1] at h ⊢
      refine obind_same h fun b _ h => ?_
      cases b
      · exact h
      · rw [if_neg (by simp)] at h ⊢
        exact ih _ _ _ h
    · rw [if_neg c1] at h ⊢
      by_cases c2 : 0 < i
      · rw [if_pos c2] at h ⊢
        refine obind_same h fun b _ h => ?_
        cases b
        · exact h
        · rw [if_neg (by simp)] at h ⊢
          exact ih _ _ _ h
      · rw [if_neg c2] at h ⊢
        exact ih _ _ _ h

theorem verify_more (E : Curve G1 G2 GT) (lp lp' : LiabilityProof G1) (pp : PublicParams G1 G2 GT) (id : Str) (V W : G1)
    (id2path : Str → Option (List ℕ)) (b : Bool) (hx : Extended lp lp') (h : lp.verify E pp id V W id2path = some b) :
    lp'.verify E pp id V W id2path = some b := by
  have eW : lp.W = lp'.W := by rw [hx.cut.same]
  have eD : lp.digests = lp'.digests := by rw [hx.cut.same]
  have eP : lp.pointProof = lp'.pointProof := by rw [hx.cut.same]
  have eS : lp.pointProofSum = lp'.pointProofSum := by rw [hx.cut.same]
  have eT : lp.total = lp'.total := by rw [hx.cut.same]
  have eV := hx.V.symm
  have eSA : lp'.sumArgumentProof =
      { lp.sumArgumentProof with π := { lp.sumArgumentProof.π with LRs := lp'.sumArgumentProof.π.LRs } } := by
    rw [hx.cut.same]
  have eEQ : lp'.equalityProof =
      { lp.equalityProof with IPP := { lp.equalityProof.IPP with LRs := lp'.equalityProof.IPP.LRs } } := by
    have h1 := hx.Vaggr
    have h2 := hx.Waggr
    have : lp.equalityProof = { lp'.equalityProof with
      Vaggr := lp.equalityProof.Vaggr
      Waggr := lp.equalityProof.Waggr
      IPP := { lp'.equalityProof.IPP with LRs := lp.equalityProof.IPP.LRs } } := congrArg (·.equalityProof) hx.cut.same
    rw [this, ← h1, ← h2]
  unfold LiabilityProof.verify at h ⊢
  rw [← eW, ← eD, ← eP, ← eS, ← eT, ← eV]
  refine obind_same h fun path _ h => ?_
  split_ifs at h ⊢ with c
  · exact h
  refine obind_same h fun V0 _ h => ?_
  split_ifs at h ⊢ with c
  · exact h
  refine obind_same h fun W0 _ h => ?_
  split_ifs at h ⊢ with c
  · exact h
  obtain ⟨r, hr, h⟩ := obind_elim h
  refine obind_step (verifyLoop_more E lp lp' pp path.length hx _ _ _ _ hr) ?_
  cases r with
  | none => exact h
  | some err =>
    dsimp only at h ⊢
    refine obind_same h fun ok _ h => ?_
    cases ok
    · rw [if_pos (by rfl)] at h ⊢
      exact h
    rw [if_neg (by simp)] at h ⊢
    obtain ⟨ok, hok, h⟩ := obind_elim h
    have hok' := Sum.verifyAggregated_more E _ _ lp'.sumArgumentProof.π.LRs _ _ hx.cut.sum hok
    rw [← eSA] at hok'
    refine obind_step hok' ?_
    clear hok' hok
    cases ok
    · rw [if_pos (by rfl)] at h ⊢
      exact h
    rw [if_neg (by simp)] at h ⊢
    refine obind_same h fun _ _ h => obind_same h fun _ _ h => obind_same h fun e _ h => ?_
    obtain ⟨ok, hok, h⟩ := obind_elim h
    have hok' := Poe.equalities_more E e _ lp'.equalityProof.IPP.LRs _ hx.cut.folding hok
    rw [← eEQ] at hok'
    refine obind_step hok' ?_
    exact h

end PoL.Pol

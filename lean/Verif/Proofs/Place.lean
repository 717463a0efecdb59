import Verif.Proofs.PtrPol

/-!
# Every proof can be in memory
-/

set_option linter.unusedSectionVars false

namespace PoL.Ptr

open Spec

variable {G1 G2 GT : Type} [AddCommGroup G1] [Module Zr G1] [AddCommGroup G2] [Module Zr G2] [AddCommGroup GT] [Module Zr GT]

/-- Memory can be extended with something that stands for `q`. -/
def Place {α β : Type} (R : Mem (Cell G1 G2 GT) → α → β → Prop) (q : β) : Prop :=
  ∀ h, ∃ h' p, Keeps h h' ∧ R h' p q

theorem place_new {M : Type} (k : Kind (Cell G1 G2 GT) M) (x : M) : Place (At k) x := by
  intro h
  have := agrees_iff.2 ((wp_new k h x).imp fun _ _ _ o => ⟨o.keeps, o.at_⟩)
  unfold Agrees at this
  split at this
  · simp_all
  · rename_i r h' b e1 e2
    exact ⟨h', r, this.1, (Option.some.inj e2).symm ▸ this.2⟩
  · exact this.elim

theorem place_point (x : G1) : Place (At (kG1 (G1 := G1) (G2 := G2) (GT := GT))) x := place_new kG1 x

theorem place_list {α β : Type} {R : Mem (Cell G1 G2 GT) → α → β → Prop} (hm : ∀ h h' a b, Keeps h h' → R h a b → R h' a b) :
    ∀ (qs : List β), (∀ q ∈ qs, Place R q) → Place (fun h => List.Forall₂ (R h)) qs
  | [], _ => fun h => ⟨h, [], Keeps.refl h, .nil⟩
  | q :: qs, hq => fun h => by
    obtain ⟨h₁, p, k₁, r₁⟩ := hq q (by simp) h
    obtain ⟨h₂, ps, k₂, r₂⟩ := place_list hm qs (fun x hx => hq x (by simp [hx])) h₁
    exact ⟨h₂, p :: ps, k₁.trans k₂, .cons (hm _ _ _ _ k₂ r₁) r₂⟩

theorem place_points (xs : List G1) : Place (Ats (kG1 (G1 := G1) (G2 := G2) (GT := GT))) xs :=
  place_list (fun _ _ _ _ hk h => h.mono hk) xs fun x _ => place_point x

theorem place_ipp (q : BP.InnerProductProof G1) : Place (IppAt (G2 := G2) (GT := GT)) q := by
  intro h
  obtain ⟨h₁, ls, k₁, r₁⟩ := place_points (G2 := G2) (GT := GT) q.LRs h
  obtain ⟨h₂, P, k₂, r₂⟩ := place_point (G2 := G2) (GT := GT) q.P h₁
  exact ⟨h₂, ⟨ls, q.a, q.b, P, q.C⟩, k₁.trans k₂, ⟨r₁.mono k₂, rfl, rfl, r₂, rfl⟩⟩

theorem place_Δ (q : List (G1 × G1 × G1)) : Place (ΔAt (G2 := G2) (GT := GT)) q := by
  refine place_list (fun _ _ _ _ hk h => ⟨h.1.mono hk, h.2.1.mono hk, h.2.2.mono hk⟩) q fun x _ h => ?_
  obtain ⟨h₁, a, k₁, r₁⟩ := place_point (G2 := G2) (GT := GT) x.1 h
  obtain ⟨h₂, b, k₂, r₂⟩ := place_point (G2 := G2) (GT := GT) x.2.1 h₁
  obtain ⟨h₃, c, k₃, r₃⟩ := place_point (G2 := G2) (GT := GT) x.2.2 h₂
  exact ⟨h₃, (a, b, c), (k₁.trans k₂).trans k₃, r₁.mono (k₂.trans k₃), r₂.mono k₃, r₃⟩

theorem place_range (q : BP.RangeProof G1) : Place (RpAt (G2 := G2) (GT := GT)) q := by
  intro h
  obtain ⟨h₁, Δ, k₁, r₁⟩ := place_Δ (G2 := G2) (GT := GT) q.Δ h
  obtain ⟨h₂, i, k₂, r₂⟩ := place_ipp (G2 := G2) (GT := GT) q.ipp h₁
  obtain ⟨h₃, ps, k₃, r₃⟩ := place_points (G2 := G2) (GT := GT) [q.W, q.Q, q.R, q.C1, q.C2] h₂
  match ps, r₃ with
  | [W, Q, R, C1, C2], .cons hW (.cons hQ (.cons hR (.cons hC1 (.cons hC2 .nil)))) =>
  exact ⟨h₃, { Δ := Δ, u := q.u, W := W, γ := q.γ, ipp := i, c := q.c, Q := Q, R := R, C1 := C1, C2 := C2, τ := q.τ, ρ := q.ρ },
    (k₁.trans k₂).trans k₃, ⟨r₁.mono (k₂.trans k₃), rfl, hW, rfl, r₂.mono k₃, rfl, hQ, hR, hC1, hC2, rfl, rfl⟩⟩

theorem place_sum (q : Sum.Proof G1) : Place (SumProofAt (G2 := G2) (GT := GT)) q := by
  intro h
  obtain ⟨h₁, W, k₁, r₁⟩ := place_point (G2 := G2) (GT := GT) q.W h
  obtain ⟨h₂, i, k₂, r₂⟩ := place_ipp (G2 := G2) (GT := GT) q.π h₁
  exact ⟨h₂, { W := W, c := q.c, ρ := q.ρ, π := i }, k₁.trans k₂, ⟨r₁.mono k₂, rfl, rfl, r₂⟩⟩

theorem place_equality (q : Poe.AggregatedProof G1) : Place (ApAt (G2 := G2) (GT := GT)) q := by
  intro h
  obtain ⟨h₁, i, k₁, r₁⟩ := place_ipp (G2 := G2) (GT := GT) q.IPP h
  obtain ⟨h₂, ps, k₂, r₂⟩ := place_points (G2 := G2) (GT := GT) [q.U, q.V, q.Ω] h₁
  obtain ⟨h₃, W, k₃, r₃⟩ := place_points (G2 := G2) (GT := GT) q.Waggr h₂
  obtain ⟨h₄, V, k₄, r₄⟩ := place_points (G2 := G2) (GT := GT) q.Vaggr h₃
  have k := k₃.trans k₄
  match ps, r₂ with
  | [U, V', Ω], .cons hU (.cons hV' (.cons hΩ .nil)) =>
  exact ⟨h₄, { IPP := i, c := q.c, ρ := q.ρ, U := U, V := V', Ω := Ω, Waggr := W, Vaggr := V }, k₁.trans (k₂.trans k),
    ⟨r₁.mono (k₂.trans k), rfl, rfl, hU.mono k, hV'.mono k, hΩ.mono k, r₃.mono k₄, r₄⟩⟩

theorem place_liability (q : Pol.LiabilityProof G1) : Place (LpAt (G2 := G2) (GT := GT)) q := by
  intro h
  obtain ⟨h₁, s, k₁, r₁⟩ := place_sum (G2 := G2) (GT := GT) q.sumArgumentProof h
  obtain ⟨h₂, V, k₂, r₂⟩ := place_points (G2 := G2) (GT := GT) q.V h₁
  obtain ⟨h₃, W, k₃, r₃⟩ := place_points (G2 := G2) (GT := GT) q.W h₂
  obtain ⟨h₄, rp, k₄, r₄⟩ := place_list (G2 := G2) (GT := GT) (R := RpAt) (fun _ _ _ _ hk h => h.mono hk) q.rangeProofs
    (fun x _ => place_range x) h₃
  obtain ⟨h₅, e, k₅, r₅⟩ := place_equality (G2 := G2) (GT := GT) q.equalityProof h₄
  obtain ⟨h₆, t, k₆, r₆⟩ := place_point (G2 := G2) (GT := GT) q.total.liabilityProof h₅
  obtain ⟨h₇, π, k₇, r₇⟩ := place_point (G2 := G2) (GT := GT) q.pointProof h₆
  have k67 := k₆.trans k₇
  have k57 := k₅.trans k67
  have k47 := k₄.trans k57
  have k37 := k₃.trans k47
  have k27 := k₂.trans k37
  refine ⟨h₇, ⟨q.pointProofSum, π, s, V, W, q.digests, rp, e, ⟨t, q.total.sum⟩⟩, k₁.trans k27, ?_⟩
  exact ⟨rfl, r₇, r₁.mono k27, r₂.mono k37, r₃.mono k47, rfl, r₄.imp fun _ _ hr => hr.mono k57, r₅.mono k67, ⟨r₆.mono k₇, rfl⟩⟩

theorem place_pp (q : PoL.PP G1 G2 GT) : Place PPAt q := by
  intro h
  obtain ⟨h₁, g1, k₁, r₁⟩ := place_points (G2 := G2) (GT := GT) q.G1s h
  obtain ⟨h₂, g2, k₂, r₂⟩ := place_list (R := At kG2) (fun _ _ _ _ hk h => h.mono hk) q.G2s (fun x _ => place_new kG2 x) h₁
  obtain ⟨h₃, gt, k₃, r₃⟩ := place_new kGt q.Gt h₂
  exact ⟨h₃, { digest := q.digest, N := q.N, G1s := g1, G2s := g2, Gt := gt }, (k₁.trans k₂).trans k₃,
    ⟨rfl, rfl, r₁.mono (k₂.trans k₃), Ats.mono r₂ k₃, r₃⟩⟩

theorem place_pub (q : Pol.PublicParams G1 G2 GT) : Place PubAt q := by
  intro h
  obtain ⟨h₁, a, k₁, r₁⟩ := place_pp q.PPPP h
  obtain ⟨h₂, sps, k₂, r₂⟩ := place_points (G2 := G2) (GT := GT) [q.SAPP.U, q.SAPP.G, q.SAPP.F, q.SAPP.B] h₁
  obtain ⟨h₃, sG, k₃, r₃⟩ := place_points (G2 := G2) (GT := GT) q.SAPP.Gs h₂
  obtain ⟨h₄, sH, k₄, r₄⟩ := place_points (G2 := G2) (GT := GT) q.SAPP.H h₃
  obtain ⟨h₅, rps, k₅, r₅⟩ := place_points (G2 := G2) (GT := GT) [q.RPPP.G, q.RPPP.H, q.RPPP.F] h₄
  obtain ⟨h₆, rG, k₆, r₆⟩ := place_points (G2 := G2) (GT := GT) q.RPPP.Gs h₅
  obtain ⟨h₇, rH, k₇, r₇⟩ := place_points (G2 := G2) (GT := GT) q.RPPP.Hs h₆
  obtain ⟨h₈, rF, k₈, r₈⟩ := place_points (G2 := G2) (GT := GT) q.RPPP.Fs h₇
  obtain ⟨h₉, vc, k₉, r₉⟩ := place_pp q.POEPP.vc h₈
  obtain ⟨i₁, eF, l₁, s₁⟩ := place_point (G2 := G2) (GT := GT) q.POEPP.F h₉
  obtain ⟨i₂, eG, l₂, s₂⟩ := place_points (G2 := G2) (GT := GT) q.POEPP.G i₁
  obtain ⟨i₃, eH, l₃, s₃⟩ := place_points (G2 := G2) (GT := GT) q.POEPP.H i₂
  have m₂ := l₂.trans l₃
  have m₁ := l₁.trans m₂
  have n₉ := k₉.trans m₁
  have n₈ := k₈.trans n₉
  have n₇ := k₇.trans n₈
  have n₆ := k₆.trans n₇
  have n₅ := k₅.trans n₆
  have n₄ := k₄.trans n₅
  have n₃ := k₃.trans n₄
  have n₂ := k₂.trans n₃
  match sps, r₂, rps, r₅ with
  | [U, G, F, B], .cons hU (.cons hG (.cons hF (.cons hB .nil))), [G', H', F'], .cons hG' (.cons hH' (.cons hF' .nil)) =>
  refine ⟨i₃, ⟨a, ⟨q.SAPP.digest, U, sG, G, F, sH, q.SAPP.b, B⟩, ⟨G', H', F', rG, rH, rF, q.RPPP.digest⟩,
    ⟨q.POEPP.digest, eG, eH, eF, vc⟩, q.fanout⟩, k₁.trans n₂, ?_⟩
  exact ⟨r₁.mono n₂, ⟨rfl, hU.mono n₃, r₃.mono n₄, hG.mono n₃, hF.mono n₃, r₄.mono n₅, rfl, hB.mono n₃⟩,
    ⟨hG'.mono n₆, hH'.mono n₆, hF'.mono n₆, r₆.mono n₇, r₇.mono n₈, r₈.mono n₉, rfl⟩,
    ⟨rfl, s₂.mono l₃, s₃, s₁.mono m₂, r₉.mono m₁⟩, rfl⟩

end PoL.Ptr

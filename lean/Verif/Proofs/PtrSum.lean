import Verif.Proofs.PtrRange

/-!
# The sum argument with pointers
-/

set_option linter.unusedSectionVars false

namespace PoL.Ptr.Sum

open Spec

variable {G1 G2 GT : Type} [AddCommGroup G1] [Module Zr G1] [AddCommGroup G2] [Module Zr G2] [AddCommGroup GT] [Module Zr GT]
  {E : Curve G1 G2 GT} {h h' : Mem (Cell G1 G2 GT)} {gl : Globals} {p : PoL.Sum.PP Ref} {q : PoL.Sum.PP G1}

theorem _root_.PoL.Spec.SumPPAt.mono (hp : SumPPAt h p q) (hk : Keeps h h') : SumPPAt h' p q :=
  ⟨hp.digest, hp.U.mono hk, hp.Gs.mono hk, hp.G.mono hk, hp.F.mono hk, hp.H.mono hk, hp.b, hp.B.mono hk⟩

theorem _root_.PoL.Spec.SumProofAt.mono {p : PoL.Sum.Proof Ref} {q : PoL.Sum.Proof G1} (hp : SumProofAt h p q) (hk : Keeps h h') :
    SumProofAt h' p q := ⟨hp.W.mono hk, hp.c, hp.ρ, hp.π.mono hk⟩

theorem reads_hvzk {V : List Ref} {V' : List G1} (hV : Ats kG1 h V V') (m : ℕ) :
    BP.Reads (createHVZKChallenge E V m) h (PoL.Sum.createHVZKChallenge E V' m) := Wp.loads hV (Wp.lift' fun _ _ => ⟨rfl, rfl⟩)

theorem reads_cvw (c : Zr) {V W : Ref} {V' W' : G1} (hV : At kG1 h V V') (hW : At kG1 h W W') :
    BP.Reads (randomOracleCVW E c V W) h (PoL.Sum.randomOracleCVW E c V' W') := Wp.load hV (Wp.load hW (Wp.lift' fun _ _ => ⟨rfl, rfl⟩))

theorem agrees_ipaParams (hp : SumPPAt h p q) : Agrees (ipaParams E p) h (PoL.Sum.ipaParams E q) BpAt :=
  BP.agrees_setupDigest (p := ⟨[], p.Gs, p.H, p.U⟩) (q := ⟨[], q.Gs, q.H, q.U⟩) ⟨rfl, hp.Gs, hp.H, hp.U⟩

variable [DecidableEq G1]

theorem wp_mulVSum {rs : List Ref} {xs : List G1} {v : List Zr} (hg : At kG1 h gl.zeroG1 (0 : G1)) (hx : Ats kG1 h rs xs) :
    Wp (BP.mulVSum gl rs v) h (PoL.Gv.mulV xs v >>= fun ys => PoL.Gv.sum ys) fun h' r x => Own kG1 h h' r x := by
  refine Wp.call (agrees_mulV hg hx v) fun h₁ ss ys k₁ hy => (wp_sum hy).imp fun h₂ r x o => ?_
  exact ⟨k₁.trans o.keeps, k₁.length_le.trans o.fresh, o.at_⟩

/-- `s := g.MulV(v).Sum()` -/
theorem Wp.mulVSum {γ δ : Type} {rs : List Ref} {xs : List G1} {v : List Zr} (hg : At kG1 h gl.zeroG1 (0 : G1)) (hx : Ats kG1 h rs xs)
    {f : Ref → Run (Cell G1 G2 GT) γ} {g : G1 → Option δ} {Q : Mem (Cell G1 G2 GT) → γ → δ → Prop}
    (hk : ∀ h' r y, Own kG1 h h' r y → Wp (f r) h' (g y) Q) :
    Wp (BP.mulVSum gl rs v >>= f) h (PoL.Gv.mulV xs v >>= fun ys => PoL.Gv.sum ys >>= g) Q := by
  rw [← bind_assoc]
  exact Wp.bind (wp_mulVSum hg hx) hk

theorem agrees_newCommitment (hg : GlobalsAt E h gl) (hp : SumPPAt h p q) (v : List Zr) (r : Zr) :
    Agrees (newCommitment gl p v r) h (PoL.Sum.newCommitment q v r) fun h' a b => At kG1 h' a.V b.V := by
  unfold newCommitment PoL.Sum.newCommitment
  refine Wp.mulBy hp.F fun h₁ V o₁ => BP.Wp.addSum o₁ (hg.zeroG1.mono o₁.keeps) (hp.Gs.mono o₁.keeps) fun h₂ y o₂ => ?_
  refine Wp.lift fun v0 _ => Wp.lift fun l _ => ?_
  dsimp only
  split
  · exact Wp.crash
  · exact ⟨o₂.keeps, o₂.at_⟩

theorem agrees_newArgument (hg : GlobalsAt E h gl) (hp : SumPPAt h p q) (rnd : PoL.Sum.Rand) {V : Ref} {V' : G1} (hV : At kG1 h V V')
    (v : List Zr) (r : Zr) : Agrees (newArgument E gl p rnd V v r) h (PoL.Sum.newArgument E q rnd V' v r)
      fun h' a b => At kG1 h' a.1.V b.1.V ∧ SumProofAt h' a.2 b.2 := by
  unfold newArgument PoL.Sum.newArgument
  dsimp only
  rw [hp.b]
  refine Wp.mulBy hp.F fun h₁ W o₁ => BP.Wp.addSum o₁ (hg.zeroG1.mono o₁.keeps) (hp.Gs.mono o₁.keeps) fun h₂ y oW => ?_
  refine Wp.lift fun c _ => BP.Wp.reads (reads_cvw c (hV.mono oW.keeps) oW.at_) fun x => ?_
  refine Wp.mulBy (hp.F.mono oW.keeps) fun h₃ P o₃ => Wp.addTo o₃ (hV.mono (oW.keeps.trans o₃.keeps)) fun h₄ o₄ => ?_
  refine Wp.mulBy (oW.at_.mono o₄.keeps) fun h₅ t o₅ => Wp.addTo (o₄.call o₅.keeps) o₅.at_ fun h₆ o₆ => ?_
  refine Wp.addTo o₆ (hp.B.mono (oW.keeps.trans o₆.keeps)) fun h₇ o₇ => ?_
  have k₇ := oW.keeps.trans o₇.keeps
  refine Wp.call (agrees_ipaParams (hp.mono k₇)) fun h₈ pi pi' k₈ r₈ => Wp.lift fun a _ => ?_
  refine Wp.call (BP.agrees_newInnerProdArgument r₈ a _) fun h₉ ipa ipa' k₉ r₉ => Wp.call (BP.agrees_prove r₉) fun h₁₀ π π' k₁₀ r₁₀ => ?_
  have k := (k₈.trans k₉).trans k₁₀
  exact ⟨k₇.trans k, hV.mono (k₇.trans k), oW.at_.mono (o₇.keeps.trans k), rfl, rfl, r₁₀⟩

theorem agrees_verifyState (hp : SumPPAt h p q) {r : PoL.Sum.Proof Ref} {r' : PoL.Sum.Proof G1} (hr : SumProofAt h r r')
    {a : PoL.Sum.Argument Ref} {a' : PoL.Sum.Argument G1} (ha : At kG1 h a.V a'.V) :
    Agrees (verifyState E r p a) h (r'.verifyState E q a') fun h' x y => x.1 = y.1 ∧ SumProofAt h' x.2 y.2 := by
  unfold verifyState PoL.Sum.Proof.verifyState
  dsimp only
  rw [hr.c, hr.ρ]
  refine BP.Wp.reads (reads_cvw _ ha hr.W) fun x => ?_
  refine Wp.mulBy hp.F fun h₃ P o₃ => Wp.addTo o₃ (ha.mono o₃.keeps) fun h₄ o₄ => ?_
  refine Wp.mulBy (hr.W.mono o₄.keeps) fun h₅ t o₅ => Wp.addTo (o₄.call o₅.keeps) o₅.at_ fun h₆ o₆ => ?_
  refine Wp.addTo o₆ (hp.B.mono o₆.keeps) fun h₇ o₇ => ?_
  refine Wp.call (agrees_ipaParams (hp.mono o₇.keeps)) fun h₈ pi pi' k₈ r₈ => ?_
  have k := o₇.keeps.trans k₈
  have hipp : IppAt h₈ ⟨r.π.LRs, r.π.a, r.π.b, P, r'.c * x⟩ ⟨r'.π.LRs, r'.π.a, r'.π.b, r'.ρ • q.F + a'.V + x • r'.W + q.B, r'.c * x⟩ :=
    ⟨hr.π.LRs.mono k, hr.π.a, hr.π.b, o₇.at_.mono k₈, rfl⟩
  refine Wp.call (BP.agrees_ipp_verify r₈ hipp) fun h₉ b b' k₉ e => ?_
  exact ⟨k.trans k₉, e, hr.W.mono (k.trans k₉), rfl, rfl, hipp.mono k₉⟩

theorem agrees_verifyAggregated (hg : GlobalsAt E h gl) (hp : SumPPAt h p q) {r : PoL.Sum.Proof Ref} {r' : PoL.Sum.Proof G1}
    (hr : SumProofAt h r r') {V : List Ref} {V' : List G1} (hV : Ats kG1 h V V') :
    Agrees (verifyAggregated E gl r p V) h (r'.verifyAggregated E q V') fun _ x y => x.1 = y := by
  unfold verifyAggregated PoL.Sum.Proof.verifyAggregated
  rw [hV.length]
  refine BP.Wp.reads (reads_hvzk hV _) fun t => Wp.mulVSum hg.zeroG1 hV fun h₁ s y o₁ => ?_
  unfold PoL.Sum.Proof.verify
  have w := agrees_verifyState (E := E) (hp.mono o₁.keeps) (hr.mono o₁.keeps) (a := ⟨s⟩) (a' := ⟨y⟩) o₁.at_
  exact Wp.map_right (w.imp fun h₂ a b e => ⟨o₁.keeps.trans e.1, e.2.1⟩)

theorem agrees_newAggregatedArgument (hg : GlobalsAt E h gl) (hp : SumPPAt h p q) (rnd : PoL.Sum.Rand) {V : List Ref} {V' : List G1}
    (hV : Ats kG1 h V V') (v : List (List Zr)) (r : List Zr) :
    Agrees (newAggregatedArgument E gl p rnd V v r) h (PoL.Sum.newAggregatedArgument E q rnd V' v r) SumProofAt := by
  unfold newAggregatedArgument PoL.Sum.newAggregatedArgument
  refine BP.Wp.reads (reads_hvzk hV _) fun t => Wp.lift fun v0 _ => Wp.lift fun va _ => Wp.lift fun ra _ => ?_
  refine Wp.mulVSum hg.zeroG1 hV fun h₁ s y o₁ => ?_
  refine Wp.call (agrees_newArgument (hg.mono o₁.keeps) (hp.mono o₁.keeps) rnd o₁.at_ va ra) fun h₂ a b k₂ r₂ => ?_
  exact ⟨o₁.keeps.trans k₂, r₂.2⟩

end PoL.Ptr.Sum

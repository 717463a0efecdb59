import Verif.Proofs.PtrBp

/-!
# Range proofs with pointers
-/

set_option linter.unusedSectionVars false

namespace PoL.Ptr.BP

open Spec

variable {G1 G2 GT : Type} [AddCommGroup G1] [Module Zr G1] [AddCommGroup G2] [Module Zr G2] [AddCommGroup GT] [Module Zr GT]
  {E : Curve G1 G2 GT} {h h' : Mem (Cell G1 G2 GT)} {gl : Globals} {p : BP.RPPP Ref} {q : BP.RPPP G1}

theorem _root_.PoL.Spec.RpppAt.mono (hp : RpppAt h p q) (hk : Keeps h h') : RpppAt h' p q :=
  ⟨hp.G.mono hk, hp.H.mono hk, hp.F.mono hk, hp.Gs.mono hk, hp.Hs.mono hk, hp.Fs.mono hk, hp.digest⟩

theorem _root_.PoL.Spec.RpAt.mono {p : BP.RangeProof Ref} {q : BP.RangeProof G1} (hp : RpAt h p q) (hk : Keeps h h') : RpAt h' p q :=
  ⟨hp.Δ.mono hk, hp.u, hp.W.mono hk, hp.γ, hp.ipp.mono hk, hp.c, hp.Q.mono hk, hp.R.mono hk, hp.C1.mono hk, hp.C2.mono hk, hp.τ, hp.ρ⟩

/-- A computation that only reads. -/
def Reads {α : Type} (m : Run (Cell G1 G2 GT) α) (h : Mem (Cell G1 G2 GT)) (out : Option α) : Prop :=
  Wp m h out fun h' a b => h' = h ∧ a = b

theorem Wp.reads {α γ δ : Type} {m : Run (Cell G1 G2 GT) α} {out : Option α} (w : Reads m h out) {f : α → Run (Cell G1 G2 GT) γ}
    {g : α → Option δ} {Q : Mem (Cell G1 G2 GT) → γ → δ → Prop} (hk : ∀ a, Wp (f a) h (g a) Q) : Wp (m >>= f) h (out >>= g) Q :=
  Wp.bind w fun h' a b e => by
    obtain ⟨rfl, rfl⟩ := e
    exact hk a

theorem Wp.readsT {α γ δ : Type} {m : Run (Cell G1 G2 GT) α} {a : α} (w : Reads m h (some a)) {f : α → Run (Cell G1 G2 GT) γ}
    {out : Option δ} {Q : Mem (Cell G1 G2 GT) → γ → δ → Prop} (hk : Wp (f a) h out Q) : Wp (m >>= f) h out Q :=
  Wp.step w fun h' a e => by
    obtain ⟨rfl, rfl⟩ := e
    exact hk

theorem reads_getDigest (hp : RpppAt h p q) : Reads (getDigest E p) h (some (q.getDigest E)) := by
  unfold Reads getDigest PoL.BP.RPPP.getDigest
  rw [hp.digest]
  split
  · exact ⟨rfl, rfl⟩
  · exact Wp.load hp.G (Wp.load hp.H (Wp.load hp.F (Wp.loads hp.Gs (Wp.loads hp.Hs (Wp.loads hp.Fs ⟨rfl, rfl⟩)))))

theorem reads_randomOracle {L R : Ref} {L' R' : G1} (hL : At kG1 h L L') (hR : At kG1 h R R') (x : Bytes) :
    Reads (randomOracle E L R x) h (some (PoL.BP.randomOracle E L' R' x)) := Wp.load hL (Wp.load hR ⟨rfl, rfl⟩)

theorem reads_rangeProofRO1 (hp : RpppAt h p q) {V W Q : Ref} {V' W' Q' : G1} (hV : At kG1 h V V') (hW : At kG1 h W W')
    (hQ : At kG1 h Q Q') : Reads (rangeProofRO1 E p V W Q) h (PoL.BP.rangeProofRO1 E q V' W' Q') :=
  Wp.readsT (reads_getDigest hp) (Wp.load hV (Wp.load hW (Wp.load hQ (Wp.lift' fun _ _ => ⟨rfl, rfl⟩))))

theorem reads_rangeY (hp : RpppAt h p q) {Q R : Ref} {Q' R' : G1} (hQ : At kG1 h Q Q') (hR : At kG1 h R R') (x : Zr) (tag : UInt8) :
    Reads (rangeY E p Q R x tag) h (PoL.BP.rangeY E q Q' R' x tag) :=
  Wp.readsT (reads_getDigest hp) (Wp.readsT (reads_randomOracle hQ hR _) (Wp.lift' fun _ _ => ⟨rfl, rfl⟩))

theorem reads_computeZ (hp : RpppAt h p q) {C1 C2 Q R : Ref} {C1' C2' Q' R' : G1} (h1 : At kG1 h C1 C1') (h2 : At kG1 h C2 C2')
    (hQ : At kG1 h Q Q') (hR : At kG1 h R R') (y0 y1 : Bytes) :
    Reads (computeZ E p C1 C2 Q R y0 y1) h (PoL.BP.computeZ E q C1' C2' Q' R' y0 y1) :=
  Wp.readsT (reads_getDigest hp) (Wp.load h1 (Wp.load h2 (Wp.readsT (reads_randomOracle hQ hR _) (Wp.lift' fun _ _ => ⟨rfl, rfl⟩))))

theorem agrees_rangeRdxPP (hp : RpppAt h p q) : Agrees (rangeRdxPP E p) h (PoL.BP.rangeRdxPP E q) BpAt := by
  unfold rangeRdxPP PoL.BP.rangeRdxPP
  refine Wp.callT (agrees_randGenVec E 1 _) fun h₁ u k₁ r₁ => Wp.lift₂ (r₁.get 0) fun r g hr => ?_
  exact (agrees_setupDigest (p := ⟨[], p.Gs, [], r⟩) (q := ⟨[], q.Gs, [], g⟩) ⟨rfl, hp.Gs.mono k₁, .nil, hr⟩).imp fun h₂ a b e => ⟨k₁.trans e.1, e.2⟩

theorem agrees_rangeIpaPP (hp : RpppAt h p q) {rs : List Ref} {xs : List G1} (hx : Ats kG1 h rs xs) :
    Agrees (rangeIpaPP E p rs) h (PoL.BP.rangeIpaPP E q xs) BpAt := by
  unfold rangeIpaPP PoL.BP.rangeIpaPP
  refine Wp.callT (agrees_randGenVec E 1 _) fun h₁ u k₁ r₁ => Wp.lift₂ (r₁.get 0) fun r g hr => ?_
  exact (agrees_setupDigest (p := ⟨[], p.Hs, rs, r⟩) (q := ⟨[], q.Hs, xs, g⟩) ⟨rfl, hp.Hs.mono k₁, hx.mono k₁, hr⟩).imp fun h₂ a b e => ⟨k₁.trans e.1, e.2⟩

variable [DecidableEq G1]

/-- `P.Add(g.MulV(v).Sum())` -/
theorem Wp.addSum {γ δ : Type} {b : Mem (Cell G1 G2 GT)} {r : Ref} {x : G1} {rs : List Ref} {xs : List G1} {v : List Zr}
    (o : Own kG1 b h r x) (hg : At kG1 h gl.zeroG1 (0 : G1)) (hx : Ats kG1 h rs xs) {f : Unit → Run (Cell G1 G2 GT) γ} {g : G1 → Option δ}
    {Q : Mem (Cell G1 G2 GT) → γ → δ → Prop} (hk : ∀ h' y, Own kG1 b h' r (x + y) → Wp (f ()) h' (g y) Q) :
    Wp (mulVSum gl rs v >>= fun s => Ptr.addTo kG1 r s >>= f) h (PoL.Gv.mulV xs v >>= fun ys => PoL.Gv.sum ys >>= g) Q := by
  unfold mulVSum
  rw [bind_assoc]
  refine Wp.call (agrees_mulV hg hx v) fun h₁ ss ys k₁ hy => Wp.call (agrees_sum hy) fun h₂ s y k₂ hs => ?_
  exact Wp.addTo ((o.call k₁).call k₂) hs fun h₃ o₃ => hk h₃ y o₃

theorem wp_computeP (hg : GlobalsAt E h gl) (hp : RpppAt h p q) (ρ : Zr) {Q R : Ref} {Q' R' : G1} (hQ : At kG1 h Q Q') (hR : At kG1 h R R')
    (z : Zr) (y1v : List Zr) (n m : ℕ) {rs : List Ref} {xs : List G1} (hx : Ats kG1 h rs xs) (d : List Zr) (y1 : Zr) :
    Wp (computeP gl p ρ Q R z y1v n m rs d y1) h (PoL.BP.computeP q ρ Q' R' z y1v n m xs d y1) fun h' r x => Own kG1 h h' r x := by
  unfold computeP PoL.BP.computeP
  refine Wp.mulBy hp.F fun h₁ P o₁ => Wp.addTo o₁ (hQ.mono o₁.keeps) fun h₂ o₂ => ?_
  refine Wp.mulBy (hR.mono o₂.keeps) fun h₃ t o₃ => Wp.addTo (o₂.call o₃.keeps) o₃.at_ fun h₄ o₄ => ?_
  refine Wp.lift₂ (sliceTo_rel hp.Hs _) fun r1 x1 e1 => Wp.addSum o₄ (hg.zeroG1.mono o₄.keeps) (Ats.mono e1 o₄.keeps) fun h₅ y5 o₅ => ?_
  refine Wp.addSum o₅ (hg.zeroG1.mono o₅.keeps) (hx.mono o₅.keeps) fun h₆ y6 o₆ => ?_
  refine Wp.lift₂ (sliceTo_rel hp.Fs _) fun r1 x1 e1 => Wp.addSum o₆ (hg.zeroG1.mono o₆.keeps) (Ats.mono e1 o₆.keeps) fun h₇ y7 o₇ => ?_
  exact o₇

theorem agrees_verifyRangeState (hg : GlobalsAt E h gl) (hp : RpppAt h p q) {r : PoL.BP.RangeProof Ref} {r' : PoL.BP.RangeProof G1}
    (hr : RpAt h r r') {V : Ref} {V' : G1} (hV : At kG1 h V V') :
    Agrees (verifyRangeState E gl p r V) h (PoL.BP.verifyRangeState E q r' V') fun h' a b => a.1 = b.1 ∧ RpAt h' a.2 b.2 := by
  unfold verifyRangeState PoL.BP.verifyRangeState
  dsimp only
  rw [hp.Gs.length, hp.Fs.length, hr.γ, hr.u]
  refine Wp.reads (reads_rangeProofRO1 hp hV hr.W hr.Q) fun x => ?_
  refine Wp.mulBy hp.F fun h₁ U o₁ => Wp.addTo o₁ (hV.mono o₁.keeps) fun h₂ o₂ => ?_
  refine Wp.mulBy (hr.W.mono o₂.keeps) fun h₃ t o₃ => Wp.addTo (o₂.call o₃.keeps) o₃.at_ fun h₄ o₄ => ?_
  refine Wp.call (agrees_rangeRdxPP (hp.mono o₄.keeps)) fun h₅ pr pr' k₅ r₅ => ?_
  refine Wp.call (agrees_iterativeVerify r₅ (o₄.at_.mono k₅) (hr.Δ.mono (o₄.keeps.trans k₅)) _) fun h₆ o o' k₆ e => ?_
  subst e
  have k₆ := (o₄.keeps.trans k₅).trans k₆
  cases o with
  | none => exact ⟨k₆, rfl, hr.mono k₆⟩
  | some xu =>
    obtain ⟨xs, u⟩ := xu
    refine Wp.lift fun f _ => Wp.lift fun d _ => ?_
    refine Wp.reads (reads_rangeY (hp.mono k₆) (hr.Q.mono k₆) (hr.R.mono k₆) x 0) fun y0 => ?_
    refine Wp.reads (reads_rangeY (hp.mono k₆) (hr.Q.mono k₆) (hr.R.mono k₆) x 1) fun y1 => ?_
    refine Wp.reads (reads_computeZ (hp.mono k₆) (hr.C1.mono k₆) (hr.C2.mono k₆) (hr.Q.mono k₆) (hr.R.mono k₆) _ _) fun z => ?_
    refine Wp.call (agrees_mulV (hg.zeroG1.mono k₆) (hp.Fs.mono k₆) _) fun h₇ fp fp' k₇ r₇ => ?_
    have k₇ := k₆.trans k₇
    refine Wp.call (agrees_rangeIpaPP (hp.mono k₇) r₇) fun h₈ pi pi' k₈' r₈ => ?_
    have k₈ := k₇.trans k₈'
    rw [hr.ρ, hr.c, hr.τ]
    refine Wp.bind (wp_computeP (hg.mono k₈) (hp.mono k₈) _ (hr.Q.mono k₈) (hr.R.mono k₈) z _ _ _ (r₇.mono k₈') d y1) fun h₉ P P' o₉ => ?_
    have k₉ := k₈.trans o₉.keeps
    have hipp : IppAt h₉ { r.ipp with C := r'.c, P := P } { r'.ipp with C := r'.c, P := P' } :=
      ⟨hr.ipp.LRs.mono k₉, hr.ipp.a, hr.ipp.b, o₉.at_, rfl⟩
    refine Wp.call (agrees_ipp_verify (r₈.mono o₉.keeps) hipp) fun h₁₀ b b' k₁₀' e => ?_
    subst e
    have k₁₀ := k₉.trans k₁₀'
    have hrp : ∀ h', Keeps h₁₀ h' →
        RpAt h' ⟨r.Δ, r'.u, r.W, r'.γ, ⟨r.ipp.LRs, r.ipp.a, r.ipp.b, P, r'.c⟩, r'.c, r.Q, r.R, r.C1, r.C2, r'.τ, r'.ρ⟩
          ⟨r'.Δ, r'.u, r'.W, r'.γ, ⟨r'.ipp.LRs, r'.ipp.a, r'.ipp.b, P', r'.c⟩, r'.c, r'.Q, r'.R, r'.C1, r'.C2, r'.τ, r'.ρ⟩ :=
      fun h' k' => by
        have k := k₁₀.trans k'
        exact ⟨hr.Δ.mono k, rfl, hr.W.mono k, rfl, hipp.mono (k₁₀'.trans k'), rfl, hr.Q.mono k, hr.R.mono k, hr.C1.mono k, hr.C2.mono k,
          rfl, rfl⟩
    split
    · exact ⟨k₁₀, rfl, hrp h₁₀ (Keeps.refl _)⟩
    · refine Wp.lift fun β1 _ => Wp.lift fun β2 _ => Wp.lift fun dm _ => Wp.lift fun β3 _ => ?_
      refine Wp.mulBy (hr.C1.mono k₁₀) fun h₁₁ l o₁₁ => Wp.mulBy (hr.C2.mono (k₁₀.trans o₁₁.keeps)) fun h₁₂ t o₁₂ => ?_
      refine Wp.addTo (o₁₁.call o₁₂.keeps) o₁₂.at_ fun h₁₃ o₁₃ => ?_
      refine Wp.mulBy (hp.G.mono (k₁₀.trans o₁₃.keeps)) fun h₁₄ t o₁₄ => Wp.addTo (o₁₃.call o₁₄.keeps) o₁₄.at_ fun h₁₅ o₁₅ => ?_
      have k₁₅ := k₁₀.trans o₁₅.keeps
      refine Wp.mulBy (hp.G.mono k₁₅) fun h₁₆ s o₁₆ => Wp.mulBy (hp.H.mono (k₁₅.trans o₁₆.keeps)) fun h₁₇ t o₁₇ => ?_
      refine Wp.addTo (o₁₆.call o₁₇.keeps) o₁₇.at_ fun h₁₈ o₁₈ => ?_
      refine Wp.load (o₁₅.at_.mono o₁₈.keeps) (Wp.load o₁₈.at_ ⟨k₁₅.trans o₁₈.keeps, rfl, hrp _ (o₁₅.keeps.trans o₁₈.keeps)⟩)

theorem agrees_proveRangeUnchecked (hg : GlobalsAt E h gl) (hp : RpppAt h p q) (rnd : PoL.BP.RangeRand) {V : Ref} {V' : G1}
    (hV : At kG1 h V V') (v : List Zr) (r : Zr) :
    Agrees (proveRangeUnchecked E gl p rnd V v r) h (PoL.BP.proveRangeUnchecked E q rnd V' v r)
      fun h' a b => RpAt h' a.1 b.1 ∧ BpAt h' a.2 b.2 := by
  unfold proveRangeUnchecked PoL.BP.proveRangeUnchecked
  dsimp only
  rw [hp.Gs.length, hp.Fs.length]
  refine Wp.mulBy hp.F fun h₁ W o₁ => Wp.addSum o₁ (hg.zeroG1.mono o₁.keeps) (hp.Gs.mono o₁.keeps) fun h₂ yW oW => ?_
  have k₂ := oW.keeps
  refine Wp.lift fun vb _ => Wp.lift fun wCaret _ => ?_
  refine Wp.mulBy (hp.F.mono k₂) fun h₃ Q o₃ => ?_
  refine Wp.addSum o₃ (hg.zeroG1.mono (k₂.trans o₃.keeps)) (hp.Hs.mono (k₂.trans o₃.keeps)) fun h₄ y4 o₄ => ?_
  refine Wp.lift₂ (sliceTo_rel hp.Fs _) fun r1 x1 e1 => ?_
  refine Wp.addSum o₄ (hg.zeroG1.mono (k₂.trans o₄.keeps)) (Ats.mono e1 (k₂.trans o₄.keeps)) fun h₅ yQ oQ => ?_
  have k₅ := k₂.trans oQ.keeps
  refine Wp.reads (reads_rangeProofRO1 (hp.mono k₅) (hV.mono k₅) (oW.at_.mono oQ.keeps) oQ.at_) fun x => ?_
  refine Wp.mulBy (hp.F.mono k₅) fun h₆ U o₆ => Wp.addTo o₆ (hV.mono (k₅.trans o₆.keeps)) fun h₇ o₇ => ?_
  refine Wp.mulBy ((oW.at_.mono oQ.keeps).mono o₇.keeps) fun h₈ t o₈ => Wp.addTo (o₇.call o₈.keeps) o₈.at_ fun h₉ o₉ => ?_
  have k₉ := k₅.trans o₉.keeps
  refine Wp.call (agrees_rangeRdxPP (hp.mono k₉)) fun h₁₀ pr pr' k₁₀' r₁₀ => Wp.lift fun wRdx _ => ?_
  have k₁₀ := k₉.trans k₁₀'
  refine Wp.call (agrees_iterativeReduce (hg.mono k₁₀) r₁₀ (o₉.at_.mono k₁₀') wRdx) fun h₁₁ red red' k₁₁' r₁₁ => ?_
  have k₁₁ := k₁₀.trans k₁₁'
  obtain ⟨Δ, xsu⟩ := red
  obtain ⟨Δ', xsu'⟩ := red'
  obtain ⟨hΔ, e⟩ := r₁₁
  dsimp only at hΔ e ⊢
  subst e
  refine Wp.lift fun f _ => Wp.lift fun d _ => ?_
  refine Wp.mulBy (hp.F.mono k₁₁) fun h₁₂ R o₁₂ => ?_
  refine Wp.addSum o₁₂ (hg.zeroG1.mono (k₁₁.trans o₁₂.keeps)) (hp.Hs.mono (k₁₁.trans o₁₂.keeps)) fun h₁₃ y13 o₁₃ => ?_
  refine Wp.lift₂ (sliceTo_rel hp.Fs _) fun r1 x1 e1 => ?_
  refine Wp.addSum o₁₃ (hg.zeroG1.mono (k₁₁.trans o₁₃.keeps)) (Ats.mono e1 (k₁₁.trans o₁₃.keeps)) fun h₁₄ yR oR => ?_
  have k₁₄ := k₁₁.trans oR.keeps
  have kQ : Keeps h₅ h₁₄ := ((o₉.keeps.trans k₁₀').trans k₁₁').trans oR.keeps
  have hQ := oQ.at_.mono kQ
  refine Wp.reads (reads_rangeY (hp.mono k₁₄) hQ oR.at_ x 0) fun y0 => ?_
  refine Wp.reads (reads_rangeY (hp.mono k₁₄) hQ oR.at_ x 1) fun y1 => ?_
  refine Wp.lift fun aPrime _ => Wp.lift fun b1 _ => Wp.lift fun wy _ => Wp.lift fun bPrime _ => Wp.lift fun ap _ => Wp.lift fun y0t _ => ?_
  refine Wp.lift fun c1 _ => Wp.lift fun sb _ => Wp.lift fun sp _ => Wp.lift fun y0t _ => Wp.lift fun c2 _ => ?_
  refine Wp.mulBy (hp.G.mono k₁₄) fun h₁₅ C1 o₁₅ => Wp.mulBy (hp.G.mono (k₁₄.trans o₁₅.keeps)) fun h₁₆ C2 o₁₆ => ?_
  have hne : C2.addr ≠ C1.addr := by
    have h1 := (List.getElem?_eq_some_iff.1 o₁₅.at_).1
    have h2 := o₁₆.fresh
    omega
  refine Wp.mulBy (hp.H.mono ((k₁₄.trans o₁₅.keeps).trans o₁₆.keeps)) fun h₁₇ t o₁₇ => ?_
  refine Wp.addTo_frame ((o₁₅.call o₁₆.keeps).call o₁₇.keeps) o₁₇.at_ fun h₁₈ o₁₈ fr => ?_
  have oC2 : Own kG1 h₁₄ h₁₈ C2 (c2 • q.G) :=
    ⟨o₁₈.keeps, o₁₅.keeps.length_le.trans o₁₆.fresh, fr _ _ _ hne (o₁₆.at_.mono o₁₇.keeps)⟩
  refine Wp.mulBy (hp.H.mono (k₁₄.trans o₁₈.keeps)) fun h₁₉ t o₁₉ => ?_
  refine Wp.addTo_frame (oC2.call o₁₉.keeps) o₁₉.at_ fun h₂₀ o₂₀ fr => ?_
  have hC1 := fr kG1 C1 _ hne.symm (o₁₈.at_.mono o₁₉.keeps)
  have hC2 := o₂₀.at_
  have k₂₀ := k₁₄.trans o₂₀.keeps
  refine Wp.reads (reads_computeZ (hp.mono k₂₀) hC1 hC2 (hQ.mono o₂₀.keeps) (oR.at_.mono o₂₀.keeps) _ _) fun z => ?_
  refine Wp.call (agrees_mulV (hg.zeroG1.mono k₂₀) (hp.Fs.mono k₂₀) _) fun h₂₁ fp fp' k₂₁' r₂₁ => ?_
  have k₂₁ := k₂₀.trans k₂₁'
  refine Wp.lift fun a _ => Wp.lift fun y0t _ => Wp.lift fun b _ => Wp.lift fun c _ => ?_
  refine Wp.call (agrees_rangeIpaPP (hp.mono k₂₁) r₂₁) fun h₂₂ pi pi' k₂₂ r₂₂ => ?_
  refine Wp.call (agrees_newInnerProdArgument r₂₂ a b) fun h₂₃ ipa ipa' k₂₃ r₂₃ => ?_
  refine Wp.call (agrees_prove r₂₃) fun h₂₄ ipp ipp' k₂₄ r₂₄ => ?_
  have kC := ((k₂₁'.trans k₂₂).trans k₂₃).trans k₂₄
  have kR := o₂₀.keeps.trans kC
  have kQ' := kQ.trans kR
  have kΔ := oR.keeps.trans kR
  have kW := oQ.keeps.trans kQ'
  exact ⟨k₂.trans kW, ⟨hΔ.mono kΔ, rfl, oW.at_.mono kW, rfl, r₂₄, rfl, oQ.at_.mono kQ', oR.at_.mono kR, hC1.mono kC, hC2.mono kC, rfl, rfl⟩,
    r₂₂.mono (k₂₃.trans k₂₄)⟩

theorem agrees_proveRange (hg : GlobalsAt E h gl) (hp : RpppAt h p q) (rnd : PoL.BP.RangeRand) {V : Ref} {V' : G1}
    (hV : At kG1 h V V') (v : List Zr) (r : Zr) :
    Agrees (proveRange E gl p rnd V v r) h (PoL.BP.proveRange E q rnd V' v r) RpAt := by
  unfold proveRange PoL.BP.proveRange
  refine Wp.call (agrees_proveRangeUnchecked hg hp rnd hV v r) fun h₁ s s' k₁ r₁ => ?_
  refine Wp.call (agrees_ipp_verify r₁.2 r₁.1.ipp) fun h₂ b b' k₂ e => ?_
  subst e
  split
  · exact Wp.crash
  · exact ⟨k₁.trans k₂, r₁.1.mono k₂⟩

end PoL.Ptr.BP

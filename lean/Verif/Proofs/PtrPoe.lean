import Verif.Proofs.PtrSum

/-!
# Proofs of equality with pointers
-/

set_option linter.unusedSectionVars false

namespace PoL.Ptr.Poe

open Spec

variable {G1 G2 GT : Type} [AddCommGroup G1] [Module Zr G1] [AddCommGroup G2] [Module Zr G2] [AddCommGroup GT] [Module Zr GT]
  {E : Curve G1 G2 GT} {h h' : Mem (Cell G1 G2 GT)} {gl : Globals} {p : PoL.Poe.PP Ref Ref Ref} {q : PoL.Poe.PP G1 G2 GT}

theorem _root_.PoL.Spec.PoePPAt.mono (hp : PoePPAt h p q) (hk : Keeps h h') : PoePPAt h' p q :=
  ⟨hp.digest, hp.G.mono hk, hp.H.mono hk, hp.F.mono hk, hp.vc.mono hk⟩

theorem _root_.PoL.Spec.ApAt.mono {p : PoL.Poe.AggregatedProof Ref} {q : PoL.Poe.AggregatedProof G1} (hp : ApAt h p q) (hk : Keeps h h') :
    ApAt h' p q :=
  ⟨hp.IPP.mono hk, hp.c, hp.ρ, hp.U.mono hk, hp.V.mono hk, hp.Ω.mono hk, hp.Waggr.mono hk, hp.Vaggr.mono hk⟩

theorem reads_callRO (RO : PoL.Poe.ROFun G1) {gs : List Ref} {gs' : List G1} (hg : Ats kG1 h gs gs') (ints : List ℕ) (d : Bytes) (n : ℕ) :
    BP.Reads (callRO (G2 := G2) (GT := GT) RO gs ints d n) h (RO gs' ints d n) := Wp.loads hg (Wp.lift' fun _ _ => ⟨rfl, rfl⟩)

theorem agrees_ipaParams (hp : PoePPAt h p q) : Agrees (ipaParams E p) h (PoL.Poe.ipaParams E q) BpAt := by
  unfold ipaParams PoL.Poe.ipaParams
  refine Wp.callT (agrees_randGenVec E 1 _) fun h₁ u k₁ r₁ => Wp.lift₂ (r₁.get 0) fun r g hr => ?_
  exact (BP.agrees_setupDigest (p := ⟨[], p.G, p.H, r⟩) (q := ⟨[], q.G, q.H, g⟩) ⟨rfl, hp.G.mono k₁, hp.H.mono k₁, hr⟩).imp
    fun h₂ a b e => ⟨k₁.trans e.1, e.2⟩

theorem fromEnd_rel {M : Type} {k : Kind (Cell G1 G2 GT) M} {rs : List Ref} {xs : List M} (hx : Ats k h rs xs) (i : ℕ) :
    ORel (At k h) (PoL.Poe.fromEnd rs i) (PoL.Poe.fromEnd xs i) := by
  unfold PoL.Poe.fromEnd
  rw [hx.length]
  split
  · exact hx.get _
  · exact .inl ⟨rfl, rfl⟩

theorem selectG2_rel [DecidableEq G1] [DecidableEq GT] (hp : PoePPAt h p q) (idx : List ℕ) (m : ℕ) :
    ORel (Ats kG2 h) (selectG2 p idx m) (PoL.Poe.selectG2 q idx m) := by
  refine mapM_rel fun k _ => ?_
  cases idx[k]? with
  | none => exact .inl ⟨rfl, rfl⟩
  | some i =>
    show ORel _ (if p.vc.N < i + 1 then none else p.vc.G2s[p.vc.N - 1 - i]?) (if q.vc.N < i + 1 then none else q.vc.G2s[q.vc.N - 1 - i]?)
    rw [hp.vc.N]
    split
    · exact .inl ⟨rfl, rfl⟩
    · exact hp.vc.G2s.get _

variable [DecidableEq G1] [DecidableEq GT]

omit [DecidableEq GT] in
/-- `(v + w·x).MulV(t)` -/
theorem Wp.addMulV {γ δ : Type} {rs ss : List Ref} {xs ys : List G1} {x : Zr} {o : Option (List Zr)} (hg : At kG1 h gl.zeroG1 (0 : G1))
    (hx : Ats kG1 h rs xs) (hy : Ats kG1 h ss ys) {f : List Ref → Run (Cell G1 G2 GT) γ} {g : List G1 → Option δ}
    {Q : Mem (Cell G1 G2 GT) → γ → δ → Prop} (hk : ∀ h' us zs, Keeps h h' → Ats kG1 h' us zs → Wp (f us) h' (g zs) Q) :
    Wp (Gv.mul kG1 ss x >>= fun t => Gv.add kG1 rs t >>= fun vs => Ptr.lift o >>= fun v => Gv.mulV kG1 gl.zeroG1 vs v >>= f) h
      (PoL.Gv.add xs (PoL.Gv.mul ys x) >>= fun vs => o >>= fun v => PoL.Gv.mulV vs v >>= g) Q := by
  refine Wp.callT (agrees_mul hy x) fun h₁ t k₁ r₁ => Wp.call (agrees_add (hx.mono k₁) r₁) fun h₂ vs ws k₂ r₂ => Wp.lift fun v _ => ?_
  refine Wp.call (agrees_mulV (hg.mono (k₁.trans k₂)) r₂ v) fun h₃ us zs k₃ r₃ => ?_
  exact hk _ _ _ ((k₁.trans k₂).trans k₃) r₃

theorem agrees_eqsVerifyState (hg : GlobalsAt E h gl) {e : PoL.Poe.Equalities Ref Ref Ref} {e' : PoL.Poe.Equalities G1 G2 GT}
    (he : EqsAt h e e') {r : PoL.Poe.AggregatedProof Ref} {r' : PoL.Poe.AggregatedProof G1} (hr : ApAt h r r') :
    Agrees (eqsVerifyState E gl e'.RO e r) h (e'.verifyState E r') fun h' a b => a.1 = b.1 ∧ ApAt h' a.2 b.2 := by
  unfold eqsVerifyState PoL.Poe.Equalities.verifyState
  dsimp only
  rw [he.V.length, he.PP.digest, hr.c, hr.ρ, he.I, he.J]
  have hge := ((hr.Vaggr.append hr.Waggr).append he.V).append he.W
  refine BP.Wp.reads (reads_callRO _ hge _ _ _) fun xs => Wp.lift fun x _ => ?_
  have hge2 := (hge.append (.cons hr.U .nil)).append (.cons hr.V .nil)
  refine BP.Wp.reads (reads_callRO _ hge2 _ _ _) fun ts => ?_
  refine Wp.lift₂ (selectG2_rel he.PP _ _) fun g2V g2V' hgV => Wp.lift₂ (selectG2_rel he.PP _ _) fun g2W g2W' hgW => ?_
  refine Wp.addMulV hg.zeroG1 he.V hr.Vaggr fun h₁ us zs k₁ r₁ => ?_
  refine Wp.bind (wp_pairProd E r₁ (Ats.mono hgV k₁)) fun h₂ nu nu' oN => ?_
  have k₂ := k₁.trans oN.keeps
  refine Wp.addMulV (hg.zeroG1.mono k₂) (he.W.mono k₂) (hr.Waggr.mono k₂) fun h₃ us zs k₃ r₃ => ?_
  refine Wp.bind (wp_pairProd E r₃ (Ats.mono hgW (k₂.trans k₃))) fun h₄ n2 n2' o₄ => ?_
  refine Wp.addTo ((oN.call k₃).call o₄.keeps) o₄.at_ fun h₅ oN => ?_
  have k₅ := k₁.trans oN.keeps
  refine Wp.copy (hg.genG2.mono k₅) fun h₆ g2 o₆ => ?_
  have k₆ := k₅.trans o₆.keeps
  refine Wp.bind (wp_pairProd E (.cons (hr.Ω.mono k₆) .nil) (.cons o₆.at_ .nil)) fun h₇ de de' oD => ?_
  have k₇ := k₆.trans oD.keeps
  refine Wp.lift₂ (he.PP.vc.G1s.get 0) fun g0 g0' h0 => Wp.mulBy (At.mono h0 k₇) fun h₈ gc o₈ => ?_
  have k₈ := k₇.trans o₈.keeps
  refine Wp.lift₂ (fromEnd_rel he.PP.vc.G2s 0) fun l0 l0' hl => ?_
  refine Wp.bind (wp_pairProd E (.cons o₈.at_ .nil) (.cons (At.mono hl k₈) .nil)) fun h₉ d2 d2' o₉ => ?_
  refine Wp.addTo ((oD.call o₈.keeps).call o₉.keeps) o₉.at_ fun h₁₀ oD => ?_
  have hN : At kGt h₁₀ nu (nu' + n2') := (oN.at_.mono o₆.keeps).mono oD.keeps
  refine Wp.load hN (Wp.load oD.at_ ?_)
  have k := k₆.trans oD.keeps
  split
  · exact ⟨k, rfl, hr.mono k⟩
  · refine Wp.lift fun ev _ => Wp.lift fun od _ => Wp.lift fun b _ => ?_
    refine Wp.mulBy (he.PP.F.mono k) fun h₁ P oP => Wp.mulBy (hr.U.mono (k.trans oP.keeps)) fun h₂ t o₂ => ?_
    refine Wp.addTo (oP.call o₂.keeps) o₂.at_ fun h₃ oP => Wp.addTo oP (hr.V.mono (k.trans oP.keeps)) fun h₄ oP => ?_
    refine BP.Wp.addSum oP (hg.zeroG1.mono (k.trans oP.keeps)) (he.PP.H.mono (k.trans oP.keeps)) fun h₅ y oP => ?_
    refine Wp.call (agrees_ipaParams (he.PP.mono (k.trans oP.keeps))) fun h₆ pi pi' k₆ r₆ => ?_
    have k' := (k.trans oP.keeps).trans k₆
    have hipp : IppAt h₆ ⟨r.IPP.LRs, r.IPP.a, r.IPP.b, P, r'.c⟩ ⟨r'.IPP.LRs, r'.IPP.a, r'.IPP.b,
      r'.ρ • e'.PP.F + x • r'.U + r'.V + y, r'.c⟩ := ⟨hr.IPP.LRs.mono k', hr.IPP.a, hr.IPP.b, oP.at_.mono k₆, rfl⟩
    refine Wp.call (BP.agrees_ipp_verify r₆ hipp) fun h₇ b b' k₇ e => ?_
    have k'' := k'.trans k₇
    exact ⟨k'', e, hipp.mono k₇, rfl, rfl, hr.U.mono k'', hr.V.mono k'', hr.Ω.mono k'', hr.Waggr.mono k'', hr.Vaggr.mono k''⟩

/-- The six points computed for one pair. -/
def StepAt (h : Mem (Cell G1 G2 GT)) (a : Ref × Ref × Ref × Ref × Ref × Ref) (b : G1 × G1 × G1 × G1 × G1 × G1) : Prop :=
  At kG1 h a.1 b.1 ∧ At kG1 h a.2.1 b.2.1 ∧ At kG1 h a.2.2.1 b.2.2.1 ∧ At kG1 h a.2.2.2.1 b.2.2.2.1 ∧
    At kG1 h a.2.2.2.2.1 b.2.2.2.2.1 ∧ At kG1 h a.2.2.2.2.2 b.2.2.2.2.2

omit [AddCommGroup G1] [Module Zr G1] [AddCommGroup G2] [Module Zr G2] [AddCommGroup GT] [Module Zr GT] [DecidableEq G1] [DecidableEq GT] in
theorem StepAt.mono {a : Ref × Ref × Ref × Ref × Ref × Ref} {b : G1 × G1 × G1 × G1 × G1 × G1} (hk : Keeps h h') (hs : StepAt h a b) :
    StepAt h' a b :=
  ⟨hs.1.mono hk, hs.2.1.mono hk, hs.2.2.1.mono hk, hs.2.2.2.1.mono hk, hs.2.2.2.2.1.mono hk, hs.2.2.2.2.2.mono hk⟩

omit [DecidableEq GT] in
theorem agrees_proveStep {p : PoL.PP Ref Ref Ref} {q : PoL.PP G1 G2 GT} (hg : GlobalsAt E h gl) (hp : PPAt h p q) (n : ℕ) (u η ν : Zr)
    (I J : ℕ) (v w : List Zr) : Agrees (proveStep gl p n u η ν I J v w) h (PoL.Poe.proveStep q n u η ν I J v w) StepAt := by
  unfold proveStep PoL.Poe.proveStep
  split
  · exact Agrees.crash
  · refine Wp.lift₂ (hp.G1s.get I) fun a a' ha => Wp.mulBy ha fun h₁ V oV => ?_
    refine Wp.lift₂ (hp.G1s.get (n - 1)) fun b b' hb => Wp.mulBy (At.mono hb oV.keeps) fun h₂ t o₂ => ?_
    refine Wp.addTo (oV.call o₂.keeps) o₂.at_ fun h₃ oV => ?_
    refine Wp.lift₂ (fromEnd_rel hp.G1s I) fun c c' hc => Wp.mulBy (At.mono hc oV.keeps) fun h₄ ΩV oΩ => ?_
    have k₄ := oV.keeps.trans oΩ.keeps
    refine Wp.lift₂ (hp.G1s.get J) fun d d' hd => Wp.mulBy (At.mono hd k₄) fun h₅ W oW => ?_
    refine Wp.lift₂ (hp.G1s.get (n - 1)) fun b b' hb => Wp.mulBy (At.mono hb (k₄.trans oW.keeps)) fun h₆ t o₆ => ?_
    refine Wp.addTo (oW.call o₆.keeps) o₆.at_ fun h₇ oW => ?_
    have k₇ := k₄.trans oW.keeps
    refine Wp.lift₂ (fromEnd_rel hp.G1s J) fun c c' hc => Wp.mulBy (At.mono hc k₇) fun h₈ ΩW oΩW => ?_
    have k₈ := k₇.trans oΩW.keeps
    refine Wp.call (PP.agrees_openAt (hg.mono k₈) (hp.mono k₈) I v) fun h₉ x x' k₉ r₉ => ?_
    refine Wp.call (PP.agrees_openAt (hg.mono (k₈.trans k₉)) (hp.mono (k₈.trans k₉)) J w) fun h₁₀ y y' k₁₀ r₁₀ => ?_
    have k := k₉.trans k₁₀
    exact ⟨k₈.trans k, oV.at_.mono (((oΩ.keeps.trans oW.keeps).trans oΩW.keeps).trans k), oW.at_.mono (oΩW.keeps.trans k),
      oΩ.at_.mono ((oW.keeps.trans oΩW.keeps).trans k), oΩW.at_.mono k, r₉.2.mono k₁₀, r₁₀.2⟩

omit [AddCommGroup G1] [Module Zr G1] [AddCommGroup G2] [Module Zr G2] [AddCommGroup GT] [Module Zr GT] [DecidableEq G1] [DecidableEq GT] in
theorem ats_map {α β : Type} {R : α → β → Prop} {as : List α} {bs : List β} (hs : List.Forall₂ R as bs) {f : α → Ref} {g : β → G1}
    (hR : ∀ a b, R a b → At kG1 h (f a) (g b)) : Ats kG1 h (as.map f) (bs.map g) := by
  unfold Ats
  rw [List.forall₂_map_left_iff, List.forall₂_map_right_iff]
  exact hs.imp hR

omit [DecidableEq GT] in
/-- `(v + w·x).MulV(t).Sum()` -/
theorem Wp.addMulVSum {γ δ : Type} {rs ss : List Ref} {xs ys : List G1} {x : Zr} {o : Option (List Zr)} (hg : At kG1 h gl.zeroG1 (0 : G1))
    (hx : Ats kG1 h rs xs) (hy : Ats kG1 h ss ys) {f : Ref → Run (Cell G1 G2 GT) γ} {g : G1 → Option δ}
    {Q : Mem (Cell G1 G2 GT) → γ → δ → Prop} (hk : ∀ h' r z, Own kG1 h h' r z → Wp (f r) h' (g z) Q) :
    Wp (Gv.mul kG1 ss x >>= fun t => Gv.add kG1 rs t >>= fun vs => Ptr.lift o >>= fun v => BP.mulVSum gl vs v >>= f) h
      (PoL.Gv.add xs (PoL.Gv.mul ys x) >>= fun vs => o >>= fun v => PoL.Gv.mulV vs v >>= fun us => PoL.Gv.sum us >>= g) Q := by
  refine Wp.callT (agrees_mul hy x) fun h₁ t k₁ r₁ => Wp.call (agrees_add (hx.mono k₁) r₁) fun h₂ vs ws k₂ r₂ => Wp.lift fun v _ => ?_
  have k := k₁.trans k₂
  exact Sum.Wp.mulVSum (hg.mono k) r₂ fun h₃ r z o₃ => hk _ _ _ ⟨k.trans o₃.keeps, k.length_le.trans o₃.fresh, o₃.at_⟩

omit [DecidableEq GT] in
theorem agrees_eqsProve (hg : GlobalsAt E h gl) {e : PoL.Poe.Equalities Ref Ref Ref} {e' : PoL.Poe.Equalities G1 G2 GT}
    (he : EqsAt h e e') (rnd : PoL.Poe.EqsRand) (vs ws : List (List Zr)) :
    Agrees (eqsProve E gl e'.RO e rnd vs ws) h (e'.prove E rnd vs ws) ApAt := by
  unfold eqsProve PoL.Poe.Equalities.prove
  dsimp only
  rw [he.V.length, he.W.length, he.PP.digest, he.I, he.J]
  split
  · exact Agrees.crash
  split
  · exact Agrees.crash
  split
  · exact Agrees.crash
  refine Wp.lift fun v0 _ => ?_
  refine Wp.call (R := fun h' as bs => List.Forall₂ (StepAt h') as bs)
    (agrees_mapM (R := StepAt) (fun _ _ _ _ hk hs => StepAt.mono hk hs) ((forall₂_refl _).imp fun i j eij h' hk => ?_))
    fun h₁ st st' k₁ r₁ => ?_
  · subst eij
    refine Wp.lift fun t _ => ?_
    obtain ⟨u, η, ν⟩ := t
    refine Wp.lift fun a _ => Wp.lift fun b _ => Wp.lift fun v _ => Wp.lift fun w _ => ?_
    exact agrees_proveStep (hg.mono hk) (he.PP.vc.mono hk) _ _ _ _ _ _ _ _
  have hVa := ats_map r₁ (f := fun s => s.1) (g := fun s => s.1) fun a b s => s.1
  have hWa := ats_map r₁ (f := fun s => s.2.1) (g := fun s => s.2.1) fun a b s => s.2.1
  have hΩv := ats_map r₁ (f := fun s => s.2.2.1) (g := fun s => s.2.2.1) fun a b s => s.2.2.1
  have hΩw := ats_map r₁ (f := fun s => s.2.2.2.1) (g := fun s => s.2.2.2.1) fun a b s => s.2.2.2.1
  have hΩvP := ats_map r₁ (f := fun s => s.2.2.2.2.1) (g := fun s => s.2.2.2.2.1) fun a b s => s.2.2.2.2.1
  have hΩwP := ats_map r₁ (f := fun s => s.2.2.2.2.2) (g := fun s => s.2.2.2.2.2) fun a b s => s.2.2.2.2.2
  generalize st.map (fun s => s.1) = Va at hVa ⊢
  generalize st'.map (fun s => s.1) = Va' at hVa ⊢
  generalize st.map (fun s => s.2.1) = Wa at hWa ⊢
  generalize st'.map (fun s => s.2.1) = Wa' at hWa ⊢
  have hge := ((hVa.append hWa).append (he.V.mono k₁)).append (he.W.mono k₁)
  refine BP.Wp.reads (reads_callRO _ hge _ _ _) fun xs => Wp.lift fun x _ => Wp.lift fun v _ => ?_
  refine Wp.mulBy (he.PP.F.mono k₁) fun h₂ U oU => ?_
  refine BP.Wp.addSum oU (hg.zeroG1.mono (k₁.trans oU.keeps)) (he.PP.G.mono (k₁.trans oU.keeps)) fun h₃ yU oU => ?_
  have k₃ := k₁.trans oU.keeps
  refine Wp.mulBy (he.PP.F.mono k₃) fun h₄ V oV => ?_
  refine BP.Wp.addSum oV (hg.zeroG1.mono (k₃.trans oV.keeps)) (he.PP.G.mono (k₃.trans oV.keeps)) fun h₅ yV oV => ?_
  have k₁₅ := oU.keeps.trans oV.keeps
  have k₅ := k₁.trans k₁₅
  have hU := oU.at_.mono oV.keeps
  have hge2 := ((hge.mono k₁₅).append (.cons hU .nil)).append (.cons oV.at_ .nil)
  refine BP.Wp.reads (reads_callRO _ hge2 _ _ _) fun ts => ?_
  refine Wp.addMulVSum (hg.zeroG1.mono k₅) (hΩvP.mono k₁₅) (hΩv.mono k₁₅) fun h₆ Ω ω oΩ => ?_
  refine Wp.addMulVSum (hg.zeroG1.mono (k₅.trans oΩ.keeps)) (hΩwP.mono (k₁₅.trans oΩ.keeps)) (hΩw.mono (k₁₅.trans oΩ.keeps)) fun h₇ s σ o₇ => ?_
  refine Wp.addTo (oΩ.call o₇.keeps) o₇.at_ fun h₈ oΩ => ?_
  have k₈ := k₅.trans oΩ.keeps
  refine Wp.lift fun a _ => Wp.lift fun ev _ => Wp.lift fun od _ => Wp.lift fun b _ => ?_
  refine Wp.mulBy (he.PP.F.mono k₈) fun h₉ P oP => ?_
  refine Wp.mulBy ((hU.mono oΩ.keeps).mono oP.keeps) fun h₁₀ t o₁₀ => Wp.addTo (oP.call o₁₀.keeps) o₁₀.at_ fun h₁₁ oP => ?_
  refine Wp.addTo oP ((oV.at_.mono oΩ.keeps).mono oP.keeps) fun h₁₂ oP => ?_
  refine BP.Wp.addSum oP (hg.zeroG1.mono (k₈.trans oP.keeps)) (he.PP.H.mono (k₈.trans oP.keeps)) fun h₁₃ y oP => ?_
  refine Wp.call (agrees_ipaParams (he.PP.mono (k₈.trans oP.keeps))) fun h₁₄ pi pi' k₁₄ r₁₄ => ?_
  refine Wp.call (BP.agrees_newInnerProdArgument r₁₄ a b) fun h₁₅ ipa ipa' k₁₅' r₁₅ => ?_
  have hP := (oP.at_.mono k₁₄).mono k₁₅'
  refine Wp.call (BP.agrees_prove (r := { ipa with P := P }) ⟨r₁₅.pp, r₁₅.a, r₁₅.b, r₁₅.C, hP⟩) fun h₁₆ ipp ipp' k₁₆ r₁₆ => ?_
  have kt := ((oP.keeps.trans k₁₄).trans k₁₅').trans k₁₆
  have kt5 := oΩ.keeps.trans kt
  exact ⟨k₈.trans kt, r₁₆, r₁₆.C, rfl, hU.mono kt5, oV.at_.mono kt5, oΩ.at_.mono kt, hWa.mono (k₁₅.trans kt5), hVa.mono (k₁₅.trans kt5)⟩

theorem agrees_eqVerify (hg : GlobalsAt E h gl) {e : PoL.Poe.Equality Ref Ref Ref} {e' : PoL.Poe.Equality G1 G2 GT}
    (he : EqAt h e e') {r : PoL.Poe.Proof Ref} {r' : PoL.Poe.Proof G1} (hr : EqProofAt h r r') :
    Agrees (eqVerify E gl e'.RO e r) h (e'.verify E r') fun _ a b => a = b := by
  unfold eqVerify PoL.Poe.Equality.verify
  dsimp only
  rw [he.PP.digest, hr.C, he.I, he.J]
  refine BP.Wp.reads (reads_callRO _ (.cons he.V (.cons he.W (.cons hr.V (.cons hr.W .nil)))) _ _ _) fun xs => Wp.lift fun x _ => ?_
  refine Wp.copy hg.genG1 fun h₁ g o₁ => Wp.mulBy (hr.V.mono o₁.keeps) fun h₂ Vx o₂ => ?_
  have k₂ := o₁.keeps.trans o₂.keeps
  refine Wp.mulBy (hr.W.mono k₂) fun h₃ Wx o₃ => ?_
  have k₃ := k₂.trans o₃.keeps
  refine Wp.mulBy (o₁.at_.mono (o₂.keeps.trans o₃.keeps)) fun h₄ gC o₄ => ?_
  have k₄ := k₃.trans o₄.keeps
  refine BP.Wp.reads (reads_callRO _ (.cons (he.V.mono k₄) (.cons (he.W.mono k₄) (.cons (o₂.at_.mono (o₃.keeps.trans o₄.keeps))
    (.cons (o₃.at_.mono o₄.keeps) (.cons o₄.at_ .nil))))) _ _ _) fun ts => Wp.lift fun t0 _ => Wp.lift fun t1 _ => ?_
  refine Wp.mulBy (hr.V.mono k₄) fun h₅ VV oV => Wp.addTo oV (he.V.mono (k₄.trans oV.keeps)) fun h₆ oV => ?_
  refine Wp.mulBy oV.at_ fun h₇ VV2 oV2 => ?_
  have k₇ := (k₄.trans oV.keeps).trans oV2.keeps
  refine Wp.mulBy (hr.W.mono k₇) fun h₈ WW oW => Wp.addTo oW (he.W.mono (k₇.trans oW.keeps)) fun h₉ oW => ?_
  refine Wp.mulBy oW.at_ fun h₁₀ WW2 oW2 => ?_
  have k₁₀ := (k₇.trans oW.keeps).trans oW2.keeps
  refine Wp.lift₂ (fromEnd_rel he.PP.vc.G2s e'.I) fun a a' ha => ?_
  refine Wp.bind (wp_pairProd E (.cons (oV2.at_.mono (oW.keeps.trans oW2.keeps)) .nil) (.cons (At.mono ha k₁₀) .nil)) fun h₁₁ nu nu' oN => ?_
  refine Wp.lift₂ (fromEnd_rel he.PP.vc.G2s e'.J) fun b b' hb => ?_
  refine Wp.bind (wp_pairProd E (.cons (oW2.at_.mono oN.keeps) .nil) (.cons (At.mono hb (k₁₀.trans oN.keeps)) .nil)) fun h₁₂ l l' o₁₂ => ?_
  refine Wp.addTo (oN.call o₁₂.keeps) o₁₂.at_ fun h₁₃ oN => ?_
  have k₁₃ := k₁₀.trans oN.keeps
  refine Wp.copy (hg.genG2.mono k₁₃) fun h₁₄ g2 o₁₄ => ?_
  have k₁₄ := k₁₃.trans o₁₄.keeps
  refine Wp.bind (wp_pairProd E (.cons (hr.Ω.mono k₁₄) .nil) (.cons o₁₄.at_ .nil)) fun h₁₅ l l' oL => ?_
  have k₁₅ := k₁₄.trans oL.keeps
  refine Wp.lift₂ (he.PP.vc.G1s.get 0) fun g0 g0' h0 => Wp.lift₂ (fromEnd_rel he.PP.vc.G2s 0) fun l0 l0' hl0 => ?_
  refine Wp.bind (wp_pairProd E (.cons (At.mono h0 k₁₅) .nil) (.cons (At.mono hl0 k₁₅) .nil)) fun h₁₆ rr rr' o₁₆ => ?_
  refine Wp.mulBy o₁₆.at_ fun h₁₇ r2 o₁₇ => Wp.addTo ((oL.call o₁₆.keeps).call o₁₇.keeps) o₁₇.at_ fun h₁₈ oL => ?_
  refine Wp.load (oN.at_.mono (o₁₄.keeps.trans oL.keeps)) (Wp.load oL.at_ ?_)
  exact ⟨k₁₄.trans oL.keeps, rfl⟩

omit [DecidableEq GT] in
theorem agrees_eqProve (hg : GlobalsAt E h gl) {e : PoL.Poe.Equality Ref Ref Ref} {e' : PoL.Poe.Equality G1 G2 GT}
    (he : EqAt h e e') (u η ν : Zr) (v w : List Zr) :
    Agrees (eqProve gl e'.RO e u η ν v w) h (e'.prove E u η ν v w) EqProofAt := by
  have hp := he.PP.vc
  unfold eqProve PoL.Poe.Equality.prove
  dsimp only
  rw [he.PP.digest, he.I, he.J]
  refine Wp.lift fun vI _ => Wp.lift fun wJ _ => ?_
  split
  · exact Wp.crash
  split
  · exact Wp.crash
  refine Wp.lift₂ (hp.G1s.get _) fun a a' ha => Wp.mulBy ha fun h₁ V oV => ?_
  refine Wp.lift₂ (hp.G1s.get _) fun b b' hb => Wp.mulBy (At.mono hb oV.keeps) fun h₂ t o₂ => ?_
  refine Wp.addTo (oV.call o₂.keeps) o₂.at_ fun h₃ oV => ?_
  refine Wp.lift₂ (fromEnd_rel hp.G1s _) fun c c' hc => Wp.mulBy (At.mono hc oV.keeps) fun h₄ ΩV oΩ => ?_
  have k₄ := oV.keeps.trans oΩ.keeps
  refine Wp.lift₂ (hp.G1s.get _) fun d d' hd => Wp.mulBy (At.mono hd k₄) fun h₅ W oW => ?_
  refine Wp.lift₂ (hp.G1s.get _) fun b b' hb => Wp.mulBy (At.mono hb (k₄.trans oW.keeps)) fun h₆ t o₆ => ?_
  refine Wp.addTo (oW.call o₆.keeps) o₆.at_ fun h₇ oW => ?_
  have k₇ := k₄.trans oW.keeps
  refine Wp.lift₂ (fromEnd_rel hp.G1s _) fun c c' hc => Wp.mulBy (At.mono hc k₇) fun h₈ ΩW oΩW => ?_
  have k₈ := k₇.trans oΩW.keeps
  have hV := oV.at_.mono ((oΩ.keeps.trans oW.keeps).trans oΩW.keeps)
  have hW := oW.at_.mono oΩW.keeps
  have hΩ := oΩ.at_.mono (oW.keeps.trans oΩW.keeps)
  refine BP.Wp.reads (reads_callRO _ (.cons (he.V.mono k₈) (.cons (he.W.mono k₈) (.cons hV (.cons hW .nil)))) _ _ _) fun xs => Wp.lift fun x _ => ?_
  refine Wp.copy (hg.genG1.mono k₈) fun h₉ g o₉ => Wp.mulBy (hV.mono o₉.keeps) fun h₁₀ Vx o₁₀ => ?_
  have ka := o₉.keeps.trans o₁₀.keeps
  refine Wp.mulBy (hW.mono ka) fun h₁₁ Wx o₁₁ => Wp.mulBy (o₉.at_.mono (o₁₀.keeps.trans o₁₁.keeps)) fun h₁₂ gc o₁₂ => ?_
  have kb := (ka.trans o₁₁.keeps).trans o₁₂.keeps
  have k₁₂ := k₈.trans kb
  refine BP.Wp.reads (reads_callRO _ (.cons (he.V.mono k₁₂) (.cons (he.W.mono k₁₂) (.cons (o₁₀.at_.mono (o₁₁.keeps.trans o₁₂.keeps))
    (.cons (o₁₁.at_.mono o₁₂.keeps) (.cons o₁₂.at_ .nil))))) _ _ _) fun ts => Wp.lift fun t0 _ => Wp.lift fun t1 _ => ?_
  refine Wp.call (PP.agrees_openAt (hg.mono k₁₂) (hp.mono k₁₂) _ v) fun h₁₃ y y' k₁₃ r₁₃ => ?_
  refine Wp.call (PP.agrees_openAt (hg.mono (k₁₂.trans k₁₃)) (hp.mono (k₁₂.trans k₁₃)) _ w) fun h₁₄ z z' k₁₄ r₁₄ => ?_
  have kc := (kb.trans k₁₃).trans k₁₄
  refine Wp.mulBy (hΩ.mono kc) fun h₁₅ A oA => Wp.addTo oA ((r₁₃.2.mono k₁₄).mono oA.keeps) fun h₁₆ oA => ?_
  refine Wp.mulBy oA.at_ fun h₁₇ A2 oA2 => ?_
  have kd := kc.trans (oA.keeps.trans oA2.keeps)
  refine Wp.mulBy (oΩW.at_.mono kd) fun h₁₈ B oB => ?_
  refine Wp.addTo oB (r₁₄.2.mono ((oA.keeps.trans oA2.keeps).trans oB.keeps)) fun h₁₉ oB => Wp.mulBy oB.at_ fun h₂₀ B2 oB2 => ?_
  refine Wp.addTo ((oA2.call oB.keeps).call oB2.keeps) oB2.at_ fun h₂₁ oA2 => ?_
  have kf := kc.trans (oA.keeps.trans oA2.keeps)
  exact ⟨k₈.trans kf, rfl, hV.mono kf, hW.mono kf, oA2.at_⟩

end PoL.Ptr.Poe

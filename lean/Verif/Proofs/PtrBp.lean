import Verif.Proofs.Ptr

/-!
# The inner-product argument and the iterated reduction with pointers
-/

set_option linter.unusedSectionVars false

namespace PoL.Ptr.BP

open Spec

variable {G1 G2 GT : Type} [AddCommGroup G1] [Module Zr G1] [AddCommGroup G2] [Module Zr G2] [AddCommGroup GT] [Module Zr GT]
  {E : Curve G1 G2 GT} {h h' : Mem (Cell G1 G2 GT)} {gl : Globals} {p : BP.PP Ref} {q : BP.PP G1}

theorem _root_.PoL.Spec.BpAt.mono (hp : BpAt h p q) (hk : Keeps h h') : BpAt h' p q :=
  ⟨hp.digest, hp.G.mono hk, hp.H.mono hk, hp.U.mono hk⟩

theorem _root_.PoL.Spec.IppAt.mono {p : BP.InnerProductProof Ref} {q : BP.InnerProductProof G1} (hp : IppAt h p q) (hk : Keeps h h') :
    IppAt h' p q := ⟨hp.LRs.mono hk, hp.a, hp.b, hp.P.mono hk, hp.C⟩

theorem _root_.PoL.Spec.IpaAt.mono {p : BP.InnerProdArgument Ref} {q : BP.InnerProdArgument G1} (hp : IpaAt h p q) (hk : Keeps h h') :
    IpaAt h' p q := ⟨hp.pp.mono hk, hp.a, hp.b, hp.C, hp.P.mono hk⟩

theorem _root_.PoL.Spec.ΔAt.mono {p : List (Ref × Ref × Ref)} {q : List (G1 × G1 × G1)} (hp : ΔAt h p q) (hk : Keeps h h') :
    ΔAt h' p q := hp.imp fun _ _ e => ⟨e.1.mono hk, e.2.1.mono hk, e.2.2.mono hk⟩

theorem agrees_digestInput (hp : BpAt h p q) : Agrees (digestInput E p) h (PoL.BP.digestInput E q) fun _ a b => a = b := by
  unfold digestInput PoL.BP.digestInput
  rw [hp.G.length]
  refine Wp.call (agrees_mapM (R := fun _ a b => a = b) (fun _ _ _ _ _ e => e) ((forall₂_refl _).imp fun i j e h' hk => ?_))
    fun h₁ as bs k₁ e => ?_
  · subst e
    refine Wp.lift₂ ((hp.G.mono hk).get i) fun r g hr => Wp.load hr ?_
    rw [hp.H.length]
    split
    · exact Wp.lift₂ ((hp.H.mono hk).get i) fun s x hs => Wp.load hs ⟨Keeps.refl _, rfl⟩
    · exact ⟨Keeps.refl _, rfl⟩
  · rw [List.forall₂_eq_eq_eq] at e
    subst e
    exact Wp.load (hp.U.mono k₁) ⟨k₁, rfl⟩

theorem agrees_setupDigest (hp : BpAt h p q) : Agrees (setupDigest E p) h (PoL.BP.setupDigest E q) BpAt := by
  unfold setupDigest PoL.BP.setupDigest
  refine Wp.call (agrees_digestInput hp) fun h₁ a b k₁ e => ?_
  subst e
  exact ⟨k₁, rfl, hp.G.mono k₁, hp.H.mono k₁, hp.U.mono k₁⟩

theorem foldl_zip₂ (as bs : List Zr) (gs hs : List G1) (x y : G1) (hab : as.length = bs.length) (hg : as.length ≤ gs.length)
    (hh : as.length ≤ hs.length) :
    ((as.zip gs).zip (bs.zip hs)).foldl (fun (d : G1 × G1) e => (d.1 + e.1.1 • e.1.2, d.2 + e.2.1 • e.2.2)) (x, y)
      = ((List.zipWith (fun a g => a • g) as gs).foldl (· + ·) x, (List.zipWith (fun a g => a • g) bs hs).foldl (· + ·) y) := by
  induction as generalizing bs gs hs x y with
  | nil =>
    cases bs with
    | nil => rfl
    | cons _ _ => simp at hab
  | cons a as ih =>
    cases bs with
    | nil => simp at hab
    | cons b bs =>
      cases gs with
      | nil => simp at hg
      | cons g gs =>
        cases hs with
        | nil => simp at hh
        | cons h hs =>
          simp only [List.length_cons, Nat.add_le_add_iff_right, Nat.add_right_cancel_iff] at hab hg hh
          exact ih bs gs hs _ _ hab hg hh

theorem wp_commit (hp : BpAt h p q) (a b : List Zr) (withU : Bool) :
    Wp (commit p a b withU) h (PoL.BP.commit q a b withU) fun h' r x => Own kG1 h h' r x := by
  obtain ⟨dp, Gp, Hp, Up⟩ := p
  obtain ⟨dq, Gq, Hq, Uq⟩ := q
  have hG := hp.G
  have hH := hp.H
  have hU := hp.U
  dsimp only at hG hH hU
  unfold commit PoL.BP.commit
  dsimp only
  split
  · exact Wp.crash
  · rename_i hab
    push Not at hab
    cases a with
    | nil => exact Wp.crash
    | cons a0 as =>
      cases b with
      | nil => simp at hab
      | cons b0 bs =>
        simp only [List.length_cons, Nat.add_right_cancel_iff] at hab
        cases hG with
        | nil => simp; exact Wp.crash
        | cons hg0 hgs =>
          cases hH with
          | nil => simp; exact Wp.crash
          | cons hh0 hhs =>
            rename_i g0 y0 gs ys h0 z0 hs zs
            dsimp only
            have e1 := hgs.length_eq
            have e2 := hhs.length_eq
            by_cases hlt : gs.length < as.length ∨ hs.length < as.length
            · rw [if_pos hlt, if_pos (by simp; omega)]
              exact Wp.crash
            · rw [if_neg hlt, if_neg (by simp; omega)]
              push Not at hlt
              refine Wp.mulBy hg0 fun h₁ s o₁ => ?_
              refine Wp.mulBy (hh0.mono o₁.keeps) fun h₂ t o₂ => ?_
              have hne : t.addr ≠ s.addr := by
                have h1 := (List.getElem?_eq_some_iff.1 o₁.at_).1
                have h2 := o₂.fresh
                omega
              refine Wp.step (wp_forM (I := fun h' (d : G1 × G1) => Own kG1 h h' s d.1 ∧ Own kG1 h h' t d.2)
                (S := fun (a : (Zr × Ref) × (Zr × Ref)) (b : (Zr × G1) × (Zr × G1)) => (a.1.1 = b.1.1 ∧ At kG1 h a.1.2 b.1.2) ∧ (a.2.1 = b.2.1 ∧ At kG1 h a.2.2 b.2.2))
                (step := fun (d : G1 × G1) (e : (Zr × G1) × (Zr × G1)) => (d.1 + e.1.1 • e.1.2, d.2 + e.2.1 • e.2.2)) ?_
                (zip_forall₂ (zip_forall₂ (forall₂_refl as) hgs) (zip_forall₂ (forall₂_refl bs) hhs)) h₂ (a0 • y0, b0 • z0)
                ⟨o₁.call o₂.keeps, ⟨o₁.keeps.trans o₂.keeps, o₁.keeps.length_le.trans o₂.fresh, o₂.at_⟩⟩) fun h₃ _ o₃ => ?_
              · intro h' d x y hs ⟨i1, i2⟩
                obtain ⟨⟨c1, c2⟩, ⟨c3, c4⟩⟩ := hs
                rw [c1, c3]
                refine Wp.mulBy (c2.mono i1.keeps) fun h₃ u o₃ => ?_
                refine Wp.addTo_frame (i1.call o₃.keeps) o₃.at_ fun h₄ o₄ fr => ?_
                have ht : Own kG1 h h₄ t d.2 := ⟨o₄.keeps, i2.fresh, fr _ _ _ hne (i2.at_.mono o₃.keeps)⟩
                refine Wp.mulBy (c4.mono o₄.keeps) fun h₅ v o₅ => ?_
                have w := wp_addTo (ht.call o₅.keeps) o₅.at_
                have w' := wp_add_at (ht.call o₅.keeps).at_ o₅.at_
                have hs := (o₄.call o₅.keeps)
                unfold Wp at w w' ⊢
                revert w w'
                cases addTo kG1 t v h₅ with
                | none => exact fun w _ => w.elim
                | some r =>
                  intro w w'
                  dsimp only at w w' ⊢
                  refine ⟨⟨w.keeps, hs.fresh, ?_⟩, w⟩
                  have := hs.at_
                  unfold At at this ⊢
                  rw [w'.1, List.getElem?_set_ne hne]
                  exact this
              · rw [foldl_zip₂ as bs _ _ _ _ hab (by omega) (by omega)] at o₃
                obtain ⟨o₃, o₃'⟩ := o₃
                refine Wp.addTo o₃ o₃'.at_ fun h₄ o₄ => ?_
                simp only [List.zipWith_cons_cons, List.foldl_cons, zero_add]
                split
                · refine Wp.lift fun c _ => ?_
                  refine Wp.mulBy (hU.mono o₄.keeps) fun h₅ v o₅ => ?_
                  exact Wp.addTo (o₄.call o₅.keeps) o₅.at_ fun h₆ o₆ => o₆
                · exact o₄

theorem agrees_newInnerProdArgument (hp : BpAt h p q) (a b : List Zr) :
    Agrees (newInnerProdArgument p a b) h (PoL.BP.newInnerProdArgument q a b) IpaAt := by
  unfold newInnerProdArgument PoL.BP.newInnerProdArgument
  refine Wp.lift fun c _ => Wp.bind (wp_commit hp a b false) fun h₁ r x o => ?_
  exact ⟨o.keeps, hp.mono o.keeps, rfl, rfl, rfl, o.at_⟩

theorem agrees_computeInstanceSpecificParams (hp : BpAt h p q) {P : Ref} {P' : G1} (hP : At kG1 h P P') (c : Zr) :
    Agrees (computeInstanceSpecificParams E p P c) h (PoL.BP.computeInstanceSpecificParams E q P' c)
      fun h' a b => BpAt h' a.1 b.1 ∧ At kG1 h' a.2 b.2 := by
  unfold computeInstanceSpecificParams PoL.BP.computeInstanceSpecificParams
  unfold PoL.BP.instanceHashInput
  rw [hp.digest]
  refine Wp.lift fun x _ => Wp.copy hP fun h₁ s o₁ => ?_
  refine Wp.mulBy (hp.U.mono o₁.keeps) fun h₂ t o₂ => Wp.addTo (o₁.call o₂.keeps) o₂.at_ fun h₃ o₃ => ?_
  refine Wp.mulBy (hp.U.mono o₃.keeps) fun h₄ u o₄ => ?_
  have k₄ := o₃.keeps.trans o₄.keeps
  refine Wp.call (agrees_setupDigest (q := { q with U := x • q.U }) ⟨rfl, hp.G.mono k₄, hp.H.mono k₄, o₄.at_⟩)
    fun h₅ a b k₅ r => ?_
  exact ⟨k₄.trans k₅, r, (o₃.at_.mono o₄.keeps).mono k₅⟩

/-- What the recursive calls get. -/
structure NpAt (m : Mem (Cell G1 G2 GT)) (p : PoL.BP.NextParams Ref) (q : PoL.BP.NextParams G1) : Prop where
  x : p.x = q.x
  xInverse : p.xInverse = q.xInverse
  g : Ats kG1 m p.g q.g
  h : Ats kG1 m p.h q.h
  P : At kG1 m p.P q.P

theorem agrees_computeNextParams (hp : BpAt h p q) {L R P : Ref} {L' R' P' : G1} (hL : At kG1 h L L') (hR : At kG1 h R R')
    (hP : At kG1 h P P') {gr hr : List Ref} {gs hs : List G1} (hg : Ats kG1 h gr gs) (hh : Ats kG1 h hr hs) :
    Agrees (computeNextParams E L R p gr hr P) h (PoL.BP.computeNextParams E L' R' q gs hs P') NpAt := by
  unfold computeNextParams PoL.BP.computeNextParams randomOracle
  dsimp only
  rw [hp.digest, hg.length]
  simp only [bind_assoc, pure_bind]
  refine Wp.load hL (Wp.load hR (Wp.lift fun x _ => ?_))
  refine Wp.lift₂ (sliceTo_rel hg _) fun rs xs hx => ?_
  refine Wp.callT (agrees_mul hx _) fun h₁ m₁ k₁ r₁ => ?_
  refine Wp.lift₂ (sliceFrom_rel hg _) fun rs xs hx => ?_
  refine Wp.callT (agrees_mul (Ats.mono hx k₁) _) fun h₂ m₂ k₂ r₂ => ?_
  refine Wp.call (agrees_hadamard (r₁.mono k₂) r₂) fun h₃ ng ng' k₃ r₃ => ?_
  have k₃ := (k₁.trans k₂).trans k₃
  refine Wp.lift₂ (sliceTo_rel (hh.mono k₃) _) fun rs xs hx => ?_
  refine Wp.callT (agrees_mul hx _) fun h₄ m₁ k₄ r₁ => ?_
  refine Wp.lift₂ (sliceFrom_rel (hh.mono k₃) _) fun rs xs hx => ?_
  refine Wp.callT (agrees_mul (Ats.mono hx k₄) _) fun h₅ m₂ k₅ r₂ => ?_
  refine Wp.call (agrees_hadamard (r₁.mono k₅) r₂) fun h₆ nh nh' k₆ r₆ => ?_
  have k₆' := (k₄.trans k₅).trans k₆
  have k₆ := k₃.trans k₆'
  refine Wp.mulBy (hL.mono k₆) fun h₇ l2 o₇ => Wp.mulBy (hR.mono (k₆.trans o₇.keeps)) fun h₈ r2 o₈ => ?_
  refine Wp.copy (o₇.at_.mono o₈.keeps) fun h₉ s o₉ => ?_
  have k₉' := (o₇.keeps.trans o₈.keeps).trans o₉.keeps
  refine Wp.addTo o₉ (hP.mono (k₆.trans k₉')) fun hₐ oₐ => Wp.addTo oₐ (o₈.at_.mono oₐ.keeps) fun hᵦ oᵦ => ?_
  have kᵦ := (o₇.keeps.trans o₈.keeps).trans oᵦ.keeps
  exact ⟨k₆.trans kᵦ, rfl, rfl, r₃.mono (k₆'.trans kᵦ), r₆.mono kᵦ, oᵦ.at_⟩

variable [DecidableEq G1]

theorem wp_last (hp : BpAt h p q) {P : Ref} {P' : G1} (hP : At kG1 h P P') {gr hr : List Ref}
    {gs hs : List G1} (hg : Ats kG1 h gr gs) (hh : Ats kG1 h hr hs) (a b : Zr) :
    Agrees (do
        let expectedP ← mulBy kG1 p.U (a * b)
        addTo kG1 expectedP (← mulBy kG1 (← lift gr[0]?) a)
        addTo kG1 expectedP (← mulBy kG1 (← lift hr[0]?) b)
        return decide ((← load (kG1 (G1 := G1) (G2 := G2) (GT := GT)) expectedP) = (← load kG1 P))) h
      (do
        let g0 ← gs[0]?
        let h0 ← hs[0]?
        let expectedP := (a * b) • q.U + a • g0 + b • h0
        return decide (expectedP = P')) fun _ a b => a = b := by
  refine Wp.mulBy hp.U fun h₁ s o₁ => ?_
  refine Wp.lift₂ (hg.get 0) fun r g hr => Wp.mulBy (hr.mono o₁.keeps) fun h₂ t o₂ => ?_
  refine Wp.addTo (o₁.call o₂.keeps) o₂.at_ fun h₃ o₃ => ?_
  refine Wp.lift₂ (hh.get 0) fun r g hr => Wp.mulBy (hr.mono o₃.keeps) fun h₄ t o₄ => ?_
  refine Wp.addTo (o₃.call o₄.keeps) o₄.at_ fun h₅ o₅ => ?_
  exact Wp.load o₅.at_ (Wp.load (hP.mono o₅.keeps) ⟨o₅.keeps, rfl⟩)

theorem verifyLoop_cons {P L R : G1} {gs hs LRs : List G1} {a b : Zr} (hg : ¬ gs.length = 1) :
    PoL.BP.verifyLoop E q P gs hs (L :: R :: LRs) a b
      = (PoL.BP.computeNextParams E L R q gs hs P >>= fun np => PoL.BP.verifyLoop E q np.P np.g np.h LRs a b) := by
  rw [PoL.BP.verifyLoop.eq_def, if_neg hg]
  dsimp only
  cases PoL.BP.computeNextParams E L R q gs hs P <;> rfl

theorem agrees_verifyLoop (a b : Zr) (n : ℕ) : ∀ {LRs : List Ref} {LRs' : List G1} (_ : LRs.length ≤ n)
    {h : Mem (Cell G1 G2 GT)} (_ : BpAt h p q) (_ : Ats kG1 h LRs LRs') {P : Ref} {P' : G1} (_ : At kG1 h P P') {gr hr : List Ref}
      {gs hs : List G1} (_ : Ats kG1 h gr gs) (_ : Ats kG1 h hr hs),
      Agrees (verifyLoop E p P gr hr LRs a b) h (PoL.BP.verifyLoop E q P' gs hs LRs' a b) fun _ a b => a = b := by
  induction n with
  | zero =>
    intro LRs LRs' hn h hp hLR P P' hP gr hr gs hs hg hh
    unfold verifyLoop PoL.BP.verifyLoop
    rw [hg.length]
    split
    · exact wp_last hp hP hg hh a b
    · cases hLR with
      | nil => exact Agrees.crash
      | cons _ _ => simp at hn
  | succ n ih =>
    intro LRs LRs' hn h hp hLR P P' hP gr hr gs hs hg hh
    by_cases hne : gs.length = 1
    · unfold verifyLoop PoL.BP.verifyLoop
      rw [hg.length, if_pos hne, if_pos hne]
      exact wp_last hp hP hg hh a b
    · cases hLR with
      | nil =>
        unfold verifyLoop PoL.BP.verifyLoop
        rw [hg.length, if_neg hne, if_neg hne]
        exact Agrees.crash
      | cons hL hLR =>
        cases hLR with
        | nil =>
          unfold verifyLoop PoL.BP.verifyLoop
          rw [hg.length, if_neg hne, if_neg hne]
          exact Agrees.crash
        | cons hR hLR =>
          rw [verifyLoop_cons hne, verifyLoop.eq_def, hg.length, if_neg hne]
          refine Wp.call (agrees_computeNextParams hp hL hR hP hg hh) fun h₁ np np' k₁ r₁ => ?_
          refine (ih (by simp at hn; omega) (hp.mono k₁) (Ats.mono hLR k₁) r₁.P r₁.g r₁.h).imp fun h₂ a b e => ⟨k₁.trans e.1, e.2⟩

theorem agrees_ipp_verify (hp : BpAt h p q) {r : PoL.BP.InnerProductProof Ref} {r' : PoL.BP.InnerProductProof G1} (hr : IppAt h r r') :
    Agrees (InnerProductProof.verify E r p) h (r'.verify E q) fun _ a b => a = b := by
  unfold InnerProductProof.verify PoL.BP.InnerProductProof.verify
  rw [hr.C, hr.a, hr.b]
  refine Wp.call (agrees_computeInstanceSpecificParams hp hr.P _) fun h₁ s s' k₁ r₁ => ?_
  refine (agrees_verifyLoop _ _ _ le_rfl r₁.1 (hr.LRs.mono k₁) r₁.2 r₁.1.G r₁.1.H).imp fun h₂ a b e => ⟨k₁.trans e.1, e.2⟩

omit [DecidableEq G1] in
theorem wp_exp (v : List Zr) {k : Kind (Cell G1 G2 GT) G1} {rs : List Ref} {xs : List G1} (hx : Ats k h rs xs) :
    Wp (exp k v rs) h (Vec.exp v xs) fun h' r x => Own k h h' r x := by
  unfold exp Vec.exp
  rw [hx.length]
  split
  · exact Wp.crash
  · cases v with
    | nil => cases hx <;> exact Wp.crash
    | cons a v =>
      cases hx with
      | nil => exact Wp.crash
      | cons hr hx =>
        refine Wp.mulBy hr fun h₁ s o₁ => ?_
        dsimp only
        rw [List.zipWith_comm, ← List.map_uncurry_zip_eq_zipWith, List.foldl_map]
        refine Wp.step (wp_forM (I := fun h' acc => Own k h h' s acc) (S := fun a b => At k h a.1 b.1 ∧ a.2 = b.2)
          (step := fun acc e => acc + Function.uncurry (fun b a => a • b) e)
          (fun h' d r x hs hI => ?_) (zip_forall₂ hx (forall₂_refl v)) h₁ _ o₁)
          fun h₂ _ o₂ => o₂
        obtain ⟨e1, e2⟩ := hs
        rw [e2]
        exact Wp.mulBy (e1.mono hI.keeps) fun h₂ t o₂ => wp_addTo (hI.call o₂.keeps) o₂.at_

/-- `L` and `R` of a round. -/
def lr (pp : PoL.BP.PP G1) (a b : List Zr) (g h : List G1) : Option (List Zr × List Zr × List Zr × List Zr × G1 × G1) := do
  let n := g.length / 2
  let aL ← sliceTo a n
  let aR ← sliceFrom a n
  let bL ← sliceTo b n
  let bR ← sliceFrom b n
  let cL ← Vec.innerProd aL bR
  let cR ← Vec.innerProd aR bL
  let Lg ← Vec.exp aL (← sliceFrom g n)
  let Lh ← Vec.exp bR (← sliceTo h n)
  let L := Lg + Lh + cL • pp.U
  let Rg ← Vec.exp aR (← sliceTo g n)
  let Rh ← Vec.exp bL (← sliceFrom h n)
  let R := Rg + Rh + cR • pp.U
  return (aL, aR, bL, bR, L, R)

omit [DecidableEq G1] in
theorem proveLoop_step {P : G1} {gs hs : List G1} {a b : List Zr} (h1 : gs.length = hs.length) (h2 : ¬ gs.length = 1)
    (h3 : ¬ gs.length = 0) : PoL.BP.proveLoop E q a b P gs hs = (lr q a b gs hs >>= fun (aL, aR, bL, bR, L, R) =>
      PoL.BP.computeNextParams E L R q gs hs P >>= fun np => do
        let a' ← Vec.add (Vec.mul aL np.x) (Vec.mul aR np.xInverse)
        let b' ← Vec.add (Vec.mul bL np.xInverse) (Vec.mul bR np.x)
        let (LRs, ab) ← PoL.BP.proveLoop E q a' b' np.P np.g np.h
        return ([L, R] ++ LRs, ab)) := by
  rw [PoL.BP.proveLoop.eq_def, if_neg (by simpa using h1), if_neg h2, if_neg h3]
  dsimp only
  split
  · rename_i e
    have e : lr q a b gs hs = none := e
    rw [e]
    rfl
  · rename_i aL aR bL bR L R e
    have e : lr q a b gs hs = some (aL, aR, bL, bR, L, R) := e
    rw [e]
    change _ = (PoL.BP.computeNextParams E L R q gs hs P >>= _)
    split
    · rename_i e
      rw [e]
      rfl
    · rename_i e
      rw [e]
      rfl

omit [DecidableEq G1] in
theorem agrees_proveLoop (n : ℕ) : ∀ {h : Mem (Cell G1 G2 GT)} (_ : BpAt h p q) (a b : List Zr) {P : Ref} {P' : G1} (_ : At kG1 h P P')
      {gr hr : List Ref} {gs hs : List G1} (_ : Ats kG1 h gr gs) (_ : Ats kG1 h hr hs) (_ : gs.length ≤ n),
      Agrees (proveLoop E n p a b P gr hr) h (PoL.BP.proveLoop E q a b P' gs hs) fun h' r s => Ats kG1 h' r.1 s.1 ∧ r.2 = s.2 := by
  have hno : ∀ (n : ℕ) {h : Mem (Cell G1 G2 GT)} (a b : List Zr) {P : Ref} {P' : G1} {gr hr : List Ref} {gs hs : List G1}
      (_ : Ats kG1 h gr gs) (_ : Ats kG1 h hr hs) (_ : ¬ (gs.length = hs.length ∧ ¬ gs.length = 1 ∧ ¬ gs.length = 0)),
      Agrees (proveLoop E n p a b P gr hr) h (PoL.BP.proveLoop E q a b P' gs hs) fun h' r s => Ats kG1 h' r.1 s.1 ∧ r.2 = s.2 := by
    intro n h a b P P' gr hr gs hs hg hh hne
    unfold proveLoop
    rw [PoL.BP.proveLoop.eq_def, hg.length, hh.length]
    by_cases h1 : gs.length = hs.length
    · by_cases h2 : gs.length = 1
      · simp only [h2, ← h1, ne_eq, not_true_eq_false, if_false, if_true]
        exact Wp.lift fun x _ => Wp.lift fun y _ => ⟨Keeps.refl _, .nil, rfl⟩
      · have h3 : gs.length = 0 := by
          by_contra h3
          exact hne ⟨h1, h2, h3⟩
        simp only [← h1, h3, ne_eq, not_true_eq_false, if_false, if_true, zero_ne_one]
        exact Agrees.crash
    · simp only [ne_eq, h1, not_false_eq_true, if_true]
      exact Agrees.crash
  induction n with
  | zero =>
    intro h hp a b P P' hP gr hr gs hs hg hh hn
    exact hno 0 a b hg hh (by omega)
  | succ n ih =>
    intro h hp a b P P' hP gr hr gs hs hg hh hn
    by_cases hh' : gs.length = hs.length ∧ ¬ gs.length = 1 ∧ ¬ gs.length = 0
    · obtain ⟨h1, h2, h3⟩ := hh'
      · · rw [proveLoop_step h1 h2 h3]
          unfold proveLoop
          rw [hg.length, hh.length, if_neg (by simpa using h1), if_neg h2, if_neg h3]
          unfold lr
          dsimp only
          simp only [bind_assoc, pure_bind]
          refine Wp.lift fun aL _ => Wp.lift fun aR _ => Wp.lift fun bL _ => Wp.lift fun bR _ => Wp.lift fun cL _ => Wp.lift fun cR _ => ?_
          refine Wp.lift₂ (sliceFrom_rel hg _) fun rs xs hx => Wp.bind (wp_exp aL hx) fun h₁ L l o₁ => ?_
          refine Wp.lift₂ (sliceTo_rel (hh.mono o₁.keeps) _) fun rs xs hx => Wp.bind (wp_exp bR hx) fun h₂ Lh lh o₂ => ?_
          have k₂ := o₁.keeps.trans o₂.keeps
          refine Wp.addTo (o₁.call o₂.keeps) o₂.at_ fun h₃ o₃ => Wp.mulBy (hp.U.mono o₃.keeps) fun h₄ u o₄ => ?_
          refine Wp.addTo (o₃.call o₄.keeps) o₄.at_ fun h₅ o₅ => ?_
          refine Wp.lift₂ (sliceTo_rel (hg.mono o₅.keeps) _) fun rs xs hx => Wp.bind (wp_exp aR hx) fun h₆ R r o₆ => ?_
          have k₆ := o₅.keeps.trans o₆.keeps
          refine Wp.lift₂ (sliceFrom_rel (hh.mono k₆) _) fun rs xs hx => Wp.bind (wp_exp bL hx) fun h₇ Rh rh o₇ => ?_
          refine Wp.addTo (o₆.call o₇.keeps) o₇.at_ fun h₈ o₈ => Wp.mulBy (hp.U.mono (o₅.keeps.trans o₈.keeps)) fun h₉ u o₉ => ?_
          refine Wp.addTo (o₈.call o₉.keeps) o₉.at_ fun hₐ oₐ => ?_
          have kₐ := o₅.keeps.trans oₐ.keeps
          refine Wp.callE (agrees_computeNextParams (hp.mono kₐ) (o₅.at_.mono oₐ.keeps) oₐ.at_ (hP.mono kₐ) (hg.mono kₐ) (hh.mono kₐ))
            fun hᵦ np np' eᵦ kᵦ rᵦ => ?_
          rw [rᵦ.x, rᵦ.xInverse]
          refine Wp.lift fun a' _ => Wp.lift fun b' _ => ?_
          refine Wp.call (ih ((hp.mono kₐ).mono kᵦ) a' b' rᵦ.P rᵦ.g rᵦ.h ?_) fun h_c r s k_c r_c => ?_
          · rw [PoL.BP.computeNextParams_g_length eᵦ]
            omega
          · exact ⟨(kₐ.trans kᵦ).trans k_c, .cons (((o₅.at_.mono oₐ.keeps).mono kᵦ).mono k_c) (.cons ((oₐ.at_.mono kᵦ).mono k_c) r_c.1), r_c.2⟩
    · exact hno _ a b hg hh hh'

omit [DecidableEq G1] in
theorem agrees_prove {r : PoL.BP.InnerProdArgument Ref} {r' : PoL.BP.InnerProdArgument G1} (hr : IpaAt h r r') :
    Agrees (InnerProdArgument.prove E r) h (r'.prove E) IppAt := by
  unfold InnerProdArgument.prove PoL.BP.InnerProdArgument.prove
  rw [hr.C, hr.a, hr.b]
  refine Wp.call (agrees_computeInstanceSpecificParams hr.pp hr.P _) fun h₁ s s' k₁ r₁ => ?_
  refine Wp.call (agrees_proveLoop _ r₁.1 _ _ r₁.2 (hr.pp.G.mono k₁) (hr.pp.H.mono k₁) (le_of_eq hr.pp.G.length.symm)) fun h₂ a b k₂ r₂ => ?_
  exact ⟨k₁.trans k₂, r₂.1, by rw [r₂.2], by rw [r₂.2], hr.P.mono (k₁.trans k₂), rfl⟩

/-! ## The iterated reduction -/

omit [DecidableEq G1] in
theorem agrees_irChallenge {A B V : Ref} {A' B' V' : G1} (hA : At kG1 h A A') (hB : At kG1 h B B') (hV : At kG1 h V V') (digest : Bytes) :
    Agrees (irChallenge E digest A B V) h (PoL.BP.irChallenge E digest A' B' V') fun _ a b => a = b := by
  unfold irChallenge randomOracle PoL.BP.irChallenge
  simp only [bind_assoc, pure_bind]
  exact Wp.load hA (Wp.load hB (Wp.load hV (Wp.lift' fun _ _ => ⟨Keeps.refl _, rfl⟩)))

theorem agrees_iterVerifyLoop (digest : Bytes) (vFinal : Zr) (n : ℕ) : ∀ {h : Mem (Cell G1 G2 GT)} {rs : List Ref} {G : List G1}
    (_ : Ats kG1 h rs G) {V : Ref} {V' : G1} (_ : At kG1 h V V') {Δ : List (Ref × Ref × Ref)} {Δ' : List (G1 × G1 × G1)} (_ : ΔAt h Δ Δ')
    {fV : Option Ref} {fV' : Option G1} (_ : ORel (At kG1 h) fV fV') (xs : List Zr),
    Agrees (iterVerifyLoop E digest vFinal n rs V Δ fV xs) h (PoL.BP.iterVerifyLoop E digest vFinal n G V' Δ' fV' xs)
      fun _ a b => a = b := by
  induction n using Nat.strong_induction_on with
  | h n ih =>
    intro h rs G hG V V' hV Δ Δ' hΔ fV fV' hf xs
    rw [iterVerifyLoop.eq_def, PoL.BP.iterVerifyLoop.eq_def]
    by_cases hn : n = 0
    · rw [dif_pos hn, dif_pos hn]
      refine Wp.lift₂ (hG.get 0) fun r g hr => Wp.mulBy hr fun h₁ s o₁ => Wp.lift₂ hf fun f f' hf => ?_
      refine Wp.load o₁.at_ (Wp.load (hf.mono o₁.keeps) ?_)
      split
      · exact ⟨o₁.keeps, rfl⟩
      · exact ⟨o₁.keeps, rfl⟩
    · rw [dif_neg hn, dif_neg hn]
      cases hΔ with
      | nil => exact Agrees.crash
      | cons hd hΔ =>
        rename_i d d' _ _
        obtain ⟨A, B, W⟩ := d
        obtain ⟨A', B', W'⟩ := d'
        obtain ⟨hA, hB, hW⟩ := hd
        dsimp only at hA hB hW ⊢
        refine Wp.call (agrees_irChallenge hA hB hV digest) fun h₁ x x' k₁ e => ?_
        subst e
        refine Wp.mulBy (hA.mono k₁) fun h₂ s o₂ => Wp.mulBy (hB.mono (k₁.trans o₂.keeps)) fun h₃ t o₃ => ?_
        refine Wp.addTo (o₂.call o₃.keeps) o₃.at_ fun h₄ o₄ => Wp.addTo o₄ (hV.mono (k₁.trans o₄.keeps)) fun h₅ o₅ => ?_
        have k₅ := k₁.trans o₅.keeps
        refine Wp.load (hW.mono k₅) (Wp.load o₅.at_ ?_)
        split
        · exact ⟨k₅, rfl⟩
        · refine Wp.lift₂ (sliceTo_rel (hG.mono k₅) _) fun gl gl' hgl => Wp.lift₂ (sliceFrom_rel (hG.mono k₅) _) fun gr gr' hgr => ?_
          refine Wp.callT (agrees_mul hgr _) fun h₆ m k₆ r₆ => ?_
          refine Wp.call (agrees_add (Ats.mono hgl k₆) r₆) fun h₇ g g' k₇ r₇ => ?_
          have k₇ := (k₅.trans k₆).trans k₇
          exact (ih (n / 2) (by omega) r₇ (hW.mono k₇) (ΔAt.mono hΔ k₇) (.inr ⟨_, _, rfl, rfl, hW.mono k₇⟩) _).imp
            fun h₈ a b e => ⟨k₇.trans e.1, e.2⟩

theorem agrees_iterativeVerify (hp : BpAt h p q) {V : Ref} {V' : G1} (hV : At kG1 h V V') {Δ : List (Ref × Ref × Ref)}
    {Δ' : List (G1 × G1 × G1)} (hΔ : ΔAt h Δ Δ') (vFinal : Zr) :
    Agrees (iterativeVerify E p V Δ vFinal) h (PoL.BP.iterativeVerify E q V' Δ' vFinal) fun _ a b => a = b := by
  unfold iterativeVerify PoL.BP.iterativeVerify
  dsimp only
  rw [hp.G.length, hp.digest]
  refine Wp.lift fun b _ => ?_
  split
  · exact Wp.crash
  · exact agrees_iterVerifyLoop _ _ _ hp.G hV hΔ (.inl ⟨rfl, rfl⟩) []

theorem agrees_iterReduceLoop (digest : Bytes) (n : ℕ) : ∀ {h : Mem (Cell G1 G2 GT)} (_ : GlobalsAt E h gl) {rs : List Ref} {G : List G1}
    (_ : Ats kG1 h rs G) {V : Ref} {V' : G1} (_ : At kG1 h V V') {Δ : List (Ref × Ref × Ref)} {Δ' : List (G1 × G1 × G1)} (_ : ΔAt h Δ Δ')
    (v xs : List Zr),
    Agrees (iterReduceLoop E gl digest n rs v V Δ xs) h (PoL.BP.iterReduceLoop E digest n G v V' Δ' xs)
      fun h' a b => ΔAt h' a.1 b.1 ∧ a.2 = b.2 := by
  induction n using Nat.strong_induction_on with
  | h n ih =>
    intro h hgl rs G hG V V' hV Δ Δ' hΔ v xs
    rw [iterReduceLoop.eq_def, PoL.BP.iterReduceLoop.eq_def]
    by_cases hn : n = 0
    · rw [dif_pos hn, dif_pos hn]
      match v with
      | [] => exact Agrees.crash
      | [v0] => exact ⟨Keeps.refl _, hΔ, rfl⟩
      | _ :: _ :: _ => exact Agrees.crash
    · rw [dif_neg hn, dif_neg hn]
      refine Wp.lift₂ (sliceTo_rel hG _) fun gl' gl'' hl => Wp.lift₂ (sliceFrom_rel hG _) fun gr gr' hr => ?_
      refine Wp.lift fun vL _ => Wp.lift fun vR _ => ?_
      refine Wp.call (agrees_mulV hgl.zeroG1 hl vR) fun h₁ m m' k₁ r₁ => Wp.call (agrees_sum r₁) fun h₂ A A' k₂ hA => ?_
      have k₂ := k₁.trans k₂
      refine Wp.call (agrees_mulV (hgl.zeroG1.mono k₂) (Ats.mono hr k₂) vL) fun h₃ m m' k₃ r₃ => Wp.call (agrees_sum r₃) fun h₄ B B' k₄ hB => ?_
      have k₄' := k₃.trans k₄
      have k₄ := k₂.trans k₄'
      refine Wp.call (agrees_irChallenge (hA.mono k₄') hB (hV.mono k₄) digest) fun h₅ x x' k₅' e => ?_
      subst e
      have k₅ := k₄.trans k₅'
      refine Wp.callT (agrees_mul (Ats.mono hr k₅) _) fun h₆ m k₆ r₆ => ?_
      refine Wp.call (agrees_add (Ats.mono hl (k₅.trans k₆)) r₆) fun h₇ g g' k₇ r₇ => ?_
      have k₇' := k₆.trans k₇
      have k₇ := k₅.trans k₇'
      refine Wp.lift fun v' _ => ?_
      refine Wp.call (agrees_mulV (hgl.zeroG1.mono k₇) r₇ v') fun h₈ m m' k₈ r₈ => Wp.call (agrees_sum r₈) fun h₉ W W' k₉ hW => ?_
      have k₉' := k₈.trans k₉
      have k₉ := k₇.trans k₉'
      have kBA := (k₅'.trans k₇').trans k₉'
      refine (ih (n / 2) (by omega) (hgl.mono k₉) (r₇.mono k₉') hW
        (List.rel_append (ΔAt.mono hΔ k₉) (.cons ⟨hA.mono (k₄'.trans kBA), hB.mono kBA, hW⟩ .nil)) v' _).imp
          fun _ a b e => ⟨k₉.trans e.1, e.2⟩

theorem agrees_iterativeReduce (hg : GlobalsAt E h gl) (hp : BpAt h p q) {V : Ref} {V' : G1} (hV : At kG1 h V V') (v : List Zr) :
    Agrees (iterativeReduce E gl p v V) h (PoL.BP.iterativeReduce E q v V') fun h' a b => ΔAt h' a.1 b.1 ∧ a.2 = b.2 := by
  unfold iterativeReduce PoL.BP.iterativeReduce
  dsimp only
  rw [hp.G.length, hp.digest]
  refine Wp.lift fun b _ => ?_
  split
  · exact Wp.crash
  · exact agrees_iterReduceLoop _ _ hg hp.G hV .nil v []

end PoL.Ptr.BP

import Verif.Proofs.PtrPol

/-!
# Liability sets with pointers
-/

set_option linter.unusedSectionVars false

namespace PoL.Ptr.Pol

open Spec

variable {G1 G2 GT : Type} [AddCommGroup G1] [Module Zr G1] [AddCommGroup G2] [Module Zr G2] [AddCommGroup GT] [Module Zr GT]
  {E : Curve G1 G2 GT} {h h' : Mem (Cell G1 G2 GT)} {gl : Globals}

theorem agrees_poeNewPublicParams (hg : GlobalsAt E h gl) (α : Zr) (n m : ℕ) :
    Agrees (poeNewPublicParams E gl α n m) h (PoL.Poe.newPublicParams E α n m) PoePPAt := by
  unfold poeNewPublicParams PoL.Poe.newPublicParams PoL.Poe.PP.setupDigest
  dsimp only
  refine Wp.callT (agrees_newPublicParams hg α n) fun h₁ vc k₁ r₁ => Wp.callT (agrees_randGenVec E m _) fun h₂ G k₂ r₂ => ?_
  refine Wp.callT (agrees_randGenVec E m _) fun h₃ H k₃ r₃ => Wp.callT (agrees_randGenVec E 1 _) fun h₄ F k₄ r₄ => ?_
  refine Wp.lift₂ (r₄.get 0) fun f f' hf => ?_
  have rG := r₂.mono (k₃.trans k₄)
  have rH := r₃.mono k₄
  refine Wp.loads rG (Wp.loads rH (Wp.load hf ?_))
  have k := (k₂.trans k₃).trans k₄
  rw [r₁.digest]
  exact ⟨k₁.trans k, rfl, rG, rH, hf, r₁.mono k⟩

theorem agrees_newRangeProofPublicParams (n : ℕ) :
    Agrees (newRangeProofPublicParams E n) h (PoL.BP.newRangeProofPublicParams E n) RpppAt := by
  unfold newRangeProofPublicParams PoL.BP.newRangeProofPublicParams
  refine Wp.callT (agrees_randGenVec E 1 _) fun h₁ G k₁ r₁ => Wp.lift₂ (r₁.get 0) fun g g' hg => ?_
  refine Wp.callT (agrees_randGenVec E 1 _) fun h₂ H k₂ r₂ => Wp.lift₂ (r₂.get 0) fun b b' hb => ?_
  refine Wp.callT (agrees_randGenVec E 1 _) fun h₃ F k₃ r₃ => Wp.lift₂ (r₃.get 0) fun f f' hf => ?_
  refine Wp.callT (agrees_randGenVec E _ _) fun h₄ Fs k₄ r₄ => Wp.callT (agrees_randGenVec E _ _) fun h₅ Hs k₅ r₅ => ?_
  refine Wp.callT (agrees_randGenVec E n _) fun h₆ Gs k₆ r₆ => ?_
  have k36 := (k₄.trans k₅).trans k₆
  have hp : RpppAt h₆ ⟨g, b, f, Gs, Hs, Fs, []⟩ ⟨g', b', f', PoL.randGenVec E n "range proof Gs",
      PoL.randGenVec E (n * (63 + 1)) "range proof Hs", PoL.randGenVec E (n * (63 + 1)) "range proof Fs", []⟩ :=
    ⟨At.mono hg (k₂.trans (k₃.trans k36)), At.mono hb (k₃.trans k36), At.mono hf k36, r₆, r₅.mono k₆, r₄.mono (k₅.trans k₆), rfl⟩
  refine BP.Wp.readsT (BP.reads_getDigest hp) ?_
  exact ⟨k₁.trans (k₂.trans (k₃.trans k36)), hp.G, hp.H, hp.F, hp.Gs, hp.Hs, hp.Fs, rfl⟩

variable [DecidableEq G1]

theorem agrees_sumNewPublicParams (hg : GlobalsAt E h gl) (n : ℕ) :
    Agrees (sumNewPublicParams E gl n) h (PoL.Sum.newPublicParams E n) SumPPAt := by
  unfold sumNewPublicParams PoL.Sum.newPublicParams
  refine Wp.callT (agrees_randGenVec E n _) fun h₁ Gs k₁ r₁ => ?_
  refine Wp.callT (agrees_randGenVec E 1 _) fun h₂ U k₂ r₂ => Wp.lift₂ (r₂.get 0) fun u u' hu => ?_
  refine Wp.callT (agrees_randGenVec E 1 _) fun h₃ G k₃ r₃ => Wp.lift₂ (r₃.get 0) fun g g' hg' => ?_
  refine Wp.callT (agrees_randGenVec E 1 _) fun h₄ F k₄ r₄ => Wp.lift₂ (r₄.get 0) fun f f' hf => ?_
  refine Wp.callT (agrees_randGenVec E n _) fun h₅ H k₅ r₅ => Wp.lift fun b _ => ?_
  have k := k₁.trans (k₂.trans (k₃.trans (k₄.trans k₅)))
  refine Sum.Wp.mulVSum (hg.zeroG1.mono k) r₅ fun h₆ B y o₆ => ?_
  have k₆ := o₆.keeps
  refine Wp.loads (r₅.mono k₆) (Wp.load o₆.at_ (Wp.load (At.mono hg' (k₄.trans (k₅.trans k₆))) (Wp.load (At.mono hf (k₅.trans k₆)) ?_)))
  exact ⟨k.trans k₆, rfl, At.mono hu (k₃.trans (k₄.trans (k₅.trans k₆))), r₁.mono (k₂.trans (k₃.trans (k₄.trans (k₅.trans k₆)))),
    At.mono hg' (k₄.trans (k₅.trans k₆)), At.mono hf (k₅.trans k₆), r₅.mono k₆, rfl, o₆.at_⟩

theorem agrees_generatePublicParams (hg : GlobalsAt E h gl) (α : Zr) (fanOut : UInt16) (treeType : PoL.Pol.TreeType) :
    Agrees (generatePublicParams E gl α fanOut treeType) h (PoL.Pol.generatePublicParams E α fanOut treeType)
      fun h' a b => a.1 = b.1 ∧ PubAt h' a.2 b.2 := by
  unfold generatePublicParams PoL.Pol.generatePublicParams
  refine Wp.lift fun r _ => ?_
  obtain ⟨m, id2Path⟩ := r
  refine Wp.lift fun m' _ => ?_
  refine Wp.call (agrees_poeNewPublicParams hg α _ _) fun h₁ pe pe' k₁ r₁ => ?_
  refine Wp.call (agrees_sumNewPublicParams (hg.mono k₁) _) fun h₂ sp sp' k₂ r₂ => ?_
  refine Wp.call (agrees_newRangeProofPublicParams _) fun h₃ rp rp' k₃ r₃ => ?_
  have hpe := r₁.mono (k₂.trans k₃)
  have hsp := r₂.mono k₃
  refine Wp.lift₂ (hpe.vc.G1s.get _) fun f f' hf => ?_
  have hGs := hpe.vc.G1s.take (fanOut + 1).toNat
  exact ⟨k₁.trans (k₂.trans k₃), rfl, hpe.vc, ⟨hsp.digest, hsp.U, hGs, hsp.G, hf, hsp.H, hsp.b, hsp.B⟩,
    ⟨r₃.G, r₃.H, hf, hGs, r₃.Hs, r₃.Fs, r₃.digest⟩, hpe, rfl⟩

omit [DecidableEq G1] in
theorem agrees_newLiabilitySet [DecidableEq G1] (hg : GlobalsAt E h gl) (α : Zr) {p : PoL.Pol.PublicParams Ref Ref Ref}
    {q : PoL.Pol.PublicParams G1 G2 GT} (hp : PubAt h p q) (db : PoL.Verkle.Db) (id2Path : Str → Option (List ℕ)) :
    Agrees (newLiabilitySet E gl α p db id2Path) h (some (PoL.Pol.newLiabilitySet E α q db id2Path)) LsAt := by
  unfold newLiabilitySet
  refine Wp.callT (agrees_newPublicParams hg α _) fun h₁ vc k₁ r₁ => ?_
  refine ⟨k₁, hp.PPPP.mono k₁, ?_, rfl, rfl, hp.mono k₁, rfl, rfl⟩
  show (UInt16.ofNat p.fanout).toNat = (UInt16.ofNat q.fanout).toNat
  rw [hp.fanout]

variable {ls : PoL.Pol.LiabilitySet Ref Ref Ref} {ls' : PoL.Pol.LiabilitySet G1 G2 GT}

theorem agrees_set (hg : GlobalsAt E h gl) (hl : LsAt h ls ls') (env : PoL.Verkle.Env) (id : Str) (liability : ℤ) :
    Agrees (set E gl env ls id liability) h (ls'.set E env id liability) LsAt := by
  unfold set PoL.Pol.LiabilitySet.set
  split
  · exact Agrees.crash
  · rw [hl.s]
    refine Wp.call (Verkle.agrees_put hg hl.vc hl.fanOut hl.id2Path hl.root env id liability _) fun h₁ r r' k₁ e => ?_
    exact ⟨k₁, e.1, e.2.1, e.2.2.1, e.2.2.2.1, hl.pp.mono k₁, hl.memRoot, e.2.2.2.2⟩

theorem agrees_sets (env : PoL.Verkle.Env) : ∀ (hist : List (Str × ℤ)) {h : Mem (Cell G1 G2 GT)} (_ : GlobalsAt E h gl)
    {ls : PoL.Pol.LiabilitySet Ref Ref Ref} {ls' : PoL.Pol.LiabilitySet G1 G2 GT} (_ : LsAt h ls ls'),
    Agrees (sets E gl env ls hist) h (ls'.sets E env hist) LsAt := by
  intro hist
  induction hist with
  | nil => intro h _ ls ls' hl; exact ⟨Keeps.refl h, hl⟩
  | cons e hist ih =>
    intro h hg ls ls' hl
    unfold sets PoL.Pol.LiabilitySet.sets
    rw [List.foldlM_cons, List.foldlM_cons]
    refine Wp.call (agrees_set hg hl env e.1 e.2) fun h₁ a b k₁ r₁ => ?_
    exact (ih (hg.mono k₁) r₁).imp fun h₂ x y r => ⟨k₁.trans r.1, r.2⟩

theorem agrees_get (hl : LsAt h ls ls') (env : PoL.Verkle.Env) (id : Str) :
    Agrees (get E gl env ls id) h (ls'.get E env id) fun _ a b => a = b := by
  unfold get PoL.Pol.LiabilitySet.get
  rw [hl.s]
  refine Wp.call (Verkle.agrees_get hl.id2Path hl.root env id _) fun h₁ a b k₁ r₁ => ⟨k₁, ?_⟩
  cases a <;> cases b <;> first | rfl | exact r₁.elim | exact congrArg some r₁.1

theorem agrees_root (hl : LsAt h ls ls') : Agrees (root E ls) h (ls'.root E) fun h' a b => RootAt h' a.1 b.1 ∧ LsAt h' a.2 b.2 := by
  unfold root PoL.Pol.LiabilitySet.root
  rw [hl.root]
  cases hr : ls'.tree.root with
  | none => exact ⟨Keeps.refl h, trivial, hl⟩
  | some r =>
    dsimp only
    refine Wp.lift fun d _ => Wp.lift fun k _ => ?_
    rw [hl.s, hl.memRoot]
    refine Wp.call (Verkle.agrees_fromBytes _) fun h₁ v v' k₁ r₁ => ?_
    exact ⟨k₁, ⟨r₁.V, r₁.W⟩, hl.vc.mono k₁, hl.fanOut, hl.id2Path, hl.root, hl.pp.mono k₁, rfl, rfl⟩

theorem valuesVec_eq {v : PoL.Verkle.Vertex Ref} {v' : PoL.Verkle.Vertex G1} (hv : VertexAt h v v') (n : ℕ) :
    v.valuesVec n = v'.valuesVec n := by
  unfold PoL.Verkle.Vertex.valuesVec
  rw [hv.sum, hv.values]

theorem agrees_openSumFromVertex (hg : GlobalsAt E h gl) (hl : LsAt h ls ls') {v : PoL.Verkle.Vertex Ref} {v' : PoL.Verkle.Vertex G1}
    (hv : VertexAt h v v') :
    Agrees (openSumFromVertex gl ls v) h (ls'.openSumFromVertex v') fun h' a b => a.1 = b.1 ∧ At kG1 h' a.2 b.2 := by
  unfold openSumFromVertex PoL.Pol.LiabilitySet.openSumFromVertex
  rw [hl.pp.PPPP.N, valuesVec_eq hv, hv.blindingFactor]
  split
  · exact Agrees.crash
  · dsimp only
    split
    · exact Agrees.crash
    · exact PP.agrees_openAt hg hl.pp.PPPP _ _

theorem agrees_openForClient (hg : GlobalsAt E h gl) (hl : LsAt h ls ls') {v : PoL.Verkle.Vertex Ref} {v' : PoL.Verkle.Vertex G1}
    (hv : VertexAt h v v') (i : ℕ) :
    Agrees (openForClient gl ls v i) h (ls'.openForClient v' i) fun h' a b => a.1 = b.1 ∧ At kG1 h' a.2 b.2 := by
  unfold openForClient PoL.Pol.LiabilitySet.openForClient
  rw [hl.pp.PPPP.N, valuesVec_eq hv, hv.blindingFactor]
  split
  · exact Agrees.crash
  · exact PP.agrees_openAt hg hl.pp.PPPP _ _

theorem agrees_proveTot (hg : GlobalsAt E h gl) (hl : LsAt h ls ls') : Agrees (proveTot E gl ls) h (ls'.proveTot E) TotalAt := by
  unfold proveTot PoL.Pol.LiabilitySet.proveTot
  rw [hl.s]
  refine Wp.call (Verkle.agrees_fromBytes _) fun h₁ v v' k₁ r₁ => ?_
  refine Wp.call (agrees_openSumFromVertex (hg.mono k₁) (hl.mono k₁) r₁) fun h₂ o o' k₂ r₂ => ?_
  obtain ⟨s, π⟩ := o
  obtain ⟨s', π'⟩ := o'
  obtain ⟨rfl, r₂⟩ := r₂
  exact Wp.lift fun n _ => ⟨k₁.trans k₂, r₂, rfl⟩

/-- What one round of the loop of `ProveLiability` returns. -/
structure LayerAt (h : Mem (Cell G1 G2 GT)) (a : PoL.Pol.Layer Ref) (b : PoL.Pol.Layer G1) : Prop where
  v : VertexAt h a.v b.v
  rangeProof : RpAt h a.rangeProof b.rangeProof
  digest : a.digest = b.digest
  π : At kG1 h a.π b.π

theorem LayerAt.mono {a : PoL.Pol.Layer Ref} {b : PoL.Pol.Layer G1} (hl : LayerAt h a b) (hk : Keeps h h') : LayerAt h' a b :=
  ⟨hl.v.mono hk, hl.rangeProof.mono hk, hl.digest, hl.π.mono hk⟩

omit [AddCommGroup G1] [Module Zr G1] [AddCommGroup G2] [Module Zr G2] [AddCommGroup GT] [Module Zr GT] [DecidableEq G1] in
theorem forall₂_get {α β : Type} {R : α → β → Prop} {as : List α} {bs : List β} (hs : List.Forall₂ R as bs) (i : ℕ) :
    ORel R as[i]? bs[i]? := by
  unfold ORel
  induction hs generalizing i with
  | nil => simp
  | cons a _ ih =>
    cases i with
    | zero => exact .inr ⟨_, _, rfl, rfl, a⟩
    | succ i => simpa using ih i

omit [AddCommGroup G1] [Module Zr G1] [AddCommGroup G2] [Module Zr G2] [AddCommGroup GT] [Module Zr GT] [DecidableEq G1] in
theorem forall₂_getLast {α β : Type} {R : α → β → Prop} {as : List α} {bs : List β} (hs : List.Forall₂ R as bs) :
    ORel R as.getLast? bs.getLast? := by
  rw [List.getLast?_eq_getElem?, List.getLast?_eq_getElem?, hs.length_eq]
  exact forall₂_get hs _

omit [AddCommGroup G1] [Module Zr G1] [AddCommGroup G2] [Module Zr G2] [AddCommGroup GT] [Module Zr GT] [DecidableEq G1] in
theorem forall₂_map_eq {α β γ : Type} {R : α → β → Prop} {as : List α} {bs : List β} (hs : List.Forall₂ R as bs) {f : α → γ} {g : β → γ}
    (hR : ∀ a b, R a b → f a = g b) : as.map f = bs.map g := by
  induction hs with
  | nil => rfl
  | cons a _ ih => rw [List.map_cons, List.map_cons, ih, hR _ _ a]

theorem agrees_proveLayer (hg : GlobalsAt E h gl) (hl : LsAt h ls ls') (rnd : PoL.Pol.ProveRand) (path : List ℕ)
    {vs : List (PoL.Verkle.Vertex Ref)} {vs' : List (PoL.Verkle.Vertex G1)} (hv : List.Forall₂ (VertexAt h) vs vs') (i : ℕ) :
    Agrees (proveLayer E gl ls rnd path vs i) h (PoL.Pol.proveLayer E ls' rnd path vs' i) LayerAt := by
  unfold proveLayer PoL.Pol.proveLayer
  refine Wp.lift₂ (forall₂_get hv i) fun v v' r => ?_
  dsimp only
  rw [hl.fanOut, valuesVec_eq r, r.digests, r.blindingFactor]
  refine Wp.call (BP.agrees_proveRange hg hl.pp.RPPP _ r.V _ _) fun h₁ rp rp' k₁ r₁ => Wp.lift fun p _ => ?_
  refine Wp.call (PP.agrees_openAt (hg.mono k₁) (hl.vc.mono k₁) _ _) fun h₂ o o' k₂ r₂ => ?_
  exact ⟨k₁.trans k₂, r.mono (k₁.trans k₂), r₁.mono k₂, r₂.1, r₂.2⟩

omit [DecidableEq G1] in
theorem equalitiesOf_rel {p : PoL.Poe.PP Ref Ref Ref} {q : PoL.Poe.PP G1 G2 GT} (hp : PoePPAt h p q) (fanOut : ℕ) (path : List ℕ)
    {V : List Ref} {V' : List G1} (hV : Ats kG1 h V V') {z : Ref} {z' : G1} (hz : At kG1 h z z') (n : ℕ) :
    ORel (fun e e' => EqsAt h e e' ∧ e'.RO = PoL.Poe.ro E) (equalitiesOf p fanOut path V z n)
      (PoL.Pol.equalitiesOf E q fanOut path V' z' n) := by
  have hr : Ats kG1 h (List.replicate n z) (List.replicate n z') := by
    induction n with
    | zero => exact .nil
    | succ n ih => exact .cons hz ih
  unfold equalitiesOf PoL.Pol.equalitiesOf
  rcases mapM_rel (l := List.range (path.length - 1)) fun i _ => hV.get i with ⟨e, e'⟩ | ⟨a, b, e, e', hab⟩
  · rw [e, e']
    exact .inl ⟨rfl, rfl⟩
  · rw [e, e']
    rcases mapM_rel (l := List.range (path.length - 1)) fun i _ => hV.get (i + 1) with ⟨e, e'⟩ | ⟨c, d, e, e', hcd⟩
    · rw [e, e']
      exact .inl ⟨rfl, rfl⟩
    · rw [e, e']
      exact .inr ⟨_, _, rfl, rfl, ⟨hp, Ats.append hab hr, Ats.append hcd hr, rfl, rfl⟩, rfl⟩

omit [AddCommGroup G1] [Module Zr G1] [AddCommGroup G2] [Module Zr G2] [AddCommGroup GT] [Module Zr GT] [DecidableEq G1] in
theorem ats_filterMap {α β : Type} {R : α → β → Prop} {as : List α} {bs : List β} (hs : List.Forall₂ R as bs) {f : α → Option Ref}
    {g : β → Option G1} (hR : ∀ a b, R a b → OptAt h (f a) (g b)) : Ats kG1 h (as.filterMap f) (bs.filterMap g) := by
  induction hs with
  | nil => exact .nil
  | cons a _ ih =>
    rename_i x y xs ys _
    have := hR _ _ a
    cases hf : f x with
    | none =>
      cases hg : g y with
      | none => rw [List.filterMap_cons_none hf, List.filterMap_cons_none hg]; exact ih
      | some _ => rw [hf, hg] at this; exact this.elim
    | some r =>
      cases hg : g y with
      | none => rw [hf, hg] at this; exact this.elim
      | some z =>
        rw [hf, hg] at this
        rw [List.filterMap_cons_some hf, List.filterMap_cons_some hg]
        exact .cons this ih

theorem agrees_proveLiability (hg : GlobalsAt E h gl) (hl : LsAt h ls ls') (env : PoL.Verkle.Env) (rnd : PoL.Pol.ProveRand) (id : Str) :
    Agrees (proveLiability E gl env ls rnd id) h (ls'.proveLiability E env rnd id) ProvedAt := by
  unfold proveLiability PoL.Pol.LiabilitySet.proveLiability
  rw [hl.id2Path, hl.s]
  refine Wp.lift fun path _ => Wp.call (Verkle.agrees_get hl.id2Path hl.root env id _) fun h₁ a b k₁ r₁ => ?_
  cases a with
  | none =>
    cases b with
    | none => exact ⟨k₁, trivial⟩
    | some _ => exact r₁.elim
  | some a =>
    cases b with
    | none => exact r₁.elim
    | some b =>
      obtain ⟨_, vs⟩ := a
      obtain ⟨_, vs'⟩ := b
      replace r₁ : List.Forall₂ (VertexAt h₁) vs vs' := r₁.2
      dsimp only
      split
      · exact Wp.crash
      · refine Wp.call (R := fun h' as bs => List.Forall₂ (LayerAt h') as bs)
          (agrees_mapM (R := LayerAt) (fun _ _ _ _ hk hv => hv.mono hk) ((forall₂_refl (List.range path.length)).imp fun i j e h' hk => ?_))
          fun h₂ la la' k₂ r₂ => ?_
        · subst e
          exact agrees_proveLayer (hg.mono (k₁.trans hk)) (hl.mono (k₁.trans hk)) rnd path (r₁.imp fun _ _ v => v.mono hk) i
        have k := k₁.trans k₂
        refine Wp.lift₂ (forall₂_getLast r₂) fun last last' rl => Wp.lift fun p _ => ?_
        refine Wp.call (agrees_openForClient (hg.mono k) (hl.mono k) rl.v p) fun h₃ o o' k₃ r₃ => ?_
        obtain ⟨ol, oπ⟩ := o
        obtain ⟨ol', oπ'⟩ := o'
        obtain ⟨e3, r₃⟩ := r₃
        dsimp only at e3 r₃
        subst e3
        refine Wp.lift fun liability _ => ?_
        replace r₂ : List.Forall₂ (LayerAt h₃) la la' := r₂.imp fun _ _ v => v.mono k₃
        replace k := k.trans k₃
        have hV := Poe.ats_map r₂ (f := fun y => y.v.V) (g := fun y => y.v.V) fun a b s => s.v.V
        have hW := ats_filterMap r₂ (f := fun y => y.v.W) (g := fun y => y.v.W) fun a b s => s.v.W
        have hD := ats_filterMap r₂ (f := fun y => y.v.W.map fun _ => y.π) (g := fun y => y.v.W.map fun _ => y.π) fun a b s => by
          have hW := s.v.W
          cases ha : a.v.W <;> cases hb : b.v.W <;> rw [ha, hb] at hW <;> first | exact hW.elim | trivial | exact s.π
        have ed : la.map PoL.Pol.Layer.digest = la'.map PoL.Pol.Layer.digest := forall₂_map_eq r₂ fun a b s => s.digest
        have evec : ∀ l : List (PoL.Pol.Layer Ref), ∀ l' : List (PoL.Pol.Layer G1), List.Forall₂ (LayerAt h₃) l l' →
            l.map (fun y => PoL.Pol.eqVector y.v ls'.tree.fanOut) = l'.map (fun y => PoL.Pol.eqVector y.v ls'.tree.fanOut) :=
          fun l l' hll => forall₂_map_eq hll fun a b s => by
            unfold PoL.Pol.eqVector
            rw [valuesVec_eq s.v, s.v.blindingFactor]
        rw [hl.fanOut, ed, evec _ _ (List.forall₂_take _ r₂), evec _ _ (List.forall₂_drop _ r₂)]
        refine Wp.call (R := fun _ as bs => List.Forall₂ (fun a b => a = b) as bs)
          (agrees_mapM (R := fun _ a b => a = b) (fun _ _ _ _ _ e => e) ((forall₂_refl (List.range (path.length - 1))).imp
            fun i j e h' hk => ?_)) fun h₄ t t' k₄ e => ?_
        · subst e
          exact (PP.wp_ro (hl.vc.mono (k.trans hk)) (hW.mono hk) i).imp fun h'' a b e => ⟨by rw [e.1]; exact Keeps.refl _, e.2⟩
        obtain rfl : t = t' := by rwa [List.forall₂_eq_eq_eq] at e
        refine Wp.lift fun pps _ => ?_
        refine Wp.call (PP.agrees_aggregate (hl.vc.mono (k.trans k₄)) (hW.mono k₄) (hD.mono k₄)) fun h₅ pp pp' k₅ r₅ => ?_
        have hk5 := k₄.trans k₅
        have hvs : List.Forall₂ (VertexAt h₅) (la.map PoL.Pol.Layer.v) (la'.map PoL.Pol.Layer.v) := by
          rw [List.forall₂_map_left_iff, List.forall₂_map_right_iff]
          exact r₂.imp fun a b s => s.v.mono hk5
        refine Wp.call (Verkle.agrees_sumArgument (hg.mono (k.trans hk5)) (hl.pp.SAPP.mono (k.trans hk5)) rnd.sum hvs) fun h₆ sa sa' k₆ r₆ => ?_
        have hk6 := hk5.trans k₆
        refine Wp.call (PP.agrees_commit (hg.mono (k.trans hk6)) (hl.pp.PPPP.mono (k.trans hk6)) _) fun h₇ z z' k₇ r₇ => ?_
        have hk7 := hk6.trans k₇
        refine Wp.lift fun padded _ => ?_
        refine Wp.lift₂ (equalitiesOf_rel (E := E) (hl.pp.POEPP.mono (k.trans hk7)) _ path (hV.mono hk7) r₇ _) fun e e' re => ?_
        rw [← re.2]
        refine Wp.call (Poe.agrees_eqsProve (hg.mono (k.trans hk7)) re.1 rnd.eq _ _) fun h₈ ep ep' k₈ r₈ => ?_
        have hk8 := hk7.trans k₈
        have k₇₈ := k₇.trans k₈
        refine ⟨k.trans hk8, rfl, rfl, r₅.mono (k₆.trans k₇₈), r₆.mono k₇₈, hV.mono hk8, hW.mono hk8, rfl, ?_, r₈, r₃.mono hk8, rfl⟩
        rw [List.forall₂_map_left_iff, List.forall₂_map_right_iff]
        exact r₂.imp fun a b s => s.rangeProof.mono hk8

variable [DecidableEq GT]

theorem agrees_totalVerify (hg : GlobalsAt E h gl) {p : PoL.Pol.PublicParams Ref Ref Ref} {q : PoL.Pol.PublicParams G1 G2 GT}
    (hp : PubAt h p q) {t : PoL.Pol.TotalProof Ref} {t' : PoL.Pol.TotalProof G1} (ht : TotalAt h t t') {V : Ref} {V' : G1}
    (hV : At kG1 h V V') : Agrees (totalVerify E gl t p V) h (t'.verify E q V') fun _ a b => a = b := by
  unfold totalVerify PoL.Pol.TotalProof.verify
  rw [ht.sum, hp.fanout]
  exact PP.agrees_verify hg hp.PPPP _ ht.liabilityProof hV _

variable {lp : PoL.Pol.LiabilityProof Ref} {lp' : PoL.Pol.LiabilityProof G1}

omit [DecidableEq GT] in
theorem reads_checkInner (hl : LpAt h lp lp') (i : ℕ) : BP.Reads (checkInner E lp i) h (lp'.checkCommitmentToInnerVertex E i) := by
  unfold checkInner PoL.Pol.LiabilityProof.checkCommitmentToInnerVertex
  rw [hl.digests]
  refine Wp.lift₂ (hl.V.get i) fun v v' hv => Wp.lift₂ (hl.W.get i) fun w w' hw => Wp.load hv (Wp.load hw (Wp.lift fun d _ => ?_))
  split
  · exact Wp.crash
  · exact Wp.lift fun d' _ => ⟨rfl, rfl⟩

omit [DecidableEq GT] in
theorem reads_checkLeaf (hl : LpAt h lp lp') (i : ℕ) : BP.Reads (checkLeaf E lp i) h (lp'.checkCommitmentToLeafVertex E i) := by
  unfold checkLeaf PoL.Pol.LiabilityProof.checkCommitmentToLeafVertex
  rw [hl.digests]
  refine Wp.lift₂ (hl.V.get i) fun v v' hv => Wp.load hv (Wp.lift fun d _ => ?_)
  split
  · exact Wp.crash
  · exact Wp.lift fun d' _ => ⟨rfl, rfl⟩

omit [DecidableEq GT] in
theorem agrees_verifyLoop {p : PoL.Pol.PublicParams Ref Ref Ref} {q : PoL.Pol.PublicParams G1 G2 GT} (n : ℕ) :
    ∀ (rest i : ℕ) (err : Bool) {h : Mem (Cell G1 G2 GT)} (_ : GlobalsAt E h gl) (_ : PubAt h p q) (_ : LpAt h lp lp'),
      Agrees (verifyLoop E gl lp p n i rest err) h (lp'.verifyLoop E q n i rest err) fun _ a b => a = b := by
  intro rest
  induction rest with
  | zero => intro i err h _ _ _; exact ⟨Keeps.refl h, rfl⟩
  | succ rest ih =>
    intro i err h hg hp hl
    unfold verifyLoop PoL.Pol.LiabilityProof.verifyLoop
    rw [hl.V.length]
    split
    · exact Agrees.crash
    · refine Wp.lift₂ (forall₂_get hl.rangeProofs i) fun rp rp' hrp => Wp.lift₂ (hl.V.get i) fun v v' hv => ?_
      unfold PoL.BP.verifyRange
      refine Wp.call (R := fun _ a b => a.1 = b) (agrees_iff.2 (Wp.map_right ((BP.agrees_verifyRangeState hg hp.RPPP hrp hv).imp
        fun h' a b e => ⟨e.1, e.2.1⟩))) fun h₁ a b k₁ e => ?_
      obtain ⟨a, rpa⟩ := a
      dsimp only at e
      subst e
      have step := (ih (i + 1) (err || !a) (hg.mono k₁) (hp.mono k₁) (hl.mono k₁)).imp
        (Q := fun h' x y => Keeps h h' ∧ x = y) fun h₂ x y e => ⟨k₁.trans e.1, e.2⟩
      dsimp only
      split
      · refine BP.Wp.reads (reads_checkLeaf (hl.mono k₁) i) fun ok => ?_
        split
        · exact ⟨k₁, rfl⟩
        · exact step
      · split
        · refine BP.Wp.reads (reads_checkInner (hl.mono k₁) i) fun ok => ?_
          split
          · exact ⟨k₁, rfl⟩
          · exact step
        · exact step

theorem agrees_verify (hg : GlobalsAt E h gl) {p : PoL.Pol.PublicParams Ref Ref Ref} {q : PoL.Pol.PublicParams G1 G2 GT}
    (hp : PubAt h p q) (hl : LpAt h lp lp') (id : Str) {V W : Ref} {V' W' : G1} (hV : At kG1 h V V') (hW : At kG1 h W W')
    (id2path : Str → Option (List ℕ)) : Agrees (verify E gl lp p id V W id2path) h (lp'.verify E q id V' W' id2path) fun _ a b => a = b := by
  unfold verify PoL.Pol.LiabilityProof.verify
  rw [hl.W.length, hl.digests]
  refine Wp.lift fun path _ => ?_
  split
  · exact ⟨Keeps.refl h, rfl⟩
  refine Wp.lift₂ (hl.V.get 0) fun v v' hv => Wp.load hv (Wp.load hV ?_)
  split
  · exact ⟨Keeps.refl h, rfl⟩
  refine Wp.lift₂ (hl.W.get 0) fun w w' hw => Wp.load hw (Wp.load hW ?_)
  split
  · exact ⟨Keeps.refl h, rfl⟩
  refine Wp.call (agrees_verifyLoop _ _ _ _ hg hp hl) fun h₁ r r' k₁ e => ?_
  subst e
  cases r with
  | none => exact ⟨k₁, rfl⟩
  | some err =>
    dsimp only
    rw [hl.pointProofSum]
    refine Wp.call (PP.agrees_verifyAggregation (hg.mono k₁) (hp.PPPP.mono k₁) _ (hl.W.mono k₁) (hl.pointProof.mono k₁) _) fun h₂ a b k₂ e => ?_
    subst e
    have k := k₁.trans k₂
    split
    · exact ⟨k, rfl⟩
    refine Wp.call (Sum.agrees_verifyAggregated (hg.mono k) (hp.SAPP.mono k) (hl.sumArgumentProof.mono k) (hl.V.mono k)) fun h₃ a b k₃ e => ?_
    obtain ⟨a, _⟩ := a
    dsimp only at e
    subst e
    replace k := k.trans k₃
    split
    · exact ⟨k, rfl⟩
    rw [hp.fanout]
    refine Wp.call (PP.agrees_commit (hg.mono k) (hp.PPPP.mono k) _) fun h₄ z z' k₄ r₄ => ?_
    replace k := k.trans k₄
    refine Wp.lift fun padded _ => ?_
    refine Wp.lift₂ (equalitiesOf_rel (E := E) (hp.POEPP.mono k) _ path (hl.V.mono k) r₄ _) fun e e' re => ?_
    rw [← re.2]
    unfold PoL.Poe.Equalities.verify
    refine Wp.call (R := fun _ a b => a.1 = b) (agrees_iff.2 (Wp.map_right ((Poe.agrees_eqsVerifyState (hg.mono k) re.1
      (hl.equalityProof.mono k)).imp fun h' a b e => ⟨e.1, e.2.1⟩))) fun h₅ a b k₅ e => ?_
    obtain ⟨a, _⟩ := a
    dsimp only at e
    subst e
    replace k := k.trans k₅
    split
    · exact ⟨k, rfl⟩
    split
    · exact ⟨k, rfl⟩
    refine Wp.lift₂ (forall₂_getLast hl.V) fun v v' hv => Wp.lift fun i _ => ?_
    rw [hl.total.sum]
    exact (PP.agrees_verify (hg.mono k) (hp.PPPP.mono k) _ (hl.total.liabilityProof.mono k) (At.mono hv k) i).imp
      fun h' a b e => ⟨k.trans e.1, e.2⟩

end PoL.Ptr.Pol

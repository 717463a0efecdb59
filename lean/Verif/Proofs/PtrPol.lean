import Verif.Proofs.PtrPoe

/-!
# The tree and liability sets with pointers
-/

set_option linter.unusedSectionVars false

namespace PoL.Ptr

open Spec

theorem wp_iff {C α β : Type} {m : Run C α} {h : Mem C} {out : Option β} {Q : Mem C → α → β → Prop} :
    Wp m h out Q ↔ ORel (fun p b => Q p.2 p.1 b) (m h) out := by
  unfold Wp ORel
  cases hm : m h with
  | none => cases out <;> simp
  | some p => cases out <;> simp

/-- Two runs of `putAt` with callbacks that do the same. -/
theorem putAt_rel {D σ τ : Type} {R : σ → τ → Prop} {u : Sparse.Update D σ} {u' : Sparse.Update D τ}
    (hu : ∀ key node raw b i s t, R s t → ORel (fun x y => x.1 = y.1 ∧ R x.2 y.2) (u key node raw b i s) (u' key node raw b i t))
    (fanOut : ℕ) (data : Option D) : ∀ (path : List ℕ) (ps : Str) (v : Sparse.Vertex D) (s : σ) (t : τ), R s t →
      ORel (fun x y => x.1 = y.1 ∧ R x.2 y.2) (Sparse.putAt fanOut u data path ps v s) (Sparse.putAt fanOut u' data path ps v t) := by
  intro path
  induction path with
  | nil => intro ps v s t hr; exact .inr ⟨_, _, rfl, rfl, rfl, hr⟩
  | cons p rest ih =>
    intro ps v s t hr
    simp only [Sparse.putAt]
    rcases ih (Sparse.childKey ps p) ((Sparse.descGet v.desc p).getD (.mk (Sparse.childKey ps p) none [])) s t hr with
      ⟨e, e'⟩ | ⟨⟨c, s'⟩, ⟨c', t'⟩, e, e', ec, hr'⟩
    · rw [e, e']
      exact .inl ⟨rfl, rfl⟩
    · rw [e, e']
      dsimp only at ec
      subst ec
      simp only [Option.bind_eq_bind, Option.bind_some]
      cases Sparse.rawData (Sparse.descSet v.desc p c) fanOut with
      | none => exact .inl ⟨rfl, rfl⟩
      | some raw =>
        simp only [Option.bind_some]
        rcases hu v.key v.data raw rest.isEmpty p s' t' hr' with ⟨e, e'⟩ | ⟨⟨d, s''⟩, ⟨d', t''⟩, e, e', ed, hr''⟩
        · rw [e, e']
          exact .inl ⟨rfl, rfl⟩
        · rw [e, e']
          dsimp only at ed
          subst ed
          exact .inr ⟨_, _, rfl, rfl, rfl, hr''⟩

variable {G1 G2 GT : Type} [AddCommGroup G1] [Module Zr G1] [AddCommGroup G2] [Module Zr G2] [AddCommGroup GT] [Module Zr GT]
  {E : Curve G1 G2 GT} {h h' : Mem (Cell G1 G2 GT)} {gl : Globals}

theorem wp_initGlobals (h : Mem (Cell G1 G2 GT)) : Agrees (initGlobals E) h (some ()) fun h' gl _ => GlobalsAt E h' gl := by
  unfold initGlobals
  refine Wp.new fun h₁ g1 o₁ => Wp.new fun h₂ g2 o₂ => Wp.new fun h₃ gt o₃ => ?_
  have k₃ := o₂.keeps.trans o₃.keeps
  refine Wp.copy (o₁.at_.mono k₃) fun h₄ z o₄ => Wp.subFrom o₄ o₄.at_ fun h₅ o₅ => ?_
  rw [sub_self] at o₅
  exact ⟨(o₁.keeps.trans k₃).trans o₅.keeps, o₅.at_, o₁.at_.mono (k₃.trans o₅.keeps), o₂.at_.mono (o₃.keeps.trans o₅.keeps),
    o₃.at_.mono o₅.keeps⟩

theorem _root_.PoL.Spec.OptAt.mono {r : Option Ref} {x : Option G1} (hx : OptAt h r x) (hk : Keeps h h') : OptAt h' r x := by
  cases r <;> cases x <;> first | exact hx | exact At.mono hx hk

theorem _root_.PoL.Spec.VertexAt.mono {p : Verkle.Vertex Ref} {q : Verkle.Vertex G1} (hp : VertexAt h p q) (hk : Keeps h h') :
    VertexAt h' p q := ⟨hp.blindingFactor, hp.values, hp.digests, hp.sum, hp.V.mono hk, hp.W.mono hk⟩

theorem _root_.PoL.Spec.PubAt.mono {p : Pol.PublicParams Ref Ref Ref} {q : Pol.PublicParams G1 G2 GT} (hp : PubAt h p q)
    (hk : Keeps h h') : PubAt h' p q := ⟨hp.PPPP.mono hk, hp.SAPP.mono hk, hp.RPPP.mono hk, hp.POEPP.mono hk, hp.fanout⟩

theorem _root_.PoL.Spec.LsAt.mono {p : Pol.LiabilitySet Ref Ref Ref} {q : Pol.LiabilitySet G1 G2 GT} (hp : LsAt h p q)
    (hk : Keeps h h') : LsAt h' p q := ⟨hp.vc.mono hk, hp.fanOut, hp.id2Path, hp.root, hp.pp.mono hk, hp.memRoot, hp.s⟩

theorem _root_.PoL.Spec.TotalAt.mono {p : Pol.TotalProof Ref} {q : Pol.TotalProof G1} (hp : TotalAt h p q)
    (hk : Keeps h h') : TotalAt h' p q := ⟨hp.liabilityProof.mono hk, hp.sum⟩

theorem _root_.PoL.Spec.LpAt.mono {p : Pol.LiabilityProof Ref} {q : Pol.LiabilityProof G1} (hp : LpAt h p q)
    (hk : Keeps h h') : LpAt h' p q :=
  ⟨hp.pointProofSum, hp.pointProof.mono hk, hp.sumArgumentProof.mono hk, hp.V.mono hk, hp.W.mono hk, hp.digests,
    hp.rangeProofs.imp fun _ _ r => r.mono hk, hp.equalityProof.mono hk, hp.total.mono hk⟩

theorem agrees_newPublicParams (hg : GlobalsAt E h gl) (α : Zr) (N : ℕ) :
    Agrees (PP.newPublicParams E gl α N) h (some (PoL.PP.newPublicParams E α N)) PPAt := by
  unfold PP.newPublicParams
  refine Wp.copy hg.genG1 fun h₁ g1 o₁ => Wp.copy (hg.genG2.mono o₁.keeps) fun h₂ g2 o₂ => ?_
  have k₂ := o₁.keeps.trans o₂.keeps
  refine Wp.callT (agrees_mapM_total (g := fun k : ℕ => α ^ (k + 1) • E.genG1) (at_mono kG1) ((forall₂_refl (List.range N)).imp
    fun i j e h' hk => by subst e; exact agrees_mulBy ((o₁.at_.mono o₂.keeps).mono hk) _)) fun h₃ low k₃ r₃ => ?_
  refine Wp.copy (hg.genG1.mono (k₂.trans k₃)) fun h₄ mid o₄ => ?_
  have k₄ := k₃.trans o₄.keeps
  refine Wp.callT (agrees_mapM_total (g := fun k : ℕ => α ^ (N + 2 + k) • E.genG1) (at_mono kG1) ((forall₂_refl (List.range (N - 1))).imp
    fun i j e h' hk => by subst e; exact agrees_mulBy ((o₁.at_.mono (o₂.keeps.trans k₄)).mono hk) _)) fun h₅ high k₅ r₅ => ?_
  have k₅' := k₄.trans k₅
  refine Wp.callT (agrees_mapM_total (g := fun k : ℕ => α ^ (k + 1) • E.genG2) (at_mono kG2) ((forall₂_refl (List.range N)).imp
    fun i j e h' hk => by subst e; exact agrees_mulBy ((o₂.at_.mono k₅').mono hk) _)) fun h₆ g2s k₆ r₆ => ?_
  refine Wp.mulBy (hg.genGt.mono ((k₂.trans k₅').trans k₆)) fun h₇ gt o₇ => ?_
  have k₇ := k₆.trans o₇.keeps
  have hlow : Ats kG1 h₃ low _ := r₃
  have hhigh : Ats kG1 h₅ high _ := r₅
  have hg2 : Ats kG2 h₆ g2s _ := r₆
  have hl := ((hlow.mono (o₄.keeps.trans (k₅.trans k₇))).append (.cons (o₄.at_.mono (k₅.trans k₇)) .nil)).append (hhigh.mono k₇)
  refine Wp.loads hl (Wp.loads (hg2.mono o₇.keeps) (Wp.load o₇.at_ ?_))
  exact ⟨(k₂.trans k₅').trans k₇, rfl, rfl, hl, hg2.mono o₇.keeps, o₇.at_⟩

theorem reads_loadOpt {r : Option Ref} {x : Option G1} (hx : OptAt h r x) : BP.Reads (Verkle.loadOpt r) h (some x) := by
  cases r <;> cases x <;> first | exact hx.elim | exact ⟨rfl, rfl⟩ | exact Wp.load hx ⟨rfl, rfl⟩

namespace Verkle

theorem wp_newOpt (w : Option G1) : Wp (newOpt w) h (some w) fun h' r x =>
    Keeps h h' ∧ OptAt h' r x ∧ ∀ s, r = some s → h.cells.length ≤ s.addr := by
  cases w with
  | none => exact ⟨Keeps.refl h, trivial, by rintro s ⟨⟩⟩
  | some w => exact Wp.new fun h' r o => ⟨o.keeps, o.at_, fun s e => by cases e; exact o.fresh⟩

/-- A vertex made of new points; `V` is not `W`. -/
theorem wp_fromBytes (b : Bytes) : Wp (fromBytes E b) h (PoL.Verkle.Vertex.fromBytes E b) fun h' p q =>
    VertexAt h' p q ∧ Own kG1 h h' p.V q.V ∧ ∀ r, p.W = some r → r ≠ p.V := by
  unfold fromBytes PoL.Verkle.Vertex.fromBytes
  refine Wp.lift fun rv _ => Wp.lift fun V _ => Wp.new fun h₁ V' o₁ => ?_
  have key : ∀ w : Option G1, Wp (do
      let W ← newOpt w
      let digests ← Ptr.lift (PoL.Verkle.decodeMap rv.digests)
      let values ← Ptr.lift (PoL.Verkle.decodeMap rv.values)
      return ⟨newZrFromBytes rv.blindingFactor, values, digests, newZrFromBytes rv.sum, V', W⟩) h₁ (do
      let digests ← PoL.Verkle.decodeMap rv.digests
      let values ← PoL.Verkle.decodeMap rv.values
      return ⟨newZrFromBytes rv.blindingFactor, values, digests, newZrFromBytes rv.sum, V, w⟩) fun h' p q =>
    VertexAt h' p q ∧ Own kG1 h h' p.V q.V ∧ ∀ r, p.W = some r → r ≠ p.V := by
    intro w
    refine Wp.step (wp_newOpt w) fun h₂ W' o₂ => Wp.lift fun d _ => Wp.lift fun vl _ => ?_
    refine ⟨⟨rfl, rfl, rfl, rfl, o₁.at_.mono o₂.1, o₂.2.1⟩, o₁.call o₂.1, fun r hr e => ?_⟩
    have h1 := (List.getElem?_eq_some_iff.1 o₁.at_).1
    have h2 := o₂.2.2 r hr
    rw [e] at h2
    dsimp only at h2
    omega
  dsimp only
  by_cases hW : rv.W.length ≠ 0
  · simp only [if_pos hW]
    exact Wp.lift fun w _ => key w
  · simp only [if_neg hW]
    exact Wp.lift fun w _ => key w

theorem agrees_fromBytes (b : Bytes) : Agrees (fromBytes E b) h (PoL.Verkle.Vertex.fromBytes E b) VertexAt :=
  (wp_fromBytes b).imp fun _ _ _ e => ⟨e.2.1.keeps, e.1⟩

theorem reads_loadVertex {p : PoL.Verkle.Vertex Ref} {q : PoL.Verkle.Vertex G1} (hp : VertexAt h p q) :
    BP.Reads (loadVertex p) h (some q) := by
  unfold loadVertex
  refine Wp.load hp.V (BP.Wp.readsT (reads_loadOpt hp.W) ?_)
  rw [hp.blindingFactor, hp.values, hp.digests, hp.sum]
  exact ⟨rfl, rfl⟩

theorem reads_digest {p : PoL.Verkle.Vertex Ref} {q : PoL.Verkle.Vertex G1} (hp : VertexAt h p q) :
    BP.Reads (digest E p) h (q.digest E) :=
  BP.Wp.readsT (reads_loadVertex hp) (Wp.lift' fun _ _ => ⟨rfl, rfl⟩)

theorem reads_store {p : PoL.Verkle.Vertex Ref} {q : PoL.Verkle.Vertex G1} (hp : VertexAt h p q) (env : PoL.Verkle.Env) (key : Str)
    (s : PoL.Verkle.State) : BP.Reads (store E env key p s) h (some (PoL.Verkle.store E env key q s)) :=
  BP.Wp.readsT (reads_loadVertex hp) ⟨rfl, rfl⟩

theorem wp_fetchVertex (db : PoL.Verkle.Db) (desc : Option PoL.Verkle.Data) :
    Wp (fetchVertex E db desc) h (PoL.Verkle.fetchVertex E db desc) fun h' p q =>
      VertexAt h' p q ∧ Own kG1 h h' p.V q.V ∧ ∀ r, p.W = some r → r ≠ p.V := by
  unfold fetchVertex PoL.Verkle.fetchVertex
  refine Wp.lift fun d _ => Wp.lift fun k _ => ?_
  dsimp only
  split
  · exact Wp.crash
  · exact wp_fromBytes _

theorem agrees_fetchVertex (db : PoL.Verkle.Db) (desc : Option PoL.Verkle.Data) :
    Agrees (fetchVertex E db desc) h (PoL.Verkle.fetchVertex E db desc) VertexAt :=
  (wp_fetchVertex db desc).imp fun _ _ _ e => ⟨e.2.1.keeps, e.1⟩

theorem agrees_innerLoop (db : PoL.Verkle.Db) : ∀ (l : List (Option PoL.Verkle.Data)) (i : ℕ) (a : PoL.Verkle.InnerAcc)
    (h : Mem (Cell G1 G2 GT)), Agrees (innerLoop E db l i a) h (PoL.Verkle.innerLoop E db l i a) fun _ x y => x = y := by
  intro l
  induction l with
  | nil => intro i a h; exact ⟨Keeps.refl h, rfl⟩
  | cons d l ih =>
    intro i a h
    cases d with
    | none => exact ih _ _ h
    | some d =>
      rw [innerLoop, PoL.Verkle.innerLoop]
      refine Wp.call (agrees_fetchVertex db _) fun h₁ p q k₁ r₁ => ?_
      rw [r₁.sum]
      refine BP.Wp.reads (reads_digest r₁) fun g => ?_
      exact (ih _ _ h₁).imp fun h₂ x y e => ⟨k₁.trans e.1, e.2⟩

variable [DecidableEq G1]

/-- `Update` of a point made after `b`. -/
theorem wp_update_own {p : PoL.PP Ref Ref Ref} {q : PoL.PP G1 G2 GT} {b : Mem (Cell G1 G2 GT)} (hp : PPAt h p q) {c : Ref} {c' : G1}
    (o : Own kG1 b h c c') (m : List Zr) (mi : Zr) (i : ℕ) :
    Wp (PP.update p c m mi i) h (PoL.PP.update q c' m mi i) fun h' _ x => Own kG1 b h' c x ∧ WritesOnly c h h' := by
  have w1 := PP.wp_update hp o.at_ m mi i
  rw [wp_iff] at w1 ⊢
  rcases w1 with ⟨e, e'⟩ | ⟨⟨_, h'⟩, x, e, e', hw, hx⟩
  · exact .inl ⟨e, e'⟩
  · refine .inr ⟨_, _, e, e', ⟨⟨?_, ?_⟩, o.fresh, hx⟩, hw⟩
    · obtain ⟨l, hl⟩ := o.keeps.cells
      rw [List.prefix_iff_eq_take]
      refine List.ext_getElem? fun a => ?_
      by_cases ha : a < b.cells.length
      · rw [List.getElem?_take_of_lt ha]
        have hb : b.cells[a]? = some b.cells[a] := List.getElem?_eq_getElem ha
        rw [hb]
        symm
        refine hw.cells a _ (lt_of_lt_of_le ha o.fresh).ne ?_
        rw [← hl, List.getElem?_append_left ha, hb]
      · rw [List.getElem?_eq_none (by omega), List.getElem?_eq_none (by rw [List.length_take]; omega)]
    · obtain ⟨l, hl, hl'⟩ := o.keeps.written
      obtain ⟨w, hw1, hw2⟩ := hw.written
      refine ⟨l ++ w, by rw [hw1, hl, List.append_assoc], fun a ha => ?_⟩
      rcases List.mem_append.1 ha with ha | ha
      · exact hl' a ha
      · rcases hw2 a ha with rfl | ha
        · exact o.fresh
        · exact o.keeps.length_le.trans ha

theorem agrees_updateInnerLayer (hg : GlobalsAt E h gl) {p : PoL.PP Ref Ref Ref} {q : PoL.PP G1 G2 GT} (hp : PPAt h p q)
    (env : PoL.Verkle.Env) (key : Str) (node : Option PoL.Verkle.Data) (descendants : List (Option PoL.Verkle.Data)) (index : ℕ)
    (s : PoL.Verkle.State) : Agrees (updateInnerLayer E gl p env key node descendants index s) h
      (PoL.Verkle.updateInnerLayer E q env key node descendants index s) fun _ x y => x = y := by
  unfold updateInnerLayer PoL.Verkle.updateInnerLayer
  cases node with
  | none =>
    refine Wp.call (agrees_innerLoop _ _ _ _ h) fun h₁ a a' k₁ e => ?_
    subst e
    refine Wp.call (PP.agrees_commit (hg.mono k₁) (hp.mono k₁) _) fun h₂ V V' k₂ r₂ => ?_
    have k := k₁.trans k₂
    refine Wp.call (PP.agrees_commit (hg.mono k) (hp.mono k) _) fun h₃ W W' k₃ r₃ => ?_
    refine BP.Wp.readsT (reads_store (p := ⟨_, _, _, _, V, some W⟩) (q := ⟨_, _, _, _, V', some W'⟩) ⟨rfl, rfl, rfl, rfl, r₂.mono k₃, r₃⟩ env key s) ?_
    exact ⟨k.trans k₃, rfl⟩
  | some _ =>
    dsimp only
    refine Wp.call (agrees_fetchVertex _ _) fun h₁ v v' k₁ r₁ => Wp.lift fun d _ => ?_
    refine Wp.call (agrees_fetchVertex _ _) fun h₂ dv dv' k₂ r₂ => ?_
    refine BP.Wp.reads (reads_digest r₂) fun nd => ?_
    rw [hp.N, r₁.values, r₁.digests, r₁.sum, r₁.blindingFactor, r₂.sum]
    refine Wp.lift fun dd _ => ?_
    split
    · exact Wp.crash
    · have k := k₁.trans k₂
      refine Wp.call (PP.agrees_commit (hg.mono k) (hp.mono k) _) fun h₃ V V' k₃ r₃ => ?_
      have k := k.trans k₃
      refine Wp.call (PP.agrees_commit (hg.mono k) (hp.mono k) _) fun h₄ W W' k₄ r₄ => ?_
      refine BP.Wp.readsT (reads_store (p := ⟨_, _, _, _, V, some W⟩) (q := ⟨_, _, _, _, V', some W'⟩) ⟨rfl, rfl, rfl, rfl, r₃.mono k₄, r₄⟩ env key s) ?_
      exact ⟨k.trans k₄, rfl⟩

theorem agrees_updateLayerAboveLeaves (hg : GlobalsAt E h gl) {p : PoL.PP Ref Ref Ref} {q : PoL.PP G1 G2 GT} (hp : PPAt h p q)
    (env : PoL.Verkle.Env) (key : Str) (node : Option PoL.Verkle.Data) (descendants : List (Option PoL.Verkle.Data)) (index : ℕ)
    (s : PoL.Verkle.State) : Agrees (updateLayerAboveLeaves E gl p env key node descendants index s) h
      (PoL.Verkle.updateLayerAboveLeaves E q env key node descendants index s) fun _ x y => x = y := by
  unfold updateLayerAboveLeaves PoL.Verkle.updateLayerAboveLeaves
  cases node with
  | none =>
    refine Wp.lift fun r _ => ?_
    refine Wp.call (PP.agrees_commit hg hp _) fun h₂ V V' k₂ r₂ => ?_
    refine BP.Wp.readsT (reads_store (p := ⟨_, _, _, _, V, none⟩) (q := ⟨_, _, _, _, V', none⟩) ⟨rfl, rfl, rfl, rfl, r₂, trivial⟩ env key s) ?_
    exact ⟨k₂, rfl⟩
  | some _ =>
    dsimp only
    refine Wp.bind (wp_fetchVertex _ _) fun h₁ v v' r₁ => Wp.lift fun d _ => Wp.lift fun d _ => Wp.lift fun n _ => ?_
    obtain ⟨r₁, o₁, hne⟩ := r₁
    rw [hp.N, r₁.values, r₁.sum]
    refine Wp.bind (wp_update_own (hp.mono o₁.keeps) o₁ _ _ _) fun h₂ _ x e₂ => ?_
    refine Wp.bind (wp_update_own (hp.mono e₂.1.keeps) e₂.1 _ _ _) fun h₃ _ x e₃ => ?_
    have hW : OptAt h₃ v.W v'.W := by
      have hW := r₁.W
      cases hw : v.W with
      | none =>
        cases hw' : v'.W with
        | none => trivial
        | some _ => rw [hw, hw'] at hW; exact hW.elim
      | some r =>
        cases hw' : v'.W with
        | none => rw [hw, hw'] at hW; exact hW.elim
        | some w =>
          rw [hw, hw'] at hW
          have hr : r.addr ≠ v.V.addr := fun e => hne r hw (by cases r; cases hv : v.V; simp_all)
          exact e₃.2.cells _ _ hr (e₂.2.cells _ _ hr hW)
    have hv : ∀ vals sm, VertexAt h₃ ⟨v.blindingFactor, vals, v.digests, sm, v.V, v.W⟩
      ⟨v'.blindingFactor, vals, v'.digests, sm, x, v'.W⟩ := fun _ _ => ⟨r₁.blindingFactor, rfl, r₁.digests, rfl, e₃.1.at_, hW⟩
    refine BP.Wp.readsT (reads_store (hv _ _) env key s) ?_
    exact ⟨e₃.1.keeps, rfl⟩

theorem agrees_put (hg : GlobalsAt E h gl) {t : PoL.Verkle.Tree Ref Ref Ref} {t' : PoL.Verkle.Tree G1 G2 GT} (hp : PPAt h t.PP t'.PP)
    (hf : t.fanOut = t'.fanOut) (hi : t.id2Path = t'.id2Path) (hr : t.root = t'.root) (env : PoL.Verkle.Env) (id : Str) (data : ℤ)
    (s : PoL.Verkle.State) : Agrees (put E gl env t id data s) h (t'.put E env id data s) fun h' x y =>
      PPAt h' x.1.PP y.1.PP ∧ x.1.fanOut = y.1.fanOut ∧ x.1.id2Path = y.1.id2Path ∧ x.1.root = y.1.root ∧ x.2 = y.2 := by
  unfold put PoL.Verkle.Tree.put
  rw [agrees_iff, wp_iff]
  unfold Sparse.Tree.put sparse PoL.Verkle.Tree.sparse
  dsimp only
  rw [hf, hi, hr]
  cases t'.id2Path id with
  | none => exact .inl ⟨rfl, rfl⟩
  | some path =>
    have key := putAt_rel (R := fun (x : PoL.Verkle.State × Mem (Cell G1 G2 GT)) (y : PoL.Verkle.State) => x.1 = y ∧ Keeps h x.2)
      (u := updateInnerVertex E gl t.PP env) (u' := PoL.Verkle.updateInnerVertex E t'.PP env) (fun key node raw b i s u hR => by
        obtain ⟨rfl, hk⟩ := hR
        unfold updateInnerVertex PoL.Verkle.updateInnerVertex
        cases b with
        | true =>
          have w := agrees_updateLayerAboveLeaves (hg.mono hk) (hp.mono hk) env key node raw i s.1
          rw [agrees_iff, wp_iff] at w
          rcases w with ⟨e, e'⟩ | ⟨⟨x, h'⟩, y, e, e', hk', exy⟩
          · simp only [if_true, e, e']
            exact .inl ⟨rfl, rfl⟩
          · simp only [if_true, e, e']
            dsimp only at exy
            subst exy
            exact .inr ⟨_, _, rfl, rfl, rfl, rfl, hk.trans hk'⟩
        | false =>
          have w := agrees_updateInnerLayer (hg.mono hk) (hp.mono hk) env key node raw i s.1
          rw [agrees_iff, wp_iff] at w
          rcases w with ⟨e, e'⟩ | ⟨⟨x, h'⟩, y, e, e', hk', exy⟩
          · simp only [Bool.false_eq_true, if_false, e, e']
            exact .inl ⟨rfl, rfl⟩
          · simp only [Bool.false_eq_true, if_false, e, e']
            dsimp only at exy
            subst exy
            exact .inr ⟨_, _, rfl, rfl, rfl, rfl, hk.trans hk'⟩)
      t'.fanOut (some (.amount data)) path [] (t'.root.getD (.mk [] none [])) (s, h) s ⟨rfl, Keeps.refl h⟩
    simp only [Option.bind_eq_bind, Option.bind_some]
    rcases key with ⟨e, e'⟩ | ⟨⟨c, s'⟩, ⟨c', u'⟩, e, e', ec, es, hk⟩
    · rw [e, e']
      exact .inl ⟨rfl, rfl⟩
    · rw [e, e']
      dsimp only at ec es hk
      subst ec
      exact .inr ⟨_, _, rfl, rfl, hk, hp.mono hk, rfl, rfl, rfl, es⟩

/-- What `Get` returns. -/
def GotAt (h : Mem (Cell G1 G2 GT)) : Option (ℤ × List (PoL.Verkle.Vertex Ref)) → Option (ℤ × List (PoL.Verkle.Vertex G1)) → Prop
  | none, none => True
  | some a, some b => a.1 = b.1 ∧ List.Forall₂ (VertexAt h) a.2 b.2
  | _, _ => False

theorem agrees_get {t : PoL.Verkle.Tree Ref Ref Ref} {t' : PoL.Verkle.Tree G1 G2 GT}
    (hi : t.id2Path = t'.id2Path) (hr : t.root = t'.root) (env : PoL.Verkle.Env) (id : Str) (db : PoL.Verkle.Db) :
    Agrees (get E gl env t id db) h (t'.get E env id db) GotAt := by
  unfold get PoL.Verkle.Tree.get
  have e : (sparse E gl env t).get id = (t'.sparse E env).get id := by
    unfold Sparse.Tree.get sparse PoL.Verkle.Tree.sparse
    dsimp only
    rw [hi, hr]
  rw [e]
  refine Wp.lift fun r _ => ?_
  cases r with
  | none => exact ⟨Keeps.refl h, trivial⟩
  | some r =>
    obtain ⟨n, path⟩ := r
    refine Wp.call (R := fun h' as bs => List.Forall₂ (VertexAt h') as bs) (agrees_mapM (R := VertexAt) (fun _ _ _ _ hk hv => hv.mono hk)
      ((forall₂_refl path).imp fun u u' eu h' hk => ?_)) fun h₁ vs vs' k₁ r₁ => ?_
    · subst eu
      exact Wp.lift fun d _ => Wp.lift fun k _ => agrees_fromBytes _
    · exact Wp.lift fun m _ => Wp.lift fun i _ => ⟨k₁, rfl, r₁⟩

theorem agrees_sumArgument (hg : GlobalsAt E h gl) {p : PoL.Sum.PP Ref} {q : PoL.Sum.PP G1} (hp : SumPPAt h p q) (rnd : PoL.Sum.Rand)
    {vs : List (PoL.Verkle.Vertex Ref)} {vs' : List (PoL.Verkle.Vertex G1)} (hv : List.Forall₂ (VertexAt h) vs vs') :
    Agrees (sumArgument E gl p rnd vs) h (PoL.Verkle.sumArgument E q rnd vs') SumProofAt := by
  unfold sumArgument PoL.Verkle.sumArgument
  have e1 : vs.map (fun v => v.valuesVec p.H.length) = vs'.map (fun v => v.valuesVec q.H.length) := by
    rw [hp.H.length]
    refine List.forall₂_eq_eq_eq ▸ ?_
    rw [List.forall₂_map_left_iff, List.forall₂_map_right_iff]
    exact hv.imp fun a b r => by unfold PoL.Verkle.Vertex.valuesVec; rw [r.sum, r.values]
  have e2 : vs.map PoL.Verkle.Vertex.blindingFactor = vs'.map PoL.Verkle.Vertex.blindingFactor := by
    refine List.forall₂_eq_eq_eq ▸ ?_
    rw [List.forall₂_map_left_iff, List.forall₂_map_right_iff]
    exact hv.imp fun a b r => r.blindingFactor
  rw [e1, e2]
  exact Sum.agrees_newAggregatedArgument hg hp rnd (Poe.ats_map hv fun a b r => r.V) _ _

end Verkle
end PoL.Ptr

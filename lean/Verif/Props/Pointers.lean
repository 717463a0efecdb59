import Verif.Proofs.PtrSession
import Verif.Proofs.Tab
import Verif.Spec.Toy
import Verif.Props.PolParams

/-!
# C92 and C93: pointers to points

C92: every function of the library returns, with pointers and in-place operations, what it returns in the model with values, and
writes to no cell that was there when it was called; `Update` writes to the commitment it is given and to no other.

C93: the elements that vector operations return may be modified by the caller, without effect on anything else (false of the code:
`MulV` returns the package variable `zeroG1` in place of a product with 0).
-/

set_option linter.unusedSectionVars false

namespace PoL.Props

open Spec Ptr

variable {G1 G2 GT : Type} [AddCommGroup G1] [Module Zr G1] [AddCommGroup G2] [Module Zr G2] [AddCommGroup GT] [Module Zr GT]
  [DecidableEq G1] [DecidableEq GT] {E : Curve G1 G2 GT} {h : Mem (Cell G1 G2 GT)} {gl : Globals}

section vectors

variable {C M : Type} [AddCommGroup M] [Module Zr M] [DecidableEq M] {k : Kind C M} {h : Mem C} {rs ss : List Ref} {xs ys : List M}

/-- C92 for the operations on vectors of points (`common/math.go`), for each of the three types of elements. -/
theorem C92_vectors (hx : Ats k h rs xs) (hy : Ats k h ss ys) (a : Zr) (v : List Zr) (n : ℕ) {gen zero : Ref} {g : M}
    (hgen : At k h gen g) (hzero : At k h zero (0 : M)) :
    Agrees (Ptr.Gv.add k rs ss) h (PoL.Gv.add xs ys) (Ats k) ∧
    Agrees (Ptr.Gv.add k rs ss) h (PoL.Gv.hadamardProd xs ys) (Ats k) ∧
    Agrees (Ptr.Gv.neg k gen rs) h (some (PoL.Gv.neg xs)) (Ats k) ∧
    Agrees (Ptr.Gv.mul k rs a) h (some (PoL.Gv.mul xs a)) (Ats k) ∧
    Agrees (Ptr.Gv.mulV k zero rs v) h (PoL.Gv.mulV xs v) (Ats k) ∧
    Agrees (Ptr.Gv.mulv2 k rs v) h (PoL.Gv.mulv2 xs v) (Ats k) ∧
    Agrees (Ptr.Gv.sum k rs) h (PoL.Gv.sum xs) (At k) ∧
    Agrees (Ptr.Gv.sum2 k rs) h (PoL.Gv.sum2 xs) (At k) ∧
    Agrees (Ptr.Gv.duplicate k rs n) h (PoL.Gv.duplicate xs n) (Ats k) ∧
    Agrees (Ptr.exp k v rs) h (Vec.exp v xs) (At k) :=
  ⟨agrees_add hx hy, agrees_hadamard hx hy, agrees_neg hgen hx, agrees_mul hx a, agrees_mulV hzero hx v, agrees_mulv2 hx v,
    agrees_sum hx, agrees_sum2 hx, agrees_duplicate hx n, agrees_exp v hx⟩

/-- C93, what holds: all elements returned are in cells of their own, made by the call. -/
theorem C93_own_cells_partial (hx : Ats k h rs xs) (hy : Ats k h ss ys) (a : Zr) (v : List Zr) (n : ℕ) {gen zero : Ref} {g : M}
    (hgen : At k h gen g) (hv : ∀ b ∈ v, b ≠ 0) :
    Agrees (Ptr.Gv.add k rs ss) h (PoL.Gv.add xs ys) (fun h' ts zs => Ats k h' ts zs ∧ NewCells h ts) ∧
    Agrees (Ptr.Gv.neg k gen rs) h (some (PoL.Gv.neg xs)) (fun h' ts zs => Ats k h' ts zs ∧ NewCells h ts) ∧
    Agrees (Ptr.Gv.mul k rs a) h (some (PoL.Gv.mul xs a)) (fun h' ts zs => Ats k h' ts zs ∧ NewCells h ts) ∧
    Agrees (Ptr.Gv.mulV k zero rs v) h (PoL.Gv.mulV xs v) (fun h' ts zs => Ats k h' ts zs ∧ NewCells h ts) ∧
    Agrees (Ptr.Gv.mulv2 k rs v) h (PoL.Gv.mulv2 xs v) (fun h' ts zs => Ats k h' ts zs ∧ NewCells h ts) ∧
    Agrees (Ptr.Gv.duplicate k rs n) h (PoL.Gv.duplicate xs n) (fun h' ts zs => Ats k h' ts zs ∧ NewCells h ts) ∧
    Agrees (Ptr.Gv.sum k rs) h (PoL.Gv.sum xs) (fun h' t z => At k h' t z ∧ NewCells h [t]) := by
  refine ⟨?_, ?_, ?_, ?_, ?_, ?_, ?_⟩
  · unfold Ptr.Gv.add PoL.Gv.add
    rw [hx.length, hy.length]
    split
    · exact Agrees.crash
    · rw [← List.map_uncurry_zip_eq_zipWith]
      refine mapM_new (List.forall₂_map_right_iff.2 ((zip_forall₂ hx hy).imp fun e e' he h' hk => ?_))
      exact Wp.copy (he.1.mono hk) fun h₁ s o₁ => Wp.addTo o₁ (he.2.mono (hk.trans o₁.keeps)) fun h₂ o₂ => o₂
  · unfold Ptr.Gv.neg PoL.Gv.neg
    refine Wp.copy hgen fun h₁ z o₁ => Wp.subFrom o₁ o₁.at_ fun h₂ o₂ => ?_
    rw [sub_self] at o₂
    refine (mapM_new (h := h₂) (k := k) (List.forall₂_map_right_iff.2 (hx.imp fun r x hr h' hk => ?_))).imp fun h' ts _ e =>
      ⟨o₂.keeps.trans e.1, e.2.1, e.2.2.1, fun t ht => o₂.keeps.length_le.trans (e.2.2.2 t ht)⟩
    refine Wp.copy (o₂.at_.mono hk) fun h₃ s o₃ => Wp.subFrom o₃ (hr.mono ((o₂.keeps.trans hk).trans o₃.keeps)) fun h₄ o₄ => ?_
    exact o₄
  · exact mapM_new (List.forall₂_map_right_iff.2 (hx.imp fun r x hr h' hk => wp_mulBy (hr.mono hk) a))
  · unfold Ptr.Gv.mulV PoL.Gv.mulV
    rw [hx.length]
    split
    · exact Agrees.crash
    · rw [← List.map_uncurry_zip_eq_zipWith]
      have hz : List.Forall₂ (fun (e : Ref × Zr) (e' : M × Zr) => (At k h e.1 e'.1 ∧ e.2 = e'.2) ∧ e'.2 ≠ 0) (rs.zip v) (xs.zip v) := by
        have key : ∀ {rs : List Ref} {xs : List M} (v : List Zr), List.Forall₂ (At k h) rs xs → (∀ b ∈ v, b ≠ 0) →
            List.Forall₂ (fun (e : Ref × Zr) (e' : M × Zr) => (At k h e.1 e'.1 ∧ e.2 = e'.2) ∧ e'.2 ≠ 0) (rs.zip v) (xs.zip v) := by
          intro rs xs v hx
          induction hx generalizing v with
          | nil => simp
          | cons a _ ih =>
            intro hv
            cases v with
            | nil => simp
            | cons b v => exact .cons ⟨⟨a, rfl⟩, hv b (by simp)⟩ (ih v fun c hc => hv c (by simp [hc]))
        exact key v hx hv
      refine mapM_new (List.forall₂_map_right_iff.2 (hz.imp fun e e' he h' hk => ?_))
      obtain ⟨⟨h1, h2⟩, h3⟩ := he
      rw [h2, if_neg h3]
      unfold Function.uncurry
      dsimp only
      rw [if_neg h3]
      exact wp_mulBy (h1.mono hk) _
  · unfold Ptr.Gv.mulv2 PoL.Gv.mulv2
    rw [hx.length]
    split
    · exact Agrees.crash
    · rw [← List.map_uncurry_zip_eq_zipWith]
      refine mapM_new (List.forall₂_map_right_iff.2 ((zip_forall₂ hx (forall₂_refl v)).imp fun e e' he h' hk => ?_))
      obtain ⟨h1, h2⟩ := he
      rw [h2]
      exact wp_mulBy (h1.mono hk) _
  · cases hx with
    | nil => exact Agrees.crash
    | cons hr hx =>
      cases hx with
      | cons _ _ => exact Agrees.crash
      | nil =>
        refine mapM_new ?_
        induction n with
        | zero => exact .nil
        | succ n ih => exact .cons (fun h' hk => wp_copy (hr.mono hk)) ih
  · exact (wp_sum hx).imp fun h' t z o => ⟨o.keeps, o.at_, List.nodup_singleton t, fun s hs => by
      rw [List.mem_singleton.1 hs]
      exact o.fresh⟩

/-- C93 fails: a product with 0 is the package variable.  A caller who adds a point to it, as they may to any other
element returned, changes what `MulV` and `Sum` return from then on: a sum of `n` products with 0 is `n` times that point. -/
theorem C93_violated {zero r : Ref} {x : M} (hzero : At k h zero (0 : M)) (hr : At k h r x) :
    ∃ h', (do
        let ps ← Ptr.Gv.mulV k zero [r] [0]
        for p in ps do Ptr.addTo k p r : Run C Unit) h = some ((), h') ∧
      ∀ (ts : List Ref), 0 < ts.length → ∃ s h'', (do
        let ps ← Ptr.Gv.mulV k zero ts (List.replicate ts.length 0)
        Ptr.Gv.sum k ps : Run C Ref) h' = some (s, h'') ∧ At k h'' s (ts.length • x) := by
  have hlt : zero.addr < h.cells.length := (List.getElem?_eq_some_iff.1 hzero).1
  refine ⟨⟨h.cells.set zero.addr (k.put (0 + x)), h.written ++ [zero.addr]⟩, ?_, fun ts hts => ?_⟩
  · have e1 : Ptr.Gv.mulV k zero [r] [0] h = some ([zero], h) := by
      unfold Ptr.Gv.mulV
      simp [StateT.bind, bind, pure, StateT.pure]
    have e2 : Ptr.addTo k zero r h = some ((), ⟨h.cells.set zero.addr (k.put (0 + x)), h.written ++ [zero.addr]⟩) := by
      unfold Ptr.addTo
      change (Ptr.load k zero h).bind (fun p => ((Ptr.load k r p.2).bind fun q => Ptr.store k zero (p.1 + q.1) q.2)) = _
      rw [load_eq hzero]
      change (Ptr.load k r h).bind _ = _
      rw [load_eq hr]
      exact store_eq hzero _
    change (Ptr.Gv.mulV k zero [r] [0] h).bind _ = _
    rw [e1]
    simp [e2, StateT.bind, bind, pure, StateT.pure]
  · generalize hh' : (⟨h.cells.set zero.addr (k.put (0 + x)), h.written ++ [zero.addr]⟩ : Mem C) = h'
    have hz' : At k h' zero x := by
      rw [← hh']
      unfold At
      simp [hlt]
    have e1 : ∀ ts : List Ref, ((ts.zip (List.replicate ts.length (0 : Zr))).mapM
        (fun e => if e.2 = 0 then (pure zero : Run C Ref) else Ptr.mulBy k e.1 e.2) : Run C (List Ref)) h' = some (List.replicate ts.length zero, h') := by
      intro ts
      induction ts with
      | nil => rfl
      | cons t ts ih =>
        rw [List.length_cons, List.replicate_succ, List.zip_cons_cons, List.mapM_cons]
        rw [if_pos rfl, pure_bind]
        change Option.bind (((ts.zip (List.replicate ts.length (0 : Zr))).mapM _ : Run C (List Ref)) h') _ = _
        rw [ih]
        rfl
    have e2 : Ptr.Gv.mulV k zero ts (List.replicate ts.length 0) h' = some (List.replicate ts.length zero, h') := by
      unfold Ptr.Gv.mulV
      rw [if_neg (by simp)]
      exact e1 ts
    have hs : Ats k h' (List.replicate ts.length zero) (List.replicate ts.length x) := by
      generalize ts.length = n
      induction n with
      | zero => exact .nil
      | succ n ih => exact .cons hz' ih
    have hsum : PoL.Gv.sum (List.replicate ts.length x) = some (ts.length • x) := by
      have : List.replicate ts.length x = tab ts.length fun _ => x := by
        unfold tab
        rw [List.map_const', List.length_range]
      rw [this, PoL.Gv.sum_tab hts, Finset.sum_const, Finset.card_range]
    have := wp_sum hs
    rw [hsum] at this
    unfold Wp at this
    cases hrun : Ptr.Gv.sum k (List.replicate ts.length zero) h' with
    | none => rw [hrun] at this; exact this.elim
    | some p =>
      rw [hrun] at this
      refine ⟨p.1, p.2, ?_, this.at_⟩
      change (Ptr.Gv.mulV k zero ts (List.replicate ts.length 0) h').bind _ = _
      rw [e2]
      exact hrun

end vectors

theorem commit_mapM_take {α : Type} (l : List α) : ∀ n, n ≤ l.length → (List.range n).mapM (fun i => l[i]?) = some (l.take n) := by
  intro n
  induction n with
  | zero => intro _; rfl
  | succ n ih =>
    intro hn
    rw [List.range_succ, List.mapM_append, ih (by omega), List.take_add_one, List.getElem?_eq_getElem (by omega)]
    simp [List.getElem?_eq_getElem (show n < l.length by omega)]

/-- So a commitment to zeros is no longer 0: it is as many times the point added as the vector has entries. -/
theorem C93_violated_commit (hg : GlobalsAt E h gl) {r : Ref} {x : G1} (hr : At kG1 h r x) :
    ∃ h', (do
        let ps ← Ptr.Gv.mulV kG1 gl.zeroG1 [r] [0]
        for p in ps do Ptr.addTo kG1 p r : Run (Cell G1 G2 GT) Unit) h = some ((), h') ∧
      ∀ (p : PP Ref Ref Ref) (q : PP G1 G2 GT), 0 < p.N → p.N ≤ p.G1s.length → PPAt h p q →
        q.commit (List.replicate p.N 0) = some 0 ∧
        ∃ c h'', Ptr.PP.commit gl p (List.replicate p.N 0) h' = some (c, h'') ∧ At kG1 h'' c (p.N • x) := by
  obtain ⟨h', e, H⟩ := C93_violated hg.zeroG1 hr
  refine ⟨h', e, fun p q h0 hN hp => ⟨?_, ?_⟩⟩
  · have hm : (List.range q.N).mapM (fun i => q.G1s[i]?) = some (q.G1s.take q.N) :=
      commit_mapM_take q.G1s q.N (by rw [← hp.N, ← hp.G1s.length]; exact hN)
    unfold PP.commit
    rw [if_neg (by rw [List.length_replicate, hp.N]; simp), hm]
    have hlen : (q.G1s.take q.N).length = p.N := by
      rw [List.length_take, ← hp.G1s.length, ← hp.N]
      omega
    have hv : PoL.Gv.mulV (q.G1s.take q.N) (List.replicate p.N 0) = some (tab p.N fun _ => 0) := by
      unfold PoL.Gv.mulV
      rw [if_neg (by rw [hlen, List.length_replicate]; simp), Option.some.injEq]
      refine List.ext_getElem (by rw [List.length_zipWith, hlen]; simp [tab]) fun i h1 h2 => ?_
      simp [tab]
    refine obind_step (f := fun g => PoL.Gv.mulV g (List.replicate p.N 0) >>= PoL.Gv.sum) rfl (obind_step hv ?_)
    rw [PoL.Gv.sum_tab h0]
    simp
  · have hm : (List.range p.N).mapM (fun i => p.G1s[i]?) = some (p.G1s.take p.N) := commit_mapM_take p.G1s p.N hN
    have hlen : (p.G1s.take p.N).length = p.N := by
      rw [List.length_take]
      omega
    obtain ⟨c, h'', e1, e2⟩ := H (p.G1s.take p.N) (by omega)
    rw [hlen] at e1 e2
    refine ⟨c, h'', ?_, e2⟩
    unfold Ptr.PP.commit
    rw [if_neg (by simp), hm]
    exact e1

/-- C92 for vector commitments (`pp/pointproofs.go`). -/
theorem C92_point_proofs (hg : GlobalsAt E h gl) {p : PP Ref Ref Ref} {q : PP G1 G2 GT} (hp : PPAt h p q) (m : List Zr) (i : ℕ) (mi : Zr)
    {π c : Ref} {π' c' : G1} (hπ : At kG1 h π π') (hc : At kG1 h c c') {πs cs : List Ref} {πs' cs' : List G1}
    (hπs : Ats kG1 h πs πs') (hcs : Ats kG1 h cs cs') (is : List ℕ) :
    Agrees (Ptr.PP.commit gl p m) h (q.commit m) (At kG1) ∧
    Agrees (Ptr.PP.openAt gl p i m) h (q.openAt i m) (fun h' a b => a.1 = b.1 ∧ At kG1 h' a.2 b.2) ∧
    Agrees (Ptr.PP.verify E gl p mi π c i) h (PP.verify E q mi π' c' i) (fun _ a b => a = b) ∧
    Agrees (Ptr.PP.aggregate E p cs πs) h (PP.aggregate q cs' πs' (PP.ro E)) (At kG1) ∧
    Agrees (Ptr.PP.verifyAggregation E gl p is cs π mi) h (PP.verifyAggregation E q is cs' π' mi (PP.ro E)) (fun _ a b => a = b) :=
  ⟨PP.agrees_commit hg hp m, PP.agrees_openAt hg hp i m, PP.agrees_verify hg hp mi hπ hc i, PP.agrees_aggregate hp hcs hπs,
    PP.agrees_verifyAggregation hg hp is hcs hπ mi⟩

/-- `Update` changes the commitment it is given, as the model with values says, and nothing else. -/
theorem C92_update {p : PP Ref Ref Ref} {q : PP G1 G2 GT} (hp : PPAt h p q) {c : Ref} {c' : G1} (hc : At kG1 h c c') (m : List Zr)
    (mi : Zr) (i : ℕ) : Changes kG1 c (Ptr.PP.update p c m mi i) h (q.update c' m mi i) := by
  have := PP.wp_update hp hc m mi i
  unfold Wp at this
  unfold Changes
  cases h1 : Ptr.PP.update p c m mi i h <;> cases h2 : q.update c' m mi i <;> rw [h1, h2] at this <;> exact this

/-- C92 for inner-product arguments (`bp/innerprod.go`). -/
theorem C92_inner_product {p : BP.PP Ref} {q : BP.PP G1} (hp : BpAt h p q) (a b : List Zr) {arg : BP.InnerProdArgument Ref}
    {arg' : BP.InnerProdArgument G1} (harg : IpaAt h arg arg') {pf : BP.InnerProductProof Ref} {pf' : BP.InnerProductProof G1}
    (hpf : IppAt h pf pf') :
    Agrees (Ptr.BP.newInnerProdArgument p a b) h (PoL.BP.newInnerProdArgument q a b) IpaAt ∧
    Agrees (Ptr.BP.InnerProdArgument.prove E arg) h (arg'.prove E) IppAt ∧
    Agrees (Ptr.BP.InnerProductProof.verify E pf p) h (pf'.verify E q) (fun _ a b => a = b) :=
  ⟨BP.agrees_newInnerProdArgument hp a b, BP.agrees_prove harg, BP.agrees_ipp_verify hp hpf⟩

/-- C92 for the iterated reduction (`bp/ir.go`). -/
theorem C92_reduction (hg : GlobalsAt E h gl) {p : BP.PP Ref} {q : BP.PP G1} (hp : BpAt h p q) {V : Ref} {V' : G1} (hV : At kG1 h V V')
    (v : List Zr) {Δ : List (Ref × Ref × Ref)} {Δ' : List (G1 × G1 × G1)} (hΔ : ΔAt h Δ Δ') (vFinal : Zr) :
    Agrees (Ptr.BP.iterativeReduce E gl p v V) h (PoL.BP.iterativeReduce E q v V') (fun h' a b => ΔAt h' a.1 b.1 ∧ a.2 = b.2) ∧
    Agrees (Ptr.BP.iterativeVerify E p V Δ vFinal) h (PoL.BP.iterativeVerify E q V' Δ' vFinal) (fun _ a b => a = b) :=
  ⟨BP.agrees_iterativeReduce hg hp hV v, BP.agrees_iterativeVerify hp hV hΔ vFinal⟩

/-- C92 for range proofs (`bp/range.go`); `VerifyRange` also sets fields of the proof it is given (C58), to new points. -/
theorem C92_range (hg : GlobalsAt E h gl) {p : BP.RPPP Ref} {q : BP.RPPP G1} (hp : RpppAt h p q) (rnd : PoL.BP.RangeRand) {V : Ref} {V' : G1}
    (hV : At kG1 h V V') (v : List Zr) (r : Zr) {rp : BP.RangeProof Ref} {rp' : BP.RangeProof G1} (hrp : RpAt h rp rp') :
    Agrees (Ptr.BP.proveRange E gl p rnd V v r) h (PoL.BP.proveRange E q rnd V' v r) RpAt ∧
    Agrees (Ptr.BP.verifyRangeState E gl p rp V) h (PoL.BP.verifyRangeState E q rp' V') (fun h' a b => a.1 = b.1 ∧ RpAt h' a.2 b.2) :=
  ⟨BP.agrees_proveRange hg hp rnd hV v r, BP.agrees_verifyRangeState hg hp hrp hV⟩

/-- C92 for the sum argument (`sum/sa.go`). -/
theorem C92_sum (hg : GlobalsAt E h gl) {p : PoL.Sum.PP Ref} {q : PoL.Sum.PP G1} (hp : SumPPAt h p q) (rnd : PoL.Sum.Rand) {V : Ref} {V' : G1}
    (hV : At kG1 h V V') (v : List Zr) (r : Zr) {Vs : List Ref} {Vs' : List G1} (hVs : Ats kG1 h Vs Vs') (vs : List (List Zr)) (rs : List Zr)
    {pf : PoL.Sum.Proof Ref} {pf' : PoL.Sum.Proof G1} (hpf : SumProofAt h pf pf') {a : PoL.Sum.Argument Ref} {a' : PoL.Sum.Argument G1}
    (ha : At kG1 h a.V a'.V) :
    Agrees (Ptr.Sum.newCommitment gl p v r) h (PoL.Sum.newCommitment q v r) (fun h' a b => At kG1 h' a.V b.V) ∧
    Agrees (Ptr.Sum.newArgument E gl p rnd V v r) h (PoL.Sum.newArgument E q rnd V' v r)
      (fun h' a b => At kG1 h' a.1.V b.1.V ∧ SumProofAt h' a.2 b.2) ∧
    Agrees (Ptr.Sum.newAggregatedArgument E gl p rnd Vs vs rs) h (PoL.Sum.newAggregatedArgument E q rnd Vs' vs rs) SumProofAt ∧
    Agrees (Ptr.Sum.verifyState E pf p a) h (pf'.verifyState E q a') (fun h' x y => x.1 = y.1 ∧ SumProofAt h' x.2 y.2) ∧
    Agrees (Ptr.Sum.verifyAggregated E gl pf p Vs) h (pf'.verifyAggregated E q Vs') (fun _ x y => x.1 = y) :=
  ⟨Sum.agrees_newCommitment hg hp v r, Sum.agrees_newArgument hg hp rnd hV v r, Sum.agrees_newAggregatedArgument hg hp rnd hVs vs rs,
    Sum.agrees_verifyState hp hpf ha, Sum.agrees_verifyAggregated hg hp hpf hVs⟩

/-- C92 for proofs of equality (`poe/poe.go`). -/
theorem C92_equality (hg : GlobalsAt E h gl) {e : PoL.Poe.Equality Ref Ref Ref} {e' : PoL.Poe.Equality G1 G2 GT} (he : EqAt h e e')
    {es : PoL.Poe.Equalities Ref Ref Ref} {es' : PoL.Poe.Equalities G1 G2 GT} (hes : EqsAt h es es') (u η ν : Zr) (v w : List Zr)
    (rnd : PoL.Poe.EqsRand) (vs ws : List (List Zr)) {pf : PoL.Poe.Proof Ref} {pf' : PoL.Poe.Proof G1} (hpf : EqProofAt h pf pf')
    {ap : PoL.Poe.AggregatedProof Ref} {ap' : PoL.Poe.AggregatedProof G1} (hap : ApAt h ap ap') :
    Agrees (Ptr.Poe.eqProve gl e'.RO e u η ν v w) h (e'.prove E u η ν v w) EqProofAt ∧
    Agrees (Ptr.Poe.eqVerify E gl e'.RO e pf) h (e'.verify E pf') (fun _ a b => a = b) ∧
    Agrees (Ptr.Poe.eqsProve E gl es'.RO es rnd vs ws) h (es'.prove E rnd vs ws) ApAt ∧
    Agrees (Ptr.Poe.eqsVerifyState E gl es'.RO es ap) h (es'.verifyState E ap') (fun h' a b => a.1 = b.1 ∧ ApAt h' a.2 b.2) :=
  ⟨Poe.agrees_eqProve hg he u η ν v w, Poe.agrees_eqVerify hg he hpf, Poe.agrees_eqsProve hg hes rnd vs ws,
    Poe.agrees_eqsVerifyState hg hes hap⟩

/-- C92 for the making of parameters and sets. -/
theorem C92_setup (hg : GlobalsAt E h gl) (α α' : Zr) (fanOut : UInt16) (treeType : Pol.TreeType) {p : Pol.PublicParams Ref Ref Ref}
    {q : Pol.PublicParams G1 G2 GT} (hp : PubAt h p q) (db : Verkle.Db) (id2Path : Str → Option (List ℕ)) :
    Agrees (Ptr.Pol.generatePublicParams E gl α fanOut treeType) h (PoL.Pol.generatePublicParams E α fanOut treeType)
      (fun h' a b => a.1 = b.1 ∧ PubAt h' a.2 b.2) ∧
    Agrees (Ptr.Pol.newLiabilitySet E gl α' p db id2Path) h (some (PoL.Pol.newLiabilitySet E α' q db id2Path)) LsAt :=
  ⟨Pol.agrees_generatePublicParams hg α fanOut treeType, Pol.agrees_newLiabilitySet hg α' hp db id2Path⟩

/-- C92 for liability sets (`pol/pol.go`). -/
theorem C92_liability_set (hg : GlobalsAt E h gl) {ls : Pol.LiabilitySet Ref Ref Ref} {ls' : Pol.LiabilitySet G1 G2 GT} (hl : LsAt h ls ls')
    (env : Verkle.Env) (id : Str) (a : ℤ) (rnd : Pol.ProveRand) :
    Agrees (Ptr.Pol.set E gl env ls id a) h (ls'.set E env id a) LsAt ∧
    Agrees (Ptr.Pol.get E gl env ls id) h (ls'.get E env id) (fun _ a b => a = b) ∧
    Agrees (Ptr.Pol.root E ls) h (ls'.root E) (fun h' a b => RootAt h' a.1 b.1 ∧ LsAt h' a.2 b.2) ∧
    Agrees (Ptr.Pol.proveTot E gl ls) h (ls'.proveTot E) TotalAt ∧
    Agrees (Ptr.Pol.proveLiability E gl env ls rnd id) h (ls'.proveLiability E env rnd id) ProvedAt :=
  ⟨Pol.agrees_set hg hl env id a, Pol.agrees_get hl env id, Pol.agrees_root hl, Pol.agrees_proveTot hg hl,
    Pol.agrees_proveLiability hg hl env rnd id⟩

/-- C92 for the verifiers (`pol/pol.go`). -/
theorem C92_verifiers (hg : GlobalsAt E h gl) {p : Pol.PublicParams Ref Ref Ref} {q : Pol.PublicParams G1 G2 GT} (hp : PubAt h p q)
    {t : Pol.TotalProof Ref} {t' : Pol.TotalProof G1} (ht : TotalAt h t t') {lp : Pol.LiabilityProof Ref} {lp' : Pol.LiabilityProof G1}
    (hlp : LpAt h lp lp') {V W : Ref} {V' W' : G1} (hV : At kG1 h V V') (hW : At kG1 h W W') (id : Str) (id2Path : Str → Option (List ℕ)) :
    Agrees (Ptr.Pol.totalVerify E gl t p V) h (t'.verify E q V') (fun _ a b => a = b) ∧
    Agrees (Ptr.Pol.verify E gl lp p id V W id2Path) h (lp'.verify E q id V' W' id2Path) (fun _ a b => a = b) :=
  ⟨Pol.agrees_totalVerify hg hp ht hV, Pol.agrees_verify hg hp hlp id hV hW id2Path⟩

/-- C92 for any sequence of calls, from the start of the program: the caller sees what they see in the model with values, and at
the end everything they hold, returned by whichever call, is what it is there. -/
theorem C92_session (E : Curve G1 G2 GT) (env : Verkle.Env) (h : Mem (Cell G1 G2 GT)) (α α' : Zr) (fanOut : UInt16)
    (treeType : Pol.TreeType) (db : Verkle.Db) (cs : List ApiCall) :
    Agrees (Spec.Ptr.session E env α α' fanOut treeType db cs) h (Spec.session E env α α' fanOut treeType db cs)
      (fun h' a b => HeldAt h' a.1 b.1 ∧ a.2 = b.2) := by
  unfold Spec.Ptr.session Spec.session
  refine Wp.step (wp_initGlobals (E := E) h) fun h₁ gl hg => ?_
  obtain ⟨k₁, hg⟩ := hg
  refine Wp.call (Pol.agrees_generatePublicParams hg α fanOut treeType) fun h₂ r r' k₂ hr => ?_
  rw [hr.1]
  refine Wp.callT (Pol.agrees_newLiabilitySet (hg.mono k₂) α' hr.2 db r'.1) fun h₃ ls k₃ hl => ?_
  have k := k₁.trans (k₂.trans k₃)
  refine (Pol.agrees_calls env cs ((hg.mono k₂).mono k₃) ⟨hl, hr.2.mono k₃, rfl, .nil, .nil, .nil⟩).imp fun h' a b e => ?_
  exact ⟨k.trans e.1, e.2⟩

/-! ## The hypotheses can be met -/

/-- After the start of the program and the making of parameters for fan-out 3 all hypotheses about memory hold. -/
example : ∃ (h : Mem (Cell Zr Zr Zr)) (gl : Globals) (p : Pol.PublicParams Ref Ref Ref) (q : Pol.PublicParams Zr Zr Zr)
    (ls : Pol.LiabilitySet Ref Ref Ref) (f : Str → Option (List ℕ)),
    GlobalsAt toyCurve h gl ∧ PubAt h p q ∧ LsAt h ls (Pol.newLiabilitySet toyCurve 3 q (fun _ => []) f) ∧
      Pol.generatePublicParams toyCurve 2 3 .dense = some (f, q) ∧ q.PPPP.N = 5 := by
  obtain ⟨f, hf⟩ := (C30_supported_fanouts 3).2 ⟨2, by norm_num, by norm_num, by decide⟩
  obtain ⟨L, q, -, hq, hfit⟩ := C54_dense toyCurve 2 3 f hf (by decide)
  have h1 := wp_initGlobals (E := toyCurve) ⟨[], []⟩
  unfold Agrees at h1
  split at h1
  · simp_all
  · rename_i gl m₁ _ e1 _
    have h2 := Pol.agrees_generatePublicParams h1.2 2 3 .dense
    rw [hq] at h2
    unfold Agrees at h2
    split at h2
    · simp_all
    · rename_i a m₂ b e2 e3
      rw [Option.some.injEq] at e3
      subst e3
      have h3 := Pol.agrees_newLiabilitySet (h1.2.mono h2.1) 3 h2.2.2 (fun _ => []) f
      unfold Agrees at h3
      split at h3
      · simp_all
      · rename_i ls m₃ b e4 e5
        rw [Option.some.injEq] at e5
        subst e5
        exact ⟨m₃, gl, a.2, q, ls, f, (h1.2.mono h2.1).mono h3.1, h2.2.2.mono h3.1, h3.2, hq, by rw [hfit.PPPP]; rfl⟩
      · exact h3.elim
    · exact h2.elim
  · exact h1.elim

/-- A session with values: parameters for sparse trees of fan-out 255, a `Set` of 5, the proof of the total, the root, and the
verification, which accepts. -/
theorem hash80_session : ∃ s, Spec.session hash80Curve toyEnv 2 3 255 .sparse (fun _ => [])
    [.set ('8' :: List.replicate 63 '0') 5, .proveTot, .root, .verifyTotal 0 0] =
    some (s, [.nothing, .total 5, .isRoot true, .verdict true]) := by
  have hto : (255 : UInt16).toNat = 255 := rfl
  obtain ⟨f, hf⟩ := (C28_supported_fanouts hash80Curve 255).2 (by decide)
  obtain ⟨p, hp, -⟩ := C28_returns hash80Curve hash80Curve_lawful 255 f hf 32 rfl ('8' :: List.replicate 63 '0')
    ⟨by decide, by unfold IsHex; decide⟩ 0 (by
      show _ ≤ hexValue ('8' :: List.replicate 63 '0') ∧ hexValue ('8' :: List.replicate 63 '0') < _
      rw [hash80_value, hto]; norm_num)
  have htot : totalAmount (byPath f [('8' :: List.replicate 63 '0', 5)]) = 5 := by
    unfold byPath totalAmount
    rw [List.map_cons, hp]
    simp [latest, lastPut]
  obtain ⟨pp, ls, tp, V, W, ls', h1, h2, h3, h4, h5, h6⟩ := C44_sparse_end_to_end hash80Curve_lawful toyEnv_lawful 2 3 255 f hf
    (fun _ => []) [('8' :: List.replicate 63 '0', 5)] (by simp) (by
      intro e he
      rw [List.mem_singleton] at he
      subst he
      exact ⟨by rw [hp]; rfl, by norm_num⟩) (by rw [htot]; norm_num)
  have h2' : (Pol.newLiabilitySet hash80Curve 3 pp (fun _ => []) f).set hash80Curve toyEnv ('8' :: List.replicate 63 '0') 5 = some ls := by
    rw [← h2]
    unfold Pol.LiabilitySet.sets
    rw [List.foldlM_cons]
    cases Pol.LiabilitySet.set hash80Curve toyEnv (Pol.newLiabilitySet hash80Curve 3 pp (fun _ => []) f) ('8' :: List.replicate 63 '0') 5 <;> rfl
  refine ⟨⟨ls', pp, f, [(V, some W)], [tp], []⟩, ?_⟩
  unfold Spec.session
  refine obind_step h1 ?_
  dsimp only
  generalize Pol.newLiabilitySet hash80Curve 3 pp (fun _ => []) f = ls0 at *
  rw [htot] at h4
  simp only [Spec.apiCalls, Spec.apiCall, h2', h3, h5, List.nil_append, Option.toList, List.getElem?_cons_zero, Option.pure_def,
    Option.bind_eq_bind, Option.bind_some, h6, h4, Option.isSome_some]

/-- The same session with pointers, from the empty memory. -/
example : ∃ (p : Held Ref Ref Ref) (h' : Mem (Cell Zr Zr Zr)),
    Spec.Ptr.session hash80Curve toyEnv 2 3 255 .sparse (fun _ => [])
      [.set ('8' :: List.replicate 63 '0') 5, .proveTot, .root, .verifyTotal 0 0] ⟨[], []⟩ =
      some ((p, [.nothing, .total 5, .isRoot true, .verdict true]), h') := by
  obtain ⟨s, hs⟩ := hash80_session
  have := C92_session hash80Curve toyEnv ⟨[], []⟩ 2 3 255 .sparse (fun _ => [])
    [.set ('8' :: List.replicate 63 '0') 5, .proveTot, .root, .verifyTotal 0 0]
  rw [hs] at this
  unfold Agrees at this
  split at this
  · simp_all
  · rename_i a m b e1 e2
    rw [Option.some.injEq] at e2
    subst e2
    obtain ⟨a1, a2⟩ := a
    have e3 : a2 = _ := this.2.2
    rw [e3] at e1
    exact ⟨a1, m, e1⟩
  · exact this.elim

end PoL.Props

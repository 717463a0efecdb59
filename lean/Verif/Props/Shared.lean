import Verif.Proofs.Shared
import Verif.Props.Pol

/-! # C113: two liability sets over one database -/

namespace PoL.Props
open Spec Verkle Pol

variable {G1 G2 GT : Type} [AddCommGroup G1] [Module Zr G1] [AddCommGroup G2] [Module Zr G2]
  [AddCommGroup GT] [Module Zr GT] [DecidableEq G1] [DecidableEq GT]

/-- C113: `Set`s on two sets over one database never panic, in whatever order they are called. -/
theorem C113_sets_return {E : Curve G1 G2 GT} (hE : E.Lawful) {env : Env} (henv : env.Lawful) {α : Zr} {F L : ℕ}
    {x : Shared G1 G2 GT} (ha : NewSet E α F L x.a) (hb : NewSet E α F L x.b) (es : List (Bool × Str × ℤ))
    (hia : ValidIds x.a.tree.id2Path F L (callsThrough true es)) (hib : ValidIds x.b.tree.id2Path F L (callsThrough false es))
    (hpos : ∀ e ∈ es, 0 ≤ e.2.2) : ∃ x', x.sets E env es = some x' := by
  obtain ⟨x', h, -⟩ := shared_both hE henv ha hb es hia hib hpos
  exact ⟨x', h⟩

/-- C113 for `Get`: whatever is set through the other set, `Get` gives the amount last set through this one.  What is missing:
`ProveTot` and `ProveLiability`, see `C113_violated`. -/
theorem C113_get_own_partial {E : Curve G1 G2 GT} (hE : E.Lawful) {env : Env} (henv : env.Lawful) {α : Zr} {F L : ℕ}
    {x x' : Shared G1 G2 GT} (ha : NewSet E α F L x.a) (hb : NewSet E α F L x.b) (es : List (Bool × Str × ℤ))
    (hia : ValidIds x.a.tree.id2Path F L (callsThrough true es)) (hib : ValidIds x.b.tree.id2Path F L (callsThrough false es))
    (hpos : ∀ e ∈ es, 0 ≤ e.2.2) (hr : x.sets E env es = some x') (id : Str) :
    (∀ p, x.a.tree.id2Path id = some p → p.length = L →
      (∀ e ∈ callsThrough true es, x.a.tree.id2Path e.1 = x.a.tree.id2Path id → e.1 = id) →
      x'.setA.get E env id = some (lastPut (callsThrough true es) id)) ∧
    (∀ p, x.b.tree.id2Path id = some p → p.length = L →
      (∀ e ∈ callsThrough false es, x.b.tree.id2Path e.1 = x.b.tree.id2Path id → e.1 = id) →
      x'.setB.get E env id = some (lastPut (callsThrough false es) id)) := by
  obtain ⟨y, hy, hya, hyb⟩ := shared_both hE henv ha hb es hia hib hpos
  rw [hr, Option.some.injEq] at hy
  subst hy
  have key : ∀ {ls0 ls : LiabilitySet G1 G2 GT} (hist : List (Str × ℤ)), NewSet E α F L ls0 →
      ValidIds ls0.tree.id2Path F L hist → (∀ e ∈ hist, 0 ≤ e.2) → OwnSet E env α F L ls0 hist ls x'.s.db →
      ∀ p, ls0.tree.id2Path id = some p → p.length = L →
      (∀ e ∈ hist, ls0.tree.id2Path e.1 = ls0.tree.id2Path id → e.1 = id) →
      ({ ls with s := x'.s } : LiabilitySet G1 G2 GT).get E env id = some (lastPut hist id) := by
    intro ls0 ls hist hnew hids hn hown p hp hpL hinj
    obtain ⟨s, hs⟩ := hown.1.1
    have hget := C43_get_latest hE henv hnew hist hids ((sets_iff E env hist ls0 _).2 ⟨hn, _, _, hs, rfl⟩) id p hp hpL hinj
    unfold LiabilitySet.get at hget ⊢
    obtain ⟨r', h1, h2⟩ := obind_elim hget
    have hid : ls.tree.id2Path = ls0.tree.id2Path := by rw [puts_fields' hs]
    obtain ⟨r, h3, h4⟩ := hown.1.get (by rw [hid]; exact hp) hpL h1
    refine obind_step h3 ?_
    rw [h4]
    exact h2
  exact ⟨key _ ha hia (fun e he => hpos _ (mem_callsThrough he)) hya, key _ hb hib (fun e he => hpos _ (mem_callsThrough he)) hyb⟩

/-- C113, what holds of totals: a proof that `ProveTot` returns is accepted for the commitment that `Root` gives when it is called
for the first time, whatever was set through the two sets. -/
theorem C113_total_verifies_partial {E : Curve G1 G2 GT} (hE : E.Lawful) {env : Env} (henv : env.Lawful) {α : Zr} {F L : ℕ}
    {x x' : Shared G1 G2 GT} (ha : NewSet E α F L x.a) (hb : NewSet E α F L x.b) (es : List (Bool × Str × ℤ))
    (hia : ValidIds x.a.tree.id2Path F L (callsThrough true es)) (hib : ValidIds x.b.tree.id2Path F L (callsThrough false es))
    (hpos : ∀ e ∈ es, 0 ≤ e.2.2) (hr : x.sets E env es = some x') (hne : callsThrough true es ≠ []) :
    ∃ V W ls, x'.setA.root E = some (some (V, W), ls) ∧
      ∀ tp, x'.setA.proveTot E = some tp → tp.verify E x.a.pp V = some true := by
  have hL := ha.pp.depth
  obtain ⟨y, hy, hown, -⟩ := shared_both hE henv ha hb es hia hib hpos
  rw [hr, Option.some.injEq] at hy
  subst hy
  obtain ⟨⟨s, hs⟩, hroot⟩ := hown.1
  obtain ⟨v, _, hv, hd, -⟩ := root_data hE henv ha.tree (by omega) _ hne hia hs
  have hmem : x'.setA.memRoot = [] := by
    have : x'.setA.memRoot = x.a.memRoot := hown.2.2
    rw [this, ha.memRoot]
  have hxapp : x'.setA.pp = x.a.pp := hown.2.1
  obtain ⟨v', hv', hback⟩ : ∃ v, x'.a.tree.root = some v ∧ Backed E α F L [] v x'.s.db := by
    rcases hroot with h | h
    · rw [hv] at h; simp at h
    · exact h
  obtain ⟨m, rfl⟩ : ∃ m, L = m + 2 := ⟨L - 2, by omega⟩
  obtain ⟨bf, vals, digs, -, hload⟩ := hback.2.2.2.2 (by omega)
  have hr0 := load_fromBytes hload
  have hrt := root_eq (E := E) (ls := x'.setA) hv hd _ (by
    rw [if_neg (by rw [hmem]; simp)]
    exact hr0)
  refine ⟨_, _, _, hrt, fun tp htp => ?_⟩
  set r := innerVertex E α F bf vals digs with hrdef
  have hF := ha.tree.bound
  have hvec : r.valuesVec (F + 1) ++ [r.blindingFactor] = valVec F vals bf := by
    rw [valuesVec_eq, hrdef]
    unfold valVec innerVertex
    dsimp only
    rw [List.append_assoc]
    congr 1
    refine List.map_congr_left fun j hj => ?_
    rw [List.mem_range] at hj
    rw [mapBelow_ofNat _ (by omega), if_pos hj]
  have hl : (valVec F vals bf).length = F + 2 := by simp [valVec]
  obtain ⟨C, mi, π, c1, c2, -, c4⟩ := C01_opening_verifies E hE α (F + 2) (by omega) _ hl F (by omega)
  rw [PP.commit_eq E α (F + 2) _ hl (by omega), Option.some.injEq] at c1
  unfold LiabilitySet.proveTot at htp
  obtain ⟨r', h1, htp⟩ := obind_elim htp
  have : r' = r := by
    have e : x'.setA.s.db [] = x'.s.db (keyOf []) := rfl
    rw [e, hr0, Option.some.injEq] at h1
    exact h1.symm
  subst this
  have hN : x'.setA.pp.PPPP.N = F + 2 := by rw [hxapp, ha.pp.PPPP]; rfl
  have hopen : x'.setA.openSumFromVertex r = some (mi, π) := by
    unfold LiabilitySet.openSumFromVertex
    rw [hN, if_neg (by omega)]
    dsimp only
    have e1 : F + 2 - 1 = F + 1 := rfl
    rw [e1, hvec, hl, if_neg (by omega), hxapp, ha.pp.PPPP]
    exact c2
  obtain ⟨⟨sum, π'⟩, h2, htp⟩ := obind_elim htp
  rw [hopen, Option.some.injEq, Prod.mk.injEq] at h2
  obtain ⟨rfl, rfl⟩ := h2
  obtain ⟨n, h3, htp⟩ := obind_elim htp
  have htp := Option.some.inj htp
  subst htp
  have hmi : intToZr n = mi := zrInt_back h3
  unfold TotalProof.verify
  dsimp only
  rw [hmi, ha.pp.PPPP, ha.pp.fanout]
  have hV : r.V = C := by rw [← c1]; rfl
  rw [hV]
  exact c4

/-- C113 is violated: after any amounts were set through the first set, and then any others through the second one, `ProveTot` on
the first set proves the total of the second one, and `Root` on the first set gives a commitment for which this proof is
accepted. -/
theorem C113_violated {E : Curve G1 G2 GT} (hE : E.Lawful) {env : Env} (henv : env.Lawful) {α : Zr} {F L : ℕ}
    {x : Shared G1 G2 GT} (ha : NewSet E α F L x.a) (hb : NewSet E α F L x.b) (hpp : x.a.pp = x.b.pp)
    (hist hist' : List (Str × ℤ)) (hne : hist ≠ []) (hne' : hist' ≠ []) (hids : ValidIds x.a.tree.id2Path F L hist)
    (hids' : ValidIds x.b.tree.id2Path F L hist') (hn : ∀ e ∈ hist, 0 ≤ e.2) (hn' : ∀ e ∈ hist', 0 ≤ e.2)
    (htot : totalAmount (byPath x.b.tree.id2Path hist') < 2 ^ 63) :
    ∃ x' tp V W ls, x.sets E env ((hist.map fun e => (true, e)) ++ hist'.map fun e => (false, e)) = some x' ∧
      x'.setA.proveTot E = some tp ∧ tp.sum = totalAmount (byPath x.b.tree.id2Path hist') ∧
      x'.setA.root E = some (some (V, W), ls) ∧ tp.verify E x.a.pp V = some true := by
  have hL := ha.pp.depth
  have c1 : ∀ (w : Bool) (l : List (Str × ℤ)), callsThrough w (l.map fun e => (w, e)) = l := by
    intro w l
    unfold callsThrough
    rw [List.filter_eq_self.2 (by cases w <;> simp)]
    simp
  have c2 : ∀ (w : Bool) (l : List (Str × ℤ)), callsThrough w (l.map fun e => (!w, e)) = [] := by
    intro w l
    unfold callsThrough
    rw [List.filter_eq_nil_iff.2 (by cases w <;> simp)]
    rfl
  have c3 : ∀ (w : Bool) l l', callsThrough w (l ++ l') = callsThrough w l ++ callsThrough w l' := by
    intro w l l'
    unfold callsThrough
    rw [List.filter_append, List.map_append]
  have ca : callsThrough true ((hist.map fun e => (true, e)) ++ hist'.map fun e => (false, e)) = hist := by
    rw [c3, c1, show (fun e : Str × ℤ => (false, e)) = (fun e => (!true, e)) from rfl, c2, List.append_nil]
  have cb : callsThrough false ((hist.map fun e => (true, e)) ++ hist'.map fun e => (false, e)) = hist' := by
    rw [c3, c1, show (fun e : Str × ℤ => (true, e)) = (fun e => (!false, e)) from rfl, c2, List.nil_append]
  obtain ⟨x', hx', hown, -⟩ := shared_both hE henv ha hb ((hist.map fun e => (true, e)) ++ hist'.map fun e => (false, e))
    (by rw [ca]; exact hids) (by rw [cb]; exact hids') (by
      intro e he
      rcases List.mem_append.1 he with he | he <;> obtain ⟨c, hc, rfl⟩ := List.mem_map.1 he
      · exact hn c hc
      · exact hn' c hc)
  rw [ca] at hown
  have hsplit := hx'
  unfold Shared.sets at hsplit
  rw [List.foldlM_append] at hsplit
  obtain ⟨y, hy, hsecond⟩ := obind_elim hsplit
  have hyb : y.b = x.b := by
    clear hsecond hown hsplit hx' ca cb
    have key : ∀ l : List (Str × ℤ), ∀ y, x.sets E env (l.map fun e => (true, e)) = some y → y.b = x.b := by
      intro l
      induction l using List.reverseRecOn with
      | nil =>
        intro y h
        rw [show x = y from Option.some.inj h]
      | append_singleton l e ih =>
        intro y h
        rw [List.map_append, List.map_cons, List.map_nil, shared_concat] at h
        obtain ⟨z, hz, h⟩ := Option.bind_eq_some_iff.1 h
        unfold Shared.set at h
        rw [if_pos rfl] at h
        obtain ⟨ls, -, h4⟩ := obind_elim h
        rw [← Option.some.inj h4]
        exact ih z hz
    exact key hist y hy
  obtain ⟨hsets, -⟩ := shared_second E env y hist' x' hsecond
  have hnew : NewSet E α F L y.setB := by
    unfold Shared.setB
    rw [hyb]
    exact ⟨hb.tree, hb.pp, hb.memRoot⟩
  have htree : y.setB.tree = x.b.tree := by unfold Shared.setB; rw [hyb]
  have hypp : y.setB.pp = x.b.pp := by unfold Shared.setB; rw [hyb]
  obtain ⟨tp, r, t1, t2, t3, t4⟩ := C44_total_proof hE henv hnew hist' hne' (by rw [htree]; exact hids') hsets
    (by rw [htree]; exact htot)
  rw [htree] at t2
  rw [hypp] at t4
  obtain ⟨-, tb, sb, -, hpb⟩ := (sets_iff E env hist' y.setB x'.setB).1 hsets
  have hxpp : x'.setB.pp = x.b.pp := by rw [hpb]; exact hypp
  have hxapp : x'.setA.pp = x.a.pp := hown.2.1
  have htotA : x'.setA.proveTot E = some tp := by
    rw [← t1]
    have e1 : x'.setA.s = x'.setB.s := rfl
    unfold LiabilitySet.proveTot LiabilitySet.openSumFromVertex
    rw [e1, hxpp, hxapp, hpp]
  -- the root of the first set
  obtain ⟨⟨s, hs⟩, hroot⟩ := hown.1
  obtain ⟨v, _, hv, hd, -⟩ := root_data hE henv ha.tree (by omega) hist hne hids hs
  have hmem : x'.setA.memRoot = [] := by
    have : x'.setA.memRoot = x.a.memRoot := hown.2.2
    rw [this, ha.memRoot]
  have hrt := root_eq (E := E) (ls := x'.setA) hv hd r (by
    rw [if_neg (by rw [hmem]; simp)]
    exact t3)
  exact ⟨x', tp, r.V, r.W, _, hx', htotA, t2, hrt, by rw [hpp]; exact t4⟩

/-! ## The hypotheses can be met -/

/-- 42 in the first set, 7 in the second one: the first set proves 7. -/
example : ∃ (x x' : Shared Zr Zr Zr) (tp : TotalProof Zr) (V : Zr) (W : Option Zr) (ls : LiabilitySet Zr Zr Zr),
    x.sets toyCurve toyEnv ((toyHist.map fun e => (true, e)) ++ [(['0', '0', '0'], 7)].map fun e => (false, e)) = some x' ∧
    x'.setA.proveTot toyCurve = some tp ∧ totalAmount (byPath x.a.tree.id2Path toyHist) = 42 ∧ tp.sum = 7 ∧
    x'.setA.root toyCurve = some (some (V, W), ls) ∧ tp.verify toyCurve x.a.pp V = some true ∧
    x'.setA.get toyCurve toyEnv ['0', '0', '0'] = some none ∧ x'.setA.get toyCurve toyEnv ['0', '1', '2'] = some (some 30) := by
  obtain ⟨ls0, hnew, htree⟩ := toy_set
  have hv : ValidIds toyTree.id2Path 3 3 [(['0', '0', '0'], 7)] := by
    have h : ∀ e ∈ [((['0', '0', '0'], 7) : Str × ℤ)], (e.1.map fun ch => ch.toNat - 48).length = 3 ∧
      ∀ x ∈ e.1.map fun ch => ch.toNat - 48, x < 3 := by decide
    exact fun e he => ⟨_, toyTree_path e.1, h e he⟩
  have e7 : totalAmount (byPath toyTree.id2Path [(['0', '0', '0'], 7)]) = 7 := by decide
  have e42 : totalAmount (byPath toyTree.id2Path toyHist) = 42 := by decide
  have hx : ∃ x : Shared Zr Zr Zr, x.a = ls0 ∧ x.b = ls0 := ⟨⟨ls0, ls0, ls0.s⟩, rfl, rfl⟩
  obtain ⟨x, xa, xb⟩ := hx
  have hA : NewSet toyCurve 2 3 3 x.a := by rw [xa]; exact hnew
  have hB : NewSet toyCurve 2 3 3 x.b := by rw [xb]; exact hnew
  have tA : x.a.tree = toyTree := by rw [xa, htree]
  have tB : x.b.tree = toyTree := by rw [xb, htree]
  obtain ⟨x', tp, V, W, ls, h1, h2, h3, h4, h5⟩ := C113_violated toyCurve_lawful toyEnv_lawful hA hB (by rw [xa, xb]) toyHist
    [(['0', '0', '0'], 7)] (by decide) (by decide) (by rw [tA]; exact toyHist_valid) (by rw [tB]; exact hv) (by decide)
    (by decide) (by rw [tB, e7]; norm_num)
  have ca : callsThrough true ((toyHist.map fun e => (true, e)) ++ [(['0', '0', '0'], 7)].map fun e => (false, e)) = toyHist := by
    decide
  have cb : callsThrough false ((toyHist.map fun e => (true, e)) ++ [(['0', '0', '0'], 7)].map fun e => (false, e))
      = [(['0', '0', '0'], 7)] := by decide
  have hget := fun id => (C113_get_own_partial toyCurve_lawful toyEnv_lawful hA hB _ (by rw [ca, tA]; exact toyHist_valid)
    (by rw [cb, tB]; exact hv) (by decide) h1 id).1
  rw [ca, tA] at hget
  refine ⟨x, x', tp, V, W, ls, h1, h2, by rw [tA, e42], by rw [h3, tB, e7], h4, h5, ?_, ?_⟩
  · rw [hget _ _ (toyTree_path _) (by decide) (by decide)]
    decide
  · rw [hget _ _ (toyTree_path _) (by decide) (by decide)]
    decide

end PoL.Props

import Verif.Proofs.TreePrivacy
import Verif.Proofs.Crash
import Verif.Props.Pol

/-! # C76: writes do not renew the blinding, so proofs from before and after reveal the changes -/

set_option linter.unusedSectionVars false

namespace PoL.Pol
open Spec BP PP Verkle

variable {G1 G2 GT : Type} [AddCommGroup G1] [Module Zr G1] [AddCommGroup G2] [Module Zr G2]
  [AddCommGroup GT] [Module Zr GT] [DecidableEq G1] [DecidableEq GT]

/-- The commitments in a liability proof are those of the vertices found. -/
theorem prove_commitments {E : Curve G1 G2 GT} {env : Env} {ls : LiabilitySet G1 G2 GT} {rnd : ProveRand} {id : Str}
    {m : ℤ} {lp : LiabilityProof G1} (h : ls.proveLiability E env rnd id = some (some (m, lp))) :
    ∃ path n vs, ls.tree.id2Path id = some path ∧ ls.tree.get E env id ls.s.db = some (some (n, vs)) ∧
      ∀ i < path.length, lp.V[i]? = (vs[i]?).map Verkle.Vertex.V := by
  unfold LiabilitySet.proveLiability at h
  obtain ⟨path, hp, h⟩ := obind_elim h
  obtain ⟨r, hg, h⟩ := obind_elim h
  cases r with
  | none => simp at h
  | some r =>
    obtain ⟨n, vs⟩ := r
    dsimp only at h
    split_ifs at h with hlen
    obtain ⟨layers, hl, h⟩ := obind_elim h
    obtain ⟨last, hlast, h⟩ := obind_elim h
    obtain ⟨idx, hidx, h⟩ := obind_elim h
    obtain ⟨⟨l, π⟩, ho, h⟩ := obind_elim h
    obtain ⟨m', hm, h⟩ := obind_elim h
    obtain ⟨ts, -, h⟩ := obind_elim h
    obtain ⟨a1, -, h⟩ := obind_elim h
    obtain ⟨a2, -, h⟩ := obind_elim h
    obtain ⟨a3, -, h⟩ := obind_elim h
    obtain ⟨a4, -, h⟩ := obind_elim h
    obtain ⟨a5, -, h⟩ := obind_elim h
    obtain ⟨a6, -, h⟩ := obind_elim h
    obtain ⟨a7, -, h⟩ := obind_elim h
    rw [Option.pure_def, Option.some.injEq, Option.some.injEq, Prod.mk.injEq] at h
    refine ⟨path, n, vs, hp, hg, fun i hi => ?_⟩
    have hll : layers.length = path.length := by rw [mapM_length _ _ _ hl]; simp
    have hy := mapM_getElem _ _ _ hl i i (List.getElem?_range hi)
    rw [← h.2]
    dsimp only
    rw [List.getElem?_map]
    rw [List.getElem?_eq_getElem (by omega)] at hy ⊢
    unfold proveLayer at hy
    obtain ⟨v, e1, hy⟩ := obind_elim hy
    obtain ⟨rp, -, hy⟩ := obind_elim hy
    obtain ⟨pi, -, hy⟩ := obind_elim hy
    obtain ⟨o, -, hy⟩ := obind_elim hy
    rw [e1, ← Option.some.inj hy]
    rfl

end PoL.Pol

namespace PoL.Props
open Spec BP PP Verkle Pol

variable {G1 G2 GT : Type} [AddCommGroup G1] [Module Zr G1] [AddCommGroup G2] [Module Zr G2]
  [AddCommGroup GT] [Module Zr GT] [DecidableEq G1] [DecidableEq GT]

/-- The changes of the amounts below the children of `q`, and of their sum; no change of the blinding factor. -/
noncomputable def changes (F : ℕ) (old new : List (List ℕ × ℤ)) (q : List ℕ) : List Zr :=
  ((List.range F).map fun j => intToZr (amountBelow new (q ++ [j]) - amountBelow old (q ++ [j])))
    ++ [intToZr (amountBelow new q - amountBelow old q), 0]

/-- C76: let a client get a liability proof, then let further writes happen, then let the client get another proof.  In
each layer above that over the leaves, the second commitment is the first plus the commitment to the changes of the
amounts, with blinding factor zero.  So the client can test any guess at the changes of the others' amounts. -/
theorem C76_proofs_reveal_changes {E : Curve G1 G2 GT} (hE : E.Lawful) {env : Env} (henv : env.Lawful) {α : Zr} {F L : ℕ}
    {ls ls1 ls2 : LiabilitySet G1 G2 GT} (h : NewSet E α F L ls) (hist more : List (Str × ℤ))
    (hids : ValidIds ls.tree.id2Path F L (hist ++ more)) (h1 : ls.sets E env hist = some ls1)
    (h2 : ls1.sets E env more = some ls2) (id : Str) (p : List ℕ) (hp : ls.tree.id2Path id = some p)
    (hmem : id ∈ hist.map Prod.fst) (rnd1 rnd2 : ProveRand) (m1 m2 : ℤ) (lp1 lp2 : LiabilityProof G1)
    (hp1 : ls1.proveLiability E env rnd1 id = some (some (m1, lp1)))
    (hp2 : ls2.proveLiability E env rnd2 id = some (some (m2, lp2))) (i : ℕ) (hi : i + 1 < L) :
    ∃ V1 V2 D, lp1.V[i]? = some V1 ∧ lp2.V[i]? = some V2 ∧
      ls.pp.PPPP.commit (changes F (byPath ls.tree.id2Path hist) (byPath ls.tree.id2Path (hist ++ more)) (p.take i)) = some D ∧
      V2 = V1 + D := by
  have hL := h.pp.depth
  have hids1 : ValidIds ls.tree.id2Path F L hist := fun e he => hids e (by simp [he])
  have h3 : ls.sets E env (hist ++ more) = some ls2 := by rw [sets_append, h1]; exact h2
  obtain ⟨e, he, rfl⟩ := List.mem_map.1 hmem
  obtain ⟨p', hp', hpL, -⟩ := hids1 e he
  rw [hp, Option.some.injEq] at hp'
  subst hp'
  -- the commitment of the layer after a history
  have key : ∀ (hh : List (Str × ℤ)) (l : LiabilitySet G1 G2 GT) (rnd : ProveRand) (m : ℤ) (lp : LiabilityProof G1),
      e ∈ hh → ValidIds ls.tree.id2Path F L hh → ls.sets E env hh = some l →
      l.proveLiability E env rnd e.1 = some (some (m, lp)) → lp.V[i]? = some ((offset F L α (byPath ls.tree.id2Path hh) (p.take i)
        + env.rand (drawAt L ls.s.tick (byPath ls.tree.id2Path hh) (p.take i)) * α ^ (F + 2)) • E.genG1) := by
    intro hh l rnd m lp hm hv hs hpr
    obtain ⟨-, t, s, hputs, rfl⟩ := (sets_iff E env hh ls l).1 hs
    obtain ⟨t1, s1, hputs1, ht1, -⟩ := puts_good hE henv α F h.tree.bound.le ls.tree h.tree.pp h.tree.fanOut h.tree.root L
      (by omega) hh ls.s hv
    rw [hputs, Option.some.injEq, Prod.mk.injEq] at hputs1
    obtain ⟨rfl, rfl⟩ := hputs1
    have hmp : p ∈ (byPath ls.tree.id2Path hh).map Prod.fst :=
      List.mem_map.2 ⟨(p, e.2), List.mem_map.2 ⟨e, hm, by simp [hp]⟩, rfl⟩
    obtain ⟨path, n, vs, e1, e2, e3⟩ := prove_commitments hpr
    have e1' : ls.tree.id2Path e.1 = some path := by rw [ht1] at e1; exact e1
    rw [hp, Option.some.injEq] at e1'
    subst e1'
    obtain ⟨vs', hget, -, hvs⟩ := get_onPath hE henv h.tree (by omega) hh hv hputs e.1 p hp hpL hmp
    have e2' : t.get E env e.1 s.db = some (some (n, vs)) := e2
    rw [hget, Option.some.injEq, Option.some.injEq, Prod.mk.injEq] at e2'
    obtain ⟨-, rfl⟩ := e2'
    obtain ⟨x, hx, hfb, -⟩ := hvs i (by omega)
    obtain ⟨y, hy, hV, -⟩ := stored_public hE henv h.tree (by omega) hh hv hputs (p.take i)
      (by rw [List.length_take]; omega) ⟨_, List.mem_map.2 ⟨e, hm, rfl⟩, by simpa [hp] using List.take_prefix i p⟩
    obtain rfl : x = y := Option.some.inj (hfb.symm.trans (load_fromBytes hy))
    rw [e3 i (by omega), hx, Option.map_some, hV]
  have k1 := key hist ls1 rnd1 m1 lp1 he hids1 h1 hp1
  have k2 := key (hist ++ more) ls2 rnd2 m2 lp2 (by simp [he]) hids h3 hp2
  have hb : byPath ls.tree.id2Path (hist ++ more) = byPath ls.tree.id2Path hist ++ byPath ls.tree.id2Path more := by simp [byPath]
  have htou : touched (byPath ls.tree.id2Path hist) (p.take i) :=
    ⟨_, List.mem_map.2 ⟨e, he, rfl⟩, by simpa [hp] using List.take_prefix i p⟩
  have hdr : drawAt L ls.s.tick (byPath ls.tree.id2Path (hist ++ more)) (p.take i)
      = drawAt L ls.s.tick (byPath ls.tree.id2Path hist) (p.take i) := by
    unfold drawAt
    rw [hb, List.findIdx_append, if_pos (findIdx_touched.2 htou)]
  have hlen : ∀ o n q, (changes F o n q).length = F + 2 := by intro o n q; simp [changes]
  refine ⟨_, _, _, k1, k2, by rw [h.pp.PPPP]; exact commit_eq E α (F + 2) _ (hlen _ _ _) (by omega), ?_⟩
  rw [hdr, ← add_smul]
  congr 1
  have hoff : ∀ hh, offset F L α hh (p.take i) = expo α (((List.range F).map fun j => intToZr (amountBelow hh (p.take i ++ [j])))
      ++ [intToZr (amountBelow hh (p.take i)), 0]) := by
    intro hh
    unfold offset
    rw [if_neg (by rw [List.length_take]; omega), add_zero,
      show ∀ (l : List Zr) a, l ++ [a, 0] = (l ++ [a]) ++ [0] by intro l a; simp, expo_concat _ (_ ++ _)]
    ring
  rw [hoff, hoff]
  have hsub : expo α (changes F (byPath ls.tree.id2Path hist) (byPath ls.tree.id2Path (hist ++ more)) (p.take i))
      = expo α (((List.range F).map fun j => intToZr (amountBelow (byPath ls.tree.id2Path (hist ++ more)) (p.take i ++ [j])))
        ++ [intToZr (amountBelow (byPath ls.tree.id2Path (hist ++ more)) (p.take i)), 0])
      - expo α (((List.range F).map fun j => intToZr (amountBelow (byPath ls.tree.id2Path hist) (p.take i ++ [j])))
        ++ [intToZr (amountBelow (byPath ls.tree.id2Path hist) (p.take i)), 0]) := by
    unfold expo changes
    simp only [List.length_append, List.length_map, List.length_range, List.length_cons, List.length_nil]
    rw [← Finset.sum_sub_distrib]
    refine Finset.sum_congr rfl fun j hj => ?_
    rw [Finset.mem_range] at hj
    rw [← sub_mul]
    congr 1
    simp only [List.getD_eq_getElem?_getD]
    by_cases hjF : j < F
    · rw [List.getElem?_append_left (by simpa using hjF), List.getElem?_append_left (by simpa using hjF),
        List.getElem?_append_left (by simpa using hjF), List.getElem?_map, List.getElem?_map, List.getElem?_map,
        List.getElem?_range hjF]
      simp [intToZr]
    · rw [List.getElem?_append_right (by simp; omega), List.getElem?_append_right (by simp; omega),
        List.getElem?_append_right (by simp; omega)]
      simp only [List.length_map, List.length_range]
      obtain h0 | h0 : j - F = 0 ∨ j - F = 1 := by omega
      · rw [h0]; simp [intToZr]
      · rw [h0]; simp
  rw [hsub]
  ring

/-- C76, for a single write: the pair of proofs determines the change.  Suppose that in two runs a client gets a proof,
then one amount is written under an identifier that has been written before, at `q`, then the client gets another proof.
If the commitments of the top layer agree between the runs both times, then the amount has changed by the same in both. -/
theorem C76_change_determined {E : Curve G1 G2 GT} (hE : E.Lawful) (hg : E.genG1 ≠ 0) {α : Zr} {F L : ℕ} (q : List ℕ) (a : ℕ)
    (hα : α ^ (a + 1) + α ^ (F + 1) ≠ 0) (id other : Str) (p : List ℕ)
    {env env' : Env} (henv : env.Lawful) (henv' : env'.Lawful)
    {ls ls1 ls2 ls' ls1' ls2' : LiabilitySet G1 G2 GT} (h : NewSet E α F L ls) (h' : NewSet E α F L ls')
    (hp : ls.tree.id2Path id = some p) (hp' : ls'.tree.id2Path id = some p)
    (hq : ls.tree.id2Path other = some (a :: q)) (hq' : ls'.tree.id2Path other = some (a :: q)) (hist hist' : List (Str × ℤ))
    (b b' : ℤ) (hids : ValidIds ls.tree.id2Path F L (hist ++ [(other, b)]))
    (hids' : ValidIds ls'.tree.id2Path F L (hist' ++ [(other, b')]))
    (hsmall : ∀ e ∈ hist ++ [(other, b)], 0 ≤ e.2 ∧ e.2 < 2 ^ 63) (hsmall' : ∀ e ∈ hist' ++ [(other, b')], 0 ≤ e.2 ∧ e.2 < 2 ^ 63)
    (h1 : ls.sets E env hist = some ls1) (h2 : ls1.sets E env [(other, b)] = some ls2)
    (h1' : ls'.sets E env' hist' = some ls1') (h2' : ls1'.sets E env' [(other, b')] = some ls2')
    (hmem : id ∈ hist.map Prod.fst) (hmem' : id ∈ hist'.map Prod.fst)
    (rnd1 rnd2 rnd1' rnd2' : ProveRand) (m1 m2 m1' m2' : ℤ) (lp1 lp2 lp1' lp2' : LiabilityProof G1)
    (hp1 : ls1.proveLiability E env rnd1 id = some (some (m1, lp1)))
    (hp2 : ls2.proveLiability E env rnd2 id = some (some (m2, lp2)))
    (hp1' : ls1'.proveLiability E env' rnd1' id = some (some (m1', lp1')))
    (hp2' : ls2'.proveLiability E env' rnd2' id = some (some (m2', lp2')))
    (heq1 : lp1.V[0]? = lp1'.V[0]?) (heq2 : lp2.V[0]? = lp2'.V[0]?) :
    b - latest (byPath ls.tree.id2Path hist) (a :: q) = b' - latest (byPath ls'.tree.id2Path hist') (a :: q) := by
  have hL := h.pp.depth
  have key : ∀ (ls0 : LiabilitySet G1 G2 GT) (hh : List (Str × ℤ)) (c : ℤ) (D : G1), Fits E α F L ls0.pp →
      ValidIds ls0.tree.id2Path F L (hh ++ [(other, c)]) →
      ls0.tree.id2Path other = some (a :: q) →
      ls0.pp.PPPP.commit (changes F (byPath ls0.tree.id2Path hh) (byPath ls0.tree.id2Path (hh ++ [(other, c)])) (p.take 0)) = some D →
      D = (intToZr (c - latest (byPath ls0.tree.id2Path hh) (a :: q)) * (α ^ (a + 1) + α ^ (F + 1))) • E.genG1 := by
    intro ls0 hh c D hf hv ho hc
    have haF : a < F := by
      obtain ⟨p1, hp1, -, hlt⟩ := hv (other, c) (by simp)
      rw [ho, Option.some.injEq] at hp1
      subst hp1
      exact hlt a (by simp)
    have hlen : ∀ o n q, (changes F o n q).length = F + 2 := by intro o n q; simp [changes]
    rw [hf.PPPP, commit_eq E α (F + 2) _ (hlen _ _ _) (by omega), Option.some.injEq] at hc
    rw [← hc]
    congr 1
    have hb : byPath ls0.tree.id2Path (hh ++ [(other, c)]) = byPath ls0.tree.id2Path hh ++ [(a :: q, c)] := by simp [byPath, ho]
    set d := intToZr (c - latest (byPath ls0.tree.id2Path hh) (a :: q)) with hd
    have hch : changes F (byPath ls0.tree.id2Path hh) (byPath ls0.tree.id2Path (hh ++ [(other, c)])) (p.take 0)
        = (((List.range F).map fun j => if j = a then d else 0) ++ [d]) ++ [0] := by
      unfold changes
      rw [hb, List.append_assoc]
      congr 1
      · apply List.map_congr_left
        intro j _
        rw [amountBelow_concat]
        by_cases hj : j = a
        · subst hj; simp [hd]
        · have : ¬ ([j] <+: a :: q) := by
            rw [List.cons_prefix_cons]
            exact fun hc => hj hc.1
          simp [this, hj, intToZr]
      · rw [amountBelow_concat]
        simp [hd]
    rw [hch, expo_concat, expo_concat, zero_mul, add_zero]
    have : expo α ((List.range F).map fun j => if j = a then d else 0) = d * α ^ (a + 1) := by
      unfold expo
      rw [List.length_map, List.length_range, Finset.sum_eq_single a]
      · rw [List.getD_eq_getElem?_getD, List.getElem?_map, List.getElem?_range haF]
        simp
      · intro j hj hja
        rw [Finset.mem_range] at hj
        rw [List.getD_eq_getElem?_getD, List.getElem?_map, List.getElem?_range hj]
        simp [hja]
      · intro hc
        exact absurd (Finset.mem_range.2 haF) hc
    rw [this]
    simp
    ring
  obtain ⟨V1, V2, D, a1, a2, a3, a4⟩ := C76_proofs_reveal_changes hE henv h hist [(other, b)] hids h1 h2 id p hp hmem rnd1 rnd2
    m1 m2 lp1 lp2 hp1 hp2 0 (by omega)
  obtain ⟨V1', V2', D', b1, b2, b3, b4⟩ := C76_proofs_reveal_changes hE henv' h' hist' [(other, b')] hids' h1' h2' id p hp' hmem'
    rnd1' rnd2' m1' m2' lp1' lp2' hp1' hp2' 0 (by omega)
  rw [a1, b1, Option.some.injEq] at heq1
  rw [a2, b2, Option.some.injEq] at heq2
  have hDD : D = D' := by
    rw [a4, b4, heq1] at heq2
    exact add_left_cancel heq2
  rw [key ls hist b D h.pp hids hq a3, key ls' hist' b' D' h'.pp hids' hq' b3] at hDD
  have hz := sub_eq_zero.2 hDD
  rw [← sub_smul, ← sub_mul] at hz
  have hz1 := (smul_eq_zero.1 hz).resolve_right hg
  have hz2 := (mul_eq_zero.1 hz1).resolve_right hα
  have hz3 := sub_eq_zero.1 hz2
  have bound : ∀ (f : Str → Option (List ℕ)) (hh : List (Str × ℤ)) (c : ℤ), (∀ e ∈ hh ++ [(other, c)], 0 ≤ e.2 ∧ e.2 < 2 ^ 63) →
      0 ≤ c ∧ c < 2 ^ 63 ∧ 0 ≤ latest (byPath f hh) (a :: q) ∧ latest (byPath f hh) (a :: q) < 2 ^ 63 := by
    intro f hh c hs
    refine ⟨(hs (other, c) (by simp)).1, (hs (other, c) (by simp)).2, latest_nonneg ?_ _, ?_⟩
    · intro e he
      obtain ⟨e', he', rfl⟩ := List.mem_map.1 he
      exact (hs e' (by simp [he'])).1
    · unfold latest lastPut
      cases hf : (byPath f hh).reverse.find? fun e => decide (e.1 = a :: q) with
      | none => simp
      | some e =>
        have hm := List.mem_of_find?_eq_some hf
        rw [List.mem_reverse] at hm
        obtain ⟨e', he', rfl⟩ := List.mem_map.1 hm
        simpa using (hs e' (by simp [he'])).2
  have B := bound ls.tree.id2Path hist b hsmall
  have B' := bound ls'.tree.id2Path hist' b' hsmall'
  unfold intToZr at hz3
  rw [ZMod.intCast_eq_intCast_iff_dvd_sub] at hz3
  obtain ⟨k, hk⟩ := hz3
  have ho : (2 : ℤ) ^ 65 < (order : ℤ) := by unfold order; norm_num
  have hk0 : k = 0 := by
    by_contra hne
    rcases lt_or_gt_of_ne hne with hneg | hpos
    · nlinarith
    · nlinarith
  rw [hk0, mul_zero] at hk
  omega

/-! ## The hypotheses can be met -/

/-- The client `221` gets a proof, `012` goes from 10 to 30, the client gets another proof: the top commitments differ by
`20·(2 + 16)`. -/
example : ∃ (ls ls1 ls2 : LiabilitySet Zr Zr Zr) (m1 m2 : ℤ) (lp1 lp2 : LiabilityProof Zr) (V1 V2 : Zr),
    ls.sets toyCurve toyEnv [(['0', '1', '2'], 10), (['2', '2', '1'], 7)] = some ls1 ∧
    ls1.proveLiability toyCurve toyEnv toyRand ['2', '2', '1'] = some (some (m1, lp1)) ∧
    ls1.sets toyCurve toyEnv [(['0', '1', '2'], 30)] = some ls2 ∧
    ls2.proveLiability toyCurve toyEnv toyRand ['2', '2', '1'] = some (some (m2, lp2)) ∧
    lp1.V[0]? = some V1 ∧ lp2.V[0]? = some V2 ∧ V2 = V1 + 360 := by
  obtain ⟨ls, h, ht⟩ := toy_set
  have hids : ValidIds ls.tree.id2Path 3 3 ([(['0', '1', '2'], 10), (['2', '2', '1'], 7)] ++ [(['0', '1', '2'], 30)]) := by
    have hv : ∀ e ∈ ([(['0', '1', '2'], 10), (['2', '2', '1'], 7)] ++ [(['0', '1', '2'], 30)] : List (Str × ℤ)),
        (e.1.map fun ch => ch.toNat - 48).length = 3 ∧ ∀ x ∈ e.1.map fun ch => ch.toNat - 48, x < 3 := by decide
    intro e he
    rw [ht]
    exact ⟨_, toyTree_path e.1, hv e he⟩
  have hids1 : ValidIds ls.tree.id2Path 3 3 [(['0', '1', '2'], 10), (['2', '2', '1'], 7)] := fun e he => hids e (by
    rw [List.mem_append]; exact .inl he)
  obtain ⟨ls2, hs⟩ := C43_sets_return toyCurve_lawful toyEnv_lawful h _ hids (by decide)
  have hs' := hs
  rw [sets_append] at hs'
  obtain ⟨ls1, hs1, hs2⟩ := Option.bind_eq_some_iff.1 hs'
  have hpath : ls.tree.id2Path ['2', '2', '1'] = some [2, 2, 1] := by rw [ht]; rfl
  obtain ⟨lp1, -, -, h1, -⟩ := C47_liability_proof_verifies_partial toyCurve_lawful toyEnv_lawful h _ hids1 hs1
    (by rw [ht]; decide) ['2', '2', '1'] [2, 2, 1] hpath (by rw [ht]; decide) (by rw [ht]; decide) toyRand
    toyRand_sized (toy_challenges _ _ _)
  obtain ⟨lp2, -, -, h2, -⟩ := C47_liability_proof_verifies_partial toyCurve_lawful toyEnv_lawful h _ hids hs
    (by rw [ht]; decide) ['2', '2', '1'] [2, 2, 1] hpath (by rw [ht]; decide) (by rw [ht]; decide) toyRand
    toyRand_sized (toy_challenges _ _ _)
  obtain ⟨V1, V2, D, a1, a2, a3, a4⟩ := C76_proofs_reveal_changes toyCurve_lawful toyEnv_lawful h _ _ hids hs1 hs2
    ['2', '2', '1'] [2, 2, 1] hpath (by decide) toyRand toyRand _ _ lp1 lp2 h1 h2 0 (by norm_num)
  refine ⟨ls, ls1, ls2, _, _, lp1, lp2, V1, V2, hs1, h1, hs2, h2, a1, a2, ?_⟩
  have hch : changes 3 (byPath ls.tree.id2Path [(['0', '1', '2'], 10), (['2', '2', '1'], 7)])
      (byPath ls.tree.id2Path ([(['0', '1', '2'], 10), (['2', '2', '1'], 7)] ++ [(['0', '1', '2'], 30)])) ([2, 2, 1].take 0)
      = ([20, 0, 0, 20, 0] : List ℤ).map intToZr := by
    rw [ht]
    unfold changes
    have e0 : ∀ j < 3, amountBelow (byPath toyTree.id2Path ([(['0', '1', '2'], 10), (['2', '2', '1'], 7)]
        ++ [(['0', '1', '2'], 30)])) ([2, 2, 1].take 0 ++ [j]) - amountBelow (byPath toyTree.id2Path [(['0', '1', '2'], 10),
          (['2', '2', '1'], 7)]) ([2, 2, 1].take 0 ++ [j]) = [20, 0, 0].getD j 0 := by decide
    have e1 : amountBelow (byPath toyTree.id2Path ([(['0', '1', '2'], 10), (['2', '2', '1'], 7)]
        ++ [(['0', '1', '2'], 30)])) ([2, 2, 1].take 0) - amountBelow (byPath toyTree.id2Path [(['0', '1', '2'], 10),
          (['2', '2', '1'], 7)]) ([2, 2, 1].take 0) = 20 := by decide
    rw [e1, List.map_congr_left (g := fun j => intToZr ([20, 0, 0].getD j 0)) fun j hj => by
      rw [e0 j (List.mem_range.1 hj)]]
    simp [List.range_succ, intToZr]
  rw [hch, h.pp.PPPP, commit_eq toyCurve 2 5 _ rfl (by norm_num), Option.some.injEq] at a3
  rw [a4, ← a3]
  congr 1
  simp [expo, toyCurve, intToZr, Finset.sum_range_succ]
  norm_num

end PoL.Props

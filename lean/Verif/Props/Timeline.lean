import Verif.Proofs.Timeline
import Verif.Props.ViewPrivacy
import Verif.Props.Returns

/-! # C106: publishing again after further writes -/

set_option linter.unusedSectionVars false

namespace PoL.Props
open Spec BP PP Verkle Pol

variable {G1 G2 GT : Type} [AddCommGroup G1] [Module Zr G1] [AddCommGroup G2] [Module Zr G2]
  [AddCommGroup GT] [Module Zr GT] [DecidableEq G1] [DecidableEq GT]

/-- C106: a liability set publishes after each of the batches `0, …, n` of writes: the root, possibly the proof of the total, and
answers to requests.  Take two sequences of batches that write the same identifiers and that agree on all that is written to those
lowest inner vertices that are written to after batch 0; elsewhere batch 0 may write any amounts.  All that is published over the whole
time comes from equally many choices of the random values for both.  `hw` and `ho` are as in C75. -/
theorem C106_untouched_parts_stay_hidden {E : Curve G1 G2 GT} (hE : E.Lawful) {env env' : Env} (henv : env.Lawful)
    (henv' : env'.Lawful) {α : Zr} (hα : α ≠ 0) (hg : E.genG1 ≠ 0) (hcyc : PrimeOrder G1) {F L : ℕ}
    {ls : LiabilitySet G1 G2 GT} (h : NewSet E α F L ls) (hH : ls.pp.RPPP.H ≠ 0) (hPF : ls.pp.POEPP.F ≠ 0) {n k : ℕ}
    (batch batch' : ℕ → List (Str × ℤ)) (hsame : SameWhereRewritten ls.tree.id2Path (n + 1) batch batch') (hne : batch 0 ≠ [])
    (hids : ∀ t, ValidIds ls.tree.id2Path F L (batch t))
    (hn : ∀ t, ∀ e ∈ batch t, 0 ≤ e.2) (hn' : ∀ t, ∀ e ∈ batch' t, 0 ≤ e.2)
    (htot : ∀ t ≤ n, totalAmount (byPath ls.tree.id2Path (upTo batch t)) < 2 ^ 63)
    (htot' : ∀ t ≤ n, totalAmount (byPath ls.tree.id2Path (upTo batch' t)) < 2 ^ 63)
    (ids : Fin (n + 1) → Fin k → Str) (withTotal : Bool)
    (hT : withTotal = true → totalAmount (byPath ls.tree.id2Path (batch 0)) = totalAmount (byPath ls.tree.id2Path (batch' 0)))
    (hmem : ∀ (t : Fin (n + 1)) i, ids t i ∈ (upTo batch t).map Prod.fst)
    (hlat : ∀ (t : Fin (n + 1)) i p, ls.tree.id2Path (ids t i) = some p →
      latest (byPath ls.tree.id2Path (upTo batch t)) p = latest (byPath ls.tree.id2Path (upTo batch' t)) p)
    (hw : ∀ (t : Fin (n + 1)) i p, ls.tree.id2Path (ids t i) = some p →
      writesBelow (byPath ls.tree.id2Path (upTo batch t)) p.dropLast = 1)
    (o : Fin (n + 1) → View G1 k)
    (ho : ∀ t i p, ls.tree.id2Path (ids t i) = some p →
      ∃ m lp, (o t).proofs i = some (some (m, lp)) ∧ MasksNonzero E ls.pp p lp) :
    EquallyLikely (fun r : (ℕ → Zr) × (Fin (n + 1) → Fin k → ProveRand) =>
        Blinding ls.s.tick (L * (upTo batch n).length) r.1 ∧ ∀ t i, Drawn F L (r.2 t i))
      (observeOver E env ls batch ids withTotal) (observeOver E env' ls batch' ids withTotal) (fun t => some (o t)) :=
  over_likely hE henv henv' hα hg hcyc h (fun _ => hH) (fun _ => hPF) batch batch' hsame hne hids hn hn' htot htot' ids withTotal hT
    hmem hlat hw o ho

/-- C106 without requests: the roots and proofs of totals over time tell nothing about the amounts of batch 0 at lowest inner vertices
that are not written to again, except for their total. -/
theorem C106_totals_over_time {E : Curve G1 G2 GT} (hE : E.Lawful) {env env' : Env} (henv : env.Lawful)
    (henv' : env'.Lawful) {α : Zr} (hα : α ≠ 0) (hg : E.genG1 ≠ 0) (hcyc : PrimeOrder G1) {F L : ℕ}
    {ls : LiabilitySet G1 G2 GT} (h : NewSet E α F L ls) {n : ℕ}
    (batch batch' : ℕ → List (Str × ℤ)) (hsame : SameWhereRewritten ls.tree.id2Path (n + 1) batch batch') (hne : batch 0 ≠ [])
    (hids : ∀ t, ValidIds ls.tree.id2Path F L (batch t))
    (hn : ∀ t, ∀ e ∈ batch t, 0 ≤ e.2) (hn' : ∀ t, ∀ e ∈ batch' t, 0 ≤ e.2)
    (htot : ∀ t ≤ n, totalAmount (byPath ls.tree.id2Path (upTo batch t)) < 2 ^ 63)
    (htot' : ∀ t ≤ n, totalAmount (byPath ls.tree.id2Path (upTo batch' t)) < 2 ^ 63)
    (hT : totalAmount (byPath ls.tree.id2Path (batch 0)) = totalAmount (byPath ls.tree.id2Path (batch' 0)))
    (o : Fin (n + 1) → View G1 0) :
    EquallyLikely (fun r : (ℕ → Zr) × (Fin (n + 1) → Fin 0 → ProveRand) =>
        Blinding ls.s.tick (L * (upTo batch n).length) r.1 ∧ ∀ t i, Drawn F L (r.2 t i))
      (observeOver E env ls batch (fun _ => Fin.elim0) true) (observeOver E env' ls batch' (fun _ => Fin.elim0) true)
      (fun t => some (o t)) :=
  over_likely hE henv henv' hα hg hcyc h (fun i => i.elim0) (fun i => i.elim0) batch batch' hsame hne hids hn hn' htot htot' _ true
    (fun _ => hT) (fun _ i => i.elim0) (fun _ i => i.elim0) (fun _ i => i.elim0) o (fun _ i => i.elim0)

/-- Why C106 leaves out the lowest inner vertices that are written to again: a client with path `p` gets a proof, an amount `b` is written
to a neighbour in the same lowest inner vertex, the client gets another proof.  The last commitment changes not only by the change of
the neighbour's amount: the sum of all amounts of the vertex is added as well, at the place whose index is the number of clients
there (the deviation of C40). -/
theorem C106_neighbours_see_the_sum {E : Curve G1 G2 GT} (hE : E.Lawful) {env : Env} (henv : env.Lawful) {α : Zr} {F L : ℕ}
    {ls ls1 ls2 : LiabilitySet G1 G2 GT} (h : NewSet E α F L ls) (hist : List (Str × ℤ)) (other : Str) (b : ℤ)
    (hids : ValidIds ls.tree.id2Path F L (hist ++ [(other, b)])) (h1 : ls.sets E env hist = some ls1)
    (h2 : ls1.sets E env [(other, b)] = some ls2) (id : Str) (p : List ℕ) (a : ℕ) (hp : ls.tree.id2Path id = some p)
    (ho : ls.tree.id2Path other = some (p.dropLast ++ [a])) (hmem : id ∈ hist.map Prod.fst) (rnd1 rnd2 : ProveRand) (m1 m2 : ℤ)
    (lp1 lp2 : LiabilityProof G1) (hp1 : ls1.proveLiability E env rnd1 id = some (some (m1, lp1)))
    (hp2 : ls2.proveLiability E env rnd2 id = some (some (m2, lp2)))
    (old new : List (List ℕ × ℤ)) (hold : old = byPath ls.tree.id2Path hist)
    (hnew : new = byPath ls.tree.id2Path (hist ++ [(other, b)])) :
    ∃ V1 V2, lp1.V[L - 1]? = some V1 ∧ lp2.V[L - 1]? = some V2 ∧
      V2 = V1 + (intToZr (b - latest old (p.dropLast ++ [a])) * α ^ (a + 1)
        + intToZr (amountBelow new p.dropLast - latest old (p.dropLast ++ [pathsBelow new p.dropLast]))
          * α ^ (pathsBelow new p.dropLast + 1)) • E.genG1 := by
  have hL := h.pp.depth
  have hids1 : ValidIds ls.tree.id2Path F L hist := fun e he => hids e (by simp [he])
  have h3 : ls.sets E env (hist ++ [(other, b)]) = some ls2 := by rw [sets_append, h1]; exact h2
  obtain ⟨e, he, rfl⟩ := List.mem_map.1 hmem
  obtain ⟨p', hp', hpL, -⟩ := hids1 e he
  rw [hp, Option.some.injEq] at hp'
  subst hp'
  have haF : a < F := by
    obtain ⟨p1, hp1, -, hlt⟩ := hids (other, b) (by simp)
    rw [ho, Option.some.injEq] at hp1
    subst hp1
    exact hlt a (by simp)
  have k1 := proof_commitment hE henv h hist hids1 h1 e.1 p hp hmem rnd1 m1 lp1 hp1 (L - 1) (by omega)
  have k2 := proof_commitment hE henv h _ hids h3 e.1 p hp (by simpa using .inl ⟨e.2, he⟩) rnd2 m2 lp2 hp2 (L - 1) (by omega)
  refine ⟨_, _, k1, k2, ?_⟩
  rw [show p.take (L - 1) = p.dropLast by rw [List.dropLast_eq_take, hpL], ← hold, ← hnew]
  have hb : new = old ++ [(p.dropLast ++ [a], b)] := by rw [hnew, hold]; simp [byPath, ho]
  have htou : touched old p.dropLast := by
    rw [hold]
    exact ⟨_, List.mem_map.2 ⟨e, he, rfl⟩, by simpa [hp] using List.dropLast_prefix p⟩
  have hdr : drawAt L ls.s.tick new p.dropLast = drawAt L ls.s.tick old p.dropLast := by
    unfold drawAt
    rw [hb, List.findIdx_append, if_pos (findIdx_touched.2 htou)]
  have := offset_step (L := L) α (show p.dropLast.length + 1 = L by rw [List.length_dropLast]; omega) htou haF b
  rw [← hb] at this
  rw [this, hdr, ← add_smul]
  congr 1
  ring

/-- For a write that changes nothing, and fewer clients in the vertex than its fan-out with the place after them free: two runs in which
the client sees the same commitments before and after have the same sum in the client's lowest inner vertex. -/
theorem C106_rewriting_reveals_sum {E : Curve G1 G2 GT} (hE : E.Lawful) (hg : E.genG1 ≠ 0) {α : Zr} (hα : α ≠ 0) {F L : ℕ}
    (id other : Str) (p : List ℕ) (a : ℕ) {env env' : Env} (henv : env.Lawful) (henv' : env'.Lawful)
    {ls ls1 ls2 ls' ls1' ls2' : LiabilitySet G1 G2 GT} (h : NewSet E α F L ls) (h' : NewSet E α F L ls')
    (hp : ls.tree.id2Path id = some p) (hpath : ls'.tree.id2Path = ls.tree.id2Path)
    (ho : ls.tree.id2Path other = some (p.dropLast ++ [a])) (hist hist' : List (Str × ℤ))
    (hsame : hist.map Prod.fst = hist'.map Prod.fst) (b b' : ℤ) (hids : ValidIds ls.tree.id2Path F L (hist ++ [(other, b)]))
    (hids' : ValidIds ls.tree.id2Path F L (hist' ++ [(other, b')]))
    (hn : ∀ e ∈ hist ++ [(other, b)], 0 ≤ e.2) (hn' : ∀ e ∈ hist' ++ [(other, b')], 0 ≤ e.2)
    (htot : totalAmount (byPath ls.tree.id2Path (hist ++ [(other, b)])) < 2 ^ 63)
    (htot' : totalAmount (byPath ls.tree.id2Path (hist' ++ [(other, b')])) < 2 ^ 63)
    (hb : latest (byPath ls.tree.id2Path hist) (p.dropLast ++ [a]) = b)
    (hb' : latest (byPath ls.tree.id2Path hist') (p.dropLast ++ [a]) = b')
    (hfree : p.dropLast ++ [pathsBelow (byPath ls.tree.id2Path (hist ++ [(other, b)])) p.dropLast]
      ∉ (byPath ls.tree.id2Path hist).map Prod.fst)
    (h1 : ls.sets E env hist = some ls1) (h2 : ls1.sets E env [(other, b)] = some ls2)
    (h1' : ls'.sets E env' hist' = some ls1') (h2' : ls1'.sets E env' [(other, b')] = some ls2')
    (hmem : id ∈ hist.map Prod.fst) (rnd1 rnd2 rnd1' rnd2' : ProveRand) (m1 m2 m1' m2' : ℤ) (lp1 lp2 lp1' lp2' : LiabilityProof G1)
    (hp1 : ls1.proveLiability E env rnd1 id = some (some (m1, lp1)))
    (hp2 : ls2.proveLiability E env rnd2 id = some (some (m2, lp2)))
    (hp1' : ls1'.proveLiability E env' rnd1' id = some (some (m1', lp1')))
    (hp2' : ls2'.proveLiability E env' rnd2' id = some (some (m2', lp2')))
    (heq1 : lp1.V[L - 1]? = lp1'.V[L - 1]?) (heq2 : lp2.V[L - 1]? = lp2'.V[L - 1]?) :
    amountBelow (byPath ls.tree.id2Path (hist ++ [(other, b)])) p.dropLast
      = amountBelow (byPath ls.tree.id2Path (hist' ++ [(other, b')])) p.dropLast := by
  obtain ⟨V1, V2, a1, a2, a3⟩ := C106_neighbours_see_the_sum hE henv h hist other b hids h1 h2 id p a hp ho hmem rnd1 rnd2 m1 m2 lp1 lp2
    hp1 hp2 _ _ rfl rfl
  obtain ⟨V1', V2', b1, b2, b3⟩ := C106_neighbours_see_the_sum hE henv' h' hist' other b' (hpath ▸ hids') h1' h2' id p a
    (hpath ▸ hp) (hpath ▸ ho) (hsame ▸ hmem) rnd1' rnd2' m1' m2' lp1' lp2' hp1' hp2' _ _ rfl rfl
  rw [hpath] at b3
  have hfst : (byPath ls.tree.id2Path hist).map Prod.fst = (byPath ls.tree.id2Path hist').map Prod.fst := by
    rw [byPath_fst, byPath_fst, hsame]
  have hfst2 : (byPath ls.tree.id2Path (hist ++ [(other, b)])).map Prod.fst
      = (byPath ls.tree.id2Path (hist' ++ [(other, b')])).map Prod.fst := by
    simp only [byPath_fst, List.map_append, hsame, List.map_cons, List.map_nil]
  have hpb : pathsBelow (byPath ls.tree.id2Path (hist' ++ [(other, b')])) p.dropLast
      = pathsBelow (byPath ls.tree.id2Path (hist ++ [(other, b)])) p.dropLast := by
    unfold pathsBelow
    rw [hfst2]
  rw [hb, sub_self, latest_absent hfree] at a3
  rw [hb', sub_self, hpb, latest_absent (hfst ▸ hfree)] at b3
  rw [a1, b1, Option.some.injEq] at heq1
  rw [a2, b2, Option.some.injEq] at heq2
  rw [a3, b3, heq1, add_right_inj] at heq2
  have hz := sub_eq_zero.2 heq2
  rw [← sub_smul] at hz
  have hz1 := (smul_eq_zero.1 hz).resolve_right hg
  have e0 : intToZr 0 = 0 := by simp [intToZr]
  rw [e0, zero_mul, zero_add, zero_add, ← sub_mul, sub_zero, sub_zero] at hz1
  have hz2 := sub_eq_zero.1 ((mul_eq_zero.1 hz1).resolve_right (pow_ne_zero _ hα))
  have B : ∀ (hh : List (Str × ℤ)), (∀ e ∈ hh, 0 ≤ e.2) → totalAmount (byPath ls.tree.id2Path hh) < 2 ^ 63 →
      0 ≤ amountBelow (byPath ls.tree.id2Path hh) p.dropLast ∧ amountBelow (byPath ls.tree.id2Path hh) p.dropLast < 2 ^ 63 := by
    intro hh h0 ht
    refine ⟨Finset.sum_nonneg fun q _ => latest_nonneg (byPath_nonneg h0) q, lt_of_le_of_lt ?_ ht⟩
    exact amountBelow_le_total (byPath_nonneg h0) _
  have B1 := B _ hn htot
  have B2 := B _ hn' htot'
  unfold intToZr at hz2
  rw [ZMod.intCast_eq_intCast_iff_dvd_sub] at hz2
  obtain ⟨k, hk⟩ := hz2
  have hord : (2 : ℤ) ^ 65 < (order : ℤ) := by unfold order; norm_num
  have hk0 : k = 0 := by
    by_contra hne
    rcases lt_or_gt_of_ne hne with hneg | hpos
    · nlinarith
    · nlinarith
  rw [hk0, mul_zero] at hk
  omega

/-! ## The hypotheses can be met -/

/-- For examples: two batches of writes; `012` and `110` have other amounts in `toyBatch'`. -/
def toyBatch : ℕ → List (Str × ℤ)
  | 0 => [(['0', '1', '2'], 1), (['1', '1', '0'], 2), (['2', '2', '1'], 7)]
  | 1 => [(['1', '0', '0'], 5), (['1', '0', '0'], 6)]
  | _ => []

def toyBatch' : ℕ → List (Str × ℤ)
  | 0 => [(['0', '1', '2'], 2), (['1', '1', '0'], 1), (['2', '2', '1'], 7)]
  | 1 => [(['1', '0', '0'], 5), (['1', '0', '0'], 6)]
  | _ => []

def toyBlinding5 (k : ℕ) : Zr := if k < 15 then ((k + 5 : ℕ) : Zr) else 0

theorem toyBatch_same : SameWhereRewritten toyTree.id2Path 2 toyBatch toyBatch' where
  ids t := match t with
    | 0 => rfl
    | 1 => rfl
    | _ + 2 => rfl
  rewritten t h1 h2 e he u := by
    obtain rfl : t = 1 := by omega
    have he' : e.1.dropLast = [1, 0] := by
      have : ∀ e ∈ byPath toyTree.id2Path (toyBatch 1), e.1.dropLast = [1, 0] := by decide
      exact this e he
    rw [he']
    match u with
    | 0 => decide
    | 1 => rfl
    | _ + 2 => rfl

/-- C106 applies to the two sequences and a request by `221` after each batch, with a view that does come up. -/
example : ∃ (ls : LiabilitySet Zr Zr Zr) (r : (ℕ → Zr) × (Fin 2 → Fin 1 → ProveRand)) (o : Fin 2 → View Zr 1),
    (Blinding ls.s.tick (3 * (upTo toyBatch 1).length) r.1 ∧ ∀ t i, Drawn 3 3 (r.2 t i)) ∧
    observeOver toyCurve toyEnv ls toyBatch (fun _ _ => ['2', '2', '1']) true r = some (fun t => some (o t)) ∧
    EquallyLikely (fun r : (ℕ → Zr) × (Fin 2 → Fin 1 → ProveRand) =>
        Blinding ls.s.tick (3 * (upTo toyBatch 1).length) r.1 ∧ ∀ t i, Drawn 3 3 (r.2 t i))
      (observeOver toyCurve toyEnv ls toyBatch (fun _ _ => ['2', '2', '1']) true)
      (observeOver toyCurve toyEnv ls toyBatch' (fun _ _ => ['2', '2', '1']) true) (fun t => some (o t)) := by
  obtain ⟨pp, hpp1, hppH, hppF⟩ : ∃ pp, Fits toyCurve 2 3 3 pp ∧ pp.RPPP.H ≠ 0 ∧ pp.POEPP.F ≠ 0 := by
    obtain ⟨pp, hpp⟩ := toy_fits
    exact ⟨{ pp with RPPP := { pp.RPPP with H := 1 }, POEPP := { pp.POEPP with F := 1 } },
      ⟨hpp.1, hpp.2, hpp.3, hpp.4, hpp.5, hpp.6, hpp.7, hpp.8, hpp.9, hpp.10, hpp.11, hpp.12, hpp.13, hpp.14, hpp.15⟩,
      one_ne_zero, one_ne_zero⟩
  obtain ⟨ls, hls⟩ : ∃ ls : LiabilitySet Zr Zr Zr, ls = ⟨toyTree, pp, [], ⟨fun _ => [], 0⟩⟩ := ⟨_, rfl⟩
  have h : NewSet toyCurve 2 3 3 ls := by
    rw [hls]
    exact ⟨toyTree_new, hpp1, rfl⟩
  have ht : ls.tree = toyTree := by rw [hls]
  have hids : ∀ t, ValidIds ls.tree.id2Path 3 3 (toyBatch t) := by
    have hv : ∀ e ∈ upTo toyBatch 1, (e.1.map fun ch => ch.toNat - 48).length = 3 ∧ ∀ x ∈ e.1.map fun ch => ch.toNat - 48, x < 3 := by
      decide
    intro t e he
    rw [ht]
    refine ⟨_, toyTree_path e.1, hv e (mem_upTo.2 ?_)⟩
    match t with
    | 0 => exact ⟨0, by omega, he⟩
    | 1 => exact ⟨1, by omega, he⟩
    | _ + 2 => cases he
  have hidsU : ∀ t, ValidIds ls.tree.id2Path 3 3 (upTo toyBatch t) := by
    intro t e he
    obtain ⟨u, -, he⟩ := mem_upTo.1 he
    exact hids u e he
  have hn : ∀ t, ∀ e ∈ toyBatch t, 0 ≤ e.2 := fun t => match t with
    | 0 => by decide
    | 1 => by decide
    | _ + 2 => fun e he => by cases he
  have hn' : ∀ t, ∀ e ∈ toyBatch' t, 0 ≤ e.2 := fun t => match t with
    | 0 => by decide
    | 1 => by decide
    | _ + 2 => fun e he => by cases he
  have hnU : ∀ t, ∀ e ∈ upTo toyBatch t, 0 ≤ e.2 := by
    intro t e he
    obtain ⟨u, -, he⟩ := mem_upTo.1 he
    exact hn u e he
  have htot : ∀ t ≤ 1, totalAmount (byPath ls.tree.id2Path (upTo toyBatch t)) < 2 ^ 63 := by rw [ht]; decide
  have htot' : ∀ t ≤ 1, totalAmount (byPath ls.tree.id2Path (upTo toyBatch' t)) < 2 ^ 63 := by rw [ht]; decide
  have hmem : ∀ (t : Fin 2) (_ : Fin 1), ['2', '2', '1'] ∈ (upTo toyBatch t).map Prod.fst := by decide
  have hpath : ls.tree.id2Path ['2', '2', '1'] = some [2, 2, 1] := by rw [ht]; rfl
  have hwr : ∀ t : Fin 2, writesBelow (byPath ls.tree.id2Path (upTo toyBatch t)) [2, 2] = 1 := by rw [ht]; decide
  have henv : Env.Lawful { toyEnv with rand := toyBlinding5 } :=
    ⟨toyEnv_lawful.1, toyEnv_lawful.2, toyEnv_lawful.3, toyEnv_lawful.4⟩
  obtain ⟨t0, s0, p0, hall⟩ := after_eq toyCurve_lawful henv h toyBatch (by decide) 1 (fun t _ => hidsU t) (fun t _ => hnU t)
  obtain ⟨f0, -, x0, -⟩ := publish_eq toyCurve_lawful henv h (toyBatch 0) (by decide) (hids 0) (hn 0) (htot 0 (by omega))
    (fun _ : Fin 1 => ['2', '2', '1']) true p0
  have hview : ∀ t : Fin 2, ∃ (v : View Zr 1) (m : ℤ) (lp : LiabilityProof Zr),
      (after toyCurve { toyEnv with rand := toyBlinding5 } ls toyBatch t).bind
        (publish toyCurve { toyEnv with rand := toyBlinding5 } (fun _ => ['2', '2', '1']) true (fun _ => toyDrawn)) = some v ∧
      v.proofs = fun _ => some (some (m, lp)) := by
    intro t
    have ht1 : (t : ℕ) ≤ 1 := by omega
    obtain ⟨tt, st, m, hp, ha, hm⟩ := hall t ht1
    have hs : ls.sets toyCurve { toyEnv with rand := toyBlinding5 } (upTo toyBatch t) = some { ls with tree := tt, s := st } :=
      (sets_iff toyCurve _ _ ls _).2 ⟨hnU t, tt, st, hp, rfl⟩
    obtain ⟨lp, -, -, h1, -⟩ := C47_liability_proof_verifies_partial toyCurve_lawful henv h _ (hidsU t) hs
      (htot t ht1) ['2', '2', '1'] [2, 2, 1] hpath (by
        obtain ⟨e, he, h1⟩ := List.mem_map.1 (hmem t 0)
        exact List.mem_map.2 ⟨_, List.mem_map.2 ⟨e, he, rfl⟩, by simp [h1, hpath]⟩) (hwr t) toyDrawn
      ⟨toyDrawn_drawn.range, toyDrawn_drawn.sum, toyDrawn_drawn.eq⟩
      ⟨fun _ _ _ v rp ipaPP _ _ _ => toy_rangeChallenges_ne _ v.V rp ipaPP,
        fun _ _ _ => ⟨toy_sum_challenges _ _, toy_poe_challenges _ _⟩⟩
    obtain ⟨fx, -, -, hpub⟩ := publish_eq toyCurve_lawful henv h (upTo toyBatch t) (upTo_ne (by decide) t) (hidsU t) (hnU t) (htot t ht1)
      (fun _ : Fin 1 => ['2', '2', '1']) true hp
    have := hpub m _ (by rw [hm]; exact x0) (fun _ => toyDrawn)
    rw [ha, Option.bind_some]
    exact ⟨_, _, lp, this, by funext i; exact h1⟩
  choose o m lp hov hop using hview
  refine ⟨ls, (toyBlinding5, fun _ _ => toyDrawn), o, ⟨?_, fun _ _ => toyDrawn_drawn⟩, ?_, ?_⟩
  · intro k hk
    rw [hls] at hk
    exact if_neg (by simp [upTo, toyBatch] at hk; omega)
  · unfold observeOver
    rw [Option.some.injEq]
    funext t
    exact hov t
  · refine C106_untouched_parts_stay_hidden toyCurve_lawful toyEnv_lawful toyEnv_lawful two_ne_zero_zr (by exact one_ne_zero)
      toy_primeOrder h (by rw [hls]; exact hppH) (by rw [hls]; exact hppF) toyBatch toyBatch' (by rw [ht]; exact toyBatch_same)
      (by decide) hids hn hn' htot htot' _ true (fun _ => by rw [ht]; decide) hmem ?_ ?_ _ ?_
    · intro t i p hp
      rw [hpath, Option.some.injEq] at hp
      rw [← hp, ht]
      revert t
      decide
    · intro t i p hp
      rw [hpath, Option.some.injEq] at hp
      rw [← hp]
      exact hwr t
    · intro t i p hp
      rw [hpath, Option.some.injEq] at hp
      exact ⟨_, _, by rw [hop], toy_masks h.pp p (by rw [← hp]; rfl) (lp t)⟩

/-- `C106_neighbours_see_the_sum` applies to `012` when `010` gets the same amount once more: the client sees the sum `15` of its
lowest inner vertex, minus its own `10`, in the exponent. -/
example : ∃ (ls : LiabilitySet Zr Zr Zr) (lp1 lp2 : LiabilityProof Zr) (V1 V2 : Zr), NewSet toyCurve 2 3 3 ls ∧
    lp1.V[2]? = some V1 ∧ lp2.V[2]? = some V2 ∧ V2 = V1 + (intToZr (15 - 10) * 2 ^ 3) • toyCurve.genG1 := by
  obtain ⟨ls, h, ht⟩ := toy_set
  have hv : ValidIds ls.tree.id2Path 3 3 toyNeighbours := by rw [ht]; exact toyNeighbours_valid
  have hv2 : ValidIds ls.tree.id2Path 3 3 (toyNeighbours ++ [(['0', '1', '0'], 5)]) := by
    intro e he
    rcases List.mem_append.1 he with he | he
    · exact hv e he
    · exact hv e (by rw [List.mem_singleton.1 he]; decide)
  obtain ⟨ls2, hs2⟩ := C43_sets_return toyCurve_lawful toyEnv_lawful h _ hv2 (by decide)
  have hs := hs2
  rw [sets_append] at hs
  obtain ⟨ls1, hs1, hs12⟩ := Option.bind_eq_some_iff.1 hs
  obtain ⟨lp1, h1, -⟩ := C107_proof_is_returned toyCurve_lawful toyEnv_lawful h _ hv hs1 (by rw [ht]; decide) ['0', '1', '2'] [0, 1, 2]
    (by rw [ht]; rfl) (by rw [ht]; decide) toyRand toyRand_sized (toy_challenges _ _ _).range
  obtain ⟨lp2, h2, -⟩ := C107_proof_is_returned toyCurve_lawful toyEnv_lawful h _ hv2 hs2 (by rw [ht]; decide) ['0', '1', '2'] [0, 1, 2]
    (by rw [ht]; rfl) (by rw [ht]; decide) toyRand toyRand_sized (toy_challenges _ _ _).range
  obtain ⟨V1, V2, a1, a2, a3⟩ := C106_neighbours_see_the_sum toyCurve_lawful toyEnv_lawful h toyNeighbours ['0', '1', '0'] 5 hv2 hs1 hs12
    ['0', '1', '2'] [0, 1, 2] 0 (by rw [ht]; rfl) (by rw [ht]; rfl) (by decide) toyRand toyRand _ _ lp1 lp2 h1 h2 _ _ rfl rfl
  refine ⟨ls, lp1, lp2, V1, V2, h, a1, a2, ?_⟩
  rw [a3, ht]
  have e1 : latest (byPath toyTree.id2Path toyNeighbours) ([0, 1, 2].dropLast ++ [0]) = 5 := by decide
  have e2 : pathsBelow (byPath toyTree.id2Path (toyNeighbours ++ [(['0', '1', '0'], 5)])) [0, 1, 2].dropLast = 2 := by decide
  have e3 : amountBelow (byPath toyTree.id2Path (toyNeighbours ++ [(['0', '1', '0'], 5)])) [0, 1, 2].dropLast = 15 := by decide
  have e4 : latest (byPath toyTree.id2Path toyNeighbours) ([0, 1, 2].dropLast ++ [2]) = 10 := by decide
  rw [e1, e2, e3, e4]
  simp [intToZr]

/-- `C106_rewriting_reveals_sum` applies to `010` when `011` gets the same amount once more: two runs with different random values of
the prover. -/
example : ∃ (ls ls1 ls2 : LiabilitySet Zr Zr Zr) (lp1 lp2 lp1' lp2' : LiabilityProof Zr), NewSet toyCurve 2 3 3 ls ∧
    ls.sets toyCurve toyEnv [(['0', '1', '0'], 10), (['0', '1', '1'], 5)] = some ls1 ∧
    ls1.sets toyCurve toyEnv [(['0', '1', '1'], 5)] = some ls2 ∧
    ls1.proveLiability toyCurve toyEnv toyRand ['0', '1', '0'] = some (some (10, lp1)) ∧
    ls2.proveLiability toyCurve toyEnv toyRand ['0', '1', '0'] = some (some (10, lp2)) ∧
    ls1.proveLiability toyCurve toyEnv toyDrawn ['0', '1', '0'] = some (some (10, lp1')) ∧
    ls2.proveLiability toyCurve toyEnv toyDrawn ['0', '1', '0'] = some (some (10, lp2')) ∧
    lp1.V[2]? = lp1'.V[2]? ∧ lp2.V[2]? = lp2'.V[2]? ∧
    [0, 1] ++ [pathsBelow (byPath ls.tree.id2Path [(['0', '1', '0'], 10), (['0', '1', '1'], 5), (['0', '1', '1'], 5)]) [0, 1]]
      ∉ (byPath ls.tree.id2Path [(['0', '1', '0'], 10), (['0', '1', '1'], 5)]).map Prod.fst := by
  obtain ⟨ls, h, ht⟩ := toy_set
  have hw : ∀ e ∈ [(['0', '1', '0'], (10 : ℤ)), (['0', '1', '1'], 5), (['0', '1', '1'], 5)],
      (e.1.map fun ch => ch.toNat - 48).length = 3 ∧ ∀ x ∈ e.1.map fun ch => ch.toNat - 48, x < 3 := by decide
  have hv2 : ValidIds ls.tree.id2Path 3 3 ([(['0', '1', '0'], 10), (['0', '1', '1'], 5)] ++ [(['0', '1', '1'], 5)]) := by
    rw [ht]
    exact fun e he => ⟨_, toyTree_path e.1, hw e he⟩
  have hv : ValidIds ls.tree.id2Path 3 3 [(['0', '1', '0'], 10), (['0', '1', '1'], 5)] := fun e he => hv2 e (by simp at he ⊢; tauto)
  obtain ⟨ls2, hs2⟩ := C43_sets_return toyCurve_lawful toyEnv_lawful h _ hv2 (by decide)
  have hs := hs2
  rw [sets_append] at hs
  obtain ⟨ls1, hs1, hs12⟩ := Option.bind_eq_some_iff.1 hs
  have hdr : RandSized 3 3 toyDrawn := ⟨toyDrawn_drawn.range, toyDrawn_drawn.sum, toyDrawn_drawn.eq⟩
  have g1 := fun rnd hr hc => C107_proof_is_returned toyCurve_lawful toyEnv_lawful h _ hv hs1 (by rw [ht]; decide) ['0', '1', '0']
    [0, 1, 0] (by rw [ht]; rfl) (by rw [ht]; decide) rnd hr hc
  have g2 := fun rnd hr hc => C107_proof_is_returned toyCurve_lawful toyEnv_lawful h _ hv2 hs2 (by rw [ht]; decide) ['0', '1', '0']
    [0, 1, 0] (by rw [ht]; rfl) (by rw [ht]; decide) rnd hr hc
  have e1 : latest (byPath ls.tree.id2Path [(['0', '1', '0'], 10), (['0', '1', '1'], 5)]) [0, 1, 0] = 10 := by rw [ht]; decide
  have e2 : latest (byPath ls.tree.id2Path ([(['0', '1', '0'], 10), (['0', '1', '1'], 5)] ++ [(['0', '1', '1'], 5)])) [0, 1, 0] = 10 := by
    rw [ht]; decide
  rw [e1] at g1
  rw [e2] at g2
  have hc : ∀ l r, RangeChallengesNonzero toyCurve toyEnv l r ['0', '1', '0'] := fun l r _ _ _ v rp ipaPP _ _ _ =>
    toy_rangeChallenges_ne _ v.V rp ipaPP
  obtain ⟨lp1, a1, -⟩ := g1 toyRand toyRand_sized (hc _ _)
  obtain ⟨lp1', a1', -⟩ := g1 toyDrawn hdr (hc _ _)
  obtain ⟨lp2, a2, -⟩ := g2 toyRand toyRand_sized (hc _ _)
  obtain ⟨lp2', a2', -⟩ := g2 toyDrawn hdr (hc _ _)
  have k1 := fun rnd lp hp => proof_commitment toyCurve_lawful toyEnv_lawful h _ hv hs1 ['0', '1', '0'] [0, 1, 0] (by rw [ht]; rfl)
    (by decide) rnd 10 lp hp 2 (by norm_num)
  have k2 := fun rnd lp hp => proof_commitment toyCurve_lawful toyEnv_lawful h _ hv2 hs2 ['0', '1', '0'] [0, 1, 0] (by rw [ht]; rfl)
    (by decide) rnd 10 lp hp 2 (by norm_num)
  exact ⟨ls, ls1, ls2, lp1, lp2, lp1', lp2', h, hs1, hs12, a1, a2, a1', a2', (k1 _ _ a1).trans (k1 _ _ a1').symm,
    (k2 _ _ a2).trans (k2 _ _ a2').symm, by rw [ht]; decide⟩

end PoL.Props

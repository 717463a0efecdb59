import Verif.Proofs.MainReturns
import Verif.Props.Overflow
import Verif.Props.Returns
import Verif.Props.Schedule

/-!
# C133: whether an incomplete proof can be handed out

With `ParallelismEnabled` a panic in `ProveRange` ends the process, but only after the deferred `Done`.
-/

set_option linter.unusedSectionVars false

namespace PoL.Props
open Spec BP PP Verkle Pol Sched

variable {G1 G2 GT : Type} [AddCommGroup G1] [Module Zr G1] [AddCommGroup G2] [Module Zr G2]
  [AddCommGroup GT] [Module Zr GT] [DecidableEq G1] [DecidableEq GT]

/-- While the total is too large, `ProveRange` panics on the root. -/
theorem root_range_panics {E : Curve G1 G2 GT} (hE : E.Lawful) {env : Env} (henv : env.Lawful) {α : Zr} {F L : ℕ}
    {ls ls' : LiabilitySet G1 G2 GT} (h : NewSet E α F L ls) (hist : List (Str × ℤ))
    (hids : ValidIds ls.tree.id2Path F L hist) (hr : ls.sets E env hist = some ls')
    (htot : 2 ^ 63 ≤ totalAmount (byPath ls.tree.id2Path hist) % order) (id : Str) (p : List ℕ)
    (hp : ls.tree.id2Path id = some p) (hw : p ∈ (byPath ls.tree.id2Path hist).map Prod.fst) (rnd : ProveRand)
    (hrnd : RandSized F L rnd) (x : ℤ) (vs : List (Verkle.Vertex G1))
    (hg : ls'.tree.get E env id ls'.s.db = some (some (x, vs))) :
    rangeProofOf E ls' rnd vs 0 = none := by
  have hL := h.pp.depth
  obtain ⟨hn, t, s, hputs, rfl⟩ := (sets_iff E env hist ls ls').1 hr
  obtain ⟨hpL, hlt⟩ := byPath_length hids p (List.mem_toFinset.2 hw)
  obtain ⟨vs', hget, hvsl, hvs⟩ := get_onPath hE henv h.tree (by omega) hist hids hputs id p hp hpL hw
  have hg' : t.get E env id s.db = some (some (x, vs)) := hg
  rw [hget, Option.some.injEq, Option.some.injEq, Prod.mk.injEq] at hg'
  obtain ⟨-, rfl⟩ := hg'
  have hne : hist ≠ [] := by rintro rfl; simp [byPath] at hw
  obtain ⟨r, hr', hval, -, -⟩ := root_onPath hE henv h.tree hL hist hne hids hputs
  obtain ⟨y, hy, hy', -⟩ := hvs 0 (by omega)
  have hxy : r = y := Option.some.inj (hr'.symm.trans hy')
  subst hxy
  have hfields := puts_fields' hputs
  have hfan : t.fanOut = F := by rw [hfields]; exact h.tree.fanOut
  unfold rangeProofOf
  rw [hy]
  cases hrp : proveRange E ls.pp.RPPP (rnd.range 0) r.V (r.valuesVec (t.fanOut + 1)) r.blindingFactor with
  | none => exact hrp
  | some rp =>
    exfalso
    have := (C17_prover_refuses_out_of_range E ls.pp.RPPP (F + 1) h.pp.rp_Hs (rnd.range 0) (hrnd.range 0 (by omega)) _ _ _ rp hrp).2
      (intToZr (totalAmount (byPath ls.tree.id2Path hist))) (by rw [hfan, hval]; simp)
    have h2 : ((intToZr (totalAmount (byPath ls.tree.id2Path hist))).val : ℤ) < 2 ^ 63 := by exact_mod_cast this
    rw [intToZr_mod] at h2
    omega

/-- C133: while the total is `2^63` or more, no run of `ProveLiability` returns a complete proof: if it returns, the range
proof of the root is `nil`.  Every run is finite, and at its end a panic has ended the process. -/
theorem C133_never_complete {E : Curve G1 G2 GT} (hE : E.Lawful) {env : Env} (henv : env.Lawful) {α : Zr} {F L : ℕ}
    {ls ls' : LiabilitySet G1 G2 GT} (h : NewSet E α F L ls) (hist : List (Str × ℤ))
    (hids : ValidIds ls.tree.id2Path F L hist) (hr : ls.sets E env hist = some ls')
    (htot : 2 ^ 63 ≤ totalAmount (byPath ls.tree.id2Path hist) % order) (id : Str) (p : List ℕ)
    (hp : ls.tree.id2Path id = some p) (hw : p ∈ (byPath ls.tree.id2Path hist).map Prod.fst) (rnd : ProveRand)
    (hrnd : RandSized F L rnd) (x : ℤ) (vs : List (Verkle.Vertex G1))
    (hg : ls'.tree.get E env id ls'.s.db = some (some (x, vs))) (k : ℕ) (s : PSt (RangeProof G1))
    (hs : (ls'.prover E rnd p vs).Steps k (ls'.prover E rnd p vs).init s) :
    k ≤ 16 * L + 4 ∧ s.slots 0 = none ∧ ((∀ s', ¬ (ls'.prover E rnd p vs).Step s s') → s.crashed = true) := by
  have hL := h.pp.depth
  obtain ⟨hpL, -⟩ := byPath_length hids p (List.mem_toFinset.2 hw)
  have hpanic : (ls'.prover E rnd p vs).result 0 = none :=
    root_range_panics hE henv h hist hids hr htot id p hp hw rnd hrnd x vs hg
  have hn : (ls'.prover E rnd p vs).n = L := hpL
  obtain ⟨m, hm⟩ := pinv_steps hs ⟨0, pinv_init _⟩
  have hgo := hm.gos 0
  refine ⟨?_, ?_, ?_⟩
  · have := pWeight_steps hs
    rw [pWeight_init, hn] at this
    omega
  · unfold PGOk at hgo
    rw [hpanic] at hgo
    cases hpc : s.pcs 0 with
    | done b => cases b <;> · rw [hpc] at hgo; exact hgo.2
    | idle => rw [hpc] at hgo; exact hgo
    | start => rw [hpc] at hgo; exact hgo
    | _ => rw [hpc] at hgo; exact hgo.2
  · intro hstuck
    by_contra hc
    obtain ⟨hret, hall⟩ := pprogress hm (by simpa using hc) hstuck
    have hmain := hm.main
    unfold PMOk at hmain
    rw [hret] at hmain
    have hidle : s.pcs 0 ≠ .idle := by
      intro hi
      have := (hm.started 0).1 hi
      have := hmain.1
      omega
    have hgone := (hall 0).resolve_left hidle
    unfold PGOk at hgo
    rw [hgone, hpanic] at hgo
    simp at hgo

/-- C133 does not hold: while the total is `2^63` or more, for every identifier that was written with an amount below `2^63`
and for all random values, there is a run in which `ProveLiability` returns, with the range proof of the root `nil`. -/
theorem C133_violated {E : Curve G1 G2 GT} (hE : E.Lawful) {env : Env} (henv : env.Lawful) {α : Zr} {F L : ℕ}
    {ls ls' : LiabilitySet G1 G2 GT} (h : NewSet E α F L ls) (hist : List (Str × ℤ))
    (hids : ValidIds ls.tree.id2Path F L hist) (hr : ls.sets E env hist = some ls')
    (htot : 2 ^ 63 ≤ totalAmount (byPath ls.tree.id2Path hist) % order) (id : Str) (p : List ℕ)
    (hp : ls.tree.id2Path id = some p) (hw : p ∈ (byPath ls.tree.id2Path hist).map Prod.fst)
    (hsmall : latest (byPath ls.tree.id2Path hist) p < 2 ^ 63) (rnd : ProveRand) (hrnd : RandSized F L rnd) :
    ls'.MayLeaveNil E env rnd id 0 := by
  have hL := h.pp.depth
  have hr0 := hr
  obtain ⟨hn, t, s, hputs, rfl⟩ := (sets_iff E env hist ls ls').1 hr
  obtain ⟨hpL, hlt⟩ := byPath_length hids p (List.mem_toFinset.2 hw)
  obtain ⟨vs, hget, hvsl, hvs⟩ := get_onPath hE henv h.tree (by omega) hist hids hputs id p hp hpL hw
  have hpanic := root_range_panics hE henv h hist hids hr0 htot id p hp hw rnd hrnd _ vs hget
  have : Nonempty (Verkle.Vertex G1) := ⟨⟨0, fun _ => none, fun _ => none, 0, 0, none⟩⟩
  choose! fx hx1 hx2 hx3 using hvs
  have hvseq : vs = (List.range L).map fx := by
    apply List.ext_getElem?
    intro i
    by_cases hi : i < L
    · rw [hx1 i hi]; simp [hi]
    · rw [List.getElem?_eq_none (by omega), List.getElem?_eq_none (by simp; omega)]
  subst hvseq
  have hfields := puts_fields' hputs
  have hpi : ∀ i < L, p.getD i 0 < F := by
    intro i hi
    rw [List.getD_eq_getElem?_getD, List.getElem?_eq_getElem (by omega)]
    exact hlt _ (List.getElem_mem _)
  have hread : MainPath E α F L p fx (latest (byPath ls.tree.id2Path hist) p) := by
    refine ⟨fun i hi => ((hx3 i (by omega)).inner hi).2.1, ((hx3 (L - 1) (by omega)).leaf (by omega)).1, ?_⟩
    have hlast : p.getLastD 0 = p.getD (L - 1) 0 := by
      rw [List.getLastD_eq_getLast?, List.getLast?_eq_getElem?, hpL, List.getD_eq_getElem?_getD]
    have htk : p.take (L - 1) ++ [p.getD (L - 1) 0] = p.take (L - 1 + 1) := by
      rw [List.getD_eq_getElem?_getD, List.getElem?_eq_getElem (by omega), Option.getD_some,
        List.take_append_getElem (by omega)]
    rw [(hx3 (L - 1) (by omega)).values, hlast, getD_map_range_append _ _ _ _ (hpi _ (by omega)), htk,
      Nat.sub_add_cancel (by omega), ← hpL, List.take_length, amountBelow_self hids p hpL]
  have h0 := latest_nonneg (byPath_nonneg hn (id2Path := ls.tree.id2Path)) p
  obtain ⟨layers, f, hl, hf, -⟩ := main_returns hE h.pp { ls with tree := t, s := s }
    (by show t.PP = _; rw [hfields]; exact h.tree.pp) (by show t.fanOut = _; rw [hfields]; exact h.tree.fanOut) rfl p
    hpL hlt fx _ hread h0 hsmall rnd hrnd
  refine C53_panic_leaves_nil E env { ls with tree := t, s := s } rnd id p _ _ (by show t.id2Path id = _; rw [hfields]; exact hp)
    hget (by simp [hpL]) layers hl f hf 0 (by omega) (fx 0) (hx1 0 (by omega)) ?_
  unfold rangeProofOf at hpanic
  rw [hx1 0 (by omega)] at hpanic
  exact hpanic

/-- C133 for totals below `2^63`: in every run of `ProveLiability` nothing panics, and when it has returned, all range proofs
are there.  What is missing: larger totals, see `C133_violated`, and challenges that are zero. -/
theorem C133_complete_partial {E : Curve G1 G2 GT} (hE : E.Lawful) {env : Env} (henv : env.Lawful)
    {α : Zr} {F L : ℕ} {ls ls' : LiabilitySet G1 G2 GT} (h : NewSet E α F L ls) (hist : List (Str × ℤ))
    (hids : ValidIds ls.tree.id2Path F L hist) (hr : ls.sets E env hist = some ls')
    (htot : totalAmount (byPath ls.tree.id2Path hist) < 2 ^ 63) (id : Str) (p : List ℕ)
    (hp : ls.tree.id2Path id = some p) (hw : p ∈ (byPath ls.tree.id2Path hist).map Prod.fst) (rnd : ProveRand)
    (hrnd : RandSized F L rnd) (hne : RangeChallengesNonzero E env ls' rnd id) :
    ∃ x vs, ls'.tree.get E env id ls'.s.db = some (some (x, vs)) ∧
      ∀ k s, (ls'.prover E rnd p vs).Steps k (ls'.prover E rnd p vs).init s →
        s.crashed = false ∧ k ≤ 16 * L + 4 ∧ (s.main = .returned → ∀ i < L, (s.slots i).isSome) ∧
        ((∀ s', ¬ (ls'.prover E rnd p vs).Step s s') → s.main = .returned) := by
  obtain ⟨hpL, -⟩ := byPath_length hids p (List.mem_toFinset.2 hw)
  obtain ⟨lp, hlp, -⟩ := C107_proof_is_returned hE henv h hist hids hr htot id p hp hw rnd hrnd hne
  obtain ⟨path, x, vs, hpath, hg, hlen, hall⟩ := C53_all_runs_return_partial E env ls' rnd id _ lp hlp
  obtain ⟨hn, t, s', hputs, rfl⟩ := (sets_iff E env hist ls ls').1 hr
  have hpath' : t.id2Path id = some path := hpath
  rw [puts_fields' hputs] at hpath'
  have hpe : p = path := Option.some.inj (hp.symm.trans hpath')
  subst hpe
  refine ⟨x, vs, hg, fun k s hs => ?_⟩
  obtain ⟨h1, h2, h3, h4⟩ := hall k s hs
  rw [hpL] at h2 h3 hlen
  refine ⟨h1, h2, fun hret i hi => ?_, fun hst => (h4 hst).1⟩
  rw [h3 hret i hi, List.getElem?_eq_getElem (by omega)]
  rfl

/-- Two clients with `2^62` each: each of them may be handed a proof without the range proof of the root. -/
example : ∃ ls ls' : LiabilitySet Zr Zr Zr, NewSet toyCurve 2 3 3 ls ∧
    ls.sets toyCurve toyEnv [(['0', '1', '2'], 2 ^ 62), (['2', '2', '1'], 2 ^ 62)] = some ls' ∧
    ls'.MayLeaveNil toyCurve toyEnv toyRand ['2', '2', '1'] 0 := by
  obtain ⟨ls, h, ht⟩ := toy_set
  have hids : ValidIds ls.tree.id2Path 3 3 [(['0', '1', '2'], 2 ^ 62), (['2', '2', '1'], 2 ^ 62)] := by
    rw [ht]
    intro e he
    refine ⟨_, toyTree_path e.1, ?_⟩
    simp only [List.mem_cons, List.not_mem_nil, or_false] at he
    rcases he with rfl | rfl <;> exact ⟨by decide, by decide⟩
  obtain ⟨t, s, hp⟩ := C39_writes_return toyCurve_lawful toyEnv_lawful h.tree (by norm_num : 1 ≤ 3) _ ls.s hids
  have hr := (sets_iff toyCurve toyEnv _ ls { ls with tree := t, s := s }).2
    ⟨by intro e he
        simp only [List.mem_cons, List.not_mem_nil, or_false] at he
        rcases he with rfl | rfl <;> norm_num, t, s, hp, rfl⟩
  have htot : totalAmount (byPath ls.tree.id2Path [(['0', '1', '2'], 2 ^ 62), (['2', '2', '1'], 2 ^ 62)]) = 2 ^ 63 := by
    rw [ht]; decide
  exact ⟨ls, _, h, hr, C133_violated toyCurve_lawful toyEnv_lawful h _ hids hr
    (by rw [htot, Int.emod_eq_of_lt (by norm_num) (by unfold order; norm_num)]) ['2', '2', '1'] [2, 2, 1] (by rw [ht]; rfl)
    (by rw [ht]; decide) (by rw [ht]; decide) toyRand toyRand_sized⟩

end PoL.Props

import Verif.Proofs.Adaptive
import Verif.Props.ViewPrivacy

/-! # C104: clients that choose their requests after seeing earlier answers learn no more; what any test can tell -/

set_option linter.unusedSectionVars false

namespace PoL.Props
open Spec BP PP Verkle Pol

variable {G1 G2 GT : Type} [AddCommGroup G1] [Module Zr G1] [AddCommGroup G2] [Module Zr G2]
  [AddCommGroup GT] [Module Zr GT] [DecidableEq G1] [DecidableEq GT]

/-- C104: as C75, but each request may depend on the root, the proof of the total and the answers so far.  Every
transcript in which no challenge that multiplies the masks is zero comes from equally many random values for both
histories. -/
theorem C104_adaptive_requests_equally_likely {E : Curve G1 G2 GT} (hE : E.Lawful) {env env' : Env} (henv : env.Lawful)
    (henv' : env'.Lawful) {α : Zr} (hα : α ≠ 0) (hg : E.genG1 ≠ 0) (hcyc : PrimeOrder G1) {F L : ℕ}
    {ls : LiabilitySet G1 G2 GT} (h : NewSet E α F L ls) (hH : ls.pp.RPPP.H ≠ 0) (hPF : ls.pp.POEPP.F ≠ 0)
    (hist hist' : List (Str × ℤ)) (hsame : hist.map Prod.fst = hist'.map Prod.fst) (hne : hist ≠ [])
    (hids : ValidIds ls.tree.id2Path F L hist) (hn : ∀ e ∈ hist, 0 ≤ e.2) (hn' : ∀ e ∈ hist', 0 ≤ e.2)
    (htot : totalAmount (byPath ls.tree.id2Path hist) < 2 ^ 63)
    (htot' : totalAmount (byPath ls.tree.id2Path hist') < 2 ^ 63) (withTotal : Bool)
    (hT : withTotal = true → totalAmount (byPath ls.tree.id2Path hist) = totalAmount (byPath ls.tree.id2Path hist'))
    (k : ℕ) (ask : Asker G1) (hask : ∀ root total l, MayAsk ls hist hist' (ask root total l)) (t : Transcript G1)
    (ht : Masked E ls ask (some t)) :
    EquallyLikely (fun r : (ℕ → Zr) × (Fin k → ProveRand) =>
        Blinding ls.s.tick (L * hist.length) r.1 ∧ ∀ i, Drawn F L (r.2 i))
      (observeAsking E env ls hist k ask withTotal) (observeAsking E env' ls hist' k ask withTotal) t := by
  obtain ⟨t', e, ht⟩ := ht
  cases e
  by_cases hl : t.answers.length = k
  · have v := C75_view_hides_other_amounts hE henv henv' hα hg hcyc h hH hPF hist hist' hsame hne hids hn hn' htot htot'
      (fun i : Fin k => ask t.root t.total (t.answers.take i)) withTotal hT (fun i => (hask _ _ _).written)
      (fun i => (hask _ _ _).same) (fun i => (hask _ _ _).alone)
      ⟨t.root, t.total, fun i => t.answers.getD i none⟩ (fun i p hp => by
        obtain ⟨m, lp, e, hm⟩ := ht i (by omega) p hp
        exact ⟨m, lp, by simp [List.getD, e], hm⟩)
    exact v.congr (fun r _ => observeAsking_iff E env ls hist ask withTotal r t hl)
      fun r _ => observeAsking_iff E env' ls hist' ask withTotal r t hl
  · exact equallyLikely_of_never (finite_view ls.s.tick (L * hist.length) k F L) (fun r _ e => hl (observeAsking_length e))
      fun r _ e => hl (observeAsking_length e)

/-- C104: whatever a test does with all that clients have seen, it comes out positive for the one history at most as much more
often than for the other as a transcript comes up that is not masked, and such transcripts come up equally often
for both. -/
theorem C104_advantage {E : Curve G1 G2 GT} (hE : E.Lawful) {env env' : Env} (henv : env.Lawful)
    (henv' : env'.Lawful) {α : Zr} (hα : α ≠ 0) (hg : E.genG1 ≠ 0) (hcyc : PrimeOrder G1) {F L : ℕ}
    {ls : LiabilitySet G1 G2 GT} (h : NewSet E α F L ls) (hH : ls.pp.RPPP.H ≠ 0) (hPF : ls.pp.POEPP.F ≠ 0)
    (hist hist' : List (Str × ℤ)) (hsame : hist.map Prod.fst = hist'.map Prod.fst) (hne : hist ≠ [])
    (hids : ValidIds ls.tree.id2Path F L hist) (hn : ∀ e ∈ hist, 0 ≤ e.2) (hn' : ∀ e ∈ hist', 0 ≤ e.2)
    (htot : totalAmount (byPath ls.tree.id2Path hist) < 2 ^ 63)
    (htot' : totalAmount (byPath ls.tree.id2Path hist') < 2 ^ 63) (withTotal : Bool)
    (hT : withTotal = true → totalAmount (byPath ls.tree.id2Path hist) = totalAmount (byPath ls.tree.id2Path hist'))
    (k : ℕ) (ask : Asker G1) (hask : ∀ root total l, MayAsk ls hist hist' (ask root total l)) :
    let S := fun r : (ℕ → Zr) × (Fin k → ProveRand) => Blinding ls.s.tick (L * hist.length) r.1 ∧ ∀ i, Drawn F L (r.2 i)
    let f := observeAsking E env ls hist k ask withTotal
    let g := observeAsking E env' ls hist' k ask withTotal
    chance S f (fun x => ¬ Masked E ls ask x) = chance S g (fun x => ¬ Masked E ls ask x) ∧
    ∀ D : Option (Transcript G1) → Prop, |chance S f D - chance S g D| ≤ chance S f (fun x => ¬ Masked E ls ask x) :=
  test_close (finite_view ls.s.tick (L * hist.length) k F L) (Masked E ls ask) (by rintro ⟨t, e, -⟩; cases e) fun t ht =>
    C104_adaptive_requests_equally_likely hE henv henv' hα hg hcyc h hH hPF hist hist' hsame hne hids hn hn' htot htot'
      withTotal hT k ask hask t ht

theorem observe_returns {E : Curve G1 G2 GT} (hE : E.Lawful) {env : Env} (henv : env.Lawful) {α : Zr} {F L : ℕ}
    {ls : LiabilitySet G1 G2 GT} (h : NewSet E α F L ls) (hist : List (Str × ℤ)) (hne : hist ≠ [])
    (hids : ValidIds ls.tree.id2Path F L hist) (hn : ∀ e ∈ hist, 0 ≤ e.2)
    (htot : totalAmount (byPath ls.tree.id2Path hist) < 2 ^ 63) (r : (ℕ → Zr) × (Fin 0 → ProveRand)) : observe E env ls hist Fin.elim0 true r ≠ none := by
  have henv' : Env.Lawful { env with rand := r.1 } := ⟨henv.1, henv.2, henv.3, henv.4⟩
  obtain ⟨ls', hs⟩ := C43_sets_return hE henv' h hist hids hn
  obtain ⟨x, -, hroot⟩ := C46_first_call_partial hE henv' h hist hne hids hs
  obtain ⟨tp, -, htp, -⟩ := C44_total_proof hE henv' h hist hne hids hs htot
  unfold observe
  rw [hs, Option.bind_some, hroot, Option.bind_some]
  have e1 : LiabilitySet.proveTot E { ls' with memRoot := ls'.s.db [] } = some tp := htp
  simp only [if_true]
  rw [e1]
  simp

/-- C104 without requests: every test on the root and the proof of the total comes out equally often for two histories with the
same total.  (No challenge plays a part.) -/
theorem C104_root_and_total_exactly {E : Curve G1 G2 GT} (hE : E.Lawful) {env env' : Env} (henv : env.Lawful)
    (henv' : env'.Lawful) {α : Zr} (hα : α ≠ 0) (hg : E.genG1 ≠ 0) (hcyc : PrimeOrder G1) {F L : ℕ}
    {ls : LiabilitySet G1 G2 GT} (h : NewSet E α F L ls)
    (hist hist' : List (Str × ℤ)) (hsame : hist.map Prod.fst = hist'.map Prod.fst) (hne : hist ≠ [])
    (hids : ValidIds ls.tree.id2Path F L hist) (hn : ∀ e ∈ hist, 0 ≤ e.2) (hn' : ∀ e ∈ hist', 0 ≤ e.2)
    (htot : totalAmount (byPath ls.tree.id2Path hist) < 2 ^ 63)
    (hT : totalAmount (byPath ls.tree.id2Path hist) = totalAmount (byPath ls.tree.id2Path hist'))
    (D : Option (View G1 0) → Prop) :
    let S := fun r : (ℕ → Zr) × (Fin 0 → ProveRand) => Blinding ls.s.tick (L * hist.length) r.1 ∧ ∀ i, Drawn F L (r.2 i)
    chance S (observe E env ls hist Fin.elim0 true) D = chance S (observe E env' ls hist' Fin.elim0 true) D := by
  have ret := fun r => observe_returns hE henv h hist hne hids hn htot r
  obtain ⟨-, hc⟩ := test_close (finite_view ls.s.tick (L * hist.length) 0 F L) (f := observe E env ls hist Fin.elim0 true)
    (g := observe E env' ls hist' Fin.elim0 true) (fun x => x ≠ none) (by simp) fun o _ =>
      C75_root_hides_amounts hE henv henv' hα hg hcyc h hist hist' hsame hne hids hn hn' htot hT o
  have h0 : chance (fun r : (ℕ → Zr) × (Fin 0 → ProveRand) => Blinding ls.s.tick (L * hist.length) r.1 ∧ ∀ i, Drawn F L (r.2 i))
      (observe E env ls hist Fin.elim0 true) (fun x => ¬ x ≠ none) = 0 := by
    unfold chance
    rw [Nat.card_eq_zero.2 (.inl ⟨fun r => r.2.2 (ret r.1)⟩)]
    simp
  have := hc D
  rw [h0] at this
  exact sub_eq_zero.1 (abs_eq_zero.1 (le_antisymm this (abs_nonneg _)))

/-! ## The hypotheses can be met -/

/-- For examples: two histories that agree on the amounts of `012` and `221`, and on the total. -/
def askHist : List (Str × ℤ) := [(['0', '1', '2'], 5), (['2', '2', '1'], 7), (['1', '1', '0'], 30), (['1', '1', '1'], 4)]

/-- For examples: the other history. -/
def askHist' : List (Str × ℤ) := [(['0', '1', '2'], 5), (['2', '2', '1'], 7), (['1', '1', '0'], 10), (['1', '1', '1'], 24)]

/-- For examples: asks for `012`, and if the answer is that the amount is 5, for `221`. -/
def toyAsk : Asker Zr
  | _, _, [] => ['0', '1', '2']
  | _, _, some (some (5, _)) :: _ => ['2', '2', '1']
  | _, _, _ => ['0', '1', '2']

theorem toyAsk_or (root total l) : toyAsk root total l = ['0', '1', '2'] ∨ toyAsk root total l = ['2', '2', '1'] := by
  unfold toyAsk
  split <;> simp

theorem toyAsk_may {ls : LiabilitySet Zr Zr Zr} (ht : ls.tree = toyTree) (root total l) :
    MayAsk ls askHist askHist' (toyAsk root total l) := by
  have h1 : toyTree.id2Path ['0', '1', '2'] = some [0, 1, 2] := rfl
  have h2 : toyTree.id2Path ['2', '2', '1'] = some [2, 2, 1] := rfl
  rcases toyAsk_or root total l with e | e <;> rw [e]
  · refine ⟨by decide, ?_, ?_⟩ <;> intro p hp <;> rw [ht] at hp ⊢ <;> rw [h1] at hp <;> cases hp <;> decide
  · refine ⟨by decide, ?_, ?_⟩ <;> intro p hp <;> rw [ht] at hp ⊢ <;> rw [h2] at hp <;> cases hp <;> decide

/-- C104 applies to the two histories and three requests chosen one after the other; with the challenges of the toy
curve no test can tell the histories apart. -/
example : ∃ ls : LiabilitySet Zr Zr Zr, ∀ D : Option (Transcript Zr) → Prop,
    let S := fun r : (ℕ → Zr) × (Fin 3 → ProveRand) => Blinding ls.s.tick (3 * askHist.length) r.1 ∧ ∀ i, Drawn 3 3 (r.2 i)
    chance S (observeAsking toyCurve toyEnv ls askHist 3 toyAsk true) (fun x => Masked toyCurve ls toyAsk x) = 1 ∧
    chance S (observeAsking toyCurve toyEnv ls askHist 3 toyAsk true) D
      = chance S (observeAsking toyCurve toyEnv ls askHist' 3 toyAsk true) D := by
  obtain ⟨pp, hpp1, hppH, hppF⟩ : ∃ pp, Fits toyCurve 2 3 3 pp ∧ pp.RPPP.H ≠ 0 ∧ pp.POEPP.F ≠ 0 := by
    obtain ⟨pp, hpp⟩ := toy_fits
    exact ⟨{ pp with RPPP := { pp.RPPP with H := 1 }, POEPP := { pp.POEPP with F := 1 } },
      ⟨hpp.1, hpp.2, hpp.3, hpp.4, hpp.5, hpp.6, hpp.7, hpp.8, hpp.9, hpp.10, hpp.11, hpp.12, hpp.13, hpp.14, hpp.15⟩,
      one_ne_zero, one_ne_zero⟩
  obtain ⟨ls, hls⟩ : ∃ ls : LiabilitySet Zr Zr Zr, ls = ⟨toyTree, pp, [], ⟨fun _ => [], 0⟩⟩ := ⟨_, rfl⟩
  have h : NewSet toyCurve 2 3 3 ls := by
    rw [hls]
    exact ⟨toyTree_new, hpp1, rfl⟩
  have ht : ls.tree = toyTree := by rw [hls]
  have hids : ValidIds ls.tree.id2Path 3 3 askHist := by
    rw [ht]
    have : ValidIds toyTree.id2Path 3 3 askHist := by
      intro e he
      fin_cases he
      · exact ⟨[0, 1, 2], rfl, rfl, by decide⟩
      · exact ⟨[2, 2, 1], rfl, rfl, by decide⟩
      · exact ⟨[1, 1, 0], rfl, rfl, by decide⟩
      · exact ⟨[1, 1, 1], rfl, rfl, by decide⟩
    exact this
  have h46 : totalAmount (byPath ls.tree.id2Path askHist) = 46 := by rw [ht]; decide
  have h46' : totalAmount (byPath ls.tree.id2Path askHist') = 46 := by rw [ht]; decide
  have may := toyAsk_may ht
  -- every admissible choice of the random values gives a masked transcript
  have masked : ∀ r : (ℕ → Zr) × (Fin 3 → ProveRand), (∀ i, Drawn 3 3 (r.2 i)) →
      Masked toyCurve ls toyAsk (observeAsking toyCurve toyEnv ls askHist 3 toyAsk true r) := by
    intro r hr
    have henv : Env.Lawful { toyEnv with rand := r.1 } :=
      ⟨toyEnv_lawful.1, toyEnv_lawful.2, toyEnv_lawful.3, toyEnv_lawful.4⟩
    obtain ⟨ls', hs⟩ := C43_sets_return toyCurve_lawful henv h askHist hids (by decide)
    obtain ⟨x, -, hroot⟩ := C46_first_call_partial toyCurve_lawful henv h askHist (by decide) hids hs
    obtain ⟨tp, -, htp, -⟩ := C44_total_proof toyCurve_lawful henv h askHist (by decide) hids hs (by rw [h46]; norm_num)
    have e1 : LiabilitySet.proveTot toyCurve { ls' with memRoot := ls'.s.db [] } = some tp := htp
    unfold observeAsking
    rw [hs, Option.bind_some, hroot, Option.bind_some]
    simp only [if_true]
    rw [e1]
    refine ⟨_, rfl, ?_⟩
    intro i hi p hp
    dsimp only at hi hp
    rw [converse_length] at hi
    obtain ⟨-, hc⟩ := (converse_iff _ _ _ _).1 (rfl : converse (fun i id => if h : i < 3 then
      LiabilitySet.proveLiability toyCurve { toyEnv with rand := r.1 } { ls' with memRoot := ls'.s.db [] } (r.2 ⟨i, h⟩) id else none)
      (toyAsk (some (x.V, x.W)) (some tp)) 3 = _)
    have hci := hc i hi
    rw [dif_pos hi] at hci
    have hm := may (some (x.V, x.W)) (some tp) ((converse (fun i id => if h : i < 3 then
      LiabilitySet.proveLiability toyCurve { toyEnv with rand := r.1 } { ls' with memRoot := ls'.s.db [] } (r.2 ⟨i, h⟩) id else none)
      (toyAsk (some (x.V, x.W)) (some tp)) 3).take i)
    obtain ⟨lp, -, -, h1, -⟩ := C47_liability_proof_verifies_partial toyCurve_lawful henv h askHist hids hs
      (by rw [h46]; norm_num) _ p hp (by
        obtain ⟨e, he, h2⟩ := List.mem_map.1 hm.written
        rw [← h2] at hp
        exact List.mem_map.2 ⟨(p, e.2), List.mem_map.2 ⟨e, he, by rw [hp]; rfl⟩, rfl⟩) (hm.alone p hp) (r.2 ⟨i, hi⟩)
      ⟨(hr _).range, (hr _).sum, (hr _).eq⟩
      ⟨fun _ _ _ v rp ipaPP _ _ _ => toy_rangeChallenges_ne _ v.V rp ipaPP,
        fun _ _ _ => ⟨toy_sum_challenges _ _, toy_poe_challenges _ _⟩⟩
    refine ⟨_, lp, hci.trans (congrArg some h1), toy_masks h.pp p ?_ lp⟩
    rw [ht] at hp
    rcases toyAsk_or (some (x.V, x.W)) (some tp) ((converse (fun i id => if h : i < 3 then
      LiabilitySet.proveLiability toyCurve { toyEnv with rand := r.1 } { ls' with memRoot := ls'.s.db [] } (r.2 ⟨i, h⟩) id else none)
      (toyAsk (some (x.V, x.W)) (some tp)) 3).take i) with e | e <;> rw [e] at hp <;> cases hp <;> rfl
  refine ⟨ls, fun D => ?_⟩
  obtain ⟨-, hadv⟩ := C104_advantage toyCurve_lawful toyEnv_lawful toyEnv_lawful two_ne_zero_zr (by exact one_ne_zero)
    toy_primeOrder h (by rw [hls]; exact hppH) (by rw [hls]; exact hppF) askHist askHist' rfl (by decide) hids
    (by decide) (by decide) (by rw [h46]; norm_num) (by rw [h46']; norm_num) true (fun _ => by rw [h46, h46']) 3 toyAsk may
  have fin := finite_view ls.s.tick (3 * askHist.length) 3 3 3
  have some0 : Nonempty {r : (ℕ → Zr) × (Fin 3 → ProveRand) //
      Blinding ls.s.tick (3 * askHist.length) r.1 ∧ ∀ i, Drawn 3 3 (r.2 i)} :=
    ⟨⟨(fun _ => 0, fun _ => toyDrawn), fun _ _ => rfl, fun _ => toyDrawn_drawn⟩⟩
  have pos : Nat.card {r : (ℕ → Zr) × (Fin 3 → ProveRand) //
      Blinding ls.s.tick (3 * askHist.length) r.1 ∧ ∀ i, Drawn 3 3 (r.2 i)} ≠ 0 := Nat.card_pos.ne'
  refine ⟨?_, ?_⟩
  · unfold chance
    rw [Nat.card_congr (Equiv.subtypeEquivRight (q := fun r : (ℕ → Zr) × (Fin 3 → ProveRand) =>
      Blinding ls.s.tick (3 * askHist.length) r.1 ∧ ∀ i, Drawn 3 3 (r.2 i)) fun r =>
        ⟨fun hr => hr.1, fun hr => ⟨hr, masked r hr.2⟩⟩)]
    exact div_self (Nat.cast_ne_zero.2 pos)
  · have h0 : chance (fun r : (ℕ → Zr) × (Fin 3 → ProveRand) => Blinding ls.s.tick (3 * askHist.length) r.1 ∧ ∀ i, Drawn 3 3 (r.2 i))
        (observeAsking toyCurve toyEnv ls askHist 3 toyAsk true) (fun x => ¬ Masked toyCurve ls toyAsk x) = 0 := by
      unfold chance
      rw [Nat.card_eq_zero.2 (.inl ⟨fun r => r.2.2 (masked r.1 r.2.1.2)⟩)]
      simp
    have := hadv D
    rw [h0] at this
    exact sub_eq_zero.1 (abs_eq_zero.1 (le_antisymm this (abs_nonneg _)))

end PoL.Props

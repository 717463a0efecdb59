import Verif.Proofs.ScalarLibs
import Verif.Proofs.PolToy
import Verif.Props.Pol
import Verif.Props.Sum

/-!
# Properties: what the representation of scalars matters for
-/

set_option linter.unusedSectionVars false

namespace PoL.Props

open PoL.Spec PoL.Pol Verkle

variable {G1 G2 GT : Type} [AddCommGroup G1] [Module Zr G1] [AddCommGroup G2] [Module Zr G2]
  [AddCommGroup GT] [Module Zr GT] [DecidableEq G1] [DecidableEq GT]

theorem good_of_stored {E : Curve G1 G2 GT} {db : Db} (h : StoredReduced E db) : Raw.Good E db :=
  fun k v hv => ⟨(h k v hv).1, (h k v hv).2.1, (h k v hv).2.2.1, (h k v hv).2.2.2⟩

theorem inv_of_new {E : Curve G1 G2 GT} {ls : LiabilitySet G1 G2 GT} (hr : ls.tree.root = none) (hdb : StoredReduced E ls.s.db) :
    Raw.Inv E ls := ⟨good_of_stored hdb, fun r h => by rw [hr] at h; cases h⟩

theorem int64_lt_order {hist : List (Str × ℤ)} (h : Int64Amounts hist) : ∀ e ∈ hist, e.2 < order :=
  fun e he => lt_trans (h e he).2 (by unfold order; norm_num)

/-- **C102.** From a new set over an empty database (or one with reduced scalars), any calls of `Set` end the same and
leave the same bytes in the database whichever library of scalars is used; they are the bytes of the model with residues. -/
theorem C102_same_database {S S' : ScalarLib} (hS : S.Lawful) (hS' : S'.Lawful) {E : Curve G1 G2 GT} (hE : E.Lawful) {env : Env}
    (henv : env.Lawful) {ls : LiabilitySet G1 G2 GT} (hr : ls.tree.root = none) (hdb : StoredReduced E ls.s.db)
    (hist : List (Str × ℤ)) (hb : Int64Amounts hist) :
    Raw.sets S E env ls hist = Raw.sets S' E env ls hist ∧ Raw.sets S E env ls hist = ls.sets E env hist := by
  have h := fun (T : ScalarLib) (hT : T.Lawful) =>
    (Raw.sets_same hT hE henv hist (inv_of_new hr hdb) (int64_lt_order hb)).1
  exact ⟨(h S hS).trans (h S' hS').symm, h S hS⟩

/-- C102: and every scalar that is read back is reduced. -/
theorem C102_stored_reduced {S : ScalarLib} (hS : S.Lawful) {E : Curve G1 G2 GT} (hE : E.Lawful) {env : Env}
    (henv : env.Lawful) {ls ls' : LiabilitySet G1 G2 GT} (hr : ls.tree.root = none) (hdb : StoredReduced E ls.s.db)
    (hist : List (Str × ℤ)) (hb : Int64Amounts hist) (h : Raw.sets S E env ls hist = some ls') : StoredReduced E ls'.s.db := by
  obtain ⟨e, p⟩ := Raw.sets_same hS hE henv hist (inv_of_new hr hdb) (int64_lt_order hb)
  intro k v hv
  have := (p ls' (e ▸ h)).good k v hv
  exact ⟨this.bf, this.sum, this.values, this.digests⟩

section After

variable {S S' : ScalarLib} (hS : S.Lawful) (hS' : S'.Lawful) {E : Curve G1 G2 GT} (hE : E.Lawful) {env : Env}
  (henv : env.Lawful) {ls ls' : LiabilitySet G1 G2 GT} (hr : ls.tree.root = none) (hdb : StoredReduced E ls.s.db)
  (hist : List (Str × ℤ)) (hb : Int64Amounts hist) (h : Raw.sets S E env ls hist = some ls')

include hS hE henv hr hdb hb h

theorem inv_after : Raw.Inv E ls' := by
  obtain ⟨e, p⟩ := Raw.sets_same hS hE henv hist (inv_of_new hr hdb) (int64_lt_order hb)
  exact p ls' (e ▸ h)

include hS' in
/-- C102: after these calls `Root` and `ProveTot` return the same with either library, and what the model with residues
returns. -/
theorem C102_same_root_and_total :
    Raw.proveTot S E ls' = Raw.proveTot S' E ls' ∧ Raw.proveTot S E ls' = ls'.proveTot E ∧ Raw.root E ls' = ls'.root E := by
  have hi := inv_after hS hE henv hr hdb hist hb h
  exact ⟨(Raw.proveTot_eq hS E hi).trans (Raw.proveTot_eq hS' E hi).symm, Raw.proveTot_eq hS E hi, Raw.root_eq E ls'⟩

include hS' in
/-- C102: with the same random values, `ProveLiability` does the same with either library: it returns the same amount and
a proof with the same points and scalars, up to multiples of the order; `false` or a panic with one is the same with
the other. -/
theorem C102_same_proof (rnd : ProveRand) (id : Str) :
    (Raw.proveLiability S E env ls' rnd id = none ↔ Raw.proveLiability S' E env ls' rnd id = none) ∧
    (Raw.proveLiability S E env ls' rnd id = some none ↔ Raw.proveLiability S' E env ls' rnd id = some none) ∧
    (∀ n p, Raw.proveLiability S E env ls' rnd id = some (some (n, p)) →
      ∃ q, Raw.proveLiability S' E env ls' rnd id = some (some (n, q)) ∧ SameProof p q) := by
  have hi := inv_after hS hE henv hr hdb hist hb h
  have e := (Raw.sim_proveLiability hS E env hi rnd id).trans (Raw.sim_proveLiability hS' E env hi rnd id).symm
  revert e
  cases Raw.proveLiability S E env ls' rnd id with
  | none =>
    cases Raw.proveLiability S' E env ls' rnd id with
    | none => exact fun _ => ⟨Iff.rfl, by simp, by simp⟩
    | some y => intro e; cases e
  | some x =>
    cases Raw.proveLiability S' E env ls' rnd id with
    | none => intro e; cases e
    | some y =>
      cases x with
      | none =>
        cases y with
        | none => exact fun _ => ⟨Iff.rfl, Iff.rfl, by simp⟩
        | some y => intro e; cases e
      | some x =>
        cases y with
        | none => intro e; cases e
        | some y =>
          intro e
          refine ⟨by simp, by simp, fun n p hp => ?_⟩
          obtain ⟨m, q⟩ := y
          cases hp
          have e' : (n, p.res) = (m, q.res) := Option.some.inj (Option.some.inj e)
          obtain ⟨rfl, e''⟩ := Prod.mk.inj e'
          refine ⟨q, rfl, ?_⟩
          exact ⟨congrArg Pol.LiabilityProof.pointProofSum e'', congrArg Pol.LiabilityProof.pointProof e'',
            congrArg Pol.LiabilityProof.sumArgumentProof e'', congrArg Pol.LiabilityProof.V e'', congrArg Pol.LiabilityProof.W e'',
            congrArg Pol.LiabilityProof.digests e'', congrArg Pol.LiabilityProof.rangeProofs e'',
            congrArg Pol.LiabilityProof.equalityProof e'', congrArg Pol.LiabilityProof.total e''⟩

/-- C102: the proof is the one of the model with residues, and its digests and the challenge-bound scalar of its sum
argument are reduced. -/
theorem C102_proof_of_residues (rnd : ProveRand) (id : Str) :
    (Raw.proveLiability S E env ls' rnd id).map (Option.map fun x => (x.1, x.2.res)) = ls'.proveLiability E env rnd id ∧
    ∀ n p, Raw.proveLiability S E env ls' rnd id = some (some (n, p)) →
      Reduced p.sumArgumentProof.c ∧ ∀ d ∈ p.digests, Reduced d := by
  have hi := inv_after hS hE henv hr hdb hist hb h
  exact ⟨Raw.sim_proveLiability hS E env hi rnd id, fun n p hp => Raw.proveLiability_red hi hp⟩

/-- C102: `Verify` of a proof that `ProveLiability` returned answers as the model with residues does. -/
theorem C102_honest_verdict (rnd : ProveRand) (id : Str) (n : ℤ) (p : Raw.LiabilityProof G1)
    (hp : Raw.proveLiability S E env ls' rnd id = some (some (n, p))) (pp : PublicParams G1 G2 GT) (id' : Str) (V W : G1)
    (id2path : Str → Option (List ℕ)) : p.verify S E pp id' V W id2path = p.res.verify E pp id' V W id2path := by
  obtain ⟨hc, hd⟩ := Raw.proveLiability_red (inv_after hS hE henv hr hdb hist hb h) hp
  exact Raw.verify_eq hS E p hc hd pp id' V W id2path

end After

/-- C102: on any proof with reduced digests and reduced `c`, whoever made it, `Verify` answers the same with either library,
and as the model with residues does. -/
theorem C102_same_verdict {S S' : ScalarLib} (hS : S.Lawful) (hS' : S'.Lawful) (E : Curve G1 G2 GT) (p : Raw.LiabilityProof G1)
    (hc : Reduced p.sumArgumentProof.c) (hd : ∀ d ∈ p.digests, Reduced d) (pp : PublicParams G1 G2 GT) (id : Str) (V W : G1)
    (id2path : Str → Option (List ℕ)) :
    p.verify S E pp id V W id2path = p.verify S' E pp id V W id2path ∧
    p.verify S E pp id V W id2path = p.res.verify E pp id V W id2path :=
  ⟨(Raw.verify_eq hS E p hc hd pp id V W id2path).trans (Raw.verify_eq hS' E p hc hd pp id V W id2path).symm,
    Raw.verify_eq hS E p hc hd pp id V W id2path⟩

/-- C102: unreduced digests gain nothing: what `Verify` accepts, the model with residues accepts. -/
theorem C102_no_more_accepted {S : ScalarLib} (hS : S.Lawful) (E : Curve G1 G2 GT) (p : Raw.LiabilityProof G1)
    (hc : Reduced p.sumArgumentProof.c) (pp : PublicParams G1 G2 GT) (id : Str) (V W : G1) (id2path : Str → Option (List ℕ))
    (h : p.verify S E pp id V W id2path = some true) : p.res.verify E pp id V W id2path = some true :=
  Raw.verify_imp hS E p hc pp id V W id2path h

/-- C102: the provers and verifiers of the arguments, called on their own.  The range prover and the single equality
prover need reduced vectors, and the verifier of the sum argument a reduced `c`; the others need nothing. -/
theorem C102_arguments {S : ScalarLib} (hS : S.Lawful) (E : Curve G1 G2 GT) :
    (∀ (pp : BP.RPPP G1) (rp : Raw.RangeProof G1) (V : G1), Raw.verifyRange S E pp rp V = BP.verifyRange E pp rp.res V) ∧
    (∀ (pp : BP.RPPP G1) (rnd : BP.RangeRand) (V : G1) (v : List ℤ) (r : ℤ), (∀ x ∈ v, Reduced x) →
      (Raw.proveRange S E pp rnd V v r).map Raw.RangeProof.res = BP.proveRange E pp rnd V (resV v) (res r)) ∧
    (∀ (pp : Sum.PP G1) (rnd : Sum.Rand) (V : G1) (v : List ℤ) (r : ℤ),
      (Raw.newArgument S E pp rnd V v r).map (fun x => (x.1, x.2.res)) = Sum.newArgument E pp rnd V (resV v) (res r)) ∧
    (∀ (pp : Sum.PP G1) (p : Raw.SumProof G1) (a : Sum.Argument G1), Reduced p.c → p.verify S E pp a = p.res.verify E pp a) ∧
    (∀ (e : Poe.Equalities G1 G2 GT) (rnd : Poe.EqsRand) (vs ws : List (List ℤ)),
      (Raw.eqsProve S E e rnd vs ws).map Raw.AggregatedProof.res = e.prove E rnd (vs.map resV) (ws.map resV)) ∧
    (∀ (e : Poe.Equalities G1 G2 GT) (p : Raw.AggregatedProof G1), Raw.eqsVerify S E e p = e.verify E p.res) ∧
    (∀ (e : Poe.Equality G1 G2 GT) (u η ν : Zr) (v w : List ℤ), (∀ x ∈ v, Reduced x) → (∀ x ∈ w, Reduced x) →
      (Raw.eqProve S E e u η ν v w).map Raw.EqProof.res = e.prove E u η ν (resV v) (resV w)) ∧
    (∀ (e : Poe.Equality G1 G2 GT) (p : Raw.EqProof G1), Raw.eqVerify S E e p = e.verify E p.res) ∧
    (∀ (pp : PP G1 G2 GT) (m : List ℤ), Raw.ppCommit S pp m = pp.commit (resV m)) ∧
    (∀ (pp : PP G1 G2 GT) (i : ℕ) (m : List ℤ), (Raw.openAt S pp i m).map (fun x => (res x.1, x.2)) = pp.openAt i (resV m)) :=
  ⟨Raw.verifyRange_eq hS E, fun pp rnd V v r hv => Raw.sim_proveRange hS E pp rnd V v hv r, Raw.sim_newArgument hS E,
    fun pp p a hc => Raw.sum_verify_eq hS E p hc pp a, Raw.sim_eqsProve hS E, Raw.eqsVerify_eq hS E, Raw.sim_eqProve hS E,
    Raw.eqVerify_eq hS E, Raw.ppCommit_eq hS, Raw.sim_openAt hS⟩

/-- C102 with C44: with any library the proof of the total is accepted and states the total. -/
theorem C102_total_proof {S : ScalarLib} (hS : S.Lawful) {E : Curve G1 G2 GT} (hE : E.Lawful) {env : Env} (henv : env.Lawful) {α : Zr}
    {F L : ℕ} {ls : LiabilitySet G1 G2 GT} (h : NewSet E α F L ls) (hdb : StoredReduced E ls.s.db) (hist : List (Str × ℤ))
    (hne : hist ≠ []) (hb : Int64Amounts hist) (hn : ∀ e ∈ hist, 0 ≤ e.2) (hids : ValidIds ls.tree.id2Path F L hist)
    (htot : totalAmount (byPath ls.tree.id2Path hist) < 2 ^ 63) :
    ∃ ls' tp x, Raw.sets S E env ls hist = some ls' ∧ Raw.proveTot S E ls' = some tp ∧
      tp.sum = totalAmount (byPath ls.tree.id2Path hist) ∧ Raw.Vertex.fromBytes E (ls'.s.db []) = some x ∧
      Raw.totVerify E tp ls.pp x.V = some true := by
  obtain ⟨ls', hs⟩ := C43_sets_return hE henv h hist hids hn
  have hraw := ((C102_same_database hS hS hE henv h.tree.root hdb hist hb).2).trans hs
  obtain ⟨tp, x, h1, h2, h3, h4⟩ := C44_total_proof hE henv h hist hne hids hs htot
  rw [← Raw.sim_fromBytes, Option.map_eq_some_iff] at h3
  obtain ⟨y, hy, rfl⟩ := h3
  exact ⟨ls', tp, y, hraw, ((C102_same_root_and_total hS hS hE henv h.tree.root hdb hist hb hraw).2.1).trans h1, h2, hy, h4⟩

/-- C102 with C47: with any library, the proof for a client whose vertex above the leaves was written once is accepted. -/
theorem C102_liability_proof {S : ScalarLib} (hS : S.Lawful) {E : Curve G1 G2 GT} (hE : E.Lawful) {env : Env} (henv : env.Lawful)
    {α : Zr} {F L : ℕ} {ls ls' : LiabilitySet G1 G2 GT} (h : NewSet E α F L ls) (hdb : StoredReduced E ls.s.db)
    (hist : List (Str × ℤ)) (hb : Int64Amounts hist) (hids : ValidIds ls.tree.id2Path F L hist)
    (hr : Raw.sets S E env ls hist = some ls')
    (htot : totalAmount (byPath ls.tree.id2Path hist) < 2 ^ 63) (id : Str) (p : List ℕ)
    (hp : ls.tree.id2Path id = some p) (hw : p ∈ (byPath ls.tree.id2Path hist).map Prod.fst)
    (hone : writesBelow (byPath ls.tree.id2Path hist) p.dropLast = 1) (rnd : ProveRand) (hrnd : RandSized F L rnd)
    (hne : NonzeroChallenges E env ls' rnd id) :
    ∃ lp x W, Raw.proveLiability S E env ls' rnd id = some (some (latest (byPath ls.tree.id2Path hist) p, lp)) ∧
      Raw.Vertex.fromBytes E (ls'.s.db []) = some x ∧ x.W = some W ∧
      lp.verify S E ls.pp id x.V W ls.tree.id2Path = some true := by
  have hs := ((C102_same_database hS hS hE henv h.tree.root hdb hist hb).2).symm.trans hr
  obtain ⟨lp, x, W, h1, -, h3, h4, h5⟩ := C47_liability_proof_verifies_partial hE henv h hist hids hs htot id p hp hw hone rnd hrnd hne
  rw [← Raw.sim_fromBytes, Option.map_eq_some_iff] at h3
  obtain ⟨y, hy, rfl⟩ := h3
  have hpr := (C102_proof_of_residues hS hE henv h.tree.root hdb hist hb hr rnd id).1
  rw [h1, Option.map_eq_some_iff] at hpr
  obtain ⟨o, ho, hpr⟩ := hpr
  rw [Option.map_eq_some_iff] at hpr
  obtain ⟨⟨n, q⟩, rfl, hq⟩ := hpr
  obtain ⟨rfl, rfl⟩ := Prod.mk.inj hq
  refine ⟨q, y, W, ho, hy, h4, ?_⟩
  rw [C102_honest_verdict hS hE henv h.tree.root hdb hist hb hr rnd id _ q ho]
  exact h5

/-! ## C103 -/

/-- Both models of `NewCommitment` on a vector with a last entry. -/
theorem newCommitment_split {S : ScalarLib} (hS : S.Lawful) (pp : Sum.PP G1) (a l : ℤ) (xs : List ℤ) (r : ℤ)
    (hGs : pp.Gs.length = xs.length + 2) : Raw.newCommitment S pp (a :: xs ++ [l]) r
      = if S.equals l (xs.foldl S.plus a) then some { V := res r • pp.F + dot (resV (a :: xs ++ [l])) pp.Gs } else none := by
  rw [Raw.newCommitment_raw hS]
  have hlen : pp.Gs.length = (resV (a :: xs ++ [l])).length := by rw [hGs]; simp
  obtain ⟨q1, q2⟩ := BP.gv_mulV_sum hlen rfl (by simp)
  rw [q1, Option.bind_some, q2, Option.bind_some]
  cases h : S.equals l (xs.foldl S.plus a) <;> simp [h]

/-- **C103**, the negation: with a library that adds without reducing, `NewCommitment` panics on a vector of reduced entries
whose last is the sum of the others, whatever the generators. -/
theorem C103_violated (pp : Sum.PP G1) (r : ℤ) : ∃ S : ScalarLib, S.Lawful ∧ ∃ v : List ℤ, v.length = 3 ∧ (∀ x ∈ v, Reduced x) ∧
    Balanced (resV v) ∧ Raw.newCommitment S pp v r = none := by
  refine ⟨lazyLib, lazyLib_lawful, [(order : ℤ) - 1, 1, 0], rfl, ?_, ?_, ?_⟩
  · intro x hx
    have := order_pos'
    have h1 : (1 : ℤ) < order := by unfold order; norm_num
    simp only [List.mem_cons, List.not_mem_nil, or_false] at hx
    rcases hx with rfl | rfl | rfl <;> exact ⟨by omega, by omega⟩
  · refine ⟨[res ((order : ℤ) - 1), res 1], res 0, by simp, ?_⟩
    simp [PoL.res]
  · rw [Raw.newCommitment_raw lazyLib_lawful]
    have h0 : ¬ (0 : ℤ) = order := order_pos'.ne
    cases Gv.mulV pp.Gs (resV [(order : ℤ) - 1, 1, 0]) with
    | none => rfl
    | some a =>
      rw [Option.bind_some]
      cases Gv.sum a with
      | none => rfl
      | some s => simp [lazyLib, h0]

/-- C103: with that library `NewCommitment` accepts exactly the vectors balanced as integers, reduced or not. -/
theorem C103_adding_without_reducing (pp : Sum.PP G1) (xs : List ℤ) (l r : ℤ) (hx : xs ≠ []) (hGs : pp.Gs.length = xs.length + 1) :
    Raw.newCommitment lazyLib pp (xs ++ [l]) r
      = if l = xs.sum then some { V := res r • pp.F + dot (resV (xs ++ [l])) pp.Gs } else none := by
  obtain ⟨a, t, rfl⟩ := List.exists_cons_of_ne_nil hx
  rw [newCommitment_split lazyLib_lawful pp a l t r (by simpa using hGs)]
  have : t.foldl lazyLib.plus a = (a :: t).sum := by
    have h : ∀ (t : List ℤ) (a : ℤ), t.foldl lazyLib.plus a = a + t.sum := by
      intro t
      induction t with
      | nil => simp
      | cons x t ih =>
        intro a
        rw [List.foldl_cons, ih, List.sum_cons]
        simp [lazyLib, add_assoc]
    rw [h, List.sum_cons]
  rw [this]
  simp [lazyLib]

/-- C103: with a library that reduces and compares residues, it accepts exactly the vectors balanced modulo the order. -/
theorem C103_adding_with_reducing (pp : Sum.PP G1) (xs : List ℤ) (l r : ℤ) (hx : xs ≠ []) (hGs : pp.Gs.length = xs.length + 1) :
    (Balanced (resV (xs ++ [l])) →
      Raw.newCommitment eagerLib pp (xs ++ [l]) r = some { V := res r • pp.F + dot (resV (xs ++ [l])) pp.Gs }) ∧
    (¬ Balanced (resV (xs ++ [l])) → Raw.newCommitment eagerLib pp (xs ++ [l]) r = none) := by
  obtain ⟨a, t, rfl⟩ := List.exists_cons_of_ne_nil hx
  rw [newCommitment_split eagerLib_lawful pp a l t r (by simpa using hGs)]
  have key : eagerLib.equals l (t.foldl eagerLib.plus a) = true ↔ Balanced (resV (a :: t ++ [l])) := by
    have h1 : eagerLib.equals l (t.foldl eagerLib.plus a) = true ↔ PoL.res l = (resV t).foldl (· + ·) (PoL.res a) := by
      rw [← Raw.res_foldl_plus eagerLib_lawful]
      simp [eagerLib]
    rw [h1, foldl_add_eq_sum]
    constructor
    · intro h
      exact ⟨resV (a :: t), PoL.res l, by simp, by rw [h]; simp⟩
    · rintro ⟨ys, s, e, hs⟩
      rw [resV, List.map_append, List.map_cons, List.map_cons, List.map_nil] at e
      obtain ⟨e1, e2⟩ := List.append_inj' e rfl
      rw [List.cons.injEq] at e2
      rw [e2.1, hs, ← e1, List.sum_cons]
  exact ⟨fun h => by rw [if_pos (key.2 h)], fun h => by rw [if_neg fun h' => h (key.1 h')]⟩

/-- **C103 (partial).** With any library: what `NewCommitment` commits to is balanced modulo the order, and the commitment is
`r·F + Σ v_i·Gs_i`.  Missing: that it does so for all balanced vectors, which is false. -/
theorem C103_accepted_is_balanced_partial {S : ScalarLib} (hS : S.Lawful) (pp : Sum.PP G1) (v : List ℤ) (hn : 2 ≤ v.length)
    (hGs : pp.Gs.length = v.length) (r : ℤ) (A : Sum.Argument G1) (h : Raw.newCommitment S pp v r = some A) :
    Balanced (resV v) ∧ A = { V := res r • pp.F + dot (resV v) pp.Gs } := by
  have := Raw.newCommitment_sound hS h
  have c := C21_new_commitment_iff_balanced pp (resV v) (by simpa using hn) (by simpa using hGs) (res r)
  by_cases hb : Balanced (resV v)
  · rw [c.1 hb] at this
    exact ⟨hb, (Option.some.inj this).symm⟩
  · rw [c.2 hb] at this
    cases this

/-- **C103 (partial).** With any library: on reduced vectors whose sum is below the order `NewCommitment` accepts exactly those
whose last entry is the sum of the others.  These are the sums of amounts that the rest of the code deals with. -/
theorem C103_small_sums_partial {S : ScalarLib} (hS : S.Lawful) (pp : Sum.PP G1) (xs : List ℤ) (l r : ℤ) (hx : xs ≠ [])
    (hGs : pp.Gs.length = xs.length + 1) (h0 : ∀ x ∈ xs, 0 ≤ x) (hs : xs.sum < order) (hl : Reduced l) :
    Raw.newCommitment S pp (xs ++ [l]) r
      = if l = xs.sum then some { V := res r • pp.F + dot (resV (xs ++ [l])) pp.Gs } else none := by
  obtain ⟨a, t, rfl⟩ := List.exists_cons_of_ne_nil hx
  rw [newCommitment_split hS pp a l t r (by simpa using hGs)]
  rw [List.sum_cons] at hs
  rw [Raw.foldl_plus_small hS t a (h0 a (by simp)) (fun x hx => h0 x (by simp [hx])) hs, List.sum_cons]
  have hr : Reduced (a + t.sum) := by
    have := List.sum_nonneg h0
    rw [List.sum_cons] at this
    exact ⟨this, hs⟩
  by_cases h : l = a + t.sum
  · rw [if_pos h, h, hS.equals_refl, if_pos rfl]
  · rw [if_neg h, Raw.equals_eq hS hl hr, if_neg]
    intro h'
    exact h (hl.eq_of_res hr (of_decide_eq_true h'))

section Examples

/-- The two libraries differ: one of them leaves a sum unreduced. -/
example : lazyLib.plus order 1 ≠ eagerLib.plus order 1 := by
  simp [lazyLib, eagerLib, order]

/-- With both libraries, four writes leave the same bytes, and the total of 42 is proved. -/
example : ∃ (ls ls' : LiabilitySet Zr Zr Zr) (tp : TotalProof Zr) (x : Raw.Vertex Zr),
    Raw.sets lazyLib toyCurve toyEnv ls toyHist = some ls' ∧ Raw.sets eagerLib toyCurve toyEnv ls toyHist = some ls' ∧
    Raw.proveTot lazyLib toyCurve ls' = some tp ∧ tp.sum = 42 ∧ Raw.totVerify toyCurve tp ls.pp x.V = some true := by
  obtain ⟨pp, hpp⟩ := toy_fits
  have h : NewSet toyCurve 2 3 3 (⟨toyTree, pp, [], ⟨fun _ => [], 0⟩⟩ : LiabilitySet Zr Zr Zr) := ⟨toyTree_new, hpp, rfl⟩
  have hb : Int64Amounts toyHist := by unfold Int64Amounts; decide
  have h42 : totalAmount (byPath toyTree.id2Path toyHist) = 42 := by decide
  obtain ⟨ls', tp, x, h1, h2, h3, -, h5⟩ := C102_total_proof lazyLib_lawful toyCurve_lawful toyEnv_lawful h (emptyDb_reduced _) toyHist
    (by decide) hb (by decide) toyHist_valid (by rw [h42]; norm_num)
  refine ⟨_, ls', tp, x, h1, ?_, h2, h3.trans h42, h5⟩
  rw [← (C102_same_database lazyLib_lawful eagerLib_lawful toyCurve_lawful toyEnv_lawful h.tree.root (emptyDb_reduced _) toyHist hb).1]
  exact h1

/-- With the library that does not reduce, the liability proof for `221` is accepted. -/
example : ∃ (ls ls' : LiabilitySet Zr Zr Zr) (lp : Raw.LiabilityProof Zr) (x : Raw.Vertex Zr) (W : Zr),
    Raw.sets lazyLib toyCurve toyEnv ls toyHist = some ls' ∧
    Raw.proveLiability lazyLib toyCurve toyEnv ls' toyRand ['2', '2', '1'] = some (some (7, lp)) ∧
    lp.verify lazyLib toyCurve ls.pp ['2', '2', '1'] x.V W ls.tree.id2Path = some true := by
  obtain ⟨pp, hpp⟩ := toy_fits
  have h : NewSet toyCurve 2 3 3 (⟨toyTree, pp, [], ⟨fun _ => [], 0⟩⟩ : LiabilitySet Zr Zr Zr) := ⟨toyTree_new, hpp, rfl⟩
  have hb : Int64Amounts toyHist := by unfold Int64Amounts; decide
  have h42 : totalAmount (byPath toyTree.id2Path toyHist) = 42 := by decide
  have h7 : latest (byPath toyTree.id2Path toyHist) [2, 2, 1] = 7 := by decide
  have hw : [2, 2, 1] ∈ (byPath toyTree.id2Path toyHist).map Prod.fst := by decide
  have ho : writesBelow (byPath toyTree.id2Path toyHist) [2, 2] = 1 := by decide
  obtain ⟨ls', tp, x, h1, -⟩ := C102_total_proof lazyLib_lawful toyCurve_lawful toyEnv_lawful h (emptyDb_reduced _) toyHist
    (by decide) hb (by decide) toyHist_valid (by rw [h42]; norm_num)
  obtain ⟨lp, x, W, p1, -, -, p4⟩ := C102_liability_proof lazyLib_lawful toyCurve_lawful toyEnv_lawful h (emptyDb_reduced _) toyHist hb
    toyHist_valid h1 (by rw [h42]; norm_num) ['2', '2', '1'] [2, 2, 1] rfl hw ho toyRand toyRand_sized
    (toy_challenges _ _ _)
  rw [h7] at p1
  exact ⟨_, ls', lp, x, W, h1, p1, p4⟩

/-- `C103_small_sums_partial` and `C103_adding_without_reducing` on `(3, 4, 7)` and on `(order - 1, 1, order)`. -/
example : ∃ pp : Sum.PP Zr, Raw.newCommitment lazyLib pp [3, 4, 7] 5 ≠ none ∧ Raw.newCommitment lazyLib pp [3, 4, 8] 5 = none ∧
    Raw.newCommitment lazyLib pp [(order : ℤ) - 1, 1, order] 5 ≠ none := by
  let pp : Sum.PP Zr := ⟨[], 1, [1, 2, 3], 1, 1, [4, 5, 6], [], 0⟩
  refine ⟨pp, ?_, ?_, ?_⟩
  · rw [show ([3, 4, 7] : List ℤ) = [3, 4] ++ [7] from rfl, C103_small_sums_partial lazyLib_lawful pp [3, 4] 7 5 (by simp) rfl (by decide)
      (by simp [order]) ⟨by norm_num, by unfold order; norm_num⟩, if_pos (by decide)]
    simp
  · rw [show ([3, 4, 8] : List ℤ) = [3, 4] ++ [8] from rfl, C103_small_sums_partial lazyLib_lawful pp [3, 4] 8 5 (by simp) rfl (by decide)
      (by simp [order]) ⟨by norm_num, by unfold order; norm_num⟩, if_neg (by decide)]
  · rw [show ([(order : ℤ) - 1, 1, order] : List ℤ) = [(order : ℤ) - 1, 1] ++ [(order : ℤ)] from rfl,
      C103_adding_without_reducing pp [(order : ℤ) - 1, 1] order 5 (by simp) rfl, if_pos (by simp)]
    simp

end Examples

end PoL.Props

import Verif.Proofs.ScheduleLink
import Verif.Props.Pol

/-!
# The goroutines of `Verify` and `ProveLiability` (C52, C53)

`lp.verify` and `ls.proveLiability` are the programs with `ParallelismEnabled = false`.  `MayReturn`, `MayCrash`,
`MayProve` and `MayLeaveNil` speak about the runs of the transition systems in `Verif/Model/Schedule.lean`: all orders in
which the goroutines can make their steps.
-/

set_option linter.unusedSectionVars false

namespace PoL.Props
open Spec Pol Verkle BP Sched

variable {G1 G2 GT : Type} [AddCommGroup G1] [Module Zr G1] [AddCommGroup G2] [Module Zr G2]
  [AddCommGroup GT] [Module Zr GT] [DecidableEq G1] [DecidableEq GT]

/-! ## C52: verification -/

theorem either_of_ite {β : Type} {c : Prop} [Decidable c] {a b r : β} (h : (if c then a else b) = r) : a = r ∨ b = r := by
  split at h
  · exact .inl h
  · exact .inr h

theorem obind_some_iff {α β : Type} {x : Option α} {f : α → Option β} {r : β} :
    (x >>= f) = some r ↔ ∃ a, x = some a ∧ f a = some r := Option.bind_eq_some_iff

/-- C52 for range proofs that do not share inner-product proofs, if the sequential `Verify` returns: the process does not
crash, `Verify` can return, and it returns the sequential verdict in every run.  What is missing: proofs on which the
sequential `Verify` panics, see `C52_returned` and `C52_violated`, and shared inner-product proofs. -/
theorem C52_same_verdict_partial (E : Curve G1 G2 GT) (lp : LiabilityProof G1) (pp : PublicParams G1 G2 GT) (id : Str)
    (V W : G1) (id2path : Str → Option (List ℕ)) (cell : ℕ → ℕ) (hcell : Function.Injective cell)
    (cells : ℕ → Zr × G1) (b : Bool) (h : lp.verify E pp id V W id2path = some b) :
    ¬ lp.MayCrash E pp id V W id2path cell cells ∧
    ∀ b', lp.MayReturn E pp id V W id2path cell cells b' ↔ b' = b := by
  rw [verify_eq E lp pp id V W id2path cell] at h
  obtain ⟨r, hr, h⟩ := obind_elim h
  unfold LiabilityProof.MayCrash LiabilityProof.MayReturn
  rw [hr]
  cases r with
  | none =>
    simp only [Option.pure_def, Option.some.injEq] at h
    exact ⟨fun hf => hf, fun b' => by rw [h]⟩
  | some path =>
    dsimp only at h ⊢
    have hinv : ∀ k s, (lp.prog E pp path cell).Steps k ((lp.prog E pp path cell).init cells) s →
        ∃ m, Inv (lp.prog E pp path cell) m s :=
      fun k s hs => inv_steps (Prog.shares_self hcell) hs ⟨0, inv_init _ _⟩
    have hnc : ∀ k s, (lp.prog E pp path cell).Steps k ((lp.prog E pp path cell).init cells) s → s.crashed = false := by
      intro k s hs
      obtain ⟨m, hm⟩ := hinv k s hs
      by_contra hc
      have := hm.crash (by simpa using hc)
      rw [h] at this
      simp at this
    have hret : ∀ k s b', (lp.prog E pp path cell).Steps k ((lp.prog E pp path cell).init cells) s →
        s.main = .returned b' → b' = b := by
      intro k s b' hs hb
      obtain ⟨m, hm⟩ := hinv k s hs
      have := hm.main
      unfold MOk at this
      rw [hb] at this
      rw [h] at this
      simpa [eq_comm] using this
    refine ⟨?_, fun b' => ⟨?_, ?_⟩⟩
    · rintro ⟨k, s, hs, hc⟩
      rw [hnc k s hs] at hc
      simp at hc
    · rintro ⟨k, s, hs, hb⟩
      exact hret k s b' hs hb
    · rintro rfl
      obtain ⟨k, t, ht, hst⟩ := exists_final (p := lp.prog E pp path cell) ((lp.prog E pp path cell).init cells)
      obtain ⟨m, hm⟩ := hinv k t ht
      obtain ⟨⟨b'', h1⟩, -⟩ := progress hm (hnc k t ht) hst
      have := hret k t b'' ht h1
      subst this
      exact ⟨k, t, ht, h1⟩

/-- C52: if `Verify` returns in some run, then the sequential verdict is the same, unless a range proof makes
`VerifyRange` panic, in which case the sequential `Verify` panics. -/
theorem C52_returned (E : Curve G1 G2 GT) (lp : LiabilityProof G1) (pp : PublicParams G1 G2 GT) (id : Str)
    (V W : G1) (id2path : Str → Option (List ℕ)) (cell : ℕ → ℕ) (hcell : Function.Injective cell)
    (cells : ℕ → Zr × G1) (b : Bool) (h : lp.MayReturn E pp id V W id2path cell cells b) :
    lp.verify E pp id V W id2path = some b ∨ (lp.verify E pp id V W id2path = none ∧
      ∃ (i : ℕ) (rp : RangeProof G1) (C : G1), lp.rangeProofs[i]? = some rp ∧ lp.V[i]? = some C ∧ verifyRange E pp.RPPP rp C = none) := by
  rw [verify_eq E lp pp id V W id2path cell]
  unfold LiabilityProof.MayReturn at h
  cases hf : lp.firstChecks id V W id2path with
  | none => rw [hf] at h; exact h.elim
  | some r =>
    rw [hf] at h
    cases r with
    | none => dsimp only at h; subst h; exact .inl rfl
    | some path =>
      obtain ⟨k, s, hs, hb⟩ := h
      obtain ⟨m, hm⟩ := inv_steps (Prog.shares_self hcell) hs ⟨0, inv_init _ _⟩
      have := hm.main
      unfold MOk at this
      rw [hb] at this
      rcases this with h1 | ⟨h1, i, hi, h2⟩
      · exact .inl h1
      · refine .inr ⟨h1, ?_⟩
        have hj := hm.jobs i hi
        obtain ⟨J, hJ⟩ := Option.isSome_iff_exists.1 hj
        unfold Prog.alone at h2
        rw [hJ, Option.bind_some] at h2
        dsimp only [LiabilityProof.prog] at hJ
        split_ifs at hJ
        obtain ⟨rp, hrp, hJ⟩ := obind_elim hJ
        obtain ⟨C, hC, hJ⟩ := obind_elim hJ
        simp only [Option.pure_def, Option.some.injEq] at hJ
        subst hJ
        exact ⟨i, rp, C, hrp, hC, by rw [verifyRange_eq]; exact h2⟩

/-- C52: every run of the goroutines is finite, with at most 20 steps per layer and 6 more; and a state in which no step
can be made is one in which the process has crashed, or `Verify` has returned and all goroutines it started have ended. -/
theorem C52_no_deadlock (E : Curve G1 G2 GT) (lp : LiabilityProof G1) (pp : PublicParams G1 G2 GT) (path : List ℕ)
    (cell : ℕ → ℕ) (hcell : Function.Injective cell) (cells : ℕ → Zr × G1) (k : ℕ) (s : St Zr G1)
    (h : (lp.prog E pp path cell).Steps k ((lp.prog E pp path cell).init cells) s) :
    k ≤ 20 * path.length + 6 ∧
    ((∀ s', ¬ (lp.prog E pp path cell).Step s s') → s.crashed = true ∨
      ((∃ b, s.main = .returned b) ∧ ∀ i, s.pcs i = .idle ∨ s.pcs i = .gone)) := by
  constructor
  · have := weight_steps h
    rw [weight_init] at this
    have : (lp.prog E pp path cell).n = path.length := rfl
    omega
  · intro hst
    cases hc : s.crashed with
    | true => exact .inl rfl
    | false =>
      obtain ⟨m, hm⟩ := inv_steps (Prog.shares_self hcell) h ⟨0, inv_init _ _⟩
      exact .inr (progress hm hc hst)

theorem seqLoop_true {C P : Type} (p : Prog C P) : ∀ (rest i : ℕ) (err : Bool),
    p.seqLoop i rest err = some (some false) → ∀ j, i ≤ j → j < i + rest →
      p.alone j = some true ∧ p.check j = some true := by
  intro rest
  induction rest with
  | zero => intro i err _ j h1 h2; omega
  | succ rest ih =>
    intro i err h j h1 h2
    have herr : ∀ (rest i : ℕ), p.seqLoop i rest true ≠ some (some false) := by
      intro rest
      induction rest with
      | zero => intro i h; simp [Prog.seqLoop] at h
      | succ rest ih =>
        intro i h
        rw [Prog.seqLoop] at h
        obtain ⟨J, -, h⟩ := obind_elim h
        obtain ⟨ok, -, h⟩ := obind_elim h
        obtain ⟨c, -, h⟩ := obind_elim h
        cases c with
        | false => simp at h
        | true => exact ih _ (by simpa using h)
    rw [Prog.seqLoop] at h
    obtain ⟨J, hJ, h⟩ := obind_elim h
    obtain ⟨ok, hok, h⟩ := obind_elim h
    obtain ⟨c, hc, h⟩ := obind_elim h
    cases c with
    | false => simp at h
    | true =>
      simp only [Bool.not_true, Bool.false_eq_true, if_false] at h
      rcases Nat.eq_or_lt_of_le h1 with rfl | h1
      · refine ⟨?_, hc⟩
        unfold Prog.alone
        rw [hJ, Option.bind_some, hok]
        cases ok with
        | true => rfl
        | false => exact absurd h (by simpa using herr rest (i + 1))
      · exact ih _ _ h j (by omega) (by omega)

/-- A range proof without reduction steps makes `VerifyRange` panic. -/
theorem verifyRange_short (E : Curve G1 G2 GT) (pp : RPPP G1) (rp : RangeProof G1) (V : G1) (h : 2 ≤ pp.Gs.length) :
    verifyRange E pp { rp with Δ := [] } V = none := by
  rw [verifyRange_eq, job_alone]
  have : rangeJob E pp { rp with Δ := [] } V = none := by
    unfold rangeJob
    cases h1 : rangeProofRO1 E pp V rp.W rp.Q with
    | none => rfl
    | some x =>
      refine Eq.trans (obind_step rfl rfl) ?_
      cases h2 : rangeRdxPP E pp with
      | none => rfl
      | some ppRdx =>
        refine Eq.trans (obind_step rfl rfl) ?_
        have hG : ppRdx.G = pp.Gs := by
          unfold rangeRdxPP setupDigest at h2
          obtain ⟨u, -, h2⟩ := obind_elim h2
          obtain ⟨dg, -, h2⟩ := obind_elim h2
          simp only [Option.pure_def, Option.some.injEq] at h2
          rw [← h2]
        have : iterativeVerify E ppRdx (rp.γ • pp.F + V + x • rp.W) [] rp.u = none := by
          unfold iterativeVerify
          dsimp only
          cases isPowerOfTwo (UInt16.ofNat ppRdx.G.length) with
          | none => rfl
          | some b =>
            cases b with
            | false => rfl
            | true =>
              refine Eq.trans (obind_step rfl rfl) ?_
              simp only [Bool.not_true, Bool.false_eq_true, if_false]
              rw [iterVerifyLoop, dif_neg (by rw [hG]; omega)]
        rw [this]
        rfl
  rw [this]
  rfl

/-- C52 fails: take an accepted proof and cut the reduction steps out of one of its range proofs.  The sequential
`Verify` panics, but there is a run in which the parallel `Verify` returns a `nil` error: the deferred `Done` of the
panicking goroutine lets the main goroutine pass `Wait` before the panic ends the process. -/
theorem C52_violated (E : Curve G1 G2 GT) (lp : LiabilityProof G1) (pp : PublicParams G1 G2 GT) (id : Str)
    (V W : G1) (id2path : Str → Option (List ℕ)) (h : lp.verify E pp id V W id2path = some true)
    (hGs : 2 ≤ pp.RPPP.Gs.length) (path : List ℕ) (hpath : id2path id = some path) (i : ℕ) (hi : i < path.length)
    (rp : RangeProof G1) (hrp : lp.rangeProofs[i]? = some rp) (cell : ℕ → ℕ) (cells : ℕ → Zr × G1) :
    let lp' := { lp with rangeProofs := lp.rangeProofs.set i { rp with Δ := [] } }
    lp'.verify E pp id V W id2path = none ∧ lp'.MayReturn E pp id V W id2path cell cells true := by
  intro lp'
  have hlen : i < lp.rangeProofs.length := by
    by_contra hc
    rw [List.getElem?_eq_none (by omega)] at hrp
    simp at hrp
  have hfc : lp'.firstChecks id V W id2path = lp.firstChecks id V W id2path := rfl
  rw [verify_eq E lp pp id V W id2path cell] at h
  obtain ⟨r, hr, h⟩ := obind_elim h
  cases r with
  | none => simp at h
  | some path' =>
    have hpp : path' = path := by
      unfold LiabilityProof.firstChecks at hr
      rw [hpath] at hr
      simp only [Option.bind_eq_bind, Option.bind_some] at hr
      rw [if_neg] at hr
      · obtain ⟨C, -, hr⟩ := obind_elim hr
        rcases either_of_ite hr with hr | hr
        · simp at hr
        · obtain ⟨D, -, hr⟩ := obind_elim hr
          rcases either_of_ite hr with hr | hr
          · simp at hr
          · simpa [eq_comm] using hr
      · intro hc; rw [if_pos hc] at hr; simp at hr
    subst hpp
    dsimp only at h
    unfold Prog.seq at h
    obtain ⟨l, hl, h⟩ := obind_elim h
    cases l with
    | none => simp at h
    | some err =>
      obtain ⟨mid, hmid, h⟩ := obind_elim h
      cases mid with
      | false => simp at h
      | true =>
      cases err with
      | true => simp at h
      | false =>
        have hfin : (lp.prog E pp path' cell).fin = some true := by simpa using h
        have hall := seqLoop_true _ _ _ _ hl
        have hchk : ∀ j < path'.length, (lp.prog E pp path' cell).check j = some true :=
          fun j hj => (hall j (Nat.zero_le _) (by rw [Nat.zero_add]; exact hj)).2
        have hal : ∀ j < path'.length, (lp.prog E pp path' cell).alone j = some true :=
          fun j hj => (hall j (Nat.zero_le _) (by rw [Nat.zero_add]; exact hj)).1
        -- the jobs of the other proof
        have hother : ∀ j, j ≠ i → (lp'.prog E pp path' cell).job j = (lp.prog E pp path' cell).job j := by
          intro j hj
          show (if _ then none else _) = (if _ then none else _)
          show (if j + 1 < path'.length ∧ lp.V.length ≤ j + 1 then none else (do
            return verifyRangeJob E pp.RPPP (← (lp.rangeProofs.set i { rp with Δ := [] })[j]?) (← lp.V[j]?))) = _
          rw [List.getElem?_set_ne (Ne.symm hj)]
        have hthis : ∃ C, (lp'.prog E pp path' cell).job i = some (verifyRangeJob E pp.RPPP { rp with Δ := [] } C) := by
          have h1 := hal i hi
          unfold Prog.alone at h1
          obtain ⟨J, hJ, -⟩ := Option.bind_eq_some_iff.1 h1
          dsimp only [LiabilityProof.prog] at hJ
          split_ifs at hJ with hc
          obtain ⟨rp', -, hJ⟩ := obind_elim hJ
          obtain ⟨C, hC, hJ⟩ := obind_elim hJ
          refine ⟨C, ?_⟩
          show (if i + 1 < path'.length ∧ lp.V.length ≤ i + 1 then none else (do
            return verifyRangeJob E pp.RPPP (← (lp.rangeProofs.set i { rp with Δ := [] })[i]?) (← lp.V[i]?))) = _
          rw [if_neg hc, List.getElem?_set_self hlen, hC]
          rfl
        have hpanic : (lp'.prog E pp path' cell).alone i = none := by
          obtain ⟨C, hC⟩ := hthis
          unfold Prog.alone
          rw [hC, Option.bind_some, ← verifyRange_eq]
          exact verifyRange_short E pp.RPPP rp C hGs
        constructor
        · rw [verify_eq E lp' pp id V W id2path cell, hfc, hr]
          exact seq_none_of_job path'.length le_rfl (fun j hj => hchk j (by omega)) ⟨i, hi, hpanic⟩
        · unfold LiabilityProof.MayReturn
          rw [hfc, hr]
          refine run_true (p := lp'.prog E pp path' cell) ?_ ?_ hchk hmid hfin cells
          · intro j hj
            by_cases hji : j = i
            · obtain ⟨C, hC⟩ := hthis
              rw [hji, hC]; rfl
            · rw [hother j hji]
              have := hal j hj
              unfold Prog.alone at this
              obtain ⟨J, hJ, -⟩ := Option.bind_eq_some_iff.1 this
              rw [hJ]; rfl
          · intro j hj
            by_cases hji : j = i
            · rw [hji, hpanic]; simp
            · unfold Prog.alone
              rw [hother j hji]
              have := hal j hj
              unfold Prog.alone at this
              rw [this]; simp

/-! ## C53: proving -/

/-- C53: in every run, when `ProveLiability` has returned, the range proof at each index `i` is the one that goroutine
`i` made from vertex `i`: it is there unless `ProveRange` panicked on that vertex. -/
theorem C53_range_proofs_in_place (E : Curve G1 G2 GT) (ls : LiabilitySet G1 G2 GT) (rnd : ProveRand) (path : List ℕ)
    (vs : List (Verkle.Vertex G1)) (k : ℕ) (s : PSt (RangeProof G1))
    (h : (ls.prover E rnd path vs).Steps k (ls.prover E rnd path vs).init s) (hr : s.main = .returned) (i : ℕ)
    (hi : i < path.length) :
    ∃ v, vs[i]? = some v ∧ s.slots i =
      proveRange E ls.pp.RPPP (rnd.range i) v.V (v.valuesVec (ls.tree.fanOut + 1)) v.blindingFactor := by
  obtain ⟨m, hm⟩ := pinv_steps h ⟨0, pinv_init _⟩
  have hmain := hm.main
  unfold PMOk at hmain
  rw [hr] at hmain
  obtain ⟨-, hb, -, -, hfin⟩ := hmain
  have hb := hb i hi
  simp only [LiabilitySet.prover, decide_eq_true_eq] at hb
  obtain ⟨v, hv⟩ : ∃ v, vs[i]? = some v := ⟨_, List.getElem?_eq_getElem hb.1⟩
  refine ⟨v, hv, ?_⟩
  have hres : (ls.prover E rnd path vs).result i
      = proveRange E ls.pp.RPPP (rnd.range i) v.V (v.valuesVec (ls.tree.fanOut + 1)) v.blindingFactor := by
    show rangeProofOf E ls rnd vs i = _
    unfold rangeProofOf
    rw [hv]; rfl
  rw [← hres]
  have hg := hm.gos i
  have hf := hfin i hi
  unfold PGOk at hg
  cases hpc : s.pcs i with
  | dying => rw [hpc] at hg; rw [hg.1]; exact hg.2
  | gone => rw [hpc] at hg; exact hg.2
  | _ => rw [hpc] at hf; simp [PPc.fin] at hf

theorem mapM_range_some {α : Type} (f : ℕ → Option α) (n : ℕ) (h : ∀ i < n, (f i).isSome) :
    ∃ l, (List.range n).mapM f = some l := by
  obtain ⟨g, hg⟩ : ∃ g : ℕ → Option α, g = f := ⟨f, rfl⟩
  have : ∀ l : List ℕ, (∀ i ∈ l, (f i).isSome) → ∃ r, l.mapM f = some r := by
    intro l
    induction l with
    | nil => intro _; exact ⟨[], rfl⟩
    | cons a l ih =>
      intro hl
      obtain ⟨r, hr⟩ := ih (fun i hi => hl i (by simp [hi]))
      obtain ⟨b, hb⟩ := Option.isSome_iff_exists.1 (hl a (by simp))
      exact ⟨b :: r, by simp [List.mapM_cons, hb, hr]⟩
  exact this _ (by simpa using h)

/-- C53: `ProveLiability` returns with all range proofs there exactly what the sequential program returns. -/
theorem C53_same_proof (E : Curve G1 G2 GT) (env : Env) (ls : LiabilitySet G1 G2 GT) (rnd : ProveRand) (id : Str) (l : ℤ)
    (lp : LiabilityProof G1) :
    ls.MayProve E env rnd id l lp ↔ ls.proveLiability E env rnd id = some (some (l, lp)) := by
  rw [proveLiability_iff]
  constructor
  · rintro ⟨path, x, vs, layers, f, rps, k, s, hp, hg, h0, hs, hr, hlen, hsl, hl, hf, he⟩
    refine ⟨path, x, vs, layers, f, rps, hp, hg, h0, hl, ?_, hf, he⟩
    have hres : ∀ i < path.length, rangeProofOf E ls rnd vs i = rps[i]? := by
      intro i hi
      obtain ⟨v, hv, h1⟩ := C53_range_proofs_in_place E ls rnd path vs k s hs hr i hi
      rw [← hsl i hi, h1]
      unfold rangeProofOf
      rw [hv]; rfl
    obtain ⟨r, hr'⟩ := mapM_range_some (fun i => rangeProofOf E ls rnd vs i) path.length (by
      intro i hi
      rw [hres i hi, List.getElem?_eq_getElem (by omega)]
      rfl)
    rw [hr']
    congr 1
    apply List.ext_getElem?
    intro i
    by_cases hi : i < path.length
    · rw [← hres i hi]
      have := mapM_getElem _ _ _ hr' i i (by simp [hi])
      exact this.symm
    · have := mapM_length _ _ _ hr'
      rw [List.length_range] at this
      rw [List.getElem?_eq_none (by omega), List.getElem?_eq_none (by omega)]
  · rintro ⟨path, x, vs, layers, f, rps, hp, hg, h0, hl, hrp, hf, he⟩
    have hlen := mapM_length _ _ _ hrp
    rw [List.length_range] at hlen
    have hlen' := mapM_length _ _ _ hl
    rw [List.length_range] at hlen'
    have hml : ∀ i < path.length, (mainLayer ls path vs i).isSome := by
      intro i hi
      have := mapM_getElem _ _ _ hl i i (by simp [hi])
      rw [this, List.getElem?_eq_getElem (by omega)]
      rfl
    have hvs : ∀ i < path.length, i < vs.length := by
      intro i hi
      by_contra hc
      have := hml i hi
      unfold mainLayer at this
      rw [List.getElem?_eq_none (by omega)] at this
      simp at this
    obtain ⟨k, s, hs, hr⟩ := prun_returned (p := ls.prover E rnd path vs)
      (by intro i hi
          simp only [LiabilitySet.prover, decide_eq_true_eq]
          exact ⟨hvs i hi, fun h => hvs _ h⟩)
      (by intro i hi; exact hml i hi)
      (by show Option.isSome _ = true
          rw [hl]
          exact Option.isSome_iff_exists.2 ⟨f, hf⟩)
    refine ⟨path, x, vs, layers, f, rps, k, s, hp, hg, h0, hs, hr, hlen, ?_, hl, hf, he⟩
    intro i hi
    obtain ⟨v, hv, h1⟩ := C53_range_proofs_in_place E ls rnd path vs k s hs hr i hi
    have := mapM_getElem _ _ _ hrp i i (by simp [hi])
    rw [h1, ← this]
    unfold rangeProofOf
    rw [hv]; rfl

/-- C53: if the sequential `ProveLiability` returns, then in no run does the process crash or stop before the function has
returned, and every run is finite; the function returns with all range proofs there.  What is missing: calls on which
`ProveRange` panics, see `C53_panic_leaves_nil`. -/
theorem C53_all_runs_return_partial (E : Curve G1 G2 GT) (env : Env) (ls : LiabilitySet G1 G2 GT) (rnd : ProveRand)
    (id : Str) (l : ℤ) (lp : LiabilityProof G1) (h : ls.proveLiability E env rnd id = some (some (l, lp))) :
    ∃ path x vs, ls.tree.id2Path id = some path ∧ ls.tree.get E env id ls.s.db = some (some (x, vs)) ∧
      lp.rangeProofs.length = path.length ∧
      ∀ k s, (ls.prover E rnd path vs).Steps k (ls.prover E rnd path vs).init s →
        s.crashed = false ∧ k ≤ 16 * path.length + 4 ∧
        (s.main = .returned → ∀ i < path.length, s.slots i = lp.rangeProofs[i]?) ∧
        ((∀ s', ¬ (ls.prover E rnd path vs).Step s s') →
          s.main = .returned ∧ ∀ i, s.pcs i = .idle ∨ s.pcs i = .gone) := by
  obtain ⟨path, x, vs, layers, f, rps, hp, hg, h0, hl, hrp, hf, he⟩ := (proveLiability_iff E env ls rnd id l lp).1 h
  have hlen := mapM_length _ _ _ hrp
  rw [List.length_range] at hlen
  have hlen' := mapM_length _ _ _ hl
  rw [List.length_range] at hlen'
  have hml : ∀ i < path.length, (mainLayer ls path vs i).isSome := by
    intro i hi
    have := mapM_getElem _ _ _ hl i i (by simp [hi])
    rw [this, List.getElem?_eq_getElem (by omega)]
    rfl
  have hvs : ∀ i < path.length, i < vs.length := by
    intro i hi
    by_contra hc
    have := hml i hi
    unfold mainLayer at this
    rw [List.getElem?_eq_none (by omega)] at this
    simp at this
  have hres : ∀ i < path.length, rangeProofOf E ls rnd vs i = rps[i]? := fun i hi =>
    mapM_getElem _ _ _ hrp i i (by simp [hi])
  have hlp : lp.rangeProofs = rps := by
    unfold mainRest at hf
    obtain ⟨_, -, hf⟩ := obind_elim hf
    obtain ⟨_, -, hf⟩ := obind_elim hf
    obtain ⟨_, -, hf⟩ := obind_elim hf
    obtain ⟨_, -, hf⟩ := obind_elim hf
    obtain ⟨_, -, hf⟩ := obind_elim hf
    obtain ⟨_, -, hf⟩ := obind_elim hf
    obtain ⟨_, -, hf⟩ := obind_elim hf
    obtain ⟨_, -, hf⟩ := obind_elim hf
    obtain ⟨_, -, hf⟩ := obind_elim hf
    obtain ⟨_, -, hf⟩ := obind_elim hf
    obtain ⟨_, -, hf⟩ := obind_elim hf
    obtain ⟨_, -, hf⟩ := obind_elim hf
    simp only [Option.pure_def, Option.some.injEq] at hf
    subst hf
    simp only [Prod.mk.injEq] at he
    rw [← he.2]
  have hgood : (ls.prover E rnd path vs).Good := by
    refine ⟨?_, ?_, ?_, ?_⟩
    · intro i hi
      show (rangeProofOf E ls rnd vs i).isSome = true
      have hi' : i < path.length := hi
      rw [hres i hi', List.getElem?_eq_getElem (by omega)]
      rfl
    · intro i hi
      simp only [LiabilitySet.prover, decide_eq_true_eq]
      exact ⟨hvs i hi, fun h => hvs _ h⟩
    · intro i hi; exact hml i hi
    · show Option.isSome _ = true
      rw [hl]
      exact Option.isSome_iff_exists.2 ⟨f, hf⟩
  refine ⟨path, x, vs, hp, hg, by rw [hlp, hlen], ?_⟩
  intro k s hs
  obtain ⟨m, hm⟩ := pinv_steps hs ⟨0, pinv_init _⟩
  have hnc : s.crashed = false := by
    by_contra hc
    exact hm.crash (by simpa using hc) hgood
  refine ⟨hnc, ?_, ?_, ?_⟩
  · have := pWeight_steps hs
    rw [pWeight_init] at this
    have : (ls.prover E rnd path vs).n = path.length := rfl
    omega
  · intro hr i hi
    obtain ⟨v, hv, h1⟩ := C53_range_proofs_in_place E ls rnd path vs k s hs hr i hi
    rw [hlp, ← hres i hi, h1]
    unfold rangeProofOf
    rw [hv]; rfl
  · exact pprogress hm hnc

/-- C53 does not hold when a `ProveRange` panics and the code of the main goroutine does not: there is a run in which
`ProveLiability` returns a proof whose range proof at that index is `nil`. -/
theorem C53_panic_leaves_nil (E : Curve G1 G2 GT) (env : Env) (ls : LiabilitySet G1 G2 GT) (rnd : ProveRand) (id : Str)
    (path : List ℕ) (x : ℤ) (vs : List (Verkle.Vertex G1)) (hp : ls.tree.id2Path id = some path)
    (hg : ls.tree.get E env id ls.s.db = some (some (x, vs))) (hlen : path.length ≤ vs.length) (layers : List _)
    (hl : (List.range path.length).mapM (fun i => mainLayer ls path vs i) = some layers) (f : _)
    (hf : mainRest E ls rnd path layers = some f) (i : ℕ) (hi : i < path.length) (v : Verkle.Vertex G1)
    (hv : vs[i]? = some v)
    (hpanic : proveRange E ls.pp.RPPP (rnd.range i) v.V (v.valuesVec (ls.tree.fanOut + 1)) v.blindingFactor = none) :
    ls.MayLeaveNil E env rnd id i := by
  have hlen' := mapM_length _ _ _ hl
  rw [List.length_range] at hlen'
  obtain ⟨k, s, hs, hr⟩ := prun_returned (p := ls.prover E rnd path vs)
    (by intro i hi
        have hi : i < path.length := hi
        simp only [LiabilitySet.prover, decide_eq_true_eq]
        exact ⟨by omega, fun h => by omega⟩)
    (by intro i hi
        have hi : i < path.length := hi
        show (mainLayer ls path vs i).isSome = true
        have := mapM_getElem _ _ _ hl i i (by simp [hi])
        rw [this, List.getElem?_eq_getElem (by omega)]
        rfl)
    (by show Option.isSome _ = true
        rw [hl]
        exact Option.isSome_iff_exists.2 ⟨f, hf⟩)
  refine ⟨path, x, vs, k, s, hp, hg, by omega, hs, hr, hi, ?_⟩
  obtain ⟨v', hv', h1⟩ := C53_range_proofs_in_place E ls rnd path vs k s hs hr i hi
  rw [hv, Option.some.injEq] at hv'
  subst hv'
  rw [h1, hpanic]

/-! ## The hypotheses can be met: a proof from the set of fan-out 3 over the toy curve -/

section Examples

/-- A proof made and accepted. -/
theorem toy_accepted : ∃ (ls ls' : LiabilitySet Zr Zr Zr) (lp : LiabilityProof Zr) (V W : Zr),
    Fits toyCurve 2 3 3 ls.pp ∧ ls.tree = toyTree ∧ ls.sets toyCurve toyEnv toyHist = some ls' ∧
    ls'.proveLiability toyCurve toyEnv toyRand ['2', '2', '1'] = some (some (7, lp)) ∧
    lp.verify toyCurve ls.pp ['2', '2', '1'] V W ls.tree.id2Path = some true := by
  obtain ⟨ls, h, ht⟩ := toy_set
  have hids : ValidIds ls.tree.id2Path 3 3 toyHist := by rw [ht]; exact toyHist_valid
  have h42 : totalAmount (byPath ls.tree.id2Path toyHist) = 42 := by rw [ht]; decide
  have h7 : latest (byPath ls.tree.id2Path toyHist) [2, 2, 1] = 7 := by rw [ht]; decide
  obtain ⟨ls', hs⟩ := C43_sets_return toyCurve_lawful toyEnv_lawful h toyHist hids (by decide)
  obtain ⟨lp, x, W, h1, h2, -, -, h4⟩ := C47_liability_proof_verifies_partial toyCurve_lawful toyEnv_lawful h toyHist hids hs
    (by rw [h42]; norm_num) ['2', '2', '1'] [2, 2, 1] (by rw [ht]; rfl) (by rw [ht]; decide) (by rw [ht]; decide) toyRand
    toyRand_sized (toy_challenges _ _ _)
  rw [h7] at h1
  exact ⟨ls, ls', lp, x.V, W, h.pp, ht, hs, h1, h4⟩

/-- In every run this proof is accepted. -/
example : ∃ (pp : PublicParams Zr Zr Zr) (lp : LiabilityProof Zr) (id2path : Str → Option (List ℕ)) (V W : Zr),
    ∀ cells b, lp.MayReturn toyCurve pp ['2', '2', '1'] V W id2path id cells b ↔ b = true := by
  obtain ⟨ls, ls', lp, V, W, -, -, -, -, h⟩ := toy_accepted
  exact ⟨ls.pp, lp, _, V, W, fun cells =>
    (C52_same_verdict_partial _ lp _ _ V W _ id Function.injective_id cells true h).2⟩

/-- `C52_violated` applies to it: with a range proof cut short, `Verify` panics or returns a `nil` error, depending on
the run. -/
example : ∃ (pp : PublicParams Zr Zr Zr) (lp : LiabilityProof Zr) (id2path : Str → Option (List ℕ)) (V W : Zr),
    lp.verify toyCurve pp ['2', '2', '1'] V W id2path = none ∧
    ∀ cells, lp.MayReturn toyCurve pp ['2', '2', '1'] V W id2path id cells true := by
  obtain ⟨ls, ls', lp, V, W, hf, ht, -, -, h⟩ := toy_accepted
  obtain ⟨path, hp, hacc⟩ := (verify_iff toyCurve lp ls.pp _ V W _).1 h
  have hpath : path = [2, 2, 1] := by
    rw [ht] at hp
    have : toyTree.id2Path ['2', '2', '1'] = some [2, 2, 1] := rfl
    rw [this] at hp
    simpa [eq_comm] using hp
  subst hpath
  obtain ⟨rp, C, hrp, -, -⟩ := hacc.range_proofs 1 (by decide)
  have hGs : 2 ≤ ls.pp.RPPP.Gs.length := by
    rw [hf.rp_Gs, hf.PPPP, List.length_take, PoL.PP.new_G1s_length _ _ _ (by norm_num)]
    norm_num
  have := fun cells => C52_violated toyCurve lp ls.pp _ V W _ h hGs _ hp 1 (by decide) rp hrp id cells
  exact ⟨ls.pp, _, _, V, W, (this fun _ => (0, 0)).1, fun cells => (this cells).2⟩

/-- The parallel `ProveLiability` gives the same proof. -/
example : ∃ (ls' : LiabilitySet Zr Zr Zr) (lp : LiabilityProof Zr),
    ls'.MayProve toyCurve toyEnv toyRand ['2', '2', '1'] 7 lp ∧
    ∀ l lp', ls'.MayProve toyCurve toyEnv toyRand ['2', '2', '1'] l lp' → l = 7 ∧ lp' = lp := by
  obtain ⟨ls, ls', lp, V, W, -, -, -, h, -⟩ := toy_accepted
  refine ⟨ls', lp, (C53_same_proof _ _ _ _ _ _ _).2 h, ?_⟩
  intro l lp' h'
  have := (C53_same_proof _ _ _ _ _ _ _).1 h'
  rw [h] at this
  simpa [eq_comm] using this

end Examples

end PoL.Props

import Verif.Proofs.ManyVerify
import Verif.Props.Schedule

/-!
# C134: several callers verify at once

`ManySteps` speaks about all orders in which the goroutines of several calls of `Verify` can make their steps
(`Verif/Model/ManyVerify.lean`).
-/

set_option linter.unusedSectionVars false

namespace PoL.Props
open Spec Pol Verkle BP Sched

variable {G1 G2 GT : Type} [AddCommGroup G1] [Module Zr G1] [AddCommGroup G2] [Module Zr G2]
  [AddCommGroup GT] [Module Zr GT] [DecidableEq G1] [DecidableEq GT]

/-- What a goroutine of `Verify` writes is made of the range proof, the commitment and the parameters. -/
theorem prog_shares (E : Curve G1 G2 GT) (pp : PublicParams G1 G2 GT) (lp lp' : LiabilityProof G1) (path path' : List ℕ)
    (cell cell' : ℕ → ℕ) (h : ∀ i < path.length, ∀ j < path'.length, cell i = cell' j →
      lp.rangeProofs[i]? = lp'.rangeProofs[j]? ∧ lp.V[i]? = lp'.V[j]?) :
    (lp.prog E pp path cell).Shares (lp'.prog E pp path' cell') := by
  have key : ∀ (lp : LiabilityProof G1) (path : List ℕ) (cell : ℕ → ℕ) (i : ℕ) (v : Zr × G1),
      ((lp.prog E pp path cell).job i).map Job.pre = some (some (some v)) →
      ∃ (rp : RangeProof G1) (C : G1), lp.rangeProofs[i]? = some rp ∧ lp.V[i]? = some C ∧
        (verifyRangeJob E pp.RPPP rp C).pre = some (some v) := by
    intro lp path cell i v hv
    obtain ⟨J, hJ, hv⟩ := Option.map_eq_some_iff.1 hv
    dsimp only [LiabilityProof.prog] at hJ
    split_ifs at hJ
    obtain ⟨rp, hrp, hJ⟩ := obind_elim hJ
    obtain ⟨C, hC, hJ⟩ := obind_elim hJ
    simp only [Option.pure_def, Option.some.injEq] at hJ
    subst hJ
    exact ⟨rp, C, hrp, hC, hv⟩
  intro i j hi hj hij v w hv hw
  obtain ⟨h1, h2⟩ := h i hi j hj hij
  obtain ⟨rp, C, e1, e2, e3⟩ := key _ _ _ _ _ hv
  obtain ⟨rp', C', f1, f2, f3⟩ := key _ _ _ _ _ hw
  rw [e1, f1, Option.some.injEq] at h1
  rw [e2, f2, Option.some.injEq] at h2
  subst h1
  subst h2
  rw [e3] at f3
  simpa using f3

/-- C134: any number of calls of `Verify` run at once, each for a proof of its own or the same as others, for any identifiers and
roots, with the same parameters.  `cell c i` says which inner-product proof in memory the range proof `i` of call `c` has; where
it is the same, so are the range proof and its commitment.  If each call, alone and without goroutines, returns, then nothing
panics in any run; every run is finite; a call that has returned has returned what it returns alone; and when no step can be made
any more, all calls have returned and all goroutines have ended. -/
theorem C134_same_verdicts (E : Curve G1 G2 GT) (pp : PublicParams G1 G2 GT) (n : ℕ) (lp : ℕ → LiabilityProof G1)
    (id : ℕ → Str) (V W : ℕ → G1) (id2path : ℕ → Str → Option (List ℕ)) (path : ℕ → List ℕ) (cell : ℕ → ℕ → ℕ)
    (hcell : ∀ c < n, ∀ d < n, ∀ i < (path c).length, ∀ j < (path d).length, cell c i = cell d j →
      (lp c).rangeProofs[i]? = (lp d).rangeProofs[j]? ∧ (lp c).V[i]? = (lp d).V[j]?)
    (hfirst : ∀ c < n, (lp c).firstChecks (id c) (V c) (W c) (id2path c) = some (some (path c))) (b : ℕ → Bool)
    (hv : ∀ c < n, (lp c).verify E pp (id c) (V c) (W c) (id2path c) = some (b c)) (cells : ℕ → Zr × G1) (k : ℕ)
    (S : Many Zr G1)
    (hs : ManySteps n (fun c => (lp c).prog E pp (path c) (cell c)) k
      (manyInit (fun c => (lp c).prog E pp (path c) (cell c)) cells) S) :
    S.crashed = false ∧ k ≤ ∑ c ∈ Finset.range n, (20 * (path c).length + 6) ∧
    (∀ c < n, ∀ b', (S.calls c).main = .returned b' → b' = b c) ∧
    ((∀ S', ¬ ManyStep n (fun c => (lp c).prog E pp (path c) (cell c)) S S') → ∀ c < n,
      (S.calls c).main = .returned (b c) ∧ ∀ i, (S.calls c).pcs i = .idle ∨ (S.calls c).pcs i = .gone) := by
  have hinv := manyInv_steps (fun c hc d hd => prog_shares E pp (lp c) (lp d) (path c) (path d) (cell c) (cell d)
    (hcell c hc d hd)) hs (manyInv_init n _ cells)
  have hseq : ∀ c < n, ((lp c).prog E pp (path c) (cell c)).seq = some (b c) := by
    intro c hc
    have h := hv c hc
    rw [verify_eq E (lp c) pp (id c) (V c) (W c) (id2path c) (cell c), hfirst c hc] at h
    exact h
  have hcr : S.crashed = false := by
    by_contra hcr
    obtain ⟨c, hc, h⟩ := hinv.crash (by simpa using hcr)
    rw [hseq c hc] at h
    simp at h
  have hret : ∀ c < n, ∀ b', (S.calls c).main = .returned b' → b' = b c := by
    intro c hc b' hb
    obtain ⟨m, hm⟩ := hinv.each c hc
    have := hm.main
    unfold MOk at this
    dsimp only at this
    rw [hb] at this
    dsimp only at this
    rw [hseq c hc] at this
    simpa [eq_comm] using this
  refine ⟨hcr, ?_, hret, ?_⟩
  · have h1 := manyWeight_steps hs
    rw [manyWeight_init] at h1
    have h2 : ∑ c ∈ Finset.range n, (20 * ((lp c).prog E pp (path c) (cell c)).n + 6)
        = ∑ c ∈ Finset.range n, (20 * (path c).length + 6) := rfl
    omega
  · intro hstuck c hc
    obtain ⟨m, hm⟩ := hinv.each c hc
    obtain ⟨⟨b', h1⟩, h2⟩ := progress hm rfl (by
      intro s' hs'
      refine hstuck (S.put c s') ⟨c, hc, s', ?_, rfl⟩
      unfold Many.view
      rw [hcr]
      exact hs')
    have h1 : (S.calls c).main = .returned b' := h1
    rw [hret c hc b' h1] at h1
    exact ⟨h1, h2⟩

/-- C134 for one proof that is verified any number of times at once. -/
theorem C134_one_proof (E : Curve G1 G2 GT) (pp : PublicParams G1 G2 GT) (n : ℕ) (lp : LiabilityProof G1) (id : Str) (V W : G1)
    (id2path : Str → Option (List ℕ)) (path : List ℕ) (hfirst : lp.firstChecks id V W id2path = some (some path)) (b : Bool)
    (hv : lp.verify E pp id V W id2path = some b) (cell : ℕ → ℕ) (hcell : Function.Injective cell) (cells : ℕ → Zr × G1) :
    (∀ k S, ManySteps n (fun _ => lp.prog E pp path cell) k (manyInit (fun _ => lp.prog E pp path cell) cells) S →
      S.crashed = false ∧ k ≤ n * (20 * path.length + 6) ∧ ∀ c < n, ∀ b', (S.calls c).main = .returned b' → b' = b) ∧
    ∃ k S, ManySteps n (fun _ => lp.prog E pp path cell) k (manyInit (fun _ => lp.prog E pp path cell) cells) S ∧
      ∀ c < n, (S.calls c).main = .returned b := by
  have hmain := fun k S hs => C134_same_verdicts E pp n (fun _ => lp) (fun _ => id) (fun _ => V) (fun _ => W) (fun _ => id2path)
    (fun _ => path) (fun _ => cell) (fun c _ d _ i _ j _ hij => by rw [hcell hij]; exact ⟨rfl, rfl⟩) (fun _ _ => hfirst)
    (fun _ => b) (fun _ _ => hv) cells k S hs
  refine ⟨fun k S hs => ?_, ?_⟩
  · obtain ⟨h1, h2, h3, -⟩ := hmain k S hs
    refine ⟨h1, ?_, h3⟩
    simpa using h2
  · obtain ⟨k, S, hs, hst⟩ := many_exists_final (n := n) (ps := fun _ => lp.prog E pp path cell)
      (manyInit (fun _ => lp.prog E pp path cell) cells)
    obtain ⟨-, -, -, h4⟩ := hmain k S hs
    exact ⟨k, S, hs, fun c hc => (h4 hst c hc).1⟩

/-- An accepted proof of the toy set, verified seven times at once. -/
example : ∃ (pp : PublicParams Zr Zr Zr) (lp : LiabilityProof Zr) (id2path : Str → Option (List ℕ)) (V W : Zr) (path : List ℕ),
    lp.firstChecks ['2', '2', '1'] V W id2path = some (some path) ∧
    lp.verify toyCurve pp ['2', '2', '1'] V W id2path = some true ∧
    ∃ k S, ManySteps 7 (fun _ => lp.prog toyCurve pp path id) k
      (manyInit (fun _ => lp.prog toyCurve pp path id) fun _ => (0, 0)) S ∧ ∀ c < 7, (S.calls c).main = .returned true := by
  obtain ⟨ls, ls', lp, V, W, -, -, -, -, h⟩ := toy_accepted
  have h0 := h
  rw [verify_eq toyCurve lp ls.pp _ V W _ id] at h
  obtain ⟨r, hr, h⟩ := obind_elim h
  cases r with
  | none => simp at h
  | some path =>
    exact ⟨ls.pp, lp, _, V, W, path, hr, h0,
      (C134_one_proof toyCurve ls.pp 7 lp _ V W _ path hr true h0 id Function.injective_id _).2⟩

end PoL.Props

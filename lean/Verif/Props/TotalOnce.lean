import Verif.Props.Stale

/-!
# C132: root, total and proof of the total determine each other
-/

set_option linter.unusedSectionVars false

namespace PoL.Props
open Spec BP PP Verkle Pol

variable {G1 G2 GT : Type} [AddCommGroup G1] [Module Zr G1] [AddCommGroup G2] [Module Zr G2]
  [AddCommGroup GT] [Module Zr GT] [DecidableEq G1] [DecidableEq GT]

/-- `TotalProof.Verify` always returns. -/
theorem C132_returns {E : Curve G1 G2 GT} (hE : E.Lawful) {α : Zr} {F L : ℕ} {pp : PublicParams G1 G2 GT} (h : Fits E α F L pp)
    (tp : TotalProof G1) (V : G1) : (tp.verify E pp V).isSome := by
  rw [Option.isSome_iff_ne_none]
  unfold TotalProof.verify
  rw [h.PPPP, h.fanout, Ne, C02_verify_panics_iff E hE α (F + 2)]
  omega

/-- C132: of what two accepted proofs of a total are about — the root's `V`, the total, the point — any two determine the
third. -/
theorem C132_determined {E : Curve G1 G2 GT} (hE : E.Lawful) (hnd : E.NonDegenerate) (hg : E.genG1 ≠ 0) {α : Zr} (hα : α ≠ 0)
    {F L : ℕ} {pp : PublicParams G1 G2 GT} (h : Fits E α F L pp) (V V' : G1) (tp tp' : TotalProof G1)
    (hb : -2 ^ 63 ≤ tp.sum ∧ tp.sum < 2 ^ 63) (hb' : -2 ^ 63 ≤ tp'.sum ∧ tp'.sum < 2 ^ 63)
    (h1 : tp.verify E pp V = some true) (h2 : tp'.verify E pp V' = some true) :
    (tp.sum = tp'.sum → tp.liabilityProof = tp'.liabilityProof → V = V') ∧
    (V = V' → tp.sum = tp'.sum → tp.liabilityProof = tp'.liabilityProof) ∧
    (V = V' → tp.liabilityProof = tp'.liabilityProof → tp.sum = tp'.sum) := by
  have h1' := h1
  have h2' := h2
  unfold TotalProof.verify at h1 h2
  rw [h.PPPP, h.fanout, C02_verify_iff E hE hnd α (F + 2) _ _ _ F (by omega)] at h1 h2
  refine ⟨fun hs hp => ?_, fun hV hs => ?_, fun hV hp => ?_⟩
  · rw [h1, h2, hs, sub_left_inj] at hp
    have := sub_eq_zero.2 hp
    rw [← smul_sub] at this
    exact sub_eq_zero.1 ((smul_eq_zero.1 this).resolve_left (pow_ne_zero _ hα))
  · rw [h1, h2, hV, hs]
  · by_contra hne
    have := C45_one_total hE hnd h V tp tp' hb hb' h1' (by rw [hV]; exact h2') hne
    rw [hp, sub_self, smul_zero] at this
    exact (smul_ne_zero (pow_ne_zero _ hα) hg) this.symm

/-- C132: once an amount is set to another one, the proofs of the total from before are refused with an error against the
root that is then stored, and the new one states the new total and is accepted.  What is missing for `Root`: it returns the
stored root only when called for the first time, see `C132_violated`. -/
theorem C132_out_of_date_partial {E : Curve G1 G2 GT} (hE : E.Lawful) (hnd : E.NonDegenerate) (hg : E.genG1 ≠ 0) {env : Env}
    (henv : env.Lawful) {α : Zr} {F L : ℕ} {ls ls1 ls2 : LiabilitySet G1 G2 GT} (h : NewSet E α F L ls) (hist : List (Str × ℤ))
    (hne : hist ≠ []) (other : Str) (b : ℤ) (hids : ValidIds ls.tree.id2Path F L (hist ++ [(other, b)]))
    (h1 : ls.sets E env hist = some ls1) (h2 : ls1.set E env other b = some ls2) (a : ℕ) (q : List ℕ)
    (ho : ls.tree.id2Path other = some (a :: q)) (hα : α ^ (a + 1) + α ^ (F + 1) ≠ 0)
    (hb : intToZr b ≠ intToZr (latest (byPath ls.tree.id2Path hist) (a :: q)))
    (htot : totalAmount (byPath ls.tree.id2Path (hist ++ [(other, b)])) < 2 ^ 63) :
    ∃ x1 x2 tp, Vertex.fromBytes E (ls1.s.db []) = some x1 ∧ Vertex.fromBytes E (ls2.s.db []) = some x2 ∧
      ls2.proveTot E = some tp ∧ tp.sum = totalAmount (byPath ls.tree.id2Path (hist ++ [(other, b)])) ∧
      tp.verify E ls.pp x2.V = some true ∧ tp.verify E ls.pp x1.V = some false ∧
      ∀ old : TotalProof G1, old.verify E ls.pp x1.V = some true → old.verify E ls.pp x2.V = some false := by
  have hα0 : α ≠ 0 := by
    rintro rfl
    simp at hα
  have h2' : ls1.sets E env [(other, b)] = some ls2 := by
    unfold LiabilitySet.sets
    simpa using h2
  have h3 : ls.sets E env (hist ++ [(other, b)]) = some ls2 := by rw [sets_append, h1]; exact h2'
  obtain ⟨x1, x2, -, -, hx1, -, hx2, -, hV, -⟩ := C131_out_of_date_partial hE hg henv h hist hne other b hids h1 h2 a q ho hα hb
  obtain ⟨tp, x, hprove, hsum, hx, hver⟩ := C44_total_proof hE henv h _ (by simp) hids h3 htot
  rw [hx2, Option.some.injEq] at hx
  subst hx
  have no : ∀ (t : TotalProof G1) (V V' : G1), V ≠ V' → t.verify E ls.pp V = some true → t.verify E ls.pp V' = some false := by
    intro t V V' hVV ht
    obtain ⟨c, hc⟩ := Option.isSome_iff_exists.1 (C132_returns hE h.pp t V')
    cases c with
    | false => exact hc
    | true =>
      unfold TotalProof.verify at ht hc
      rw [h.pp.PPPP, h.pp.fanout, C02_verify_iff E hE hnd α (F + 2) _ _ _ F (by omega)] at ht hc
      rw [ht, sub_left_inj] at hc
      have := sub_eq_zero.2 hc
      rw [← smul_sub] at this
      exact absurd (sub_eq_zero.1 ((smul_eq_zero.1 this).resolve_left (pow_ne_zero _ hα0))) hVV
  exact ⟨x1, x2, tp, hx1, hx2, hprove, hsum, hver, no tp _ _ (Ne.symm hV) hver, fun old ho => no old _ _ hV ho⟩

/-- C132 fails for what `Root` returns: after `Root` has been called and an amount is set to another one, the proof that
`ProveTot` makes is refused against the result of `Root`, and those from before, of the old total, are accepted. -/
theorem C132_violated {E : Curve G1 G2 GT} (hE : E.Lawful) (hnd : E.NonDegenerate) (hg : E.genG1 ≠ 0) {env : Env}
    (henv : env.Lawful) {α : Zr} {F L : ℕ} {ls ls1 ls2 ls3 : LiabilitySet G1 G2 GT} (h : NewSet E α F L ls) (hist : List (Str × ℤ))
    (hne : hist ≠ []) (other : Str) (b : ℤ) (hids : ValidIds ls.tree.id2Path F L (hist ++ [(other, b)]))
    (h1 : ls.sets E env hist = some ls1) (r : Option (G1 × Option G1)) (h2 : ls1.root E = some (r, ls2))
    (h3 : ls2.set E env other b = some ls3) (a : ℕ) (q : List ℕ)
    (ho : ls.tree.id2Path other = some (a :: q)) (hα : α ^ (a + 1) + α ^ (F + 1) ≠ 0)
    (hb : intToZr b ≠ intToZr (latest (byPath ls.tree.id2Path hist) (a :: q)))
    (htot1 : totalAmount (byPath ls.tree.id2Path hist) < 2 ^ 63)
    (htot : totalAmount (byPath ls.tree.id2Path (hist ++ [(other, b)])) < 2 ^ 63) :
    ∃ old new V W ls4, ls1.proveTot E = some old ∧ ls3.proveTot E = some new ∧ ls3.root E = some (some (V, W), ls4) ∧
      old.sum = totalAmount (byPath ls.tree.id2Path hist) ∧
      new.sum = totalAmount (byPath ls.tree.id2Path (hist ++ [(other, b)])) ∧
      old.verify E ls.pp V = some true ∧ new.verify E ls.pp V = some false := by
  have hids1 : ValidIds ls.tree.id2Path F L hist := fun e he => hids e (by simp [he])
  have h3' : ls2.sets E env [(other, b)] = some ls3 := by
    unfold LiabilitySet.sets
    simpa using h3
  obtain ⟨ls4, h4⟩ := C46_root_frozen hE henv h hist [(other, b)] hne hids h1 r h2 h3'
  obtain ⟨x, hx, hroot⟩ := C46_first_call_partial hE henv h hist hne hids1 h1
  rw [hroot, Option.some.injEq, Prod.mk.injEq] at h2
  obtain ⟨rfl, rfl⟩ := h2
  obtain ⟨hn3, t3, s3, hp3, rfl⟩ := (sets_iff E env _ _ ls3).1 h3'
  have h5 : ls1.sets E env [(other, b)] = some { ls1 with tree := t3, s := s3 } :=
    (sets_iff E env _ ls1 _).2 ⟨hn3, t3, s3, hp3, rfl⟩
  have h5' : ls1.set E env other b = some { ls1 with tree := t3, s := s3 } := by
    unfold LiabilitySet.sets at h5
    simpa using h5
  obtain ⟨x1, x2, new, e1, -, e3, e4, -, e6, -⟩ := C132_out_of_date_partial hE hnd hg henv h hist hne other b hids h1 h5' a q ho hα hb htot
  obtain ⟨old, y, o1, o2, o3, o4⟩ := C44_total_proof hE henv h hist hne hids1 h1 htot1
  rw [hx, Option.some.injEq] at e1 o3
  subst e1 o3
  exact ⟨old, new, _, _, ls4, o1, e3, h4, o2, e4, o4, e6⟩

/-! ## The hypotheses can be met -/

/-- With `C132_violated`: the amount 7 is set to 9, so the total goes from 42 to 44; against the result of `Root` the proof of 42
is accepted, that of 44 refused. -/
example : ∃ (ls1 ls3 ls4 : LiabilitySet Zr Zr Zr) (pp : PublicParams Zr Zr Zr) (old new : TotalProof Zr) (V : Zr) (W : Option Zr),
    ls1.proveTot toyCurve = some old ∧ ls3.proveTot toyCurve = some new ∧ old.sum = 42 ∧ new.sum = 44 ∧
    ls3.root toyCurve = some (some (V, W), ls4) ∧ old.verify toyCurve pp V = some true ∧ new.verify toyCurve pp V = some false := by
  obtain ⟨ls, ls1, ls2, ls3, -, -, x, W, h, ht, hids, h1, h2, -, -, h3, -, -, -⟩ := toy_stale
  have h7 : latest (byPath ls.tree.id2Path toyHist) [2, 2, 1] = 7 := by rw [ht]; decide
  have h42 : totalAmount (byPath ls.tree.id2Path toyHist) = 42 := by rw [ht]; decide
  have h44 : totalAmount (byPath ls.tree.id2Path (toyHist ++ [(['2', '2', '1'], 9)])) = 44 := by rw [ht]; decide
  have h3' : ls2.set toyCurve toyEnv ['2', '2', '1'] 9 = some ls3 := by
    unfold LiabilitySet.sets at h3
    simpa using h3
  obtain ⟨old, new, V, W', ls4, e1, e2, e3, e4, e5, e6, e7⟩ := C132_violated toyCurve_lawful toyCurve_nonDegenerate (by decide +kernel) toyEnv_lawful h
    toyHist (by decide) ['2', '2', '1'] 9 hids h1 _ h2 h3' 2 [2, 1] (by rw [ht]; rfl) (by decide +kernel) (by rw [h7]; decide +kernel)
    (by rw [h42]; norm_num) (by rw [h44]; norm_num)
  rw [h42] at e4
  rw [h44] at e5
  exact ⟨ls1, ls3, ls4, ls.pp, old, new, V, W', e1, e2, e4, e5, e3, e6, e7⟩

end PoL.Props

import Verif.Proofs.ViewPrivacy
import Verif.Props.ViewPrivacy
import Verif.Props.Pol

/-! # C127: for whoever knows the secret of the parameters, a root is a root of all amounts -/

set_option linter.unusedSectionVars false

namespace PoL.Props
open Spec BP PP Verkle Pol

variable {G1 G2 GT : Type} [AddCommGroup G1] [Module Zr G1] [AddCommGroup G2] [Module Zr G2]
  [AddCommGroup GT] [Module Zr GT] [DecidableEq G1] [DecidableEq GT]

/-- The blinding factors that give the root of `h` to the amounts of `h'`, from the secret `α` and the blinding factors `r` of the first
run, the next of which is numbered `t0`: no group element goes into it. -/
noncomputable def reopen (F L t0 : ℕ) (α : Zr) (h h' : List (List ℕ × ℤ)) (r : ℕ → Zr) (k : ℕ) : Zr :=
  r k + shift F L t0 α h h' k

/-- C127: a liability set is written and its root is given out.  Afterwards take any other amounts, written for the same
identifiers in the same order.  The blinding factors `reopen`, computed from the secret and those drawn before, differ from these only
where the writes draw; with them a set with the other amounts has the very same root; its proof of its total is accepted for the root
given out, and so are its liability proofs (for the identifiers for which they are accepted at all, C47). -/
theorem C127_secret_opens_root {E : Curve G1 G2 GT} (hE : E.Lawful) {env : Env} (henv : env.Lawful) {α : Zr} (hα : α ≠ 0)
    {F L : ℕ} {ls ls₁ l₁ : LiabilitySet G1 G2 GT} (h : NewSet E α F L ls) (hist : List (Str × ℤ)) (hne : hist ≠ [])
    (hids : ValidIds ls.tree.id2Path F L hist) (hr : ls.sets E env hist = some ls₁)
    (htot : totalAmount (byPath ls.tree.id2Path hist) < 2 ^ 63) (V : G1) (W : Option G1)
    (hroot : ls₁.root E = some (some (V, W), l₁)) (hist' : List (Str × ℤ))
    (hsame : hist.map Prod.fst = hist'.map Prod.fst) (hn' : ∀ e ∈ hist', 0 ≤ e.2)
    (htot' : totalAmount (byPath ls.tree.id2Path hist') < 2 ^ 63) :
    ∃ ρ : ℕ → Zr, ρ = reopen F L ls.s.tick α (byPath ls.tree.id2Path hist) (byPath ls.tree.id2Path hist') env.rand ∧
      (∀ k, k < ls.s.tick ∨ ls.s.tick + L * hist.length ≤ k → ρ k = env.rand k) ∧
      ∃ ls₂ l₂ tp, ls.sets E { env with rand := ρ } hist' = some ls₂ ∧ ls₂.root E = some (some (V, W), l₂) ∧
        ls₂.proveTot E = some tp ∧ tp.sum = totalAmount (byPath ls.tree.id2Path hist') ∧ tp.verify E ls.pp V = some true ∧
        ∀ id p, ls.tree.id2Path id = some p → id ∈ hist'.map Prod.fst →
          writesBelow (byPath ls.tree.id2Path hist') p.dropLast = 1 → ∀ rnd, RandSized F L rnd →
          NonzeroChallenges E { env with rand := ρ } ls₂ rnd id →
          ∃ lp W', ls₂.proveLiability E { env with rand := ρ } rnd id
              = some (some (latest (byPath ls.tree.id2Path hist') p, lp)) ∧
            W = some W' ∧ lp.verify E ls.pp id V W' ls.tree.id2Path = some true := by
  have hL := h.pp.depth
  have hn : ∀ e ∈ hist, 0 ≤ e.2 := ((sets_iff E env hist ls ls₁).1 hr).1
  have hne' : hist' ≠ [] := by
    rintro rfl
    simp at hsame
    exact hne hsame
  have hids' : ValidIds ls.tree.id2Path F L hist' := by
    intro e he
    have : e.1 ∈ hist.map Prod.fst := by rw [hsame]; exact List.mem_map.2 ⟨e, he, rfl⟩
    obtain ⟨e', he', h1⟩ := List.mem_map.1 this
    rw [← h1]
    exact hids e' he'
  set hh := byPath ls.tree.id2Path hist with hhh
  set hh' := byPath ls.tree.id2Path hist' with hhh'
  have hsp : hh.map Prod.fst = hh'.map Prod.fst := by
    have : ∀ l : List (Str × ℤ), (byPath ls.tree.id2Path l).map Prod.fst
        = (l.map Prod.fst).map fun i => (ls.tree.id2Path i).getD [] := by
      intro l; simp [byPath]
    rw [hhh, hhh', this, this, hsame]
  have htc := touched_congr hsp
  have hlen : hh.length = hist.length := by simp [hhh, byPath]
  have htl : touched hh [] := by
    obtain ⟨e, l, he⟩ := List.exists_cons_of_ne_nil hne
    refine ⟨((ls.tree.id2Path e.1).getD [], e.2), ?_, List.nil_prefix⟩
    rw [hhh, he]
    exact List.mem_cons_self
  obtain ⟨ρ, hρ⟩ : ∃ ρ : ℕ → Zr, ρ = reopen F L ls.s.tick α hh hh' env.rand := ⟨_, rfl⟩
  have hρk : ∀ k, ρ k = env.rand k + shift F L ls.s.tick α hh hh' k := fun k => by rw [hρ]; rfl
  refine ⟨ρ, hρ, fun k hk => by rw [hρk, shift_out (by rw [hlen]; exact hk), add_zero], ?_⟩
  have henv2 : Env.Lawful { env with rand := ρ } := ⟨henv.1, henv.2, henv.3, henv.4⟩
  obtain ⟨ls₂, hr2⟩ := C43_sets_return hE henv2 h hist' hids' hn'
  obtain ⟨-, t, s, hputs, e₁⟩ := (sets_iff E env hist ls ls₁).1 hr
  obtain ⟨-, t', s', hputs', e₂⟩ := (sets_iff E _ hist' ls ls₂).1 hr2
  obtain ⟨fx, hwa, hxa, -⟩ := publish_eq hE henv h hist hne hids hn htot (k := 0) Fin.elim0 false hputs
  obtain ⟨fx', hwb, hxb, -⟩ := publish_eq hE henv2 h hist' hne' hids' hn' htot' (k := 0) Fin.elim0 false hputs'
  have wa := hwa []
  have wb := hwb []
  have hV : ∀ q, q.length < L → touched hh q → (fx q).V = (fx' q).V := by
    intro q hq ht
    rw [wa.V q hq ht, wb.V q hq ((htc q).1 ht), ← hhh, ← hhh']
    dsimp only
    rw [← drawAt_congr L ls.s.tick hsp q, hρk, shift_at hq ht]
    congr 1
    have : α ^ (F + 2) ≠ 0 := pow_ne_zero _ hα
    field_simp
    ring
  have hW : (fx []).W = (fx' []).W :=
    (public_eq (h := hh) (h' := hh') htc fx fx' wa.load (fun q hq ht => wb.load q hq ((htc q).1 ht)) wa.leaf
      (fun q ht hq => wb.leaf q ((htc q).1 ht) hq) wa.inner (fun q ht hq => wb.inner q ((htc q).1 ht) hq) hV (L - 1)
      [] (by simp; omega) htl).1
  have hV0 := hV [] (by simp; omega) htl
  obtain ⟨x, hx, hxr⟩ := C46_first_call_partial hE henv h hist hne hids hr
  obtain ⟨y, hy, hyr⟩ := C46_first_call_partial hE henv2 h hist' hne' hids' hr2
  have ex : x = fx [] := by
    subst e₁
    exact Option.some.inj (hx.symm.trans hxa)
  have ey : y = fx' [] := by
    subst e₂
    exact Option.some.inj (hy.symm.trans hxb)
  rw [hroot, Option.some.injEq, Prod.mk.injEq, Option.some.injEq, Prod.mk.injEq] at hxr
  obtain ⟨⟨vx, wx⟩, -⟩ := hxr
  have hyV : y.V = V := by rw [vx, ex, ey, hV0]
  have hyW : y.W = W := by rw [wx, ex, ey, hW]
  rw [hyV, hyW] at hyr
  obtain ⟨tp, y', h1, h2, h3, h4⟩ := C44_total_proof hE henv2 h hist' hne' hids' hr2 htot'
  rw [hy, Option.some.injEq] at h3
  refine ⟨ls₂, _, tp, hr2, hyr, h1, h2, by rw [← hyV, h3]; exact h4, ?_⟩
  intro id p hp hmem hw rnd hrnd hnz
  have hmemp : p ∈ hh'.map Prod.fst := by
    obtain ⟨e, he, h1⟩ := List.mem_map.1 hmem
    rw [hhh']
    exact List.mem_map.2 ⟨(p, e.2), List.mem_map.2 ⟨e, he, by rw [h1]; simp [hp]⟩, rfl⟩
  obtain ⟨lp, z, W', g1, -, g3, g4, g5⟩ := C47_liability_proof_verifies_partial hE henv2 h hist' hids' hr2 htot' id p hp hmemp hw
    rnd hrnd hnz
  rw [hy, Option.some.injEq] at g3
  subst g3
  exact ⟨lp, W', g1, by rw [← hyW, g4], by rw [← hyV]; exact g5⟩

/-- What the root of a liability set commits to besides the blinding factor: the amounts below each child, and the total. -/
def rootAmounts (F : ℕ) (h : List (List ℕ × ℤ)) : List Zr :=
  ((List.range F).map fun j => intToZr (amountBelow h [j])) ++ [intToZr (totalAmount h)]

/-- C127, the other direction: whoever has two runs with one commitment `V`, and with different totals or sums below a child, has the secret, as a root of a
polynomial of degree at most `F + 2` that is not zero; its coefficients are the amounts and two blinding factors. -/
theorem C127_two_openings_give_secret {E : Curve G1 G2 GT} (hE : E.Lawful) (hg : E.genG1 ≠ 0) {env env' : Env}
    (henv : env.Lawful) (henv' : env'.Lawful) {α : Zr} {F L : ℕ} {ls ls₁ ls₂ l₁ l₂ : LiabilitySet G1 G2 GT}
    (h : NewSet E α F L ls) (hist hist' : List (Str × ℤ)) (hne : hist ≠ []) (hne' : hist' ≠ [])
    (hids : ValidIds ls.tree.id2Path F L hist) (hids' : ValidIds ls.tree.id2Path F L hist')
    (hr : ls.sets E env hist = some ls₁) (hr' : ls.sets E env' hist' = some ls₂) (V : G1) (W W' : Option G1)
    (hroot : ls₁.root E = some (some (V, W), l₁)) (hroot' : ls₂.root E = some (some (V, W'), l₂))
    (hd : rootAmounts F (byPath ls.tree.id2Path hist) ≠ rootAmounts F (byPath ls.tree.id2Path hist')) :
    ∃ r r' P, P = collisionPoly (rootAmounts F (byPath ls.tree.id2Path hist) ++ [r])
        (rootAmounts F (byPath ls.tree.id2Path hist') ++ [r']) ∧ P ≠ 0 ∧ P.natDegree ≤ F + 2 ∧ P.eval α = 0 := by
  have hL := h.pp.depth
  obtain ⟨x, hx, hxr⟩ := C46_first_call_partial hE henv h hist hne hids hr
  obtain ⟨y, hy, hyr⟩ := C46_first_call_partial hE henv' h hist' hne' hids' hr'
  rw [hroot, Option.some.injEq, Prod.mk.injEq, Option.some.injEq, Prod.mk.injEq] at hxr
  rw [hroot', Option.some.injEq, Prod.mk.injEq, Option.some.injEq, Prod.mk.injEq] at hyr
  obtain ⟨-, t, s, hputs, rfl⟩ := (sets_iff E env hist ls ls₁).1 hr
  obtain ⟨-, t', s', hputs', rfl⟩ := (sets_iff E env' hist' ls ls₂).1 hr'
  obtain ⟨x2, hx2, hval, hVx, -⟩ := root_onPath hE henv h.tree hL hist hne hids hputs
  obtain ⟨y2, hy2, hval', hVy, -⟩ := root_onPath hE henv' h.tree hL hist' hne' hids' hputs'
  rw [hx2, Option.some.injEq] at hx
  rw [hy2, Option.some.injEq] at hy
  subst hx
  subst hy
  rw [hval] at hVx
  rw [hval'] at hVy
  have l1 : ∀ l r, (rootAmounts F l ++ [r]).length = F + 2 := by intro l r; simp [rootAmounts]
  refine ⟨x2.blindingFactor, y2.blindingFactor, _, rfl,
    C04_commit_binding E hg α (F + 2) (by omega) _ _ (l1 _ _) (l1 _ _) ?_ ?_⟩
  · intro he
    exact hd (List.append_inj_left' he rfl)
  · rw [commit_eq E α (F + 2) _ (l1 _ _) (by omega), commit_eq E α (F + 2) _ (l1 _ _) (by omega)]
    exact congrArg some ((hVx.symm.trans hxr.1.1.symm).trans (hyr.1.1.trans hVy))

/-! ## The hypotheses can be met -/

/-- For examples: other amounts for the identifiers of `toyHist`; the total is 6 instead of 42. -/
def toyHist6 : List (Str × ℤ) :=
  [(['0', '1', '2'], 1), (['0', '1', '2'], 2), (['0', '1', '0'], 3), (['2', '2', '1'], 1)]

/-- After `toyHist` has been written and its root given out, there is a set with total 6 and the amount 1 for `221`
which has this root, and whose proofs of both are accepted for it. -/
example : ∃ (ls ls₁ l₁ ls₂ l₂ : LiabilitySet Zr Zr Zr) (V W : Zr) (ρ : ℕ → Zr) (tp : TotalProof Zr) (lp : LiabilityProof Zr),
    totalAmount (byPath ls.tree.id2Path toyHist) = 42 ∧
    ls.sets toyCurve toyEnv toyHist = some ls₁ ∧ ls₁.root toyCurve = some (some (V, some W), l₁) ∧
    ls.sets toyCurve { toyEnv with rand := ρ } toyHist6 = some ls₂ ∧ ls₂.root toyCurve = some (some (V, some W), l₂) ∧
    ls₂.proveTot toyCurve = some tp ∧ tp.sum = 6 ∧ tp.verify toyCurve ls.pp V = some true ∧
    ls₂.proveLiability toyCurve { toyEnv with rand := ρ } toyRand ['2', '2', '1'] = some (some (1, lp)) ∧
    lp.verify toyCurve ls.pp ['2', '2', '1'] V W ls.tree.id2Path = some true := by
  obtain ⟨ls, h, ht⟩ := toy_set
  have hids : ValidIds ls.tree.id2Path 3 3 toyHist := by rw [ht]; exact toyHist_valid
  have h42 : totalAmount (byPath ls.tree.id2Path toyHist) = 42 := by rw [ht]; decide
  have h6 : totalAmount (byPath ls.tree.id2Path toyHist6) = 6 := by rw [ht]; decide
  have hpath : ls.tree.id2Path ['2', '2', '1'] = some [2, 2, 1] := by rw [ht]; rfl
  obtain ⟨ls₁, hs⟩ := C43_sets_return toyCurve_lawful toyEnv_lawful h toyHist hids (by decide)
  obtain ⟨x, -, hroot⟩ := C46_first_call_partial toyCurve_lawful toyEnv_lawful h toyHist (by decide) hids hs
  obtain ⟨ρ, -, -, ls₂, l₂, tp, g1, g2, g3, g4, g5, g6⟩ := C127_secret_opens_root toyCurve_lawful toyEnv_lawful
    (by decide +kernel : (2 : Zr) ≠ 0) h toyHist (by decide) hids hs (by rw [h42]; norm_num) _ _ hroot toyHist6 (by decide) (by decide)
    (by rw [h6]; norm_num)
  obtain ⟨lp, W, k1, k2, k3⟩ := g6 ['2', '2', '1'] [2, 2, 1] hpath (by decide) (by rw [ht]; decide) toyRand toyRand_sized
    ⟨fun _ _ _ v rp ipaPP _ _ _ => toy_rangeChallenges_ne _ v.V rp ipaPP,
      fun _ _ _ => ⟨toy_sum_challenges _ _, toy_poe_challenges _ _⟩⟩
  have hl : latest (byPath ls.tree.id2Path toyHist6) [2, 2, 1] = 1 := by rw [ht]; decide
  rw [hl] at k1
  rw [k2] at hroot g2
  exact ⟨ls, ls₁, _, ls₂, l₂, x.V, W, ρ, tp, lp, h42, hs, hroot, g1, g2, g3, by rw [g4, h6], g5, k1, k3⟩

/-- Then C127's second theorem applies to the two runs. -/
example (h : List (List ℕ × ℤ)) (ht : h = byPath toyTree.id2Path toyHist) :
    rootAmounts 3 h ≠ rootAmounts 3 (byPath toyTree.id2Path toyHist6) := by
  rw [ht]
  decide +kernel

end PoL.Props

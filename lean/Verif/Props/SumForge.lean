import Verif.Proofs.SumExtract
import Verif.Props.Sum

/-! # C81: what an accepted sum argument says about its commitment -/

set_option linter.unusedSectionVars false

namespace PoL.Props

open BP _root_.PoL.Sum

variable {G1 G2 GT : Type} [AddCommGroup G1] [Module Zr G1] [AddCommGroup G2] [Module Zr G2]
  [AddCommGroup GT] [Module Zr GT] [DecidableEq G1]

/-- **C81 fails.** The first challenge `x₀` of the inner-product argument is a hash of the parameters only.  So for any
vector `v`, also an unbalanced one, `NewArgument` itself, called with the group element `V` below, returns a proof that
`Verify` accepts.  Opening this `V` as a commitment over `F` and `Gs`, to whatever vector, takes a linear relation between
the generators in which `U` occurs. -/
theorem C81_violated (E : Curve G1 G2 GT) (hE : E.Lawful) (pp : Sum.PP G1) (k : ℕ) (hpp : pp.Sized (2 ^ k))
    (ipaPP : BP.PP G1) (hipa : ipaParams E pp = some ipaPP) (x₀ : Zr)
    (hx₀ : fieldElementFromBytes (E.sha256 ipaPP.digest) = some x₀) (h0 : x₀ ≠ 0) (rnd : Sum.Rand)
    (hw : rnd.w.length = 2 ^ k) (v : List Zr) (hv : v.length = 2 ^ k) (hnb : ¬ Balanced v) (r : Zr) :
    let V := r • pp.F + dot v pp.Gs + (x₀ * imbalance v) • pp.U
    ∃ p, newArgument E pp rnd V v r = some ({ V := V }, p) ∧
      ((∀ y ∈ p.challenges E pp, y ≠ 0) → p.verify E pp { V := V } = some true) ∧
      ∀ (r' : Zr) (v' : List Zr), v'.length = 2 ^ k → V = r' • pp.F + dot v' pp.Gs →
        ∃ q : Relation, q.a.length = 2 ^ k ∧ q.u ≠ 0 ∧ q.eval pp.F pp.Gs pp.H pp.U = 0 := by
  intro V
  obtain ⟨p, ipaPP', xI, h1, h2, h3, h4⟩ := newArgument_verdict E hE pp k hpp rnd hw V v hv r
  rw [hipa, Option.some.injEq] at h2
  subst h2
  have hxI : xI = x₀ := by
    have := h3 0
    rw [show instanceHashInput ipaPP 0 = ipaPP.digest from rfl, hx₀, Option.some.injEq] at this
    exact this.symm
  subst hxI
  refine ⟨p, h1, fun hne => ?_, fun r' v' hv' hV => ?_⟩
  · rw [Sum.Proof.challenges, hipa] at hne
    rw [h4 hne, hpp.b_eq, imbalance_eq hv hpp.pos, Option.some.injEq, decide_eq_true_iff]
    simp only [V]
    module
  · refine ⟨⟨r - r', List.zipWith (· - ·) v v', [], xI * imbalance v⟩, by simp [hv, hv'], ?_, ?_⟩
    · exact mul_ne_zero h0 fun h => hnb ((imbalance_zero_iff hv hpp.pos).1 h)
    · rw [Relation.eval, dot_sub_left _ _ _ (by omega), dot_nil_left]
      simp only [V] at hV
      linear_combination (norm := module) hV

/-- **C81**, the part that holds.  There are an extractor and a finder of relations, both computing from scalars only, such
that for every group, all generators and every group element `V` for which the answers to three challenges are accepted:
`V + <b,H>` is the extracted combination `f·F + <a,Gs> + <b',H> + u·U`; the relations found hold; and unless one of them is
non-trivial, `u = x₀·<a,b'>`.  Missing: `b' = b` and `u = 0`, which would make `V` a commitment to a balanced vector. -/
theorem C81_extracted_partial :
    ∃ (ext : (x₀ c : Zr) → Answer Unit → Answer Unit → Relation)
      (rels : (x₀ c : Zr) → Answer Unit → Answer Unit → Answer Unit → List Relation),
    ∀ (G1 : Type) [AddCommGroup G1] [Module Zr G1] (k : ℕ) (x₀ c : Zr) (b : List Zr) (F : G1) (Gs H : List G1)
      (U V W : G1) (a₁ a₂ a₃ : Answer G1),
      x₀ ≠ 0 → Gs.length = 2 ^ k → H.length = 2 ^ k → a₁.x ≠ a₂.x → a₁.x ≠ a₃.x → a₂.x ≠ a₃.x →
      (∀ a ∈ [a₁, a₂, a₃], a.tree.WellFormed k ∧ a.Accepted x₀ c b F Gs H U V W) →
      let o := ext x₀ c a₁.scalars a₂.scalars
      o.a.length = 2 ^ k ∧ o.b.length = 2 ^ k ∧ V + dot b H = o.eval F Gs H U ∧
      (∀ q ∈ rels x₀ c a₁.scalars a₂.scalars a₃.scalars,
        q.a.length = 2 ^ k ∧ q.b.length = 2 ^ k ∧ q.eval F Gs H U = 0) ∧
      ((∃ q ∈ rels x₀ c a₁.scalars a₂.scalars a₃.scalars, ¬ q.IsZero) ∨ o.u = x₀ * dot o.a o.b) := by
  refine ⟨openingV, findRelationsV, fun G1 _ _ k x₀ c b F Gs H U V W a₁ a₂ a₃ hx₀ hGs hH h12 h13 h23 hacc => ?_⟩
  obtain ⟨w1, c1⟩ := hacc a₁ (by simp)
  obtain ⟨w2, c2⟩ := hacc a₂ (by simp)
  obtain ⟨w3, c3⟩ := hacc a₃ (by simp)
  obtain ⟨l1, l2, hV⟩ := openingV_sound k x₀ c b F Gs H hGs hH U V W a₁ a₂ h12 w1 w2 c1 c2
  obtain ⟨s1, s2⟩ := findRelationsV_sound k x₀ c hx₀ b F Gs H hGs hH U V W a₁ a₂ a₃ h12 h13 h23 w1 w2 w3 c1 c2 c3
  refine ⟨l1, l2, hV, s1, ?_⟩
  by_cases hz : ∀ q ∈ findRelationsV x₀ c a₁.scalars a₂.scalars a₃.scalars, q.IsZero
  · exact Or.inr (s2 hz)
  · left
    push Not at hz
    exact hz

/-- **C81**: nothing more can be extracted.  For all `r`, `v`, `b'` there is a proof that `Verify` accepts for
`V = r·F + <v,Gs> + <b',H> - <b,H> + x₀·<v,b'>·U`. -/
theorem C81_all_accepted (E : Curve G1 G2 GT) (hE : E.Lawful) (pp : Sum.PP G1) (k : ℕ) (hpp : pp.Sized (2 ^ k))
    (ipaPP : BP.PP G1) (hipa : ipaParams E pp = some ipaPP) (x₀ : Zr)
    (hx₀ : fieldElementFromBytes (E.sha256 ipaPP.digest) = some x₀) (r : Zr) (v b' : List Zr) (hv : v.length = 2 ^ k)
    (hb' : b'.length = 2 ^ k) :
    let V := r • pp.F + dot v pp.Gs + dot b' pp.H - dot pp.b pp.H + (x₀ * dot v b') • pp.U
    ∃ p : Sum.Proof G1, (∀ y ∈ p.challenges E pp, y ≠ 0) → p.verify E pp { V := V } = some true := by
  intro V
  obtain ⟨d, hd⟩ := ipaParams_eq E pp (by rw [hpp.gs, hpp.hs])
  have hd' := hd
  rw [hipa, Option.some.injEq] at hd
  obtain ⟨π, x, -, -, -, -, hx, hver⟩ := prove_verify E hE ipaPP v b' (dot v b') 0 k hv hb'
    (by rw [hd]; exact hpp.gs) (by rw [hd]; exact hpp.hs)
  rw [show instanceHashInput ipaPP 0 = ipaPP.digest from rfl, hx₀, Option.some.injEq] at hx
  subst hx
  obtain ⟨y, hy⟩ := fieldElementFromBytes_isSome (hE.sha_len (zrBytes 0 ++ E.g1Bytes V ++ E.g1Bytes 0))
  refine ⟨⟨0, 0, -r, π⟩, fun hne => ?_⟩
  rw [Sum.Proof.challenges, hipa] at hne
  have hV := hver hne (-r • pp.F + V + y • (0 : G1) + pp.B) (0 * y) rfl
  rw [verify_steps E 0 0 (-r) π pp V hy hipa hV, Option.some.injEq, decide_eq_true_iff, hpp.B_eq, hd]
  simp only [V]
  module

/-- The unbalanced vector `(1,2,3,7)` of the example for C22 is accepted for another `V`. -/
example : ∃ (pp : Sum.PP Zr) (p : Sum.Proof Zr) (V : Zr), ¬ Balanced [1, 2, 3, 7] ∧
    newArgument toyCurve pp ⟨[5, 6, 7, 8], 9⟩ V [1, 2, 3, 7] 4 = some (⟨V⟩, p) ∧ p.verify toyCurve pp ⟨V⟩ = some true := by
  obtain ⟨pp, -, hpp, hU⟩ := toy_sum_params 2
  have b2 : ¬ Balanced [1, 2, 3, 7] := by
    rw [← imbalance_zero_iff (n := 4) rfl (by norm_num)]
    intro h
    simp [imbalance] at h
    exact one_ne_zero (α := Zr) (by linear_combination -h)
  obtain ⟨d, hd⟩ := ipaParams_eq toyCurve pp (by rw [hpp.gs, hpp.hs])
  obtain ⟨p, h1, h2, -⟩ := C81_violated toyCurve toyCurve_lawful pp 2 hpp _ hd _ toy_fe toyChallenge_ne
    ⟨[5, 6, 7, 8], 9⟩ rfl [1, 2, 3, 7] rfl b2 4
  exact ⟨pp, p, _, b2, h1, h2 (toy_sum_challenges _ _)⟩

end PoL.Props

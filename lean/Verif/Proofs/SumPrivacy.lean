import Verif.Proofs.Sum
import Verif.Proofs.Mask

/-!
# What the output of the sum argument depends on
-/

set_option linter.unusedSectionVars false

namespace PoL.Sum

open BP

variable {G1 G2 GT : Type} [AddCommGroup G1] [Module Zr G1] [AddCommGroup G2] [Module Zr G2]
  [AddCommGroup GT] [Module Zr GT] [DecidableEq G1]

theorem finite_rand (n : ℕ) : Finite {rnd : Rand // rnd.w.length = n} :=
  have := finite_lists (A := Zr) n
  Finite.of_injective (fun r => ((⟨r.1.w, r.2⟩, r.1.rPrime) : {l : List Zr // l.length = n} × Zr)) fun a b h => by
    obtain ⟨⟨w, r⟩, ha⟩ := a
    obtain ⟨⟨w', r'⟩, hb⟩ := b
    simpa using h

/-- The inner-product proof inside the sum argument, as a function of the masked vector. -/
def innerProof (E : Curve G1 G2 GT) (pp : PP G1) (a : List Zr) : Option (InnerProductProof G1) := do
  let ipaPP ← ipaParams E pp
  let ipa ← newInnerProdArgument ipaPP a pp.b
  ipa.prove E

theorem newArgument_some_iff (E : Curve G1 G2 GT) (pp : PP G1) (n : ℕ) (hpp : pp.Sized n) (rnd : Rand)
    (hw : rnd.w.length = n) (V : G1) (v : List Zr) (hv : v.length = n) (r : Zr) (o : Argument G1 × Proof G1) :
    newArgument E pp rnd V v r = some o ↔ ∃ x π,
      randomOracleCVW E (dot rnd.w pp.b) V (rnd.rPrime • pp.F + dot rnd.w pp.Gs) = some x ∧
      innerProof E pp (mask v rnd.w x) = some π ∧
      o = (⟨V⟩, ⟨rnd.rPrime • pp.F + dot rnd.w pp.Gs, dot rnd.w pp.b, negZr (r + rnd.rPrime * x), π⟩) := by
  obtain ⟨q1, q2⟩ := gv_mulV_sum hpp.gs hw hpp.pos
  have hc : Vec.innerProd rnd.w pp.b = some (dot rnd.w pp.b) := Vec.innerProd_eq (hw.trans hpp.b_length.symm)
  have ha : ∀ x, Vec.add v (Vec.mul rnd.w x) = some (mask v rnd.w x) := fun x => Vec.add_eq (by simp [hv, hw])
  unfold newArgument innerProof
  simp only [q1, q2, hc, ha, Option.bind_eq_bind, Option.bind_some, Option.bind_eq_some_iff, Option.pure_def,
    Option.some_inj]
  constructor
  · rintro ⟨x, hx, pp', hpp', ipa, hipa, π, hπ, rfl⟩
    exact ⟨x, π, hx, ⟨pp', hpp', ipa, hipa, hπ⟩, rfl⟩
  · rintro ⟨x, π, hx, ⟨pp', hpp', ipa, hipa, hπ⟩, rfl⟩
    exact ⟨x, hx, pp', hpp', ipa, hipa, π, hπ, rfl⟩

/-- One direction of the matching. -/
theorem newArgument_switch (E : Curve G1 G2 GT) (pp : PP G1) (n : ℕ) (hpp : pp.Sized n) (V : G1) (v v' : List Zr)
    (r r' : Zr) (hv : v.length = n) (hv' : v'.length = n) (hb : dot v pp.b = dot v' pp.b)
    (hV : r • pp.F + dot v pp.Gs = r' • pp.F + dot v' pp.Gs) (o : Argument G1 × Proof G1) (x : Zr)
    (hx : randomOracleCVW E o.2.c V o.2.W = some x) (hx0 : x ≠ 0) (a : Rand) (ha : a.w.length = n)
    (h : newArgument E pp a V v r = some o) : ∃ b : Rand, b.w.length = n ∧ newArgument E pp b V v' r' = some o ∧
      mask v a.w x = mask v' b.w x ∧ r + a.rPrime * x = r' + b.rPrime * x := by
  obtain ⟨x', π, h1, h2, rfl⟩ := (newArgument_some_iff E pp n hpp a ha V v hv r o).1 h
  rw [hx] at h1
  cases h1
  obtain ⟨w', lw, hm⟩ := mask_exists hx0 hv hv' ha
  refine ⟨⟨w', a.rPrime + x⁻¹ * (r - r')⟩, lw, ?_, hm, by field_simp; ring⟩
  have hρ : r + a.rPrime * x = r' + (a.rPrime + x⁻¹ * (r - r')) * x := by field_simp; ring
  have e1 := mask_dot_eq hv hv' ha lw hm pp.b
  have e2 := mask_dot_eq hv hv' ha lw hm pp.Gs
  have c1 : dot a.w pp.b = dot w' pp.b := by
    rw [hb, add_right_inj] at e1
    exact smul_cancel hx0 e1
  have c2 : a.rPrime • pp.F + dot a.w pp.Gs = (a.rPrime + x⁻¹ * (r - r')) • pp.F + dot w' pp.Gs := by
    apply smul_cancel hx0
    have e3 : (x * (a.rPrime + x⁻¹ * (r - r'))) • pp.F = (x * a.rPrime + (r - r')) • pp.F := by
      congr 1; field_simp
    rw [smul_add, smul_add, smul_smul, smul_smul, e3]
    linear_combination (norm := module) e2 - hV
  refine (newArgument_some_iff E pp n hpp _ lw V v' hv' r' _).2 ⟨x, π, ?_, ?_, ?_⟩
  · dsimp only
    rw [← c1, ← c2]; exact hx
  · rw [← hm]; exact h2
  · dsimp only
    rw [← c1, ← c2, ← hρ]

/-- The entries of the vectors, weighted and added. -/
def aggregate (n : ℕ) (v : List (List Zr)) (t : List Zr) : List Zr :=
  (List.range n).map fun i => dot (v.map fun u => u.getD i 0) t

/-- `NewAggregatedArgument` is `NewArgument` for the weighted sums. -/
theorem newAggregatedArgument_eq (E : Curve G1 G2 GT) (pp : PP G1) (n : ℕ) (rnd : Rand) (V : List G1)
    (v : List (List Zr)) (r : List Zr) (h0 : v ≠ []) (hv : ∀ u ∈ v, u.length = n) (hVl : V.length = v.length)
    (hr : r.length = v.length) (t : List Zr) (ht : createHVZKChallenge E V v.length = some t) (lt : t.length = v.length) :
    newAggregatedArgument E pp rnd V v r
      = (newArgument E pp rnd (dot t V) (aggregate n v t) (dot r t)).map Prod.snd := by
  have hvl : 0 < v.length := List.length_pos_iff.2 h0
  have hva : ((List.range n).mapM fun i => do
      let vi ← v.mapM fun vj => vj[i]?
      Vec.innerProd vi t) = some (aggregate n v t) := by
    apply mapM_some
    intro i hi
    have hi := List.mem_range.1 hi
    rw [mapM_some (fun vj : List Zr => vj[i]?) (fun u => u.getD i 0) v]
    · rw [Option.bind_eq_bind, Option.bind_some, Vec.innerProd_eq (by simp [lt])]
    · intro u hu
      have := hv u hu
      rw [List.getD_eq_getElem?_getD, List.getElem?_eq_getElem (by omega)]
      rfl
  have hra : Vec.innerProd r t = some (dot r t) := Vec.innerProd_eq (by omega)
  obtain ⟨q1, q2⟩ := gv_mulV_sum (g := V) (v := t) hVl lt hvl
  unfold newAggregatedArgument
  obtain ⟨v0, v', rfl⟩ := List.exists_cons_of_ne_nil h0
  have hv0 := hv v0 (by simp)
  refine obind_step ht (obind_step (a := v0) rfl (obind_step (a := aggregate n (v0 :: v') t) ?_ (obind_step hra
    (obind_step q1 (obind_step q2 ?_)))))
  · rw [hv0]; exact hva
  · cases newArgument E pp rnd (dot t V) (aggregate n (v0 :: v') t) (dot r t) <;> rfl

/-- The weighted sum of commitments is the commitment to the weighted sums. -/
theorem dot_commitments (F : G1) (Gs : List G1) : ∀ (v : List (List Zr)) (r t : List Zr), r.length = v.length →
    t.length = v.length → dot t (List.zipWith (fun u ρ => ρ • F + dot u Gs) v r)
      = dot r t • F + dot t (v.map fun u => dot u Gs)
  | [], r, t, hr, ht => by
    rw [List.length_nil, List.length_eq_zero_iff] at hr ht
    subst hr ht
    simp
  | u :: v, a :: r, b :: t, hr, ht => by
    simp only [List.zipWith_cons_cons, List.map_cons, dot_cons,
      dot_commitments F Gs v r t (by simpa using hr) (by simpa using ht), smul_eq_mul]
    module

end PoL.Sum

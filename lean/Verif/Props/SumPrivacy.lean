import Verif.Proofs.SumPrivacy
import Verif.Props.Sum

/-!
# C72: the sum argument tells nothing about the vector
-/

set_option linter.unusedSectionVars false

namespace PoL.Props

open BP _root_.PoL.Sum

variable {G1 G2 GT : Type} [AddCommGroup G1] [Module Zr G1] [AddCommGroup G2] [Module Zr G2]
  [AddCommGroup GT] [Module Zr GT] [DecidableEq G1]

/-- **C72.** Let `V` be a commitment to the balanced vector `v` with blinding `r`, and as well to the balanced vector
`v'` with blinding `r'`.  Whatever `NewArgument` returns with a non-zero challenge, it returns for equally many of its random
values with `(v, r)` as with `(v', r')`: the proof is equally likely for both. -/
theorem C72_sum_argument_hides_vector (E : Curve G1 G2 GT) (pp : Sum.PP G1) (n : ℕ) (hpp : pp.Sized n) (V : G1)
    (v v' : List Zr) (r r' : Zr) (hv : v.length = n) (hv' : v'.length = n) (hb : Balanced v) (hb' : Balanced v')
    (hV : V = r • pp.F + dot v pp.Gs) (hV' : V = r' • pp.F + dot v' pp.Gs) (o : Sum.Argument G1 × Sum.Proof G1)
    (x : Zr) (hx : randomOracleCVW E o.2.c V o.2.W = some x) (hx0 : x ≠ 0) :
    EquallyLikely (fun rnd : Sum.Rand => rnd.w.length = n) (fun rnd => newArgument E pp rnd V v r)
      (fun rnd => newArgument E pp rnd V v' r') o := by
  have e1 : dot v pp.b = dot v' pp.b := by
    rw [hpp.b_eq, imbalance_eq hv hpp.pos, imbalance_eq hv' hpp.pos, (imbalance_zero_iff hv hpp.pos).2 hb,
      (imbalance_zero_iff hv' hpp.pos).2 hb']
  refine equallyLikely_of_matching (finite_rand n) (fun a b => mask v a.w x = mask v' b.w x ∧ r + a.rPrime * x = r' + b.rPrime * x)
    ?_ ?_ ?_ ?_
  · intro a ha h
    exact newArgument_switch E pp n hpp V v v' r r' hv hv' e1 (hV.symm.trans hV') o x hx hx0 a ha h
  · intro b hb h
    obtain ⟨a, h1, h2, h3, h4⟩ := newArgument_switch E pp n hpp V v' v r' r hv' hv e1.symm (hV'.symm.trans hV) o x hx
      hx0 b hb h
    exact ⟨a, h1, h2, h3.symm, h4.symm⟩
  · rintro a ⟨w, ρ⟩ ⟨w', ρ'⟩ - - hb - hb' - ⟨h1, h2⟩ ⟨h3, h4⟩
    obtain rfl := mask_inj hx0 hv' hb hb' (h1.symm.trans h3)
    have := h2.symm.trans h4
    rw [add_right_inj] at this
    obtain rfl : ρ = ρ' := mul_right_cancel₀ hx0 this
    rfl
  · rintro ⟨w, ρ⟩ ⟨w', ρ'⟩ b ha - ha' - - - ⟨h1, h2⟩ ⟨h3, h4⟩
    obtain rfl := mask_inj hx0 hv ha ha' (h1.trans h3.symm)
    have := h2.trans h4.symm
    rw [add_right_inj] at this
    obtain rfl : ρ = ρ' := mul_right_cancel₀ hx0 this
    rfl

/-- **C72** for `NewAggregatedArgument`: two lists of balanced vectors with the same commitments. -/
theorem C72_aggregated_sum_argument_hides_vectors (E : Curve G1 G2 GT) (hE : E.Lawful) (pp : Sum.PP G1) (n : ℕ)
    (hpp : pp.Sized n) (V : List G1) (v v' : List (List Zr)) (r r' : List Zr) (h0 : V ≠ [])
    (hv : ∀ u ∈ v, u.length = n) (hv' : ∀ u ∈ v', u.length = n) (hb : ∀ u ∈ v, Balanced u) (hb' : ∀ u ∈ v', Balanced u)
    (hl : v.length = V.length) (hl' : v'.length = V.length) (hr : r.length = V.length) (hr' : r'.length = V.length)
    (hV : V = List.zipWith (fun u ρ => ρ • pp.F + dot u pp.Gs) v r)
    (hV' : V = List.zipWith (fun u ρ => ρ • pp.F + dot u pp.Gs) v' r') (p : Sum.Proof G1)
    (t : List Zr) (ht : createHVZKChallenge E V V.length = some t)
    (x : Zr) (hx : randomOracleCVW E p.c (dot t V) p.W = some x) (hx0 : x ≠ 0) :
    EquallyLikely (fun rnd : Sum.Rand => rnd.w.length = n) (fun rnd => newAggregatedArgument E pp rnd V v r)
      (fun rnd => newAggregatedArgument E pp rnd V v' r') p := by
  have lt : t.length = V.length := by
    obtain ⟨t', ht', lt'⟩ := createHVZKChallenge_eq E hE V V.length
    rw [ht] at ht'
    cases ht'
    exact lt'
  have hV0 : 0 < V.length := List.length_pos_iff.2 h0
  have bal : ∀ v : List (List Zr), v.length = V.length → (∀ u ∈ v, u.length = n) → (∀ u ∈ v, Balanced u) →
      Balanced (aggregate n v t) := by
    intro v hl hv hb
    rw [← imbalance_zero_iff (n := n) (by simp [aggregate]) hpp.pos, ← imbalance_eq (n := n) (by simp [aggregate]) hpp.pos,
      ← hpp.b_eq, aggregate, dot_aggr n _ hpp.b_length v t hv (by omega)]
    have : (v.map fun u => dot u pp.b) = List.replicate v.length 0 := by
      apply List.eq_replicate_iff.2
      refine ⟨by simp, fun b hb' => ?_⟩
      obtain ⟨u, hu, rfl⟩ := List.mem_map.1 hb'
      rw [hpp.b_eq, imbalance_eq (hv u hu) hpp.pos, (imbalance_zero_iff (hv u hu) hpp.pos).2 (hb u hu)]
    rw [this, dot_zero_right]
  have com : ∀ (v : List (List Zr)) (r : List Zr), v.length = V.length → r.length = V.length → (∀ u ∈ v, u.length = n) →
      V = List.zipWith (fun u ρ => ρ • pp.F + dot u pp.Gs) v r →
      dot t V = dot r t • pp.F + dot (aggregate n v t) pp.Gs := by
    intro v r hl hr hv hV
    rw [aggregate, dot_aggr n _ hpp.gs v t hv (by omega), ← dot_commitments pp.F pp.Gs v r t (by omega) (by omega), ← hV]
  have step : ∀ (v : List (List Zr)) (r : List Zr), v.length = V.length → r.length = V.length → (∀ u ∈ v, u.length = n) →
      ∀ rnd : Sum.Rand, rnd.w.length = n → (newAggregatedArgument E pp rnd V v r = some p ↔
        newArgument E pp rnd (dot t V) (aggregate n v t) (dot r t) = some (⟨dot t V⟩, p)) := by
    intro v r hl hr hv rnd hw
    rw [newAggregatedArgument_eq E pp n rnd V v r (List.length_pos_iff.1 (by omega)) hv hl.symm (by omega) t
      (by rw [hl]; exact ht) (by omega), Option.map_eq_some_iff]
    constructor
    · rintro ⟨o, ho, rfl⟩
      obtain ⟨x, π, -, -, rfl⟩ := (newArgument_some_iff E pp n hpp rnd hw _ _ (by simp [aggregate]) _ _).1 ho
      exact ho
    · exact fun h => ⟨_, h, rfl⟩
  have main := C72_sum_argument_hides_vector E pp n hpp (dot t V) (aggregate n v t) (aggregate n v' t) (dot r t)
    (dot r' t) (by simp [aggregate]) (by simp [aggregate]) (bal v hl hv hb) (bal v' hl' hv' hb') (com v r hl hr hv hV)
    (com v' r' hl' hr' hv' hV') (⟨dot t V⟩, p) x hx hx0
  exact main.congr (fun rnd hw => step v r hl hr hv rnd hw) fun rnd hw => step v' r' hl' hr' hv' rnd hw

theorem toy_sum_F (k : ℕ) : ∃ pp : Sum.PP Zr, Sum.newPublicParams toyCurve (2 ^ k) = some pp ∧ pp.Sized (2 ^ k) ∧ pp.F = 1 := by
  obtain ⟨pp, h1, h2⟩ := newPublicParams_sized toyCurve (n := 2 ^ k) (by positivity)
  refine ⟨pp, h1, h2, ?_⟩
  obtain ⟨x, -, h⟩ := obind_elim h1
  obtain ⟨x, -, h⟩ := obind_elim h
  obtain ⟨x, hx, h⟩ := obind_elim h
  obtain ⟨x, -, h⟩ := obind_elim h
  obtain ⟨x, -, h⟩ := obind_elim h
  obtain ⟨x, -, h⟩ := obind_elim h
  cases h
  simp [randGenVec, toyCurve] at hx
  exact hx.symm

/-- C72 applies to `(1,2,3,6)` and `(4,0,0,4)`, with a proof that does come up. -/
example : ∃ (pp : Sum.PP Zr) (V r r' : Zr) (o : Sum.Argument Zr × Sum.Proof Zr),
    newArgument toyCurve pp ⟨[5, 6, 7, 8], 9⟩ V [1, 2, 3, 6] r = some o ∧
    EquallyLikely (fun rnd : Sum.Rand => rnd.w.length = 2 ^ 2) (fun rnd => newArgument toyCurve pp rnd V [1, 2, 3, 6] r)
      (fun rnd => newArgument toyCurve pp rnd V [4, 0, 0, 4] r') o := by
  obtain ⟨pp, -, hpp, hF⟩ := toy_sum_F 2
  have b1 : Balanced [1, 2, 3, 6] := ⟨[1, 2, 3], 6, rfl, by norm_num⟩
  have b2 : Balanced [4, 0, 0, 4] := ⟨[4, 0, 0], 4, rfl, by norm_num⟩
  obtain ⟨p, h1, -⟩ := C19_sum_argument_complete toyCurve toyCurve_lawful pp 2 hpp ⟨[5, 6, 7, 8], 9⟩ rfl
    [1, 2, 3, 6] rfl b1 4 _ rfl
  refine ⟨pp, _, 4, 4 + dot [(1 : Zr), 2, 3, 6] pp.Gs - dot [(4 : Zr), 0, 0, 4] pp.Gs, _, h1,
    C72_sum_argument_hides_vector toyCurve pp _ hpp _ _ _ _ _ rfl rfl b1 b2 rfl ?_ _ toyChallenge toy_fe toyChallenge_ne⟩
  rw [hF]
  simp

end PoL.Props

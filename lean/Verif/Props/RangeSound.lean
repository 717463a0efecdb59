import Verif.Spec.RangeGens
import Verif.Proofs.RangeLink
import Verif.Proofs.RangeHonest
import Verif.Props.Range
import Verif.Props.IterReduce
import Verif.Props.InnerProdSound

/-!
# C18: special soundness of the range proof (`bp/range.go`)
-/

set_option linter.unusedSectionVars false

namespace PoL.Props

open BP Finset

variable {G1 G2 GT : Type} [AddCommGroup G1] [Module Zr G1] [AddCommGroup G2] [Module Zr G2]
  [AddCommGroup GT] [Module Zr GT] [DecidableEq G1]

/-- **C18.** There are an extractor and a finder of linear relations, both computing from the scalars of a
transcript tree only, such that for every group, all generators, every commitment `V` and every tree for `2^k`
values all of whose transcripts are accepted: the extracted scalars open `V`; every relation found holds
among the generators; and unless one of them is non-trivial, every extracted value is below `2^63`. -/
theorem C18_range_proof_special_sound :
    ∃ (ext : RTree Unit → Zr × (ℕ → Zr)) (rels : ℕ → RTree Unit → List RangeRel),
    ∀ (A : Type) [AddCommGroup A] [Module Zr A] (k : ℕ) (g : RangeGens A) (V : A) (t : RTree A),
      t.WellFormed k → t.Accepted g (2 ^ k) V →
      V = (ext t.scalars).1 • g.F + ∑ i ∈ range (2 ^ k), (ext t.scalars).2 i • g.Gs i ∧
      (∀ q ∈ rels k t.scalars, q.eval g (2 ^ k) = 0) ∧
      ((∃ q ∈ rels k t.scalars, ¬ q.IsZero (2 ^ k)) ∨ ∀ i < 2 ^ k, ((ext t.scalars).2 i).val < 2 ^ 63) := by
  refine ⟨rangeOpening, rangeRels, fun A _ _ k g V t hwf hacc => ?_⟩
  obtain ⟨h1, h2, h3⟩ := range_special_sound hwf hacc
  refine ⟨h1, h2, ?_⟩
  by_cases hz : ∀ q ∈ rangeRels k t.scalars, q.IsZero (2 ^ k)
  · exact Or.inr (h3 hz)
  · left
    push Not at hz
    exact hz

/-- **C18**, for a prover who knows an opening `(r, v)` of `V`: accepted trees yield relations among the
generators, one of which is non-trivial unless every `v i` is below `2^63`. -/
theorem C18_no_proof_for_value_out_of_range :
    ∃ rels : ℕ → Zr → (ℕ → Zr) → RTree Unit → List RangeRel,
    ∀ (A : Type) [AddCommGroup A] [Module Zr A] (k : ℕ) (g : RangeGens A) (r : Zr) (v : ℕ → Zr) (t : RTree A),
      t.WellFormed k → t.Accepted g (2 ^ k) (r • g.F + ∑ i ∈ range (2 ^ k), v i • g.Gs i) →
      (∀ q ∈ rels k r v t.scalars, q.eval g (2 ^ k) = 0) ∧
      ((∃ q ∈ rels k r v t.scalars, ¬ q.IsZero (2 ^ k)) ∨ ∀ i < 2 ^ k, (v i).val < 2 ^ 63) := by
  obtain ⟨ext, rels, H⟩ := C18_range_proof_special_sound
  refine ⟨fun k r v t => ⟨r - (ext t).1, 0, 0, 0, fun i => v i - (ext t).2 i, fun _ => 0, fun _ => 0⟩ :: rels k t,
    fun A _ _ k g r v t hwf hacc => ?_⟩
  obtain ⟨h1, h2, h3⟩ := H A k g _ t hwf hacc
  refine ⟨fun q hq => ?_, ?_⟩
  · rcases List.mem_cons.1 hq with rfl | hq
    · simp only [RangeRel.eval, sub_smul, Finset.sum_sub_distrib, zero_smul, Finset.sum_const_zero, add_zero]
      rw [← sub_eq_zero] at h1
      linear_combination (norm := module) h1
    · exact h2 q hq
  · rcases h3 with ⟨q, hq, hz⟩ | h3
    · exact Or.inl ⟨q, List.mem_cons_of_mem _ hq, hz⟩
    · by_cases hz : (⟨r - (ext t.scalars).1, 0, 0, 0, fun i => v i - (ext t.scalars).2 i, fun _ => 0, fun _ => 0⟩
          : RangeRel).IsZero (2 ^ k)
      · right
        intro i hi
        rw [sub_eq_zero.1 (hz.2.2.2.2.1 i hi)]
        exact h3 i hi
      · exact Or.inl ⟨_, List.mem_cons_self, hz⟩

/-- The hypotheses of the two theorems above are met: for up to `2^50` values below `2^63` and any generators there
is a tree of accepted transcripts. -/
theorem C18_honest_tree {A : Type} [AddCommGroup A] [Module Zr A] (g : RangeGens A) (k : ℕ) (hk : k ≤ 50) (r : Zr)
    (v : ℕ → Zr) (hv : ∀ i < 2 ^ k, (v i).val < 2 ^ 63) :
    ∃ t : RTree A, t.WellFormed k ∧ t.Accepted g (2 ^ k) (r • g.F + ∑ i ∈ range (2 ^ k), v i • g.Gs i) := by
  classical
  exact ⟨honestRTree g k r v, honestRTree_wf g k hk r v, honestRTree_accepted g k hk r v hv⟩

theorem zip_rounds_fst : ∀ (xs : List Zr) (Δ : List (G1 × G1 × G1)), xs.length = Δ.length →
    (List.zipWith (fun x d => (x, d.1, d.2.1)) xs Δ).map Prod.fst = xs
  | [], [], _ => rfl
  | x :: xs, d :: Δ, h => by simp [zip_rounds_fst xs Δ (by simpa using h)]

theorem irChallenges_length (E : Curve G1 G2 GT) (digest : Bytes) : ∀ (V : G1) (Δ : List (G1 × G1 × G1)),
    (irChallenges E digest V Δ).length = Δ.length
  | _, [] => rfl
  | _, (_, _, V') :: Δ => by simp [irChallenges, irChallenges_length E digest V' Δ]

theorem verifyLoop_isSome (E : Curve G1 G2 GT) (hE : E.Lawful) (pp : BP.PP G1) (a b : Zr) (k : ℕ) :
    ∀ (P : G1) (g h LRs : List G1), g.length = 2 ^ k → h.length = 2 ^ k → LRs.length = 2 * k →
    ∃ bv, verifyLoop E pp P g h LRs a b = some bv := by
  induction k with
  | zero =>
    intro P g h LRs hg hh hL
    obtain ⟨g0, rfl⟩ := List.length_eq_one_iff.1 hg
    obtain ⟨h0, rfl⟩ := List.length_eq_one_iff.1 hh
    obtain rfl := List.length_eq_zero_iff.1 (by simpa using hL)
    rw [verifyLoop_one]
    exact ⟨_, rfl⟩
  | succ k ih =>
    intro P g h LRs hg hh hL
    rw [pow_succ, mul_comm] at hg hh
    match LRs, hL with
    | [], hL => simp at hL
    | [_], hL => simp at hL; omega
    | L :: R :: t, hL =>
      obtain ⟨x, hx⟩ := fieldElementFromBytes_isSome (hE.sha_len (E.g1Bytes L ++ E.g1Bytes R ++ pp.digest))
      have hx' : fieldElementFromBytes (randomOracle E L R pp.digest) = some x := hx
      rw [verifyLoop_step E pp P L R g h t a b (2 ^ k) (by positivity) hg hh x hx']
      exact ih _ _ _ t (foldG_length hg) (foldG_length hh) (by simp at hL; omega)

theorem verify_isSome (E : Curve G1 G2 GT) (hE : E.Lawful) (pp : BP.PP G1) (k : ℕ)
    (hG : pp.G.length = 2 ^ k) (hH : pp.H.length = 2 ^ k) (π : InnerProductProof G1)
    (hL : π.LRs.length = 2 * k) (x : Zr)
    (hx : fieldElementFromBytes (E.sha256 (instanceHashInput pp π.P)) = some x) :
    ∃ bv, π.verify E pp = some bv := by
  obtain ⟨d, hd⟩ := computeInstance_eq E pp π.P π.C (Or.inr (by omega)) x hx
  rw [InnerProductProof.verify, hd]
  exact verifyLoop_isSome E hE _ π.a π.b k _ _ _ _ hG hH hL

/-- **C18**, link to the code: with parameters for `2^k` values and a proof with `k` reduction rounds and
`k + 6` folding rounds, `VerifyRange` accepts exactly if the claimed commitments of the reduction are consistent
and the transcript with the hash challenges is accepted. -/
theorem C18_verify_iff_accepting_transcript (E : Curve G1 G2 GT) (hE : E.Lawful) (pp : RPPP G1) (k : ℕ)
    (hk1 : 1 ≤ k) (hk2 : k ≤ 15) (hGs : pp.Gs.length = 2 ^ k) (hHs : pp.Hs.length = 2 ^ k * 64)
    (hFs : pp.Fs.length = 2 ^ k * 64) (rp : RangeProof G1) (V : G1) (hΔ : rp.Δ.length = k)
    (hL : rp.ipp.LRs.length = 2 * (k + 6)) (x y0 y1 z x0 : Zr) (rdx ipaPP : BP.PP G1)
    (hx : rangeProofRO1 E pp V rp.W rp.Q = some x) (hrdx : rangeRdxPP E pp = some rdx)
    (hy0 : rangeY E pp rp.Q rp.R x 0 = some y0) (hy1 : rangeY E pp rp.Q rp.R x 1 = some y1)
    (hz : computeZ E pp rp.C1 rp.C2 rp.Q rp.R (zrBytes y0) (zrBytes y1) = some z)
    (hipa : rangeIpaPP E pp ((List.range (2 ^ k * 64)).map fun i => y0⁻¹ ^ i • pp.Fs.getD i 0) = some ipaPP)
    (hx0 : fieldElementFromBytes (E.sha256 ipaPP.digest) = some x0) :
    let xs := irChallenges E rdx.digest (rp.γ • pp.F + V + x • rp.W) rp.Δ
    let P := rangeStatement (rangeGens pp ipaPP.U) (2 ^ k) rp.Q rp.R xs.reverse x y0 y1 z rp.ρ
    verifyRange E pp rp V = some true ↔
      irConsistent xs (rp.γ • pp.F + V + x • rp.W) rp.Δ ∧
      RangeTr.Accepted (rangeGens pp ipaPP.U) (2 ^ k) V
        { W := rp.W, Q := rp.Q, x := x, γ := rp.γ, red := List.zipWith (fun x d => (x, d.1, d.2.1)) xs rp.Δ, u := rp.u,
          R := rp.R, y0 := y0, y1 := y1, x0 := x0, C1 := rp.C1, C2 := rp.C2, z := z, τ := rp.τ, ρ := rp.ρ, c := rp.c,
          ipa := roundsOf (ippChallenges E ipaPP { rp.ipp with C := rp.c, P := P }) rp.ipp.LRs,
          a := rp.ipp.a, b := rp.ipp.b } := by
  intro xs P
  have hn : 0 < 2 ^ k := by positivity
  have lxs : xs.length = k := by rw [irChallenges_length, hΔ]
  obtain ⟨d', U', hrdx'⟩ := rangeRdxPP_eq E pp
  have hrG : rdx.G = pp.Gs := by rw [hrdx] at hrdx'; cases hrdx'; rfl
  obtain ⟨d'', U'', hipa'⟩ := rangeIpaPP_eq E pp ((List.range (2 ^ k * 64)).map fun i => y0⁻¹ ^ i • pp.Fs.getD i 0)
    (by simp [hHs])
  have hiG : ipaPP.G = pp.Hs := by rw [hipa] at hipa'; cases hipa'; rfl
  have hiH : ipaPP.H = (List.range (2 ^ k * 64)).map fun i => y0⁻¹ ^ i • pp.Fs.getD i 0 := by
    rw [hipa] at hipa'; cases hipa'; rfl
  have hir := C15_verify_iff_accepting_transcript E hE rdx k hk1 hk2 (by rw [hrG, hGs])
    (rp.γ • pp.F + V + x • rp.W) rp.Δ hΔ rp.u
  rw [show irChallenges E rdx.digest (rp.γ • pp.F + V + x • rp.W) rp.Δ = xs from rfl] at hir
  have hfst := zip_rounds_fst xs rp.Δ (by rw [lxs, hΔ])
  have hpp : (List.range (2 ^ k)).map (rangeGens pp ipaPP.U).Gs = pp.Gs := map_getD_range pp.Gs 0 _ hGs
  have hpp2 : (List.range (2 ^ k * 64)).map (rangeGens pp ipaPP.U).Hs = pp.Hs := map_getD_range pp.Hs 0 _ hHs
  have gF : (rangeGens pp ipaPP.U).F = pp.F := rfl
  have gG : (rangeGens pp ipaPP.U).G = pp.G := rfl
  have gH : (rangeGens pp ipaPP.U).H = pp.H := rfl
  have gU : (rangeGens pp ipaPP.U).U = ipaPP.U := rfl
  have gFs : ∀ i, (rangeGens pp ipaPP.U).Fs i = pp.Fs.getD i 0 := fun _ => rfl
  simp only [RangeTr.Accepted, hfst, hpp, hpp2, gF, gG, gH, gU, gFs]
  rw [← and_assoc, ← hrG, ← hir.1, ← hiG]
  rcases hir.2 with hok | hfail
  · -- the reduction is accepted
    have hF : rangeF (2 ^ k) (Vec.reverse xs) = some ((List.range (2 ^ k)).map (bitMonomial xs.reverse)) := by
      have := rangeF_eq xs.reverse (by intro h; rw [List.reverse_eq_nil_iff] at h; rw [h] at lxs; simp at lxs; omega)
      rw [List.length_reverse, lxs] at this
      exact this
    have hD := computeD_eq 63 ((List.range (2 ^ k)).map (bitMonomial xs.reverse)) x
    rw [rangeWeights_eq, List.length_map, List.length_range] at hD
    obtain ⟨d, hd⟩ : ∃ d, d = (List.range (2 ^ k * 64)).map (rangeWeight (2 ^ k) xs.reverse x) := ⟨_, rfl⟩
    rw [← hd] at hD
    have ld : d.length = 2 ^ k * 64 := by simp [hd]
    have hFp : Gv.mulV pp.Fs (powerSeries pp.Fs.length y0⁻¹)
        = some ((List.range (2 ^ k * 64)).map fun i => y0⁻¹ ^ i • pp.Fs.getD i 0) := by
      rw [Gv.mulV_eq (by simp), primed_eq _ _ _ hFs]
    have hP := computeP_eq pp rp.ρ rp.Q rp.R z (Vec.mul (List.replicate (2 ^ k * 63) 1) y1) (2 ^ k) 63
      ((List.range (2 ^ k * 64)).map fun i => y0⁻¹ ^ i • pp.Fs.getD i 0) d y1 (by omega) (by omega) (by omega) (by simp)
      (by simp [ld]) (by simp)
    have hP' : rp.ρ • pp.F + rp.Q + z • rp.R + dot (Vec.mul (List.replicate (2 ^ k * 63) 1) y1) (pp.Hs.take (2 ^ k * 63))
        + dot (Vec.mul d (y1 * y1)) ((List.range (2 ^ k * 64)).map fun i => y0⁻¹ ^ i • pp.Fs.getD i 0)
        + dot (Vec.mul (List.replicate (2 ^ k * 63) 1) y1) (pp.Fs.take (2 ^ k * 63)) = P := by
      rw [dot_const _ _ _ (by omega), dot_const _ _ _ (by omega), hd, Vec.mul, List.map_map, dot_map_map_range]
      simp only [P, rangeStatement, rangeGens, Function.comp]
      congr 2
      exact Finset.sum_congr rfl fun i _ => by rw [mul_comm, ← sq]
    rw [hP'] at hP
    have hv := C12_verify_iff_accepting_transcript E hE ipaPP (k + 6) (by simp [hiG, hHs, pow_add])
      (by rw [hiH]; simp [pow_add]) { rp.ipp with C := rp.c, P := P } hL x0 hx0
    have v1 : Vec.innerProd (List.replicate (2 ^ k * 63) (1 : Zr)) (powerSeries (2 ^ k * 63) y0)
        = some (∑ i ∈ range (2 ^ k * 63), y0 ^ i) := by
      rw [Vec.innerProd_eq (by simp), dot_one_left _ _ (by simp), powerSeries_eq]
      rfl
    have hdT : d.take (2 ^ k * 63) = (List.range (2 ^ k * 63)).map (rangeWeight (2 ^ k) xs.reverse x) := by
      rw [hd, ← List.map_take, List.take_range, Nat.min_eq_left (by omega)]
    have v2 : Vec.innerProd (List.replicate (2 ^ k * 63) (1 : Zr)) (d.take (2 ^ k * 63))
        = some (∑ i ∈ range (2 ^ k * 63), rangeWeight (2 ^ k) xs.reverse x i) := by
      rw [hdT, Vec.innerProd_eq (by simp), dot_one_left _ _ (by simp)]
      rfl
    have v3 : sliceTo d (2 ^ k * 63) = some (d.take (2 ^ k * 63)) := sliceTo_eq (by omega)
    obtain ⟨bv, hbv⟩ : ∃ bv, InnerProductProof.verify E { rp.ipp with C := rp.c, P := P } ipaPP = some bv :=
      verify_isSome E hE ipaPP (k + 6) (by simp [hiG, hHs, pow_add]) (by rw [hiH]; simp [pow_add]) _ hL x0 hx0
    rw [verifyRangeState_steps E pp rp V (2 ^ k) hGs (expand_one _) hx hrdx hok hF hD hy0 hy1 rfl rfl hz hFp hipa hP hbv
      v1 v3 v2, Option.some_inj, Bool.and_eq_true, decide_eq_true_eq]
    rw [hbv, Option.some_inj] at hv
    rw [hv, hiH]
    simp only [hok, true_and]
    refine and_congr Iff.rfl ?_
    have hc : (∑ i ∈ range (2 ^ k * 63), rangeWeight (2 ^ k) xs.reverse x i) * (y1 * y1 * y1)
        + y1 * y1 * (rp.u + ∑ i ∈ range (2 ^ k * 63), y0 ^ i) + (∑ i ∈ range (2 ^ k * 63), y0 ^ i) * y1
        = rangeConstant (2 ^ k) xs.reverse x rp.u y0 y1 := by
      rw [rangeConstant]; ring
    rw [hc, sq z]
  · -- the reduction is rejected
    have hno : iterativeVerify E rdx (rp.γ • pp.F + V + x • rp.W) rp.Δ rp.u ≠ some (some (xs, rp.u)) := by
      rw [hfail]; simp
    have hfalse : verifyRange E pp rp V = some false := by
      have : verifyRangeState E pp rp V = some (false, rp) := by
        unfold verifyRangeState
        exact obind_step hx (obind_step hrdx (obind_step hfail rfl))
      rw [verifyRange, this]; rfl
    rw [hfalse]
    simp [hno]

end PoL.Props

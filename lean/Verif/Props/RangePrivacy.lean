import Verif.Proofs.RangePrivacy
import Verif.Props.Range

/-!
# C73: the range proof tells nothing about the values
-/

set_option linter.unusedSectionVars false

namespace PoL.Props

open BP

variable {G1 G2 GT : Type} [AddCommGroup G1] [Module Zr G1] [AddCommGroup G2] [Module Zr G2]
  [AddCommGroup GT] [Module Zr GT] [DecidableEq G1]

/-- **C73.** Let `V` be a commitment to the vector `v` with blinding `r`, and as well to `v'` with blinding `r'`, both
with all entries below `2^63`.  Whatever `ProveRange` returns with non-zero challenges `x` and `z`, it returns for equally many of its
random values with `(v, r)` as with `(v', r')`.  (`F` and `H` are not the neutral element, and the group has prime order.) -/
theorem C73_range_proof_hides_values (E : Curve G1 G2 GT) (hE : E.Lawful) (pp : RPPP G1) (k : ℕ) (hpp : pp.Sized k)
    (hcyc : PrimeOrder G1) (hF : pp.F ≠ 0) (hH : pp.H ≠ 0) (V : G1) (v v' : List Zr) (r r' : Zr) (hv : v.length = 2 ^ k)
    (hv' : v'.length = 2 ^ k) (hrange : ∀ x ∈ v, x.val < 2 ^ 63) (hrange' : ∀ x ∈ v', x.val < 2 ^ 63)
    (hV : V = r • pp.F + dot v pp.Gs) (hV' : V = r' • pp.F + dot v' pp.Gs) (rp : RangeProof G1) (x y0 y1 z : Zr)
    (hx : rangeProofRO1 E pp V rp.W rp.Q = some x) (hx0 : x ≠ 0)
    (hy0 : rangeY E pp rp.Q rp.R x 0 = some y0) (hy1 : rangeY E pp rp.Q rp.R x 1 = some y1)
    (hz : computeZ E pp rp.C1 rp.C2 rp.Q rp.R (zrBytes y0) (zrBytes y1) = some z) (hz0 : z ≠ 0) :
    EquallyLikely (fun rnd : RangeRand => rnd.WellFormed (2 ^ k)) (fun rnd => proveRange E pp rnd V v r)
      (fun rnd => proveRange E pp rnd V v' r') rp := by
  refine equallyLikely_of_matching (finite_rangeRand _) (fun a b => mask v a.w x = mask v' b.w x ∧ r + x * a.rPrime = r' + x * b.rPrime ∧
      mask (rangeBits 63 v ++ a.w) a.s z = mask (rangeBits 63 v' ++ b.w) b.s z ∧
      mask (List.zipWith (· - ·) (List.replicate (2 ^ k * 63) 1) (rangeBits 63 v)) a.t z
        = mask (List.zipWith (· - ·) (List.replicate (2 ^ k * 63) 1) (rangeBits 63 v')) b.t z) ?_ ?_ ?_ ?_
  · intro a ha h
    obtain ⟨ipaPP, h1, h2⟩ := (proveRange_some_iff E pp a V v r rp).1 h
    obtain ⟨b, hb, hb1, hrel⟩ := proveRange_switch E hE pp k hpp hcyc hF hH V v v' r r' hv hv' hrange hrange'
      (hV.symm.trans hV') rp ipaPP x y0 y1 z hx hx0 hy0 hy1 hz hz0 a ha h1
    exact ⟨b, hb, (proveRange_some_iff E pp b V v' r' rp).2 ⟨ipaPP, hb1, h2⟩, hrel⟩
  · intro b hb h
    obtain ⟨ipaPP, h1, h2⟩ := (proveRange_some_iff E pp b V v' r' rp).1 h
    obtain ⟨a, ha, ha1, m1, m2, m3, m4⟩ := proveRange_switch E hE pp k hpp hcyc hF hH V v' v r' r hv' hv hrange' hrange
      (hV'.symm.trans hV) rp ipaPP x y0 y1 z hx hx0 hy0 hy1 hz hz0 b hb h1
    exact ⟨a, ha, (proveRange_some_iff E pp a V v r rp).2 ⟨ipaPP, ha1, h2⟩, m1.symm, m2.symm, m3.symm, m4.symm⟩
  · rintro a b b' - - hb h hb' h' ⟨m1, m2, m3, m4⟩ ⟨n1, n2, n3, n4⟩
    obtain ⟨i, h1, -⟩ := (proveRange_some_iff E pp b V v' r' rp).1 h
    obtain ⟨i', h1', -⟩ := (proveRange_some_iff E pp b' V v' r' rp).1 h'
    exact proveRange_unique E hE pp k hpp hF hH V v' r' hv' hrange' rp i i' x y0 y1 z hx hx0 hy0 hy1 hz0 b b' hb hb'
      h1 h1' (m1.symm.trans n1) (m2.symm.trans n2) (m3.symm.trans n3) (m4.symm.trans n4)
  · rintro a a' b ha h ha' h' - - ⟨m1, m2, m3, m4⟩ ⟨n1, n2, n3, n4⟩
    obtain ⟨i, h1, -⟩ := (proveRange_some_iff E pp a V v r rp).1 h
    obtain ⟨i', h1', -⟩ := (proveRange_some_iff E pp a' V v r rp).1 h'
    exact proveRange_unique E hE pp k hpp hF hH V v r hv hrange rp i i' x y0 y1 z hx hx0 hy0 hy1 hz0 a a' ha ha'
      h1 h1' (m1.trans n1.symm) (m2.trans n2.symm) (m3.trans n3.symm) (m4.trans n4.symm)

theorem toy_primeOrder : PrimeOrder Zr := fun g hg h => ⟨h * g⁻¹, by rw [smul_eq_mul, inv_mul_cancel_right₀ hg]⟩

/-- C73 applies to `(2^63-1, 0)` and `(5, 7)`, with a proof that does come up. -/
example : ∃ (pp : RPPP Zr) (V r r' : Zr) (rnd : RangeRand) (rp : RangeProof Zr),
    proveRange toyCurve pp rnd V [((2 ^ 63 - 1 : ℕ) : Zr), ((0 : ℕ) : Zr)] r = some rp ∧
    EquallyLikely (fun rnd : RangeRand => rnd.WellFormed (2 ^ 1))
      (fun rnd => proveRange toyCurve pp rnd V [((2 ^ 63 - 1 : ℕ) : Zr), ((0 : ℕ) : Zr)] r)
      (fun rnd => proveRange toyCurve pp rnd V [((5 : ℕ) : Zr), ((7 : ℕ) : Zr)] r') rp := by
  have small : ∀ n : ℕ, n < 2 ^ 63 → ((n : ℕ) : Zr).val < 2 ^ 63 := fun n h => by
    rw [ZMod.val_natCast_of_lt (lt_trans h two_pow_63_lt_order)]; exact h
  have two : ∀ m n : ℕ, m < 2 ^ 63 → n < 2 ^ 63 → ∀ x ∈ [((m : ℕ) : Zr), ((n : ℕ) : Zr)], x.val < 2 ^ 63 := by
    intro m n hm hn x hx
    rcases List.mem_cons.1 hx with rfl | hx
    · exact small m hm
    · rw [List.mem_singleton.1 hx]; exact small n hn
  obtain ⟨pp, hpp⟩ : ∃ pp : RPPP Zr, pp = ⟨1, 1, 1, [1, 1], List.replicate 128 1, List.replicate 128 1, []⟩ := ⟨_, rfl⟩
  have hF : pp.F = 1 := by rw [hpp]
  have hH : pp.H = 1 := by rw [hpp]
  have hG : pp.Gs = [1, 1] := by rw [hpp]
  have hs : pp.Sized 1 := ⟨le_rfl, by norm_num, by rw [hpp]; rfl, by rw [hpp]; simp, by rw [hpp]; simp⟩
  clear hpp
  have wf : RangeRand.WellFormed ⟨[3, 4], 5, 6, 7, List.replicate 128 1, List.replicate 126 2, 8, 9⟩ (2 ^ 1) :=
    ⟨rfl, by simp, by simp⟩
  have hr1 := two (2 ^ 63 - 1) 0 (by norm_num) (by norm_num)
  have hr2 := two 5 7 (by norm_num) (by norm_num)
  obtain ⟨rp, ipaPP, -, h⟩ := range_complete toyCurve toyCurve_lawful pp 1 hs _ wf
    [((2 ^ 63 - 1 : ℕ) : Zr), ((0 : ℕ) : Zr)] rfl hr1 11 _ rfl
  refine ⟨pp, _, 11, 11 + ((2 ^ 63 - 1 : ℕ) : Zr) - ((5 : ℕ) : Zr) - ((7 : ℕ) : Zr), _, rp,
    (h (toy_rangeChallenges_ne _ _ _ _)).1,
    C73_range_proof_hides_values toyCurve toyCurve_lawful pp 1 hs toy_primeOrder (by rw [hF]; exact one_ne_zero)
      (by rw [hH]; exact one_ne_zero) _ _ _ _ _ rfl rfl hr1 hr2 rfl ?_ rp toyChallenge toyChallenge toyChallenge
      toyChallenge toy_fe toyChallenge_ne toy_fe toy_fe toy_fe toyChallenge_ne⟩
  rw [hF, hG]
  simp only [dot_cons, dot_nil_left, smul_eq_mul, Nat.cast_zero]
  ring

end PoL.Props

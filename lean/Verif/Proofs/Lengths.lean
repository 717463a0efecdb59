import Verif.Proofs.PolHist
import Verif.Spec.Sizes

/-! Lengths of the parts of the proofs that the provers return. -/

set_option linter.unusedSectionVars false

namespace PoL
open BP Spec Verkle Pol

variable {G1 G2 GT : Type} [AddCommGroup G1] [Module Zr G1] [AddCommGroup G2] [Module Zr G2]
  [AddCommGroup GT] [Module Zr GT] [DecidableEq G1] [DecidableEq GT]

theorem proveLoop_length (E : Curve G1 G2 GT) (pp : BP.PP G1) : ∀ (k : ℕ) (a b : List Zr) (P : G1) (g h LRs : List G1) (ab : Zr × Zr),
    g.length = 2 ^ k → BP.proveLoop E pp a b P g h = some (LRs, ab) → LRs.length = 2 * k := by
  intro k
  induction k with
  | zero =>
    intro a b P g h LRs ab hg hr
    rw [BP.proveLoop] at hr
    rw [pow_zero] at hg
    split_ifs at hr
    obtain ⟨a0, -, hr⟩ := obind_elim hr
    obtain ⟨b0, -, hr⟩ := obind_elim hr
    rw [Option.pure_def, Option.some.injEq, Prod.mk.injEq] at hr
    rw [← hr.1]
    rfl
  | succ k ih =>
    intro a b P g h LRs ab hg hr
    have h2 : 2 ^ (k + 1) = 2 * 2 ^ k := by ring
    have hk : 1 ≤ 2 ^ k := Nat.one_le_two_pow
    rw [BP.proveLoop] at hr
    split_ifs at hr with h1 h3 h4
    · omega
    · dsimp only at hr
      split at hr
      · cases hr
      · split at hr
        · cases hr
        · rename_i np hnp
          obtain ⟨a', -, hr⟩ := obind_elim hr
          obtain ⟨b', -, hr⟩ := obind_elim hr
          obtain ⟨⟨LRs', ab'⟩, hrec, hr⟩ := obind_elim hr
          rw [Option.pure_def, Option.some.injEq, Prod.mk.injEq] at hr
          have hlen := computeNextParams_g_length hnp
          have := ih _ _ _ _ _ _ _ (by rw [hlen, hg]; omega) hrec
          rw [← hr.1, List.length_append, this]
          simp only [List.length_cons, List.length_nil]
          omega

theorem ipaProve_length {E : Curve G1 G2 GT} {ipa : InnerProdArgument G1} {π : InnerProductProof G1} {k : ℕ}
    (hg : ipa.pp.G.length = 2 ^ k) (h : ipa.prove E = some π) : π.LRs.length = 2 * k := by
  unfold InnerProdArgument.prove at h
  obtain ⟨⟨pp, P⟩, -, h⟩ := obind_elim h
  obtain ⟨⟨LRs, a, b⟩, hp, h⟩ := obind_elim h
  rw [Option.pure_def, Option.some.injEq] at h
  rw [← h]
  exact proveLoop_length E pp k _ _ _ _ _ _ _ hg hp

theorem newIpa_pp {pp : BP.PP G1} {a b : List Zr} {ipa : InnerProdArgument G1}
    (h : newInnerProdArgument pp a b = some ipa) : ipa.pp = pp := by
  unfold newInnerProdArgument at h
  obtain ⟨C, -, h⟩ := obind_elim h
  obtain ⟨P, -, h⟩ := obind_elim h
  rw [← Option.some.inj h]

theorem setupDigest_G {E : Curve G1 G2 GT} {pp pp' : BP.PP G1} (h : BP.setupDigest E pp = some pp') : pp'.G = pp.G := by
  unfold BP.setupDigest at h
  obtain ⟨d, -, h⟩ := obind_elim h
  rw [← Option.some.inj h]

theorem iterReduceLoop_length (E : Curve G1 G2 GT) (d : Bytes) : ∀ (k n : ℕ) (G : List G1) (v : List Zr) (V : G1)
    (Δ : List (G1 × G1 × G1)) (xs : List Zr) (Δ' : List (G1 × G1 × G1)) (r : List Zr × Zr), n = 2 ^ k / 2 →
    iterReduceLoop E d n G v V Δ xs = some (Δ', r) → Δ'.length = Δ.length + k := by
  intro k
  induction k with
  | zero =>
    intro n G v V Δ xs Δ' r hn h
    unfold iterReduceLoop at h
    rw [dif_pos (by rw [hn]; rfl)] at h
    match v, h with
    | [v0], h =>
      rw [Option.some.injEq, Prod.mk.injEq] at h
      rw [← h.1]; rfl
    | [], h => cases h
    | _ :: _ :: _, h => cases h
  | succ k ih =>
    intro n G v V Δ xs Δ' r hn h
    have hk : 1 ≤ 2 ^ k := Nat.one_le_two_pow
    have hn' : n = 2 ^ k := by rw [hn, pow_succ]; omega
    unfold iterReduceLoop at h
    rw [dif_neg (by omega)] at h
    obtain ⟨GL, -, h⟩ := obind_elim h
    obtain ⟨GR, -, h⟩ := obind_elim h
    obtain ⟨vL, -, h⟩ := obind_elim h
    obtain ⟨vR, -, h⟩ := obind_elim h
    obtain ⟨_, -, h⟩ := obind_elim h
    obtain ⟨A, -, h⟩ := obind_elim h
    obtain ⟨_, -, h⟩ := obind_elim h
    obtain ⟨B, -, h⟩ := obind_elim h
    obtain ⟨x, -, h⟩ := obind_elim h
    obtain ⟨G', -, h⟩ := obind_elim h
    obtain ⟨v', -, h⟩ := obind_elim h
    obtain ⟨_, -, h⟩ := obind_elim h
    obtain ⟨V', -, h⟩ := obind_elim h
    have := ih _ _ _ _ _ _ _ _ (by rw [hn']) h
    rw [this]
    simp only [List.length_append, List.length_cons, List.length_nil]
    omega

theorem iterativeReduce_length {E : Curve G1 G2 GT} {pp : BP.PP G1} {v : List Zr} {V : G1} {k : ℕ}
    (hG : pp.G.length = 2 ^ k) {Δ : List (G1 × G1 × G1)} {r : List Zr × Zr} (h : iterativeReduce E pp v V = some (Δ, r)) :
    Δ.length = k := by
  unfold iterativeReduce at h
  obtain ⟨b, -, h⟩ := obind_elim h
  split_ifs at h
  have := iterReduceLoop_length E _ k _ _ _ _ _ _ _ _ (by rw [hG]) h
  simpa using this

/-- The lengths in a range proof for `2^k` values, with `2^j` generators `Hs`. -/
theorem proveRange_length {E : Curve G1 G2 GT} {pp : RPPP G1} {rnd : RangeRand} {V : G1} {v : List Zr} {r : Zr}
    {rp : RangeProof G1} {k j : ℕ} (hG : pp.Gs.length = 2 ^ k) (hH : pp.Hs.length = 2 ^ j)
    (h : proveRange E pp rnd V v r = some rp) : rp.Δ.length = k ∧ rp.ipp.LRs.length = 2 * j := by
  unfold proveRange at h
  obtain ⟨⟨rp', ipaPP'⟩, hu, h⟩ := obind_elim h
  obtain ⟨b, -, h⟩ := obind_elim h
  have hrp : rp' = rp := by
    split_ifs at h
    exact Option.some.inj h
  subst hrp
  clear h
  unfold proveRangeUnchecked at hu
  obtain ⟨_, -, hu⟩ := obind_elim hu
  obtain ⟨_, -, hu⟩ := obind_elim hu
  obtain ⟨_, -, hu⟩ := obind_elim hu
  obtain ⟨_, -, hu⟩ := obind_elim hu
  obtain ⟨_, -, hu⟩ := obind_elim hu
  obtain ⟨_, -, hu⟩ := obind_elim hu
  obtain ⟨_, -, hu⟩ := obind_elim hu
  obtain ⟨_, -, hu⟩ := obind_elim hu
  obtain ⟨_, -, hu⟩ := obind_elim hu
  obtain ⟨_, -, hu⟩ := obind_elim hu
  obtain ⟨ppRdx, hrdx, hu⟩ := obind_elim hu
  obtain ⟨_, -, hu⟩ := obind_elim hu
  obtain ⟨⟨Δ, xs, u⟩, hred, hu⟩ := obind_elim hu
  obtain ⟨_, -, hu⟩ := obind_elim hu
  obtain ⟨_, -, hu⟩ := obind_elim hu
  obtain ⟨_, -, hu⟩ := obind_elim hu
  obtain ⟨_, -, hu⟩ := obind_elim hu
  obtain ⟨_, -, hu⟩ := obind_elim hu
  obtain ⟨_, -, hu⟩ := obind_elim hu
  obtain ⟨_, -, hu⟩ := obind_elim hu
  obtain ⟨_, -, hu⟩ := obind_elim hu
  obtain ⟨_, -, hu⟩ := obind_elim hu
  obtain ⟨_, -, hu⟩ := obind_elim hu
  obtain ⟨_, -, hu⟩ := obind_elim hu
  obtain ⟨_, -, hu⟩ := obind_elim hu
  obtain ⟨_, -, hu⟩ := obind_elim hu
  obtain ⟨_, -, hu⟩ := obind_elim hu
  obtain ⟨_, -, hu⟩ := obind_elim hu
  obtain ⟨_, -, hu⟩ := obind_elim hu
  obtain ⟨_, -, hu⟩ := obind_elim hu
  obtain ⟨_, -, hu⟩ := obind_elim hu
  obtain ⟨_, -, hu⟩ := obind_elim hu
  obtain ⟨_, -, hu⟩ := obind_elim hu
  obtain ⟨_, -, hu⟩ := obind_elim hu
  obtain ⟨_, -, hu⟩ := obind_elim hu
  obtain ⟨_, -, hu⟩ := obind_elim hu
  obtain ⟨_, -, hu⟩ := obind_elim hu
  obtain ⟨_, -, hu⟩ := obind_elim hu
  obtain ⟨_, -, hu⟩ := obind_elim hu
  obtain ⟨ipaPP, hipa, hu⟩ := obind_elim hu
  obtain ⟨ipa, hnew, hu⟩ := obind_elim hu
  obtain ⟨ipp, hprove, hu⟩ := obind_elim hu
  rw [Option.pure_def, Option.some.injEq, Prod.mk.injEq] at hu
  rw [← hu.1]
  unfold rangeRdxPP at hrdx
  obtain ⟨U, -, hrdx⟩ := obind_elim hrdx
  unfold rangeIpaPP at hipa
  obtain ⟨U', -, hipa⟩ := obind_elim hipa
  exact ⟨iterativeReduce_length (by rw [setupDigest_G hrdx]; exact hG) hred,
    ipaProve_length (by rw [newIpa_pp hnew, setupDigest_G hipa]; exact hH) hprove⟩

/-- The length of the inner-product proof in a sum argument for vectors of length `2^k`. -/
theorem newArgument_length {E : Curve G1 G2 GT} {pp : Sum.PP G1} {rnd : Sum.Rand} {V : G1} {v : List Zr} {r : Zr}
    {a : Sum.Argument G1} {p : Sum.Proof G1} {k : ℕ} (hG : pp.Gs.length = 2 ^ k)
    (h : Sum.newArgument E pp rnd V v r = some (a, p)) : p.π.LRs.length = 2 * k := by
  unfold Sum.newArgument at h
  obtain ⟨_, -, h⟩ := obind_elim h
  obtain ⟨_, -, h⟩ := obind_elim h
  obtain ⟨_, -, h⟩ := obind_elim h
  obtain ⟨_, -, h⟩ := obind_elim h
  obtain ⟨ipaPP, hipa, h⟩ := obind_elim h
  obtain ⟨_, -, h⟩ := obind_elim h
  obtain ⟨ipa, hnew, h⟩ := obind_elim h
  obtain ⟨π, hprove, h⟩ := obind_elim h
  rw [Option.pure_def, Option.some.injEq, Prod.mk.injEq] at h
  rw [← h.2]
  exact ipaProve_length (by rw [newIpa_pp hnew, setupDigest_G hipa]; exact hG) hprove

theorem newAggregated_length {E : Curve G1 G2 GT} {pp : Sum.PP G1} {rnd : Sum.Rand} {V : List G1} {v : List (List Zr)}
    {r : List Zr} {p : Sum.Proof G1} {k : ℕ} (hG : pp.Gs.length = 2 ^ k)
    (h : Sum.newAggregatedArgument E pp rnd V v r = some p) : p.π.LRs.length = 2 * k := by
  unfold Sum.newAggregatedArgument at h
  obtain ⟨_, -, h⟩ := obind_elim h
  obtain ⟨_, -, h⟩ := obind_elim h
  obtain ⟨_, -, h⟩ := obind_elim h
  obtain ⟨_, -, h⟩ := obind_elim h
  obtain ⟨_, -, h⟩ := obind_elim h
  obtain ⟨_, -, h⟩ := obind_elim h
  obtain ⟨⟨a, p'⟩, hn, h⟩ := obind_elim h
  rw [← Option.some.inj h]
  exact newArgument_length hG hn

/-- The lengths in a batch equality proof for `2^k` pairs. -/
theorem eqProve_length {E : Curve G1 G2 GT} {e : Poe.Equalities G1 G2 GT} {rnd : Poe.EqsRand} {vs ws : List (List Zr)}
    {p : Poe.AggregatedProof G1} {k : ℕ} (hG : e.PP.G.length = 2 ^ k) (h : e.prove E rnd vs ws = some p) :
    p.Vaggr.length = e.V.length ∧ p.Waggr.length = e.V.length ∧ p.IPP.LRs.length = 2 * k := by
  unfold Poe.Equalities.prove at h
  dsimp only at h
  split_ifs at h
  obtain ⟨_, -, h⟩ := obind_elim h
  obtain ⟨steps, hs, h⟩ := obind_elim h
  iterate 22 obtain ⟨_, -, h⟩ := obind_elim h
  obtain ⟨bpPP, hbp, h⟩ := obind_elim h
  obtain ⟨ipa, hnew, h⟩ := obind_elim h
  obtain ⟨ipp, hprove, h⟩ := obind_elim h
  rw [Option.pure_def, Option.some.injEq] at h
  have hsl : steps.length = e.V.length := by rw [mapM_length _ _ _ hs, List.length_range]
  unfold Poe.ipaParams at hbp
  obtain ⟨U, -, hbp⟩ := obind_elim hbp
  rw [← h]
  dsimp only
  refine ⟨by rw [List.length_map, hsl], by rw [List.length_map, hsl], ipaProve_length ?_ hprove⟩
  dsimp only
  rw [newIpa_pp hnew, setupDigest_G hbp]
  exact hG

end PoL

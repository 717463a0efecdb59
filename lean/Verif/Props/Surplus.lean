import Verif.Proofs.Surplus
import Verif.Props.Shape

/-!
# C97: an accepted proof has no entries that are not needed (false)
-/

set_option linter.unusedSectionVars false

namespace PoL.Props

open BP Spec Verkle Pol

variable {G1 G2 GT : Type} [AddCommGroup G1] [Module Zr G1] [AddCommGroup G2] [Module Zr G2]
  [AddCommGroup GT] [Module Zr GT] [DecidableEq G1] [DecidableEq GT]

/-- **C97.** Whatever is added at the end of the lists of rounds and of the list of range proofs, the verdict stays the same,
be it acceptance or refusal, for any parameters and any proof. -/
theorem C97_verdict_unchanged (E : Curve G1 G2 GT) (pp : PublicParams G1 G2 GT) (id : Str) (V W : G1)
    (id2path : Str → Option (List ℕ)) (lp lp' : LiabilityProof G1) (hx : Extended lp lp') (b : Bool)
    (h : lp.verify E pp id V W id2path = some b) : lp'.verify E pp id V W id2path = some b :=
  verify_more E lp lp' pp id V W id2path b hx h

/-- What `trim` leaves out can be added again. -/
theorem trim_extended (k κ L : ℕ) (lp : LiabilityProof G1) : Extended (trim k κ L lp) lp := by
  refine ⟨⟨rfl, List.prefix_rfl, ?_, fun i rp rp' h1 h2 => ?_, List.take_prefix _ _, List.prefix_rfl, List.prefix_rfl,
    List.take_prefix _ _⟩, rfl, rfl, rfl⟩
  · simp only [trim, List.length_map, List.length_take]
    omega
  · simp only [trim, List.getElem?_map, Option.map_eq_some_iff] at h2
    obtain ⟨rp₁, h2, rfl⟩ := h2
    obtain ⟨hi, -⟩ := List.getElem?_eq_some_iff.1 h2
    rw [List.getElem?_take_of_lt (by simp only [List.length_take] at hi; omega), h1, Option.some.injEq] at h2
    subst h2
    exact ⟨rfl, List.take_prefix _ _, List.take_prefix _ _⟩

/-- **C97, what does hold**: the verdict depends only on the part of the proof that is left when the surplus is taken away.
What is missing: the surplus is not refused, see `C97_violated`; and the further entries of `V`, of `Vaggr` and of `Waggr` are
not taken away here, as they are hashed. -/
theorem C97_verdict_of_trimmed_partial {E : Curve G1 G2 GT} (hE : E.Lawful) {α : Zr} {F L : ℕ} {pp : PublicParams G1 G2 GT}
    (hpp : Fits E α F L pp) (k κ : ℕ) (hk : F + 1 = 2 ^ k) (hκ : IsPadded (L - 1) (2 ^ κ)) (id2path : Str → Option (List ℕ))
    (id : Str) (path : List ℕ) (hp : id2path id = some path) (hL : path.length = L) (hF : ∀ c ∈ path, c ≤ F)
    (lp : LiabilityProof G1) (hs : ProofShape k κ L lp) (V W : G1) :
    (trim k κ L lp).verify E pp id V W id2path = lp.verify E pp id V W id2path := by
  have hs' : ProofShape k κ L (trim k κ L lp) := by
    obtain ⟨s1, s2, s3, s4, s5, s6, s7⟩ := hs
    refine ⟨s1, by simp only [trim, List.length_map, List.length_take]; omega, fun rp hrp => ?_,
      by simp only [trim, List.length_take]; omega, ⟨s5, s6, by simp only [trim, List.length_take]; omega⟩⟩
    obtain ⟨rp₁, h1, rfl⟩ := List.mem_map.1 (List.mem_of_mem_take hrp)
    obtain ⟨r1, r2⟩ := s3 _ h1
    exact ⟨by simp only [trimRange, List.length_take]; omega, by simp only [trimRange, List.length_take]; omega⟩
  obtain ⟨b, hb⟩ := C96_long_enough_is_answered hE hpp k κ hk hκ id2path id path hp hL hF _ hs' V W
  rw [hb, C97_verdict_unchanged E pp id V W id2path _ _ (trim_extended k κ L lp) b hb]

/-- **C97**: every accepted proof contains an accepted proof that has nothing to spare in its lists of rounds and in its list
of range proofs; its `W`s and digests are as many as the path asks for. -/
theorem C97_accepted_contains_trimmed {E : Curve G1 G2 GT} (hE : E.Lawful) {α : Zr} {F L : ℕ} {pp : PublicParams G1 G2 GT}
    (hpp : Fits E α F L pp) (k κ : ℕ) (hk : F + 1 = 2 ^ k) (hκ : IsPadded (L - 1) (2 ^ κ)) (id2path : Str → Option (List ℕ))
    (id : Str) (path : List ℕ) (hp : id2path id = some path) (hL : path.length = L) (hF : ∀ c ∈ path, c ≤ F)
    (lp : LiabilityProof G1) (V W : G1) (h : lp.verify E pp id V W id2path = some true) :
    ∃ lp₀, Extended lp₀ lp ∧ lp₀.verify E pp id V W id2path = some true ∧ lp₀.rangeProofs.length = L ∧
      (∀ rp ∈ lp₀.rangeProofs, rp.Δ.length = k ∧ rp.ipp.LRs.length = 2 * (k + 6)) ∧
      lp₀.sumArgumentProof.π.LRs.length = 2 * k ∧ lp₀.equalityProof.IPP.LRs.length = 2 * κ ∧
      lp.W.length + 1 = L ∧ lp.digests.length = L := by
  have hs := C96_accepted_is_long_enough hE hpp k κ hk hκ id2path id path hp hL lp V W h
  obtain ⟨path', hp', hacc⟩ := (verify_iff E lp pp id V W id2path).1 h
  obtain rfl : path = path' := Option.some.inj (hp.symm.trans hp')
  have htr := C97_verdict_of_trimmed_partial hE hpp k κ hk hκ id2path id path hp hL hF lp hs V W
  obtain ⟨s1, s2, s3, s4, s5, s6, s7⟩ := hs
  refine ⟨trim k κ L lp, trim_extended k κ L lp, htr.trans h, by simp only [trim, List.length_map, List.length_take]; omega,
    fun rp hrp => ?_, by simp only [trim, List.length_take]; omega, by simp only [trim, List.length_take]; omega,
    hL ▸ hacc.len_W, hL ▸ hacc.len_digests⟩
  obtain ⟨rp₁, h1, rfl⟩ := List.mem_map.1 hrp
  obtain ⟨r1, r2⟩ := s3 _ h1
  exact ⟨by simp only [trimRange, List.length_take]; omega, by simp only [trimRange, List.length_take]; omega⟩

/-- **C97 fails** for every accepted proof: with any points added to the rounds of the sum argument, any further range proofs,
and any further rounds in the ones that are there, it is another accepted proof; different additions give different accepted
proofs. -/
theorem C97_violated (E : Curve G1 G2 GT) (pp : PublicParams G1 G2 GT) (id : Str) (V W : G1)
    (id2path : Str → Option (List ℕ)) (lp : LiabilityProof G1) (h : lp.verify E pp id V W id2path = some true) :
    ∃ more : List G1 → List (RangeProof G1) → List (G1 × G1 × G1) → LiabilityProof G1,
      (∀ Ps rps Δs, (more Ps rps Δs).verify E pp id V W id2path = some true) ∧ more [] [] [] = lp ∧
      (∀ Ps rps Δs Ps' rps' Δs', more Ps rps Δs = more Ps' rps' Δs' → Ps = Ps' ∧ rps = rps' ∧
        (lp.rangeProofs ≠ [] → Δs = Δs')) ∧
      ∀ Ps rps Δs, (more Ps rps Δs).sumArgumentProof.π.LRs = lp.sumArgumentProof.π.LRs ++ Ps ∧
        (more Ps rps Δs).rangeProofs.length = lp.rangeProofs.length + rps.length := by
  refine ⟨fun Ps rps Δs => { lp with
      rangeProofs := (lp.rangeProofs.map fun rp => { rp with Δ := rp.Δ ++ Δs }) ++ rps
      sumArgumentProof := { lp.sumArgumentProof with π := { lp.sumArgumentProof.π with
        LRs := lp.sumArgumentProof.π.LRs ++ Ps } } }, fun Ps rps Δs => ?_, ?_, fun Ps rps Δs Ps' rps' Δs' he => ?_,
    fun Ps rps Δs => ⟨rfl, by simp⟩⟩
  · refine C97_verdict_unchanged E pp id V W id2path lp _ ?_ true h
    refine ⟨⟨rfl, List.prefix_rfl, by simp, fun i rp rp' h1 h2 => ?_, List.prefix_append _ _, List.prefix_rfl,
      List.prefix_rfl, List.prefix_rfl⟩, rfl, rfl, rfl⟩
    obtain ⟨hi, -⟩ := List.getElem?_eq_some_iff.1 h2
    rw [List.getElem?_append_left (by simpa using hi), List.getElem?_map, h2, Option.map_some, Option.some.injEq] at h1
    subst h1
    exact ⟨rfl, List.prefix_append _ _, List.prefix_rfl⟩
  · simp
  · have h1 := congrArg (fun l => l.sumArgumentProof.π.LRs) he
    have h2 := congrArg (fun l => l.rangeProofs) he
    dsimp only at h1 h2
    obtain ⟨h3, h4⟩ := List.append_inj h2 (by simp)
    refine ⟨List.append_cancel_left h1, h4, fun hne => ?_⟩
    obtain ⟨rp, l, hl⟩ := List.exists_cons_of_ne_nil hne
    rw [hl, List.map_cons, List.map_cons, List.cons.injEq] at h3
    exact List.append_cancel_left (congrArg (fun r => r.Δ) h3.1)

/-- An accepted proof in a set with three identifiers: with two points added to the sum argument it is still accepted. -/
example : ∃ (ls ls' : LiabilitySet Zr Zr Zr) (lp : LiabilityProof Zr) (V W : Zr), ls.sets toyCurve toyEnv toyHist = some ls' ∧
    ls'.proveLiability toyCurve toyEnv toyRand ['2', '2', '1'] = some (some (7, lp)) ∧
    lp.verify toyCurve ls.pp ['2', '2', '1'] V W ls.tree.id2Path = some true ∧
    ∃ lp', lp' ≠ lp ∧ lp'.verify toyCurve ls.pp ['2', '2', '1'] V W ls.tree.id2Path = some true ∧
      lp'.sumArgumentProof.π.LRs = lp.sumArgumentProof.π.LRs ++ [3, 4] := by
  obtain ⟨ls, h, ht⟩ := toy_set
  have hids : ValidIds ls.tree.id2Path 3 3 toyHist := by rw [ht]; exact toyHist_valid
  have h42 : totalAmount (byPath ls.tree.id2Path toyHist) = 42 := by rw [ht]; decide
  have h7 : latest (byPath ls.tree.id2Path toyHist) [2, 2, 1] = 7 := by rw [ht]; decide
  have hp : ls.tree.id2Path ['2', '2', '1'] = some [2, 2, 1] := by rw [ht]; rfl
  obtain ⟨ls', hs⟩ := C43_sets_return toyCurve_lawful toyEnv_lawful h toyHist hids (by decide)
  obtain ⟨lp, x, W, h1, h2, -, -, h4⟩ := C47_liability_proof_verifies_partial toyCurve_lawful toyEnv_lawful h toyHist hids hs
    (by rw [h42]; norm_num) ['2', '2', '1'] [2, 2, 1] hp (by rw [ht]; decide) (by rw [ht]; decide) toyRand
    toyRand_sized (toy_challenges _ _ _)
  rw [h7] at h1
  obtain ⟨more, m1, m2, m3, m4⟩ := C97_violated toyCurve ls.pp ['2', '2', '1'] _ _ ls.tree.id2Path lp h4
  refine ⟨ls, ls', lp, _, _, hs, h1, h4, more [3, 4] [] [], fun he => ?_, m1 _ _ _, (m4 _ _ _).1⟩
  rw [← m2] at he
  exact absurd (m3 _ _ _ _ _ _ he).1 (by simp)

end PoL.Props

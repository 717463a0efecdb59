import Verif.Props.Pol

/-!
# Parameters of liability sets (C54)
-/

set_option linter.unusedSectionVars false

namespace PoL.Props
open Spec Pol Verkle PP

variable {G1 G2 GT : Type} [AddCommGroup G1] [Module Zr G1] [AddCommGroup G2] [Module Zr G2]
  [AddCommGroup GT] [Module Zr GT] [DecidableEq G1] [DecidableEq GT]

/-- C54 for dense trees: for every supported fan-out but 1, `GeneratePublicParams` returns the path function
of the fan-out and parameters that fit paths of the length `digitPathLen`. -/
theorem C54_dense (E : Curve G1 G2 GT) (α : Zr) (fanOut : UInt16) (id2Path : Str → Option (List ℕ))
    (h : digitPath fanOut = some id2Path) (hf : 2 ≤ fanOut.toNat) :
    ∃ L pp, digitPathLen fanOut = some L ∧ generatePublicParams E α fanOut .dense = some (id2Path, pp) ∧
      Fits E α fanOut.toNat L pp := by
  obtain ⟨k, hk1, hk2, hk⟩ := (C30_supported_fanouts fanOut).1 ⟨id2Path, h⟩
  obtain ⟨L, hL, hL1, hL2, hL3⟩ := C32_digit_path_len fanOut hf
  have hpow := Nat.one_le_two_pow (n := k)
  have hk2' : 2 ≤ k := by
    by_contra hc
    have : k = 1 := by omega
    subst this
    omega
  have hLge : 2 ≤ L := by
    by_contra hc
    have : L = 1 := by omega
    subst this
    have := fanOut.toNat_lt
    rw [pow_one] at hL2
    omega
  have hLle : L ≤ 30 := hL3 30 (by omega) (lt_of_lt_of_le (by norm_num) (Nat.pow_le_pow_left hf 30))
  obtain ⟨M, hM1, hM2⟩ := padLoop_spec (m := L - 1) (by omega) (by omega)
  obtain ⟨pp, hpp, hfit⟩ := fits_of_parts E α fanOut L k hLge hk2' hk2 (by omega) M hM2 id2Path
  refine ⟨L, pp, hL, ?_, hfit⟩
  unfold generatePublicParams
  have e0 : ((L : ℕ) : ℤ) - 1 = ((L - 1 : ℕ) : ℤ) := by omega
  have : (do
      let m : ℤ := ((← digitPathLen fanOut : ℕ) : ℤ) - 1
      return (m, ← digitPath fanOut) : Option (ℤ × (Str → Option (List ℕ)))) = some (((L - 1 : ℕ) : ℤ), id2Path) := by
    rw [hL, h, ← e0]; rfl
  refine obind_step this ?_
  dsimp only
  exact obind_step hM1 hpp

/-- C54 for sparse trees: for every supported fan-out, `GeneratePublicParams` returns the path function of the
fan-out and parameters that fit paths of the tabulated length; and all paths have this length and components
below the fan-out. -/
theorem C54_sparse (E : Curve G1 G2 GT) (α : Zr) (fanOut : UInt16) (id2Path : Str → Option (List ℕ))
    (h : hexId2Path E fanOut = some id2Path) :
    ∃ L pp, expectedHexPathLength fanOut.toNat = some L ∧
      generatePublicParams E α fanOut .sparse = some (id2Path, pp) ∧ Fits E α fanOut.toNat L pp ∧
      ∀ s p, id2Path s = some p → p.length = L ∧ ∀ x ∈ p, x < fanOut.toNat := by
  obtain ⟨L, hL, hfn⟩ := (hexId2Path_eq_some_iff E fanOut id2Path).1 h
  obtain ⟨-, -, k, hk1, hk2, hk⟩ := expectedHexPathLength_ge_two _ _ hL
  have hpow := Nat.one_le_two_pow (n := k)
  have hLb : 2 ≤ L ∧ L ≤ 162 := by
    have hL' := hL
    unfold expectedHexPathLength at hL'
    split at hL' <;> simp only [Option.some.injEq, reduceCtorEq] at hL' <;> omega
  obtain ⟨M, hM1, hM2⟩ := padLoop_spec (m := L - 1) (by omega) (by omega)
  obtain ⟨pp, hpp, hfit⟩ := fits_of_parts E α fanOut L k hLb.1 hk1 (by omega) (by omega) M hM2 id2Path
  refine ⟨L, pp, hL, ?_, hfit, ?_⟩
  · unfold generatePublicParams
    have e0 : ((L : ℕ) : ℤ) - 1 = ((L - 1 : ℕ) : ℤ) := by omega
    have : (do
        let m : ℤ := (((expectedHexPathLength fanOut.toNat).getD 0 : ℕ) : ℤ) - 1
        return (m, ← hexId2Path E fanOut) : Option (ℤ × (Str → Option (List ℕ)))) = some (((L - 1 : ℕ) : ℤ), id2Path) := by
      rw [hL, h, Option.getD_some, e0]; rfl
    refine obind_step this ?_
    dsimp only
    exact obind_step hM1 hpp
  · intro s p hp
    obtain ⟨h1, h2⟩ := C28_paths_well_formed E fanOut id2Path h s p hp
    rw [hL, Option.some.injEq] at h1
    exact ⟨h1.symm, h2⟩

/-- C54, the remaining fan-outs: `GeneratePublicParams` does not return. -/
theorem C54_unsupported (E : Curve G1 G2 GT) (α : Zr) (fanOut : UInt16) :
    (fanOut.toNat ≤ 1 → generatePublicParams E α fanOut .dense = none) ∧
    (digitPath fanOut = none → generatePublicParams E α fanOut .dense = none) ∧
    (hexId2Path E fanOut = none → generatePublicParams E α fanOut .sparse = none) := by
  refine ⟨fun h => ?_, fun h => ?_, fun h => ?_⟩
  · unfold generatePublicParams
    rw [C32_digit_path_len_diverges fanOut h]
    rfl
  · unfold generatePublicParams
    rw [h]
    cases digitPathLen fanOut <;> rfl
  · unfold generatePublicParams
    rw [h]
    rfl

/-- Parameters that fit make a new liability set. -/
theorem C54_new_set (E : Curve G1 G2 GT) (α α' : Zr) (F L : ℕ) (pp : PublicParams G1 G2 GT) (h : Fits E α F L pp)
    (db : Db) (id2Path : Str → Option (List ℕ)) :
    NewSet E α F L (newLiabilitySet E α' pp db id2Path) ∧ (newLiabilitySet E α' pp db id2Path).tree.id2Path = id2Path ∧
      (newLiabilitySet E α' pp db id2Path).pp = pp := by
  have hb := (fits_F_bound h).1
  refine ⟨⟨⟨h.PPPP, ?_, rfl, hb⟩, h, rfl⟩, rfl, rfl⟩
  show (UInt16.ofNat pp.fanout).toNat = F
  rw [h.fanout, toNat_ofNat16 (by omega)]

/-- C44 and C46 from end to end for sparse trees: parameters generated, a set created, any non-empty history of
`Set`s of identifiers that have a path, with total below `2^63`: the proof of the total states the sum of the
latest amounts and is accepted against the commitment that `Root` gives. -/
theorem C44_sparse_end_to_end {E : Curve G1 G2 GT} (hE : E.Lawful) {env : Env} (henv : env.Lawful) (α α' : Zr)
    (fanOut : UInt16) (id2Path : Str → Option (List ℕ)) (h : hexId2Path E fanOut = some id2Path) (db : Db)
    (hist : List (Str × ℤ)) (hne : hist ≠ []) (hids : ∀ e ∈ hist, (id2Path e.1).isSome ∧ 0 ≤ e.2)
    (htot : totalAmount (byPath id2Path hist) < 2 ^ 63) :
    ∃ pp ls tp V W ls', generatePublicParams E α fanOut .sparse = some (id2Path, pp) ∧
      (newLiabilitySet E α' pp db id2Path).sets E env hist = some ls ∧
      ls.proveTot E = some tp ∧ tp.sum = totalAmount (byPath id2Path hist) ∧
      ls.root E = some (some (V, some W), ls') ∧ tp.verify E pp V = some true := by
  obtain ⟨L, pp, hL, hgen, hfit, hwf⟩ := C54_sparse E α fanOut id2Path h
  obtain ⟨hns, hid, hpp⟩ := C54_new_set E α α' _ L pp hfit db id2Path
  have hv : ValidIds (newLiabilitySet E α' pp db id2Path).tree.id2Path fanOut.toNat L hist := by
    intro e he
    obtain ⟨p, hp⟩ := Option.isSome_iff_exists.1 (hids e he).1
    rw [hid]
    exact ⟨p, hp, hwf _ _ hp⟩
  obtain ⟨ls, hs⟩ := C43_sets_return hE henv hns hist hv (fun e he => (hids e he).2)
  obtain ⟨tp, x, t1, t2, t3, t4⟩ := C44_total_proof hE henv hns hist hne hv hs (by rw [hid]; exact htot)
  obtain ⟨y, hy, hroot⟩ := C46_first_call_partial hE henv hns hist hne hv hs
  rw [t3, Option.some.injEq] at hy
  subst hy
  obtain ⟨-, t, s, hputs, hls⟩ := (sets_iff E env hist _ ls).1 hs
  obtain ⟨z, hz, -, -, hW⟩ := root_onPath hE henv hns.tree hfit.depth hist hne hv hputs
  have hdb : ls.s.db = s.db := by rw [hls]
  rw [← hdb, t3, Option.some.injEq] at hz
  subst hz
  rw [hW] at hroot
  rw [hid] at t2
  rw [hpp] at t4
  exact ⟨pp, ls, tp, x.V, _, _, hgen, hs, t1, t2, hroot, t4⟩

/-! ## The hypotheses can be met -/

example : ∃ L pp f, digitPathLen 3 = some L ∧ generatePublicParams toyCurve 2 3 .dense = some (f, pp) ∧
    Fits toyCurve 2 3 L pp := by
  obtain ⟨f, h⟩ := (C30_supported_fanouts 3).2 ⟨2, by norm_num, by norm_num, by decide⟩
  obtain ⟨L, pp, h1, h2, h3⟩ := C54_dense toyCurve 2 3 f h (by decide)
  exact ⟨L, pp, f, h1, h2, h3⟩

/-- One `Set` of 5 in a sparse tree of fan-out 255, from the generation of the parameters to the accepted proof
of the total. -/
example : ∃ (f : Str → Option (List ℕ)) (pp : PublicParams Zr Zr Zr) (ls : LiabilitySet Zr Zr Zr) (tp : TotalProof Zr)
    (V : Zr), generatePublicParams hash80Curve 2 255 .sparse = some (f, pp) ∧
    (newLiabilitySet hash80Curve 3 pp (fun _ => []) f).sets hash80Curve toyEnv [('8' :: List.replicate 63 '0', 5)] = some ls ∧
    ls.proveTot hash80Curve = some tp ∧ tp.sum = 5 ∧ tp.verify hash80Curve pp V = some true := by
  have hto : (255 : UInt16).toNat = 255 := rfl
  obtain ⟨f, hf⟩ := (C28_supported_fanouts hash80Curve 255).2 (by decide)
  obtain ⟨p, hp, -⟩ := C28_returns hash80Curve hash80Curve_lawful 255 f hf 32 rfl ('8' :: List.replicate 63 '0')
    ⟨by decide, by unfold IsHex; decide⟩ 0 (by
      show _ ≤ hexValue ('8' :: List.replicate 63 '0') ∧ hexValue ('8' :: List.replicate 63 '0') < _
      rw [hash80_value, hto]; norm_num)
  have htot : totalAmount (byPath f [('8' :: List.replicate 63 '0', 5)]) = 5 := by
    unfold byPath totalAmount
    rw [List.map_cons, hp]
    simp [latest, lastPut]
  obtain ⟨pp, ls, tp, V, W, ls', h1, h2, h3, h4, -, h6⟩ := C44_sparse_end_to_end hash80Curve_lawful toyEnv_lawful 2 3 255 f hf
    (fun _ => []) [('8' :: List.replicate 63 '0', 5)] (by simp) (by
      intro e he
      rw [List.mem_singleton] at he
      subst he
      exact ⟨by rw [hp]; rfl, by norm_num⟩) (by rw [htot]; norm_num)
  exact ⟨f, pp, ls, tp, V, h1, h2, h3, by rw [h4, htot], h6⟩

end PoL.Props

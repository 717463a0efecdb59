import Verif.Props.PolParams

/-!
# What is hashed into the challenges (C59, C60)
-/

set_option linter.unusedSectionVars false

namespace PoL.Props
open Spec Pol BP

variable {G1 G2 GT : Type} [AddCommGroup G1] [Module Zr G1] [AddCommGroup G2] [Module Zr G2]
  [AddCommGroup GT] [Module Zr GT] [DecidableEq G1] [DecidableEq GT]

/-! ## C59: the digest of the range-proof parameters -/

/-- The bytes that a digest of range-proof parameters has to cover. -/
def rangeParamBytes (E : Curve G1 G2 GT) (pp : RPPP G1) : Bytes :=
  E.g1Bytes pp.G ++ E.g1Bytes pp.H ++ E.g1Bytes pp.F ++ (pp.Gs.map E.g1Bytes).flatten
    ++ (pp.Hs.map E.g1Bytes).flatten ++ (pp.Fs.map E.g1Bytes).flatten

theorem digestInput_eq (E : Curve G1 G2 GT) (pp : RPPP G1) : pp.digestInput E = rangeParamBytes E pp := by
  simp only [RPPP.digestInput, rangeParamBytes, g1vBytes, List.flatMap_def]

/-- C59, partial: parameters straight from `NewRangeProofPublicParams` carry the digest of their generators.
Missing: the parameters that `GeneratePublicParams` returns (see `C59_violated`). -/
theorem C59_fresh_parameters_partial (E : Curve G1 G2 GT) (hE : E.Lawful) (n : ℕ) :
    ∃ pp, newRangeProofPublicParams E n = some pp ∧ pp.Gs.length = n ∧
      pp.getDigest E = E.sha256 (rangeParamBytes E pp) := by
  have h1 : ∀ ctx, ∃ g, (randGenVec E 1 ctx)[0]? = some g := by
    intro ctx; simp [randGenVec]
  obtain ⟨G, hG⟩ := h1 "range proof G"
  obtain ⟨H, hH⟩ := h1 "range proof H"
  obtain ⟨F, hF⟩ := h1 "range proof F"
  refine ⟨_, obind_step hG (obind_step hH (obind_step hF rfl)), by simp [randGenVec], ?_⟩
  rw [← digestInput_eq]
  unfold RPPP.getDigest
  simp only [List.length_nil, ne_eq, not_true_eq_false, if_false, hE.sha_len]
  rfl

/-- What `GeneratePublicParams` does to the range-proof parameters: fresh parameters get the bases of the vector
commitment in place of their own `F` and `Gs`, but keep the digest of the old ones. -/
theorem C59_stale_digest (E : Curve G1 G2 GT) (hE : E.Lawful) (α : Zr) (fanOut : UInt16) (tt : TreeType)
    (f : Str → Option (List ℕ)) (pp : PublicParams G1 G2 GT) (h : generatePublicParams E α fanOut tt = some (f, pp)) :
    ∃ pp0, newRangeProofPublicParams E (fanOut + 1).toNat = some pp0 ∧
      pp.PPPP = PP.newPublicParams E α (fanOut + 2).toNat ∧ pp.RPPP.G = pp0.G ∧ pp.RPPP.H = pp0.H ∧ pp.RPPP.Hs = pp0.Hs ∧ pp.RPPP.Fs = pp0.Fs ∧
      pp.RPPP.Gs = pp.PPPP.G1s.take (fanOut + 1).toNat ∧ pp.PPPP.G1s[(fanOut + 1).toNat]? = some pp.RPPP.F ∧
      pp.RPPP.getDigest E = E.sha256 (rangeParamBytes E pp0) := by
  unfold generatePublicParams at h
  obtain ⟨⟨m, id2Path⟩, -, h⟩ := obind_elim h
  dsimp only at h
  obtain ⟨m', -, h⟩ := obind_elim h
  obtain ⟨poePP, hpoe, h⟩ := obind_elim h
  obtain ⟨SAPP, -, h⟩ := obind_elim h
  obtain ⟨pp0, h0, h⟩ := obind_elim h
  obtain ⟨F, hF, h⟩ := obind_elim h
  obtain ⟨-, rfl⟩ := Prod.mk.inj (Option.some.inj h)
  have hvc : poePP.vc = PP.newPublicParams E α (fanOut + 2).toNat := by
    obtain ⟨F', -, hpoe⟩ := obind_elim hpoe
    obtain rfl := Option.some.inj hpoe
    rfl
  refine ⟨pp0, h0, hvc, rfl, rfl, rfl, rfl, rfl, hF, ?_⟩
  obtain ⟨pp1, hp1, -, hd⟩ := C59_fresh_parameters_partial E hE (fanOut + 1).toNat
  rw [hp1, Option.some.injEq] at h0
  subst h0
  rw [← hd]
  have hne : pp1.digest.length ≠ 0 := by
    obtain ⟨G, -, hp1⟩ := obind_elim hp1
    obtain ⟨H, -, hp1⟩ := obind_elim hp1
    obtain ⟨F', -, hp1⟩ := obind_elim hp1
    obtain rfl := Option.some.inj hp1
    simp [RPPP.getDigest, hE.sha_len]
  simp only [RPPP.getDigest, if_pos hne]

/-- C59 is violated for every curve: two runs of `GeneratePublicParams` with different secrets give range-proof
parameters with different bases and the same digest. -/
theorem C59_violated_by_any_two_runs (E : Curve G1 G2 GT) (hE : E.Lawful)
    (hgen : ∀ x y : Zr, x • E.genG1 = y • E.genG1 → x = y) (α β : Zr) (hαβ : α ≠ β)
    (fanOut : UInt16) (tt : TreeType) (f f' : Str → Option (List ℕ)) (pp pp' : PublicParams G1 G2 GT) (hf : fanOut.toNat < 65534)
    (h : generatePublicParams E α fanOut tt = some (f, pp))
    (h' : generatePublicParams E β fanOut tt = some (f', pp')) :
    pp.RPPP.Gs ≠ pp'.RPPP.Gs ∧ pp.RPPP.getDigest E = pp'.RPPP.getDigest E := by
  obtain ⟨p0, hp0, hα, -, -, -, -, hGs, -, hd⟩ := C59_stale_digest E hE α fanOut tt f pp h
  obtain ⟨p1, hp1, hβ, -, -, -, -, hGs', -, hd'⟩ := C59_stale_digest E hE β fanOut tt f' pp' h'
  rw [hp0, Option.some.injEq] at hp1
  subst hp1
  refine ⟨?_, by rw [hd, hd']⟩
  intro hc
  rw [hGs, hGs', hα, hβ] at hc
  have e1 : (fanOut + 1).toNat = fanOut.toNat + 1 := by
    rw [UInt16.toNat_add, show (1 : UInt16).toNat = 1 from rfl, Nat.mod_eq_of_lt (by omega)]
  have e2 : (fanOut + 2).toNat = fanOut.toNat + 2 := by
    rw [UInt16.toNat_add, show (2 : UInt16).toNat = 2 from rfl, Nat.mod_eq_of_lt (by omega)]
  have hpos : 0 < (fanOut + 1).toNat := by omega
  have h0 := congrArg (fun l => l[0]?) hc
  rw [List.getElem?_take_of_lt hpos, List.getElem?_take_of_lt hpos, PP.new_G1s_lt E α _ (by omega),
    PP.new_G1s_lt E β _ (by omega), Option.some.injEq] at h0
  apply hαβ
  have := hgen _ _ h0
  simpa using this

/-- A curve whose hash returns bytes 64 to 95 of a long input. -/
def sliceCurve : Curve Zr Zr Zr :=
  { toyCurve with
    hashToG1 := fun _ => 0
    sha256 := fun b => if 96 ≤ b.length then (b.drop 64).take 32 else toyDigest }

theorem sliceCurve_lawful : sliceCurve.Lawful :=
  { genGt_eq := toyCurve_lawful.genGt_eq
    sha_len := fun b => by
      show (if 96 ≤ b.length then (b.drop 64).take 32 else toyDigest).length = 32
      split
      · simp; omega
      · rfl
    hmac_len := toyCurve_lawful.hmac_len
    g1_roundtrip := toyCurve_lawful.g1_roundtrip
    g1_nonempty := toyCurve_lawful.g1_nonempty
    g1_len := toyCurve_lawful.g1_len }

theorem slice_sha (b : Bytes) : sliceCurve.sha256 b = if 96 ≤ b.length then (b.drop 64).take 32 else toyDigest := rfl

theorem slice_digest (pp : RPPP Zr) : sliceCurve.sha256 (rangeParamBytes sliceCurve pp) = zrBytes pp.F := by
  rw [slice_sha]
  have hb : ∀ x, (sliceCurve.g1Bytes x).length = 32 := fun x => zrBytes_length x
  have hlen : 96 ≤ (rangeParamBytes sliceCurve pp).length := by
    unfold rangeParamBytes
    simp only [List.length_append, hb]
    omega
  rw [if_pos hlen]
  unfold rangeParamBytes
  rw [List.append_assoc, List.append_assoc, List.append_assoc]
  rw [List.drop_left' (by rw [List.length_append, hb, hb]), List.take_left' (hb _)]
  rfl

/-- C59 is violated: parameters from `GeneratePublicParams` whose digest is not the hash of their generators. -/
theorem C59_violated : ∃ (E : Curve Zr Zr Zr) (_ : E.Lawful) (α : Zr) (f : Str → Option (List ℕ))
    (pp : PublicParams Zr Zr Zr), generatePublicParams E α 7 .dense = some (f, pp) ∧
      pp.RPPP.getDigest E ≠ E.sha256 (rangeParamBytes E pp.RPPP) := by
  obtain ⟨f, hf⟩ := (C30_supported_fanouts 7).2 ⟨3, by norm_num, by norm_num, rfl⟩
  obtain ⟨L, pp, -, hgen, hfit⟩ := C54_dense sliceCurve 1 7 f hf (by decide)
  refine ⟨sliceCurve, sliceCurve_lawful, 1, f, pp, hgen, ?_⟩
  obtain ⟨pp0, h0, -, -, -, -, -, -, hF, hd⟩ := C59_stale_digest sliceCurve sliceCurve_lawful 1 7 .dense f pp hgen
  rw [hd, slice_digest, slice_digest]
  intro hc
  have h1 : pp0.F = 0 := by
    obtain ⟨G, -, h0⟩ := obind_elim h0
    obtain ⟨H, -, h0⟩ := obind_elim h0
    obtain ⟨F', hF', h0⟩ := obind_elim h0
    obtain rfl := Option.some.inj h0
    have : (randGenVec sliceCurve 1 "range proof F")[0]? = some 0 := rfl
    rw [this, Option.some.injEq] at hF'
    exact hF'.symm
  have h2 : pp.RPPP.F = 1 := by
    rw [hfit.PPPP, show ((7 : UInt16) + 1).toNat = 8 from rfl, show (7 : UInt16).toNat = 7 from rfl,
      PP.new_G1s_lt sliceCurve 1 9 (by norm_num), Option.some.injEq, one_pow, one_smul] at hF
    rw [← hF]
    rfl
  have := zrBytes_injective hc
  rw [h1, h2] at this
  exact zero_ne_one this

/-! ## C60: domain separation of the aggregation challenges -/

/-- C60, partial: the challenges of the point-proof aggregation at different positions below 256 come from different
hash inputs.  Missing: positions from 256 on (see `C60_violated`). -/
theorem C60_pointproofs_partial (E : Curve G1 G2 GT) (pp : PP G1 G2 GT) (cs : List G1) :
    ∃ input : ℕ → Bytes, (∀ i, PP.ro E pp cs i = fieldElementFromBytes (E.sha256 (input i))) ∧
      ∀ i j, i < 256 → j < 256 → input i = input j → i = j := by
  refine ⟨PP.roInput E pp cs, fun _ => rfl, ?_⟩
  intro i j hi hj h
  unfold PP.roInput at h
  rw [List.append_assoc, List.append_assoc, List.append_right_inj] at h
  simp only [List.cons_append, List.nil_append, List.cons.injEq, and_true] at h
  have := congrArg UInt8.toNat h
  simpa [Nat.mod_eq_of_lt hi, Nat.mod_eq_of_lt hj] using this

/-- C60 is violated: positions that agree modulo 256 have the same challenge, for every curve, all parameters and
commitments. -/
theorem C60_violated (E : Curve G1 G2 GT) (pp : PP G1 G2 GT) (cs : List G1) (i : ℕ) :
    PP.ro E pp cs (i + 256) = PP.ro E pp cs i := by
  unfold PP.ro PP.roInput
  have : UInt8.ofNat (i + 256) = UInt8.ofNat i := by
    apply UInt8.toNat_inj.1
    simp
  rw [this]

/-- C60 for the equality argument, partial: position `i` of the challenges is an HMAC whose message is different for
different positions below 65536.  Missing: positions from 65536 on (see `C60_equalities_violated`). -/
theorem C60_equalities_partial (E : Curve G1 G2 GT) (gs : List G1) (ints : List ℕ) (d : Bytes) :
    ∃ (key : Bytes) (msg : ℕ → Bytes),
      (∀ n ts, Poe.ro E gs ints d n = some ts → ts.length = n ∧
        ∀ i, i < n → ts[i]? = fieldElementFromBytes (E.hmac key (msg i))) ∧
      ∀ i j, i < 65536 → j < 65536 → msg i = msg j → i = j := by
  refine ⟨Poe.compressParameters E gs ints d, Poe.uint16BE, ?_, ?_⟩
  · intro n ts h
    unfold Poe.ro at h
    have hl := mapM_length _ _ _ h
    rw [List.length_range] at hl
    refine ⟨hl, ?_⟩
    intro i hi
    exact (mapM_getElem _ _ _ h i i (List.getElem?_range hi)).symm
  · intro i j hi hj h
    have := congrArg beToNat h
    unfold Poe.uint16BE at this
    rwa [beToNat_natToBE _ _ (by omega), beToNat_natToBE _ _ (by omega), Nat.mod_eq_of_lt hi, Nat.mod_eq_of_lt hj] at this

/-- C60 is violated in the equality argument from 65536 positions on. -/
theorem C60_equalities_violated (E : Curve G1 G2 GT) (gs : List G1) (ints : List ℕ) (d : Bytes) (n : ℕ) (ts : List Zr)
    (h : Poe.ro E gs ints d n = some ts) (i : ℕ) (hi : i + 65536 < n) : ts[i + 65536]? = ts[i]? := by
  unfold Poe.ro at h
  have h1 := mapM_getElem _ _ _ h i i (List.getElem?_range (by omega))
  have h2 := mapM_getElem _ _ _ h (i + 65536) (i + 65536) (List.getElem?_range hi)
  rw [← h1, ← h2]
  have : Poe.uint16BE (i + 65536) = Poe.uint16BE i := by
    unfold Poe.uint16BE; rw [Nat.add_mod_right]
  rw [this]

/-- Example: the toy parameters have range-proof parameters and challenges. -/
example : (Poe.ro toyCurve [] [] [] 2).isSome ∧ (PP.ro toyCurve (PP.newPublicParams toyCurve 2 3) [] 0).isSome := by
  have h : ∀ i, fieldElementFromBytes (toyCurve.hmac (Poe.compressParameters toyCurve [] [] []) (Poe.uint16BE i))
      = some toyChallenge := fun i => toy_fe
  have h2 : PP.ro toyCurve (PP.newPublicParams toyCurve 2 3) [] 0 = some toyChallenge := toy_fe
  rw [h2]
  unfold Poe.ro
  rw [mapM_some _ (fun _ => toyChallenge) _ (fun i _ => h i)]
  exact ⟨rfl, rfl⟩

end PoL.Props

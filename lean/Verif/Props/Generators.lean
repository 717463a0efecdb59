import Verif.Proofs.Generators
import Verif.Props.PolParams
import Verif.Spec.Toy
import Verif.Proofs.Stream

/-!
# The generators come from different hash inputs and can be any points (C95)
-/

set_option linter.unusedSectionVars false

namespace PoL.Props
open Spec Pol BP

variable {G1 G2 GT : Type} [AddCommGroup G1] [Module Zr G1] [AddCommGroup G2] [Module Zr G2]
  [AddCommGroup GT] [Module Zr GT] [DecidableEq G1] [DecidableEq GT]

/-- `RandGenVec` hashes different strings for different contexts or indices, whatever the contexts are. -/
theorem C95_labels_distinct (c c' : String) (i i' : ℕ) (h : s!"PoL {c} {i}" = s!"PoL {c'} {i'}") : c = c' ∧ i = i' := by
  have h' := congrArg String.toList h
  simp only [String.toList_append, Nat.toString_eq_repr, Nat.toList_repr] at h'
  have h2 : ("PoL ".toList ++ c.toList) ++ ' ' :: Nat.toDigits 10 i = ("PoL ".toList ++ c'.toList) ++ ' ' :: Nat.toDigits 10 i' := by
    have e1 : toString c = c := rfl
    have e2 : toString c' = c' := rfl
    have e3 : (toString " ").toList = [' '] := rfl
    have e4 : (toString "PoL ").toList = "PoL ".toList := rfl
    rw [e1, e2, e3, e4] at h'
    simpa using h'
  obtain ⟨h3, h4⟩ := split_last_space _ _ _ _ (no_space_in_digits i) (no_space_in_digits i') h2
  refine ⟨String.toList_inj.1 (List.append_cancel_left h3), ?_⟩
  have := congrArg (fun l => Nat.ofDigitChars 10 l 0) h4
  simpa [Nat.ofDigitChars_toDigits] using this

theorem role_label_inj {r r' : Role} {i i' : ℕ} (h : Role.label r i = Role.label r' i') : r = r' ∧ i = i' := by
  obtain ⟨h1, h2⟩ := C95_labels_distinct r.context r'.context i i' h
  refine ⟨?_, h2⟩
  cases r <;> cases r' <;> first | rfl | exact absurd h1 (by decide)

/-- Whatever `GeneratePublicParams` returns fits together. -/
theorem generate_fits (E : Curve G1 G2 GT) (α : Zr) (fanOut : UInt16) (tt : TreeType)
    (f : Str → Option (List ℕ)) (pp : PublicParams G1 G2 GT) (h : generatePublicParams E α fanOut tt = some (f, pp)) :
    ∃ L, (match tt with
      | .dense => digitPath fanOut = some f ∧ 2 ≤ fanOut.toNat ∧ digitPathLen fanOut = some L
      | .sparse => hexId2Path E fanOut = some f ∧ expectedHexPathLength fanOut.toNat = some L) ∧
      Fits E α fanOut.toNat L pp := by
  obtain ⟨u1, u2, u3⟩ := C54_unsupported E α fanOut
  cases tt with
  | dense =>
    have hf : 2 ≤ fanOut.toNat := by
      by_contra hc
      rw [u1 (by omega)] at h
      cases h
    cases hd : digitPath fanOut with
    | none => rw [u2 hd] at h; cases h
    | some f' =>
      obtain ⟨L, pp', hL, hg, hfit⟩ := C54_dense E α fanOut f' hd hf
      rw [h] at hg
      obtain ⟨rfl, rfl⟩ := Prod.mk.inj (Option.some.inj hg)
      exact ⟨L, ⟨rfl, hf, hL⟩, hfit⟩
  | sparse =>
    cases hd : hexId2Path E fanOut with
    | none => rw [u3 hd] at h; cases h
    | some f' =>
      obtain ⟨L, pp', hL, hg, hfit, -⟩ := C54_sparse E α fanOut f' hd
      rw [h] at hg
      obtain ⟨rfl, rfl⟩ := Prod.mk.inj (Option.some.inj hg)
      exact ⟨L, ⟨rfl, hL⟩, hfit⟩

/-- The generators of the parameters are hashed to the curve from the strings of their roles; no string is used for two
of them. -/
theorem C95_generators (E : Curve G1 G2 GT) (α : Zr) (fanOut : UInt16) (tt : TreeType)
    (f : Str → Option (List ℕ)) (pp : PublicParams G1 G2 GT) (h : generatePublicParams E α fanOut tt = some (f, pp)) :
    GeneratorsAre E pp fun r i => pointOf E (r.label i) := by
  obtain ⟨L, -, hfit⟩ := generate_fits E α fanOut tt f pp h
  obtain ⟨k, hk1, hk2, hk⟩ := hfit.power
  have hk' : 2 ^ k ≤ 2 ^ 15 := Nat.pow_le_pow_right (by norm_num) hk2
  have hn : (fanOut + 1).toNat = fanOut.toNat + 1 := by
    rw [UInt16.toNat_add]
    exact Nat.mod_eq_of_lt (by simp; omega)
  unfold generatePublicParams at h
  obtain ⟨⟨m, id2Path⟩, -, h⟩ := obind_elim h
  dsimp only at h
  obtain ⟨m', -, h⟩ := obind_elim h
  obtain ⟨poePP, hpoe, h⟩ := obind_elim h
  obtain ⟨SAPP, hsa, h⟩ := obind_elim h
  obtain ⟨pp0, h0, h⟩ := obind_elim h
  obtain ⟨F, hF, h⟩ := obind_elim h
  obtain ⟨-, rfl⟩ := Prod.mk.inj (Option.some.inj h)
  rw [hn] at hsa h0
  obtain ⟨F', hF', hpoe⟩ := obind_elim hpoe
  obtain rfl := Option.some.inj hpoe
  obtain ⟨g1, e1, h0⟩ := obind_elim h0
  obtain ⟨g2, e2, h0⟩ := obind_elim h0
  obtain ⟨g3, e3, h0⟩ := obind_elim h0
  obtain rfl := Option.some.inj h0
  unfold Sum.newPublicParams at hsa
  obtain ⟨s1, f1, hsa⟩ := obind_elim hsa
  obtain ⟨s2, f2, hsa⟩ := obind_elim hsa
  obtain ⟨s3, f3, hsa⟩ := obind_elim hsa
  obtain ⟨s4, f4, hsa⟩ := obind_elim hsa
  obtain ⟨s5, f5, hsa⟩ := obind_elim hsa
  obtain ⟨s6, f6, hsa⟩ := obind_elim hsa
  obtain rfl := Option.some.inj hsa
  have hlen : ∀ n ctx, (randGenVec E n ctx).length = n := by intro n ctx; simp [randGenVec]
  exact {
    rangeG := (Option.some.inj e1).symm
    rangeH := (Option.some.inj e2).symm
    rangeFs := rfl
    rangeHs := rfl
    sumU := (Option.some.inj f1).symm
    sumG := (Option.some.inj f2).symm
    sumH := rfl
    poeG := by
      show randGenVec E m'.toNat "POE G" = (List.range (randGenVec E m'.toNat "POE G").length).map _
      rw [hlen]; rfl
    poeH := by
      show randGenVec E m'.toNat "POE H" = (List.range (randGenVec E m'.toNat "POE G").length).map _
      rw [hlen]; rfl
    poeF := (Option.some.inj hF').symm
    rangeReductionU := fun q hq => by
      obtain ⟨u, hu, hq⟩ := obind_elim hq
      obtain ⟨d, -, hq⟩ := obind_elim hq
      obtain rfl := Option.some.inj hq
      exact (Option.some.inj hu).symm
    rangeIpaU := fun F' q hq => by
      obtain ⟨u, hu, hq⟩ := obind_elim hq
      obtain ⟨d, -, hq⟩ := obind_elim hq
      obtain rfl := Option.some.inj hq
      exact (Option.some.inj hu).symm
    poeIpaU := fun q hq => by
      obtain ⟨u, hu, hq⟩ := obind_elim hq
      obtain ⟨d, -, hq⟩ := obind_elim hq
      obtain rfl := Option.some.inj hq
      exact (Option.some.inj hu).symm }

theorem generatorsAre_congr {E : Curve G1 G2 GT} {pp : PublicParams G1 G2 GT} {g g' : Role → ℕ → G1}
    (h : GeneratorsAre E pp g) (hF : (pp.fanout + 1) * 64 ≤ 2 ^ 21) (hP : pp.POEPP.G.length ≤ 2 ^ 21)
    (hg : ∀ r i, i < 2 ^ 21 → g r i = g' r i) : GeneratorsAre E pp g' := by
  have hl : ∀ r n, n ≤ 2 ^ 21 → (List.range n).map (g r) = (List.range n).map (g' r) := fun r n hn =>
    List.map_congr_left fun i hi => hg r i (lt_of_lt_of_le (List.mem_range.1 hi) hn)
  have h0 : ∀ r, g r 0 = g' r 0 := fun r => hg r 0 (by norm_num)
  exact {
    rangeG := h.rangeG.trans (h0 _)
    rangeH := h.rangeH.trans (h0 _)
    rangeFs := h.rangeFs.trans (hl _ _ hF)
    rangeHs := h.rangeHs.trans (hl _ _ hF)
    sumU := h.sumU.trans (h0 _)
    sumG := h.sumG.trans (h0 _)
    sumH := h.sumH.trans (hl _ _ (by omega))
    poeG := h.poeG.trans (hl _ _ hP)
    poeH := h.poeH.trans (hl _ _ hP)
    poeF := h.poeF.trans (h0 _)
    rangeReductionU := fun q hq => (h.rangeReductionU q hq).trans (h0 _)
    rangeIpaU := fun F' q hq => (h.rangeIpaU F' q hq).trans (h0 _)
    poeIpaU := fun q hq => (h.poeIpaU q hq).trans (h0 _) }

/-- A padded size is determined. -/
theorem isPadded_unique {m M M' : ℕ} (h : IsPadded m M) (h' : IsPadded m M') : M = M' := by
  obtain ⟨⟨j, j1, j2, rfl⟩, a, b⟩ := h
  obtain ⟨⟨j', j1', j2', rfl⟩, a', b'⟩ := h'
  exact le_antisymm (b _ j1' a') (b' _ j1 a)

open scoped Classical in
/-- A function that hashes the strings of the roles to given points. -/
noncomputable def programmed (E : Curve G1 G2 GT) (g : Role → ℕ → G1) (b : Bytes) : G1 :=
  if h : ∃ q : Role × ℕ, q.2 < 2 ^ 21 ∧
      b = E.sha256 (strBytes (q.1.label q.2)) ++ E.sha256 (E.sha256 (strBytes (q.1.label q.2)))
  then g h.choose.1 h.choose.2
  else 0

theorem programmed_eq {E : Curve G1 G2 GT} (hE : E.Lawful) (hc : NoLabelCollision E) (g : Role → ℕ → G1) (r : Role)
    (i : ℕ) (hi : i < 2 ^ 21) :
    programmed E g (E.sha256 (strBytes (r.label i)) ++ E.sha256 (E.sha256 (strBytes (r.label i)))) = g r i := by
  have hex : ∃ q : Role × ℕ, q.2 < 2 ^ 21 ∧
      E.sha256 (strBytes (r.label i)) ++ E.sha256 (E.sha256 (strBytes (r.label i)))
        = E.sha256 (strBytes (q.1.label q.2)) ++ E.sha256 (E.sha256 (strBytes (q.1.label q.2))) := ⟨(r, i), hi, rfl⟩
  unfold programmed
  rw [dif_pos hex]
  obtain ⟨q1, q2⟩ := hex.choose_spec
  obtain ⟨q3, -⟩ := List.append_inj q2 (by rw [hE.sha_len, hE.sha_len])
  obtain ⟨q4, q5⟩ := role_label_inj (hc _ _ _ _ hi q1 q3)
  rw [← q4, ← q5]

/-- Any points can come out as the generators: for every choice of a point for every role and index there is a function
in place of hashing to the curve, with which `GeneratePublicParams` gives these points, the same commitment key and the
same path function. -/
theorem C95_any_generators (E : Curve G1 G2 GT) (hE : E.Lawful) (hc : NoLabelCollision E) (α : Zr) (fanOut : UInt16)
    (tt : TreeType) (f : Str → Option (List ℕ)) (pp : PublicParams G1 G2 GT)
    (h : generatePublicParams E α fanOut tt = some (f, pp)) (g : Role → ℕ → G1) :
    ∃ hash : Bytes → G1, { E with hashToG1 := hash }.Lawful ∧
      ∃ pp', generatePublicParams { E with hashToG1 := hash } α fanOut tt = some (f, pp') ∧
        pp'.fanout = pp.fanout ∧ pp'.PPPP = pp.PPPP ∧ pp'.POEPP.G.length = pp.POEPP.G.length ∧
        GeneratorsAre { E with hashToG1 := hash } pp' g := by
  refine ⟨programmed E g, ⟨hE.1, hE.2, hE.3, hE.4, hE.5, hE.6⟩, ?_⟩
  obtain ⟨L, hL, hfit⟩ := generate_fits E α fanOut tt f pp h
  obtain ⟨pp', hg', hfit'⟩ : ∃ pp', generatePublicParams { E with hashToG1 := programmed E g } α fanOut tt = some (f, pp') ∧
      Fits { E with hashToG1 := programmed E g } α fanOut.toNat L pp' := by
    cases tt with
    | dense =>
      obtain ⟨h1, h2, h3⟩ := hL
      obtain ⟨L', pp', hL', hg', hfit'⟩ := C54_dense { E with hashToG1 := programmed E g } α fanOut f h1 h2
      rw [h3] at hL'
      obtain rfl := Option.some.inj hL'
      exact ⟨pp', hg', hfit'⟩
    | sparse =>
      obtain ⟨h1, h3⟩ := hL
      obtain ⟨L', pp', hL', hg', hfit', -⟩ := C54_sparse { E with hashToG1 := programmed E g } α fanOut f
        ((hexId2Path_hash E _ fanOut).trans h1)
      rw [h3] at hL'
      obtain rfl := Option.some.inj hL'
      exact ⟨pp', hg', hfit'⟩
  obtain ⟨M, m1, m2, -⟩ := hfit.poe_size
  obtain ⟨M', m1', m2', -⟩ := hfit'.poe_size
  have hM : M' = M := isPadded_unique m1' m1
  refine ⟨pp', hg', hfit'.fanout.trans hfit.fanout.symm, ?_, by rw [m2', m2, hM], ?_⟩
  · rw [hfit'.PPPP, hfit.PPPP]; rfl
  · obtain ⟨k, -, k2, hk⟩ := hfit'.power
    have hk' : 2 ^ k ≤ 2 ^ 15 := Nat.pow_le_pow_right (by norm_num) k2
    have hM15 : M' ≤ 2 ^ 15 := by
      obtain ⟨j, -, j2, rfl⟩ := m1'.1
      exact Nat.pow_le_pow_right (by norm_num) j2
    refine generatorsAre_congr (C95_generators _ α fanOut tt f pp' hg') (by rw [hfit'.fanout, hk]; omega) (by rw [m2']; omega)
      fun r i hi => ?_
    exact programmed_eq hE hc g r i hi

theorem combination_single {E : Curve G1 G2 GT} {pp : PublicParams G1 G2 GT} (r : Role) (i : ℕ) (P : G1)
    (h : GeneratorsAre E pp fun r' i' => if r' = r ∧ i' = i then P else 0) (hi : i < r.count pp) (U U' : G1)
    (hU : U = if Role.innerProductU = r ∧ 0 = i then P else 0) (hU' : U' = if Role.rangeReductionU = r ∧ 0 = i then P else 0)
    (k : Role → ℕ → Zr) : combination pp U U' k = k r i • P := by
  have hd : ∀ n (c : Role), dot ((List.range n).map (k c)) ((List.range n).map fun i' => if c = r ∧ i' = i then P else 0)
      = if c = r ∧ i < n then k r i • P else 0 := by
    intro n c
    rw [dot_ranges]
    by_cases hcr : c = r
    · subst hcr
      simp [smul_ite, Finset.sum_ite_eq']
    · simp [hcr]
  have hs : ∀ c : Role, k c 0 • (if c = r ∧ 0 = i then P else 0) = if c = r ∧ 0 = i then k r i • P else 0 := by
    intro c
    split
    · next hc => rw [hc.1, ← hc.2]
    · exact smul_zero _
  unfold combination
  rw [h.poeG, h.poeH, h.rangeG, h.rangeH, h.rangeFs, h.rangeHs, h.sumU, h.sumG, h.sumH, h.poeF, hU, hU']
  simp only [List.length_map, List.length_range, hd, hs]
  cases r <;> simp only [Role.count] at hi <;> simp <;> omega

/-- No linear relation between the generators is built in, nor with points fixed in advance (such as those of the
commitment key): for coefficients that are not all zero and every point `Q` there is a function in place of hashing to
the curve with which the combination of the generators is not `Q`. -/
theorem C95_no_relation_built_in (E : Curve G1 G2 GT) (hE : E.Lawful) (hc : NoLabelCollision E) (P : G1) (hP : P ≠ 0)
    (α : Zr) (fanOut : UInt16)
    (tt : TreeType) (f : Str → Option (List ℕ)) (pp : PublicParams G1 G2 GT)
    (h : generatePublicParams E α fanOut tt = some (f, pp)) (k : Role → ℕ → Zr) (r : Role) (i : ℕ) (hi : i < r.count pp)
    (hk : k r i ≠ 0) (Q : G1) :
    ∃ hash : Bytes → G1, { E with hashToG1 := hash }.Lawful ∧
      ∃ pp' q q', generatePublicParams { E with hashToG1 := hash } α fanOut tt = some (f, pp') ∧ pp'.PPPP = pp.PPPP ∧
        Poe.ipaParams { E with hashToG1 := hash } pp'.POEPP = some q ∧
        rangeRdxPP { E with hashToG1 := hash } pp'.RPPP = some q' ∧ combination pp' q.U q'.U k ≠ Q := by
  have key : ∀ P' : G1, k r i • P' ≠ Q → ∃ hash : Bytes → G1, { E with hashToG1 := hash }.Lawful ∧
      ∃ pp' q q', generatePublicParams { E with hashToG1 := hash } α fanOut tt = some (f, pp') ∧ pp'.PPPP = pp.PPPP ∧
        Poe.ipaParams { E with hashToG1 := hash } pp'.POEPP = some q ∧
        rangeRdxPP { E with hashToG1 := hash } pp'.RPPP = some q' ∧ combination pp' q.U q'.U k ≠ Q := by
    intro P' hP'
    obtain ⟨hash, hl, pp', hg, hF, hvc, hlen, hgen⟩ := C95_any_generators E hE hc α fanOut tt f pp h
      fun r' i' => if r' = r ∧ i' = i then P' else 0
    obtain ⟨d, hd⟩ := setupDigest_isSome { E with hashToG1 := hash }
      ({ digest := [], G := pp'.POEPP.G, H := pp'.POEPP.H, U := pointOf { E with hashToG1 := hash } (Role.label .innerProductU 0) } : BP.PP G1)
      (Or.inr (by rw [hgen.poeH]; simp))
    obtain ⟨d', hd'⟩ := setupDigest_isSome { E with hashToG1 := hash }
      ({ digest := [], G := pp'.RPPP.Gs, H := [], U := pointOf { E with hashToG1 := hash } (Role.label .rangeReductionU 0) } : BP.PP G1)
      (Or.inl rfl)
    have hq : Poe.ipaParams { E with hashToG1 := hash } pp'.POEPP = some _ := obind_step rfl hd
    have hq' : rangeRdxPP { E with hashToG1 := hash } pp'.RPPP = some _ := obind_step rfl hd'
    refine ⟨hash, hl, pp', _, _, hg, hvc, hq, hq', ?_⟩
    have hi' : i < r.count pp' := by
      cases r <;> simp only [Role.count, hF, hlen] at hi ⊢ <;> exact hi
    rw [combination_single r i P' hgen hi' _ _ (hgen.poeIpaU _ hq) (hgen.rangeReductionU _ hq')]
    exact hP'
  by_cases hQ : Q = 0
  · exact key P (by rw [hQ]; exact smul_ne_zero hk hP)
  · exact key 0 (by rw [smul_zero]; exact fun h => hQ h.symm)

/-! ## The hypotheses can be met -/

open scoped Classical in
/-- A hash without collisions among the labels: it numbers them. -/
noncomputable def numberedSha (b : Bytes) : Bytes :=
  if h : ∃ q : Role × ℕ, q.2 < 2 ^ 21 ∧ b = strBytes (q.1.label q.2)
  then natToBE 32 (h.choose.1.ctorIdx * 2 ^ 21 + h.choose.2)
  else List.replicate 32 0

/-- Instance of the libraries with this hash. -/
noncomputable def numberedCurve : Curve Zr Zr Zr := { toyCurve with sha256 := numberedSha }

theorem numberedCurve_lawful : numberedCurve.Lawful :=
  { genGt_eq := toyCurve_lawful.genGt_eq
    sha_len := fun b => by
      show (numberedSha b).length = 32
      unfold numberedSha
      split
      · exact natToBE_length _ _
      · exact List.length_replicate
    hmac_len := toyCurve_lawful.hmac_len
    g1_roundtrip := toyCurve_lawful.g1_roundtrip
    g1_nonempty := toyCurve_lawful.g1_nonempty
    g1_len := toyCurve_lawful.g1_len }

theorem numberedSha_label (r : Role) (i : ℕ) (hi : i < 2 ^ 21) :
    numberedSha (strBytes (r.label i)) = natToBE 32 (r.ctorIdx * 2 ^ 21 + i) := by
  have hex : ∃ q : Role × ℕ, q.2 < 2 ^ 21 ∧ strBytes (r.label i) = strBytes (q.1.label q.2) := ⟨(r, i), hi, rfl⟩
  unfold numberedSha
  rw [dif_pos hex]
  obtain ⟨-, q2⟩ := hex.choose_spec
  have hinj : ∀ a b : String, strBytes a = strBytes b → a = b := fun a b h => by
    rw [← String.ofList_toList (s := a), ← String.ofList_toList (s := b)] at h
    exact String.toList_inj.1 (strBytes_inj h)
  obtain ⟨q4, q5⟩ := role_label_inj (hinj _ _ q2)
  rw [← q4, ← q5]

theorem numberedCurve_noCollision : NoLabelCollision numberedCurve := by
  intro r r' i i' hi hi' h
  change numberedSha _ = numberedSha _ at h
  rw [numberedSha_label r i hi, numberedSha_label r' i' hi'] at h
  have hb : ∀ r : Role, r.ctorIdx < 12 := by intro r; cases r <;> decide
  have h1 := hb r
  have h2 := hb r'
  have h' := congrArg beToNat h
  have hbig : (12 * 2 ^ 21 : ℕ) < 256 ^ 32 := by norm_num
  rw [beToNat_natToBE _ _ (by omega), beToNat_natToBE _ _ (by omega)] at h'
  have hr : r.ctorIdx = r'.ctorIdx := by omega
  obtain rfl : r = r' := by cases r <;> cases r' <;> first | rfl | (exact absurd hr (by decide))
  obtain rfl : i = i' := by omega
  rfl

example : ∃ (f : _) (pp : PublicParams Zr Zr Zr), generatePublicParams numberedCurve 2 7 .sparse = some (f, pp) ∧
    ∃ (hash : Bytes → Zr) (pp' : PublicParams Zr Zr Zr),
      generatePublicParams { numberedCurve with hashToG1 := hash } 2 7 .sparse = some (f, pp') ∧
      pp'.RPPP.G = 5 ∧ pp'.RPPP.H = 6 ∧ pp'.POEPP.F = 7 := by
  have hf : hexId2Path numberedCurve 7 = some (hexPathLoop numberedCurve 7 91) :=
    (hexId2Path_eq_some_iff _ _ _).2 ⟨91, rfl, rfl⟩
  obtain ⟨L, pp, -, hg, -⟩ := C54_sparse numberedCurve 2 7 _ hf
  obtain ⟨hash, -, pp', h1, -, -, -, h5⟩ := C95_any_generators numberedCurve numberedCurve_lawful
    numberedCurve_noCollision 2 7 .sparse _ pp hg fun r _ => match r with
      | .rangeG => 5
      | .rangeH => 6
      | .poeF => 7
      | _ => 0
  exact ⟨_, pp, hg, hash, pp', h1, h5.rangeG, h5.rangeH, h5.poeF⟩

end PoL.Props

import Verif.Proofs.Lengths
import Verif.Props.PolMisc
import Verif.Props.Bench
import Verif.Props.Pol
import Verif.Spec.Binding

/-!
# C90: the size of a liability proof depends on the fan-out and the depth only
-/

set_option linter.unusedSectionVars false

namespace PoL.Props

open BP Spec Verkle Pol Bench

variable {G1 G2 GT : Type} [AddCommGroup G1] [Module Zr G1] [AddCommGroup G2] [Module Zr G2]
  [AddCommGroup GT] [Module Zr GT] [DecidableEq G1] [DecidableEq GT]

theorem sum_const_length {A : Type} (f : A → ℕ) (n : ℕ) (l : List A) (h : ∀ x ∈ l, f x = n) : (l.map f).sum = l.length * n := by
  induction l with
  | nil => simp
  | cons a l ih =>
    rw [List.map_cons, List.sum_cons, ih fun x hx => h x (List.mem_cons_of_mem _ hx), h a List.mem_cons_self, List.length_cons]
    ring

theorem encodedLength_fixed {E : Curve G1 G2 GT} {n : ℕ} (hn : ∀ p, (E.g1Bytes p).length = n) (ps : List G1) (xs : List Zr) :
    encodedLength E ps xs = ps.length * n + xs.length * 32 := by
  unfold encodedLength
  rw [sum_const_length _ n _ fun p _ => hn p, sum_const_length _ 32 _ fun x _ => zrBytes_length x]

theorem length_flatMap_const {A B : Type} (f : A → List B) (n : ℕ) (l : List A) (h : ∀ x ∈ l, (f x).length = n) :
    (l.flatMap f).length = l.length * n := by
  rw [List.length_flatMap]
  exact sum_const_length _ n l h

/-- What `ProveLiability` returns for an identifier in the set. -/
theorem liability_proof_lengths {E : Curve G1 G2 GT} (hE : E.Lawful) {env : Env} (henv : env.Lawful) {α : Zr} {F L : ℕ}
    {ls ls' : LiabilitySet G1 G2 GT} (h : NewSet E α F L ls) (hist : List (Str × ℤ))
    (hids : ValidIds ls.tree.id2Path F L hist) (hr : ls.sets E env hist = some ls') (id : Str) (p : List ℕ)
    (hp : ls.tree.id2Path id = some p) (hw : p ∈ (byPath ls.tree.id2Path hist).map Prod.fst) (rnd : ProveRand) (m : ℤ)
    (lp : LiabilityProof G1) (hpr : ls'.proveLiability E env rnd id = some (some (m, lp))) (k κ : ℕ) (hk : F + 1 = 2 ^ k)
    (hκ : IsPadded (L - 1) (2 ^ κ)) :
    lp.V.length = L ∧ lp.W.length = L - 1 ∧ lp.digests.length = L ∧ lp.rangeProofs.length = L ∧
      (∀ rp ∈ lp.rangeProofs, rp.Δ.length = k ∧ rp.ipp.LRs.length = 2 * (k + 6)) ∧
      lp.sumArgumentProof.π.LRs.length = 2 * k ∧ lp.equalityProof.Vaggr.length = 2 ^ κ ∧
      lp.equalityProof.Waggr.length = 2 ^ κ ∧ lp.equalityProof.IPP.LRs.length = 2 * κ := by
  have hL := h.pp.depth
  obtain ⟨-, t, s, hputs, rfl⟩ := (sets_iff E env hist ls ls').1 hr
  obtain ⟨hpL, hlt⟩ := byPath_length hids p (List.mem_toFinset.2 hw)
  obtain ⟨vs, hget, hvsl, hvs⟩ := get_onPath hE henv h.tree (by omega) hist hids hputs id p hp hpL hw
  have hfields := puts_fields' hputs
  have htp : t.id2Path = ls.tree.id2Path := by rw [hfields]
  unfold LiabilitySet.proveLiability at hpr
  obtain ⟨path, hp', hpr⟩ := obind_elim hpr
  dsimp only at hp'
  rw [htp, hp, Option.some.injEq] at hp'
  subst hp'
  obtain ⟨r, hg, hpr⟩ := obind_elim hpr
  dsimp only at hg
  rw [hget, Option.some.injEq] at hg
  subst hg
  dsimp only at hpr
  rw [if_neg (by omega)] at hpr
  obtain ⟨layers, hl, hpr⟩ := obind_elim hpr
  obtain ⟨last, -, hpr⟩ := obind_elim hpr
  obtain ⟨idx, -, hpr⟩ := obind_elim hpr
  obtain ⟨⟨l, π⟩, -, hpr⟩ := obind_elim hpr
  obtain ⟨m', -, hpr⟩ := obind_elim hpr
  obtain ⟨ts, -, hpr⟩ := obind_elim hpr
  obtain ⟨pps, -, hpr⟩ := obind_elim hpr
  obtain ⟨ppf, -, hpr⟩ := obind_elim hpr
  obtain ⟨sap, hsap, hpr⟩ := obind_elim hpr
  obtain ⟨zc, -, hpr⟩ := obind_elim hpr
  obtain ⟨padded, hpad, hpr⟩ := obind_elim hpr
  obtain ⟨eqs, heqs, hpr⟩ := obind_elim hpr
  obtain ⟨eqp, heqp, hpr⟩ := obind_elim hpr
  rw [Option.pure_def, Option.some.injEq, Option.some.injEq, Prod.mk.injEq] at hpr
  have hll : layers.length = L := by rw [mapM_length _ _ _ hl, List.length_range, hpL]
  -- the layers
  have hlayer : ∀ i < L, ∃ y x, layers[i]? = some y ∧ y.v = x ∧ vs[i]? = some x ∧
      proveRange E ls.pp.RPPP (rnd.range i) x.V (x.valuesVec (t.fanOut + 1)) x.blindingFactor = some y.rangeProof := by
    intro i hi
    have hy := mapM_getElem _ _ _ hl i i (List.getElem?_range (by omega))
    rw [List.getElem?_eq_getElem (l := layers) (by omega)] at hy
    unfold proveLayer at hy
    obtain ⟨v, e1, hy⟩ := obind_elim hy
    obtain ⟨rp, e2, hy⟩ := obind_elim hy
    obtain ⟨pi, -, hy⟩ := obind_elim hy
    obtain ⟨o, -, hy⟩ := obind_elim hy
    refine ⟨_, v, List.getElem?_eq_getElem (by omega), ?_, e1, ?_⟩
    · rw [← Option.some.inj hy]
    · rw [← Option.some.inj hy]
      exact e2
  have hGs : ls.pp.RPPP.Gs.length = 2 ^ k := by
    rw [h.pp.rp_Gs, List.length_take, h.pp.PPPP, PoL.PP.new_G1s_length E α _ (by omega), ← hk]
    omega
  have hHs : ls.pp.RPPP.Hs.length = 2 ^ (k + 6) := by
    rw [h.pp.rp_Hs, hk, pow_add]
    norm_num
  have hSGs : ls.pp.SAPP.Gs.length = 2 ^ k := by
    rw [h.pp.sa_Gs, List.length_take, h.pp.PPPP, PoL.PP.new_G1s_length E α _ (by omega), ← hk]
    omega
  have hPG : ls.pp.POEPP.G.length = 2 ^ κ := by
    obtain ⟨M, hM, hG, -⟩ := h.pp.poe_size
    rw [hG, isPadded_unique hM hκ]
  have hpadM : padded = ((2 ^ κ : ℕ) : ℤ) := by
    have hb := fits_L_bound h.pp
    obtain ⟨M, hM1, hM2⟩ := padLoop_spec (m := L - 1) (by omega) hb
    rw [hpL, hM1, Option.some.injEq] at hpad
    rw [← hpad, isPadded_unique hM2 hκ]
  have hW : (layers.filterMap fun y => y.v.W).length = L - 1 := by
    have e : layers.map (fun y => y.v.W.isSome) = (List.range L).map fun i => decide (i + 1 < L) := by
      apply List.ext_getElem?
      intro i
      by_cases hi : i < L
      · obtain ⟨y, x, hy, hyx, hx, -⟩ := hlayer i hi
        obtain ⟨x', hx', -, hon⟩ := hvs i hi
        rw [hx, Option.some.injEq] at hx'
        subst hx'
        rw [List.getElem?_map, hy, List.getElem?_map, List.getElem?_range hi]
        simp only [Option.map_some, hyx]
        by_cases hi' : i + 1 < L
        · rw [(hon.inner hi').2.1]; simp [hi']
        · rw [(hon.leaf (by omega)).1]; simp [hi']
      · rw [List.getElem?_eq_none (by simp; omega), List.getElem?_eq_none (by simp; omega)]
    have e2 : (layers.filterMap fun y => y.v.W).length = (layers.map fun y => y.v.W.isSome).countP (fun b => b) := by
      rw [List.length_filterMap_eq_countP, List.countP_map]
      rfl
    rw [e2, e, List.countP_map]
    have e3 : ∀ n, n ≤ L - 1 → List.countP ((fun b => b) ∘ fun i => decide (i + 1 < L)) (List.range n) = n := by
      intro n hn
      rw [List.countP_eq_length.2, List.length_range]
      intro i hi
      rw [List.mem_range] at hi
      simp; omega
    obtain ⟨L', rfl⟩ : ∃ L', L = L' + 1 := ⟨L - 1, by omega⟩
    rw [List.range_succ, List.countP_append, e3 L' (by omega)]
    simp
  obtain ⟨q1, q2, q3⟩ := eqProve_length (k := κ) (by
    unfold equalitiesOf at heqs
    obtain ⟨Vs, -, heqs⟩ := obind_elim heqs
    obtain ⟨Ws, -, heqs⟩ := obind_elim heqs
    rw [← Option.some.inj heqs]
    exact hPG) heqp
  have hEV : eqs.V.length = 2 ^ κ := by
    unfold equalitiesOf at heqs
    obtain ⟨Vs, hVs, heqs⟩ := obind_elim heqs
    obtain ⟨Ws, -, heqs⟩ := obind_elim heqs
    rw [← Option.some.inj heqs]
    dsimp only
    rw [List.length_append, mapM_length _ _ _ hVs, List.length_range, List.length_replicate, hpadM, hpL]
    have := hκ.2.1
    omega
  rw [← hpr.2]
  dsimp only
  refine ⟨by rw [List.length_map, hll], hW, by rw [List.length_map, hll], by rw [List.length_map, hll], ?_, ?_,
    by rw [q1, hEV], by rw [q2, hEV], q3⟩
  · intro rp hrp
    obtain ⟨y, hy, rfl⟩ := List.mem_map.1 hrp
    obtain ⟨i, hi⟩ := List.mem_iff_getElem?.1 hy
    obtain ⟨hi', -⟩ := List.getElem?_eq_some_iff.1 hi
    obtain ⟨y', x, hy', hyx, -, hrange⟩ := hlayer i (by omega)
    rw [hi, Option.some.injEq] at hy'
    subst hy'
    exact proveRange_length hGs hHs hrange
  · exact newAggregated_length hSGs hsap

/-- **C90.** Let the encoding of a point have `n` bytes, the fan-out be `2^k - 1`, the paths have length `L`, and `2^κ` be the
padded number of pairs of layers.  After any history of `Set`s, the proof that `ProveLiability` returns for any identifier in
the set consists of `L·(5k+20) + 2k + 2·2^κ + 2κ + 7` points and `9L + 11` scalars, and `Size` is
`n·(L·(5k+20) + 2·2^κ + 2κ + 5) + 32·(9L + 8)`: neither depends on the identifier, the amounts, or how many are in the set. -/
theorem C90_proof_size {E : Curve G1 G2 GT} (hE : E.Lawful) {env : Env} (henv : env.Lawful) {α : Zr} {F L : ℕ}
    {ls ls' : LiabilitySet G1 G2 GT} (h : NewSet E α F L ls) (hist : List (Str × ℤ))
    (hids : ValidIds ls.tree.id2Path F L hist) (hr : ls.sets E env hist = some ls') (id : Str) (p : List ℕ)
    (hp : ls.tree.id2Path id = some p) (hw : p ∈ (byPath ls.tree.id2Path hist).map Prod.fst) (rnd : ProveRand) (m : ℤ)
    (lp : LiabilityProof G1) (hpr : ls'.proveLiability E env rnd id = some (some (m, lp))) (k κ n : ℕ) (hk : F + 1 = 2 ^ k)
    (hκ : IsPadded (L - 1) (2 ^ κ)) (hn : ∀ p, (E.g1Bytes p).length = n) :
    (proofPoints lp).length = L * (5 * k + 20) + 2 * k + 2 * 2 ^ κ + 2 * κ + 7 ∧
      (proofScalars lp).length = 9 * L + 11 ∧
      lp.size E = n * (L * (5 * k + 20) + 2 * 2 ^ κ + 2 * κ + 5) + 32 * (9 * L + 8) := by
  have hL := h.pp.depth
  obtain ⟨q1, q2, q3, q4, q5, q6, q7, q8, q9⟩ := liability_proof_lengths hE henv h hist hids hr id p hp hw rnd m lp hpr k κ hk hκ
  have hrp : (lp.rangeProofs.flatMap rangePoints).length = L * (5 * k + 18) := by
    rw [length_flatMap_const _ (5 * k + 18) _ fun rp hrp => ?_, q4]
    obtain ⟨e1, e2⟩ := q5 rp hrp
    have hΔ : (rp.Δ.flatMap fun d => [d.1, d.2.1, d.2.2]).length = rp.Δ.length * 3 :=
      length_flatMap_const _ 3 rp.Δ fun _ _ => rfl
    unfold rangePoints ippPoints
    simp only [List.length_append, List.length_cons, List.length_nil, e2,
      hΔ, e1]
    ring
  have hrs : (lp.rangeProofs.flatMap rangeScalars).length = L * 8 := by
    rw [length_flatMap_const _ 8 _ fun rp _ => rfl, q4]
  have hP : (proofPoints lp).length = L * (5 * k + 20) + 2 * k + 2 * 2 ^ κ + 2 * κ + 7 := by
    unfold proofPoints sumPoints eqPoints ippPoints
    simp only [List.length_append, List.length_cons, List.length_nil, q1, q2, hrp, q6, q7, q8, q9]
    have e : L * (5 * k + 20) = L * (5 * k + 18) + L + (L - 1) + 1 := by
      rw [show 5 * k + 20 = 5 * k + 18 + 2 by omega, mul_add]; omega
    rw [e]
    omega
  have hS : (proofScalars lp).length = 9 * L + 11 := by
    unfold proofScalars sumScalars eqScalars ippScalars
    simp only [List.length_append, List.length_cons, List.length_nil, q3, hrs]
    omega
  refine ⟨hP, hS, ?_⟩
  have hc := C64_size_partial E lp
  rw [encodedLength_fixed hn, encodedLength_fixed hn, hP, hS] at hc
  unfold ippPoints ippScalars at hc
  simp only [List.length_append, List.length_cons, List.length_nil, q6] at hc
  have e : (L * (5 * k + 20) + 2 * k + 2 * 2 ^ κ + 2 * κ + 7) * n
      = n * (L * (5 * k + 20) + 2 * 2 ^ κ + 2 * κ + 5) + (2 * k + (0 + 1) + 1) * n := by ring
  rw [e] at hc
  omega

/-- **C90**, two clients: whatever the histories, the amounts and the identifiers, the sizes are equal. -/
theorem C90_equal_sizes {E : Curve G1 G2 GT} (hE : E.Lawful) {env env' : Env} (henv : env.Lawful) (henv' : env'.Lawful)
    {α α' : Zr} {F L : ℕ} {ls₁ ls₁' ls₂ ls₂' : LiabilitySet G1 G2 GT} (h₁ : NewSet E α F L ls₁) (h₂ : NewSet E α' F L ls₂)
    (hist₁ hist₂ : List (Str × ℤ)) (hids₁ : ValidIds ls₁.tree.id2Path F L hist₁) (hids₂ : ValidIds ls₂.tree.id2Path F L hist₂)
    (hr₁ : ls₁.sets E env hist₁ = some ls₁') (hr₂ : ls₂.sets E env' hist₂ = some ls₂') (id₁ id₂ : Str)
    (hw₁ : id₁ ∈ hist₁.map Prod.fst) (hw₂ : id₂ ∈ hist₂.map Prod.fst) (rnd₁ rnd₂ : ProveRand) (m₁ m₂ : ℤ)
    (lp₁ lp₂ : LiabilityProof G1) (hpr₁ : ls₁'.proveLiability E env rnd₁ id₁ = some (some (m₁, lp₁)))
    (hpr₂ : ls₂'.proveLiability E env' rnd₂ id₂ = some (some (m₂, lp₂)))
    (hn : ∀ p q, (E.g1Bytes p).length = (E.g1Bytes q).length) : lp₁.size E = lp₂.size E := by
  obtain ⟨k, -, -, hk⟩ := h₁.pp.power
  obtain ⟨M, hM, -, -⟩ := h₁.pp.poe_size
  obtain ⟨κ, -, -, rfl⟩ := hM.1
  have path : ∀ (hist : List (Str × ℤ)) (i2p : Str → Option (List ℕ)), ValidIds i2p F L hist → ∀ id ∈ hist.map Prod.fst,
      ∃ p, i2p id = some p ∧ p ∈ (byPath i2p hist).map Prod.fst := by
    intro hist i2p hv id hid
    obtain ⟨e, he, rfl⟩ := List.mem_map.1 hid
    obtain ⟨p, hp, -⟩ := hv e he
    refine ⟨p, hp, List.mem_map.2 ⟨(p, e.2), ?_, rfl⟩⟩
    exact List.mem_map.2 ⟨e, he, by rw [hp]; rfl⟩
  obtain ⟨p₁, hp₁, hm₁⟩ := path _ _ hids₁ _ hw₁
  obtain ⟨p₂, hp₂, hm₂⟩ := path _ _ hids₂ _ hw₂
  rw [(C90_proof_size hE henv h₁ hist₁ hids₁ hr₁ id₁ p₁ hp₁ hm₁ rnd₁ m₁ lp₁ hpr₁ k κ _ hk hM fun p => hn p 0).2.2,
    (C90_proof_size hE henv' h₂ hist₂ hids₂ hr₂ id₂ p₂ hp₂ hm₂ rnd₂ m₂ lp₂ hpr₂ k κ _ hk hM fun p => hn p 0).2.2]

/-- **C65**, in numbers: with points of `n`, elements of the second group of `n₂` and of the target group of `n₃` bytes, `Size` gives
`n·(129(F+1) + 2M + 6)` for parameters with fan-out `F`, `M` being the padded number of pairs of layers, and leaves out
`2n·(F+2) + n₂·(F+2) + n₃`. -/
theorem C65_closed_form {E : Curve G1 G2 GT} {α : Zr} {F L : ℕ} {pp : PublicParams G1 G2 GT} (h : Fits E α F L pp) (M n n₂ n₃ : ℕ)
    (hM : IsPadded (L - 1) M) (hn : ∀ p, (E.g1Bytes p).length = n) (hn₂ : ∀ p, (E.g2Bytes p).length = n₂)
    (hn₃ : ∀ p, (E.gtBytes p).length = n₃) :
    pp.size E = n * (129 * (F + 1) + 2 * M + 6) ∧
      paramsLength E pp = pp.size E + (2 * n * (F + 2) + n₂ * (F + 2) + n₃) := by
  have g1 : ∀ l : List G1, (g1vBytes E l).length = l.length * n := by
    intro l
    rw [g1vBytes_length]
    exact sum_const_length _ n l fun p _ => hn p
  obtain ⟨M', hM', hG, hH⟩ := h.poe_size
  rw [isPadded_unique hM' hM] at hG hH
  constructor
  · unfold PublicParams.size RPPP.size Poe.PP.size Sum.PP.size
    rw [h.poe_vc]
    simp only [g1, hn, h.rp_Hs, h.rp_Fs, hG, hH, h.sa_H]
    push_cast
    ring
  · rw [← C65_size_partial h]
    unfold PoL.PP.size g2vBytes
    rw [g1, hn₃, length_flatMap_const _ n₂ _ fun p _ => hn₂ p, h.PPPP, PoL.PP.new_G1s_length E α _ (by omega),
      PoL.PP.new_G2s_length E α _]
    push_cast
    ring

/-- Parameters of the toy set: 526 points of 32 bytes are counted, 16 elements are not. -/
example : ∃ pp : PublicParams Zr Zr Zr, Fits toyCurve 2 3 3 pp ∧ pp.size toyCurve = 32 * 526 ∧
    paramsLength toyCurve pp = 32 * (526 + 16) := by
  obtain ⟨pp, h⟩ := toy_fits
  obtain ⟨h1, h2⟩ := C65_closed_form h 2 32 32 32 ⟨⟨1, by norm_num, by norm_num, rfl⟩, by norm_num, fun i hi _ => le_self_pow₀ (by norm_num) (by omega)⟩
    (fun p => zrBytes_length p) (fun p => zrBytes_length p) fun p => zrBytes_length p
  refine ⟨pp, h, by rw [h1]; norm_num, ?_⟩
  rw [h1] at h2
  revert h2
  generalize paramsLength toyCurve pp = x
  omega

/-- **C65** for the parameters of the inner-product argument alone: nothing is left out; with points of `k` bytes the
parameters for vectors of length `n` have `k·(2n+1)` bytes. -/
theorem C65_innerprod_params_size {E : Curve G1 G2 GT} {n : ℕ} {pp : BP.PP G1} (h : BP.newPublicParams E n = some pp) (k : ℕ)
    (hk : ∀ p, (E.g1Bytes p).length = k) :
    pp.size E = ((pp.G ++ pp.H ++ [pp.U]).map fun p => (E.g1Bytes p).length).sum ∧ pp.size E = k * (2 * n + 1) := by
  have hs : ∀ pp : BP.PP G1, pp.size E = ((pp.G ++ pp.H ++ [pp.U]).map fun p => (E.g1Bytes p).length).sum := by
    intro pp
    unfold BP.PP.size
    simp only [g1vBytes_length, List.map_append, List.sum_append, List.map_cons, List.map_nil, List.sum_cons, List.sum_nil,
      Nat.add_zero]
  refine ⟨hs pp, ?_⟩
  unfold BP.newPublicParams BP.setupDigest at h
  obtain ⟨U, -, h⟩ := obind_elim h
  obtain ⟨d, -, h⟩ := obind_elim h
  have h := Option.some.inj h
  subst h
  rw [hs, sum_const_length _ k _ fun p _ => hk p]
  simp only [List.length_append, List.length_cons, List.length_nil]
  have l1 : ∀ s, (randGenVec E n s).length = n := by intro s; simp [randGenVec]
  rw [l1, l1]
  ring

example : ∃ pp : BP.PP Zr, BP.newPublicParams toyCurve 4 = some pp ∧ pp.size toyCurve = 32 * 9 := by
  obtain ⟨pp, h⟩ : ∃ pp, BP.newPublicParams toyCurve 4 = some pp := ⟨_, rfl⟩
  exact ⟨pp, h, (C65_innerprod_params_size h 32 fun p => zrBytes_length p).2⟩

/-- **C90** for the benchmark: if a round with valid identifiers completes, all the sizes it records are the same number of
KiB, known beforehand, and so is their average. -/
theorem C90_benchmark {E : Curve G1 G2 GT} (hE : E.Lawful) {env : Env} (henv : env.Lawful) (iterations numIds : ℕ)
    (treeType : TreeType) (d : Draws) (fanOut : UInt16) (id2Path : Str → Option (List ℕ)) (pp : PublicParams G1 G2 GT)
    (hgen : generatePublicParams E d.α fanOut treeType = some (id2Path, pp)) (L : ℕ) (hL : treeDepth treeType fanOut = some L)
    (hv : ValidIds id2Path fanOut.toNat L (history treeType iterations numIds d)) (sizes : List Int64)
    (hres : benchmarkFanout E env iterations numIds treeType d fanOut = some sizes) (k κ n : ℕ) (hk : fanOut.toNat + 1 = 2 ^ k)
    (hκ : IsPadded (L - 1) (2 ^ κ)) (hn : ∀ p, (E.g1Bytes p).length = n) (size : ℕ)
    (hsize : size = (n * (L * (5 * k + 20) + 2 * 2 ^ κ + 2 * κ + 5) + 32 * (9 * L + 8)) / 1024) :
    sizes = List.replicate iterations (Int64.ofNat size) ∧
      (1 ≤ iterations → iterations * (size + 1) < 2 ^ 63 → ∃ a, avg sizes = some a ∧ a.toInt = size) := by
  have hfit := params_fit E d.α fanOut treeType id2Path pp hgen L hL
  obtain ⟨hns, hid, -⟩ := C54_new_set E d.α d.α' _ L pp hfit memDB id2Path
  rw [← hid] at hv
  unfold benchmarkFanout at hres
  obtain ⟨⟨i2p, pp'⟩, hg, hres⟩ := obind_elim hres
  rw [hgen, Option.some.injEq, Prod.mk.injEq] at hg
  obtain ⟨rfl, rfl⟩ := hg
  dsimp only at hres
  obtain ⟨ls1, hs1, hres⟩ := obind_elim hres
  rw [if_neg (by omega), Int.toNat_natCast] at hres
  obtain ⟨ls2, hs2, hres⟩ := obind_elim hres
  obtain ⟨⟨r, ls3⟩, hroot, hres⟩ := obind_elim hres
  dsimp only at hres
  obtain ⟨sz, hsz, hres⟩ := obind_elim hres
  obtain ⟨_, -, hres⟩ := obind_elim hres
  rw [Option.pure_def, Option.some.injEq] at hres
  subst hres
  have hs : (newLiabilitySet E d.α' pp memDB id2Path).sets E env (history treeType iterations numIds d) = some ls2 := by
    unfold history
    rw [sets_append, hs1, Option.bind_some, ← hs2, List.map_map]
    rfl
  have hlen := mapM_length _ _ _ hsz
  rw [List.length_range] at hlen
  have hall : ∀ x ∈ sz, x = Int64.ofNat size := by
    intro x hx
    obtain ⟨i, hi⟩ := List.mem_iff_getElem?.1 hx
    obtain ⟨hi', -⟩ := List.getElem?_eq_some_iff.1 hi
    have hm := mapM_getElem _ _ _ hsz i i (List.getElem?_range (by omega))
    rw [hi] at hm
    unfold Bench.measure at hm
    obtain ⟨o, hpr, hm⟩ := obind_elim hm
    have hpr' : ls2.proveLiability E env (d.prove i) (idGen treeType (d.measured i)) = some o := by
      rw [← hpr]
      unfold LiabilitySet.root at hroot
      split at hroot
      · rw [Option.some.injEq, Prod.mk.injEq] at hroot
        rw [hroot.2]
      · obtain ⟨_, -, hroot⟩ := obind_elim hroot
        obtain ⟨_, -, hroot⟩ := obind_elim hroot
        dsimp only at hroot
        obtain ⟨_, -, hroot⟩ := obind_elim hroot
        rw [Option.pure_def, Option.some.injEq, Prod.mk.injEq] at hroot
        rw [← hroot.2]
        rfl
    cases o with
    | none => exact absurd hm (by simp)
    | some mp =>
      obtain ⟨m, lp⟩ := mp
      dsimp only at hm
      obtain ⟨_, -, hm⟩ := obind_elim hm
      obtain ⟨_, -, hm⟩ := obind_elim hm
      obtain ⟨b, -, hm⟩ := obind_elim hm
      split at hm
      · rw [Option.pure_def, Option.some.injEq] at hm
        obtain ⟨p, hp, -⟩ := hv (idGen treeType (d.measured i), 666) (by
          unfold history
          exact List.mem_append_right _ (List.mem_map.2 ⟨i, List.mem_range.2 (by omega), rfl⟩))
        rw [← hm, (C90_proof_size hE henv hns _ hv hs _ p hp (by
          rw [hid] at hp ⊢
          exact measured_mem treeType iterations numIds d id2Path i (by omega) p hp) _ m lp hpr' k κ n hk hκ hn).2.2, hsize]
      · exact absurd hm (by simp)
  have hrep : sz = List.replicate iterations (Int64.ofNat size) := List.eq_replicate_iff.2 ⟨hlen, hall⟩
  refine ⟨hrep, fun h1 hb => ?_⟩
  have hsz63 : size < 2 ^ 63 := lt_of_le_of_lt ((Nat.le_succ _).trans (Nat.le_mul_of_pos_left _ h1)) hb
  have hto : (Int64.ofNat size).toInt = size := Int64.toInt_ofNat_of_lt hsz63
  have hsum : (sz.map Int64.toInt).sum = iterations * size := by
    rw [hrep, List.map_replicate, List.sum_replicate, hto, nsmul_eq_mul]
  obtain ⟨a, ha, -, hb'⟩ := C71_average sz (by rintro rfl; simp at hlen; omega) (fun x hx => by rw [hall x hx, hto]; omega)
    (by rw [hsum]; exact_mod_cast lt_of_le_of_lt (Nat.mul_le_mul_left _ (Nat.le_succ _)) hb)
    (by rw [hlen]; exact lt_of_le_of_lt (Nat.le_mul_of_pos_right _ (by omega)) hb)
  have := hb' size size fun x hx => by rw [hall x hx, hto]; exact ⟨le_rfl, le_rfl⟩
  exact ⟨a, ha, by omega⟩

/-- A proof of the toy set: 101 encodings of points and 35 of scalars are counted, 32 bytes each. -/
example : ∃ (ls ls' : LiabilitySet Zr Zr Zr) (lp : LiabilityProof Zr), ls.sets toyCurve toyEnv toyHist = some ls' ∧
    ls'.proveLiability toyCurve toyEnv toyRand ['2', '2', '1'] = some (some (7, lp)) ∧ lp.size toyCurve = 4352 := by
  obtain ⟨ls, h, ht⟩ := toy_set
  have hids : ValidIds ls.tree.id2Path 3 3 toyHist := by rw [ht]; exact toyHist_valid
  have h42 : totalAmount (byPath ls.tree.id2Path toyHist) = 42 := by rw [ht]; decide
  have h7 : latest (byPath ls.tree.id2Path toyHist) [2, 2, 1] = 7 := by rw [ht]; decide
  obtain ⟨ls', hs⟩ := C43_sets_return toyCurve_lawful toyEnv_lawful h toyHist hids (by decide)
  obtain ⟨lp, x, W, h1, h2, -, -, h4⟩ := C47_liability_proof_verifies_partial toyCurve_lawful toyEnv_lawful h toyHist hids hs
    (by rw [h42]; norm_num) ['2', '2', '1'] [2, 2, 1] (by rw [ht]; rfl) (by rw [ht]; decide) (by rw [ht]; decide) toyRand
    toyRand_sized (toy_challenges _ _ _)
  rw [h7] at h1
  exact ⟨ls, ls', lp, hs, h1, (C90_proof_size toyCurve_lawful toyEnv_lawful h toyHist hids hs ['2', '2', '1'] [2, 2, 1]
    (by rw [ht]; rfl) (by rw [ht]; decide) toyRand 7 lp h1 2 1 32 rfl ⟨⟨1, by norm_num, by norm_num, rfl⟩, by norm_num, fun i hi _ => le_self_pow₀ (by norm_num) (by omega)⟩
    fun p => zrBytes_length p).2.2⟩

end PoL.Props

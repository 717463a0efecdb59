import Verif.Proofs.Bench
import Verif.Spec.Bench
import Verif.Proofs.PolToy
import Verif.Props.PolParams

/-!
# C69–C71: the benchmark program (`bench/main.go`)
-/

namespace PoL.Props

open Spec Pol Verkle Bench

variable {G1 G2 GT : Type} [AddCommGroup G1] [Module Zr G1] [AddCommGroup G2] [Module Zr G2]
  [AddCommGroup GT] [Module Zr GT] [DecidableEq G1] [DecidableEq GT]

/-! ## C69: identifiers -/

/-- C69, sparse trees: from 32 bytes the benchmark makes an identifier of 64 hexadecimal digits with the same value. -/
theorem C69_sparse_ids (buff : Bytes) (h : buff.length = 32) :
    IsSparseId (idGen .sparse buff) ∧ hexValue (idGen .sparse buff) = beToNat buff := by
  refine ⟨⟨by rw [idGen, hexEncode_length, h], hexEncode_isHex _⟩, ?_⟩
  exact hexValue_hexEncode buff

/-- C69, dense trees: from any bytes the benchmark makes an identifier of nine decimal digits, the first of which is not
zero. -/
theorem C69_dense_ids (buff : Bytes) :
    IsDenseId (idGen .dense buff) ∧ 10 ^ 8 ≤ decimalValue (idGen .dense buff) ∧
      decimalValue (idGen .dense buff) < 10 ^ 9 := by
  obtain ⟨n, hn, h1, h2⟩ : ∃ n, idGen .dense buff = Nat.toDigits 10 n ∧ 10 ^ 8 ≤ n ∧ n < 10 ^ 9 := by
    refine ⟨_, rfl, ?_, ?_⟩ <;> split_ifs <;> omega
  rw [hn, decimalValue_toDigits]
  exact ⟨⟨length_toDigits n h1 h2, isDecimal_toDigits n⟩, h1, h2⟩

/-- C69: every identifier that the benchmark makes for a dense tree has a path of full length, for all its
fan-outs except 3.  What is missing: the fan-out 3, see `C69_violated`. -/
theorem C69_full_depth_partial (fanOut : UInt16) (hf : fanOut ∈ fanouts) (h3 : fanOut ≠ 3) (buff : Bytes) :
    ∃ id2Path L p, digitPath fanOut = some id2Path ∧ digitPathLen fanOut = some L ∧
      id2Path (idGen .dense buff) = some p ∧ p.length = L ∧ ∀ x ∈ p, x < fanOut.toNat := by
  obtain ⟨hid, hge, -⟩ := C69_dense_ids buff
  obtain ⟨k, L, hk, hk15, hfk, hL1, hlo, hhi, hcut⟩ : ∃ k L, 2 ≤ k ∧ k ≤ 15 ∧ fanOut.toNat = 2 ^ k - 1 ∧ 1 ≤ L ∧
      fanOut.toNat ^ (L - 1) ≤ 10 ^ 9 ∧ 10 ^ 9 < fanOut.toNat ^ L ∧ fanOut.toNat ^ (L - 2) ≤ 10 ^ 8 := by
    simp only [fanouts, List.mem_cons, List.not_mem_nil, or_false] at hf
    rcases hf with rfl | rfl | rfl | rfl | rfl | rfl | rfl | rfl
    · exact absurd rfl h3
    · exact ⟨3, 11, by norm_num, by norm_num, by decide, by norm_num, by decide, by decide, by decide⟩
    · exact ⟨4, 8, by norm_num, by norm_num, by decide, by norm_num, by decide, by decide, by decide⟩
    · exact ⟨5, 7, by norm_num, by norm_num, by decide, by norm_num, by decide, by decide, by decide⟩
    · exact ⟨6, 6, by norm_num, by norm_num, by decide, by norm_num, by decide, by decide, by decide⟩
    · exact ⟨7, 5, by norm_num, by norm_num, by decide, by norm_num, by decide, by decide, by decide⟩
    · exact ⟨8, 4, by norm_num, by norm_num, by decide, by norm_num, by decide, by decide, by decide⟩
    · exact ⟨9, 4, by norm_num, by norm_num, by decide, by norm_num, by decide, by decide, by decide⟩
  have h4 : 4 ≤ 2 ^ k := le_trans (by norm_num) (Nat.pow_le_pow_right (by norm_num) hk)
  have hf2 : 2 ≤ fanOut.toNat := by omega
  obtain ⟨id2Path, hpath⟩ := (C30_supported_fanouts fanOut).2 ⟨k, by omega, hk15, hfk⟩
  obtain ⟨L', hL', -, hL2, hL3⟩ := C32_digit_path_len fanOut hf2
  have hLL : L' = L := by
    refine le_antisymm (hL3 L hL1 hhi) ?_
    by_contra hc
    have := Nat.pow_le_pow_right (n := fanOut.toNat) (by omega) (show L' ≤ L - 1 by omega)
    omega
  subst hLL
  obtain ⟨p, hp, hlt, -⟩ := C30_dense_paths fanOut id2Path hpath hf2 _ hid
  exact ⟨id2Path, L', p, hpath, hL', hp,
    (C31_full_depth_iff_partial fanOut id2Path hpath hf2 L' hL' _ hid p hp).2 (le_trans hcut hge), hlt⟩

/-- C69 fails for fan-out 3: when the 32 bytes are all zero, the path of the identifier is too short. -/
theorem C69_violated : ∃ (buff : Bytes) (id2Path : Str → Option (List ℕ)) (L : ℕ) (p : List ℕ), buff.length = 32 ∧
    digitPath 3 = some id2Path ∧ digitPathLen 3 = some L ∧ id2Path (idGen .dense buff) = some p ∧ p.length < L := by
  have h3 : (3 : UInt16).toNat = 3 := rfl
  obtain ⟨id2Path, hpath⟩ := (C30_supported_fanouts 3).2 ⟨2, by norm_num, by norm_num, rfl⟩
  obtain ⟨L, hL, -, hL2, hL3⟩ := C32_digit_path_len 3 (by rw [h3]; norm_num)
  rw [h3] at hL2 hL3
  have hLL : L = 19 := by
    refine le_antisymm (hL3 19 (by norm_num) (by norm_num)) ?_
    by_contra hc
    have := Nat.pow_le_pow_right (n := 3) (by omega) (show L ≤ 18 by omega)
    have h : 10 ^ 9 < 3 ^ 18 := lt_of_lt_of_le hL2 this
    norm_num at h
  subst hLL
  obtain ⟨hid, -, -⟩ := C69_dense_ids (List.replicate 32 0)
  have hv : decimalValue (idGen .dense (List.replicate 32 0)) = 10 ^ 8 := by
    have h0 : beToNat (List.replicate 32 0) = 0 := by decide
    unfold idGen
    rw [decimalValue_toDigits, h0]
    norm_num
  obtain ⟨L', hL', hp⟩ := digitPathFn_of_parse 3 (by rw [h3]; norm_num) _ hid.1 _
    (parseInt32_decimal _ (by intro h; rw [h] at hid; simpa using hid.1) (by rw [hid.1]) hid.2)
  rw [hL, Option.some.injEq] at hL'
  subst hL'
  have hlen : ((3 : ℕ).digits (10 ^ 8)).length ≤ 17 := by
    rw [Nat.digits_length_le_iff (by norm_num)]; norm_num
  rw [hv, h3, if_pos (by omega)] at hp
  refine ⟨List.replicate 32 0, id2Path, 19, _, by simp, hpath, hL, by rw [digitPath_eq 3 id2Path hpath]; exact hp, ?_⟩
  rw [List.length_append, List.length_singleton]
  omega

/-! ## C70: rounds of the benchmark -/

/-- C70: in a round without accidents, with at least one iteration, nothing panics: every liability is found, every proof
is accepted, and the size of each is recorded.  What is missing: rounds with accidents and rounds of no iterations, see
`C70_violated`. -/
theorem C70_round_completes_partial {E : Curve G1 G2 GT} (hE : E.Lawful) {env : Env} (henv : env.Lawful) (iterations numIds : ℕ)
    (treeType : TreeType) (d : Draws) (fanOut : UInt16) (id2Path : Str → Option (List ℕ)) (pp : PublicParams G1 G2 GT)
    (hgen : generatePublicParams E d.α fanOut treeType = some (id2Path, pp)) (L : ℕ) (hL : treeDepth treeType fanOut = some L)
    (hf : Fortunate E env iterations numIds treeType d fanOut id2Path pp L) (h1 : 1 ≤ iterations)
    (hit : iterations < 2 ^ 31) (hnum : numIds < 2 ^ 31) :
    ∃ sizes, benchmarkFanout E env iterations numIds treeType d fanOut = some sizes ∧ sizes.length = iterations := by
  have hfit := params_fit E d.α fanOut treeType id2Path pp hgen L hL
  obtain ⟨hns, hid, hpp⟩ := C54_new_set E d.α d.α' _ L pp hfit memDB id2Path
  have hv := hf.valid
  rw [← hid] at hv
  have hnn : ∀ e ∈ history treeType iterations numIds d, 0 ≤ e.2 := history_nonneg _ _ _ _
  have hne : history treeType iterations numIds d ≠ [] := by
    unfold history
    intro hc
    have := congrArg List.length hc
    simp at this
    omega
  obtain ⟨ls, hs⟩ := C43_sets_return hE henv hns _ hv hnn
  have htot : totalAmount (byPath id2Path (history treeType iterations numIds d)) < 2 ^ 63 :=
    history_total treeType iterations numIds d id2Path hit hnum
  obtain ⟨tp, x, t1, t2, t3, t4⟩ := C44_total_proof hE henv hns _ hne hv hs (by rw [hid]; exact htot)
  obtain ⟨y, hy, hroot⟩ := C46_first_call_partial hE henv hns _ hne hv hs
  rw [t3, Option.some.injEq] at hy
  subst hy
  have hW : ∃ W, x.W = some W := by
    obtain ⟨p, hp, -⟩ := hf.valid (idGen treeType (d.measured 0), 666) (by
      unfold history
      exact List.mem_append_right _ (List.mem_map.2 ⟨0, List.mem_range.2 (by omega), rfl⟩))
    obtain ⟨lp, x', W, -, -, e1, e2, -⟩ := C47_liability_proof_verifies_partial hE henv hns _ hv hs (by rw [hid]; exact htot)
      (idGen treeType (d.measured 0)) p (by rw [hid]; exact hp) (measured_mem treeType iterations numIds d id2Path 0 (by omega) p hp)
      (by rw [hid]; exact hf.once 0 (by omega) p hp) (d.prove 0) (hf.sized 0 (by omega)) (hf.challenges 0 (by omega) ls hs)
    rw [t3, Option.some.injEq] at e1
    subst e1
    exact ⟨W, e2⟩
  obtain ⟨W, hW⟩ := hW
  rw [hpp] at t4
  have hmeas : ∀ i < iterations, ∃ z, measure E env { ls with memRoot := ls.s.db [] } pp id2Path (some x.V) (some W) (d.prove i)
      (idGen treeType (d.measured i)) = some z := by
    intro i hi
    obtain ⟨p, hp, -⟩ := hf.valid (idGen treeType (d.measured i), 666) (by
      unfold history
      exact List.mem_append_right _ (List.mem_map.2 ⟨i, List.mem_range.2 hi, rfl⟩))
    obtain ⟨lp, x', W', e0, -, e1, e2, e3⟩ := C47_liability_proof_verifies_partial hE henv hns _ hv hs (by rw [hid]; exact htot)
      (idGen treeType (d.measured i)) p (by rw [hid]; exact hp) (measured_mem treeType iterations numIds d id2Path i hi p hp)
      (by rw [hid]; exact hf.once i hi p hp) (d.prove i) (hf.sized i hi) (hf.challenges i hi ls hs)
    rw [t3, Option.some.injEq] at e1
    subst e1
    rw [hW, Option.some.injEq] at e2
    subst e2
    rw [hid, hpp] at e3
    refine ⟨Int64.ofNat (lp.size E / 1024), ?_⟩
    unfold Bench.measure
    refine obind_step (show LiabilitySet.proveLiability E env { ls with memRoot := ls.s.db [] } (d.prove i) _ = _ from e0) ?_
    dsimp only
    refine obind_step (a := x.V) rfl (obind_step (a := W) rfl (obind_step e3 rfl))
  choose! z hz using hmeas
  refine ⟨(List.range iterations).map z, ?_, by simp⟩
  have hs' := hs
  unfold history at hs'
  rw [sets_append] at hs'
  obtain ⟨ls1, hs1, hs2⟩ := Option.bind_eq_some_iff.1 hs'
  unfold benchmarkFanout
  refine obind_step hgen ?_
  dsimp only
  refine obind_step hs1 ?_
  rw [if_neg (by omega), Int.toNat_natCast]
  have em : (List.map (fun id => (id, (666 : ℤ))) (List.map (fun i => idGen treeType (d.measured i)) (List.range iterations)))
      = (List.range iterations).map fun i => (idGen treeType (d.measured i), 666) := by rw [List.map_map]; rfl
  rw [em]
  refine obind_step hs2 ?_
  refine obind_step hroot ?_
  dsimp only
  rw [Option.map_some, Option.bind_some, hW]
  dsimp only
  refine obind_step (mapM_some_of _ _ z fun i hi => hz i (List.mem_range.1 hi)) ?_
  refine obind_step (a := ()) ?_ rfl
  unfold benchmarkVerifyTot
  refine obind_step (mapM_some_of _ _ (fun _ => ()) fun i _ => ?_) (by rw [if_neg (by omega)]; rfl)
  refine obind_step (show LiabilitySet.proveTot E { ls with memRoot := ls.s.db [] } = _ from t1) ?_
  exact obind_step (a := x.V) rfl (obind_step t4 rfl)

/-- C70 fails: `ITERATIONS=0` is accepted, and then every round that does not fail before panics when it averages over
no measurements. -/
theorem C70_violated (E : Curve G1 G2 GT) (env : Env) (numIds : ℕ) (treeType : TreeType) (d : Draws) (fanOut : UInt16) :
    getIterations "0" = some 0 ∧ benchmarkFanout E env 0 numIds treeType d fanOut = none := by
  refine ⟨by decide +kernel, ?_⟩
  unfold benchmarkFanout
  cases generatePublicParams E d.α fanOut treeType with
  | none => rfl
  | some a =>
    simp only [Option.bind_eq_bind, Option.bind_some]
    cases LiabilitySet.sets E env (newLiabilitySet E d.α' a.2 memDB a.1) (populate treeType numIds d.population) with
    | none => rfl
    | some ls =>
      simp only [Option.bind_some]
      rw [if_neg (by norm_num)]
      simp only [Int.toNat_zero, List.range_zero, List.map_nil]
      cases LiabilitySet.sets E env ls [] with
      | none => rfl
      | some ls' =>
        simp only [Option.bind_some]
        cases ls'.root E with
        | none => rfl
        | some r => rfl

/-- C70 for the whole program: with valid settings, at least one iteration, and no accidents in any round, it reports an
average size of the parameters and one of the proofs for every fan-out.  What is missing: as in
`C70_round_completes_partial`. -/
theorem C70_main_reports_partial {E : Curve G1 G2 GT} (hE : E.Lawful) {env : UInt16 → Env} (henv : ∀ f, (env f).Lawful)
    (p : Process) (hpar : p.parallelism ∈ ["", "0", "1"]) (treeType : TreeType)
    (htree : (p.treeType ∈ ["", "SPARSE"] ∧ treeType = .sparse) ∨ (p.treeType = "DENSE" ∧ treeType = .dense))
    (iterations : ℕ) (hit : getIterations p.iterations = some (iterations : ℤ)) (h1 : 1 ≤ iterations)
    (hf : ∀ fanOut ∈ fanouts, ∀ id2Path pp L, generatePublicParams E (p.draws fanOut).α fanOut treeType = some (id2Path, pp) →
      treeDepth treeType fanOut = some L →
      Fortunate E (env fanOut) iterations totalPopulation treeType (p.draws fanOut) fanOut id2Path pp L) :
    ∃ r, Bench.main E env p = some r ∧ r.ppSizes.map Prod.fst = fanouts ∧ r.proofSizes.map Prod.fst = fanouts := by
  have hit31 : iterations < 2 ^ 31 := by
    unfold getIterations at hit
    split_ifs at hit
    · unfold parseInt32 at hit
      obtain ⟨n, -, hn⟩ := Option.bind_eq_some_iff.1 hit
      split_ifs at hn with hb
      rw [Option.pure_def, Option.some.injEq] at hn
      omega
    · rw [Option.some.injEq] at hit
      omega
  have hpar' : ∃ b, setParallelism p.parallelism = some b := by
    simp only [List.mem_cons, List.not_mem_nil, or_false] at hpar
    rcases hpar with h | h | h <;> rw [h] <;> exact ⟨_, rfl⟩
  have htree' : setTreeType p.treeType = some treeType := by
    rcases htree with ⟨h, rfl⟩ | ⟨h, rfl⟩
    · simp only [List.mem_cons, List.not_mem_nil, or_false] at h
      rcases h with h | h <;> rw [h] <;> rfl
    · rw [h]; rfl
  obtain ⟨b, hpar'⟩ := hpar'
  have hgen : ∀ tt, ∀ fanOut ∈ fanouts, ∀ α, ∃ id2Path pp L, generatePublicParams E α fanOut tt = some (id2Path, pp) ∧
      treeDepth tt fanOut = some L := by
    intro tt fanOut hfan α
    exact params_exist E tt fanOut hfan α
  have hpp : ∀ tt, ∀ fanOut ∈ fanouts, ∃ s, measurePPGen E tt ((List.range iterations).map (p.ppDraws tt fanOut)) fanOut
      = some s ∧ s.length = iterations := by
    intro tt fanOut hfan
    have : ∀ α, ∃ z, (do
        let (_, pp) ← generatePublicParams E α fanOut tt
        return Int64.ofInt ((pp.size E).tdiv 1024) : Option Int64) = some z := by
      intro α
      obtain ⟨_, pp, _, h, -⟩ := hgen tt fanOut hfan α
      exact ⟨_, obind_step h rfl⟩
    choose z hz using this
    exact ⟨_, mapM_some_of _ _ z fun α _ => hz α, by simp⟩
  choose! pps hpps hppl using hpp
  have hround : ∀ fanOut ∈ fanouts, ∃ s, benchmarkFanout E (env fanOut) (iterations : ℤ) totalPopulation treeType (p.draws fanOut)
      fanOut = some s ∧ s.length = iterations := by
    intro fanOut hfan
    obtain ⟨id2Path, pp, L, hg, hL⟩ := hgen treeType fanOut hfan (p.draws fanOut).α
    exact C70_round_completes_partial hE (henv fanOut) iterations totalPopulation treeType _ fanOut id2Path pp hg L hL
      (hf fanOut hfan id2Path pp L hg hL) h1 hit31 (by unfold totalPopulation; norm_num)
  choose! sz hsz hszl using hround
  have havg : ∀ m : UInt16 → List Int64, (∀ f ∈ fanouts, (m f).length = iterations) →
      ∃ l, averages (fanouts.map m) = some l ∧ l.map Prod.fst = fanouts := by
    intro m hm
    have e : fanouts.zip (fanouts.map m) = fanouts.map fun f => (f, m f) := by
      rfl
    have : ∀ f ∈ fanouts, ∃ a, avg (m f) = some a := by
      intro f hfan
      unfold avg
      rw [if_neg (by rw [hm f hfan]; omega)]
      exact ⟨_, rfl⟩
    choose! a ha using this
    refine ⟨fanouts.map fun f => (f, a f), ?_, by rw [List.map_map]; exact List.map_id _⟩
    unfold averages
    rw [e]
    have := mapM_some_of (fanouts.map fun f => (f, m f)) (fun e => do return (e.1, ← avg e.2)) (fun e => (e.1, a e.1)) (by
      intro x hx
      obtain ⟨f, hfan, rfl⟩ := List.mem_map.1 hx
      exact obind_step (ha f hfan) rfl)
    rw [this, List.map_map]
    rfl
  obtain ⟨l1, hl1, hl1'⟩ := havg (pps treeType) (hppl treeType)
  obtain ⟨l2, hl2, hl2'⟩ := havg sz hszl
  refine ⟨⟨l1, l2⟩, ?_, hl1', hl2'⟩
  unfold Bench.main
  refine obind_step hpar' (obind_step hit ?_)
  rw [Int.toNat_natCast]
  refine obind_step (mapM_some_of _ _ (pps .dense) fun f hfan => hpps .dense f hfan) ?_
  refine obind_step (mapM_some_of _ _ (pps .sparse) fun f hfan => hpps .sparse f hfan) ?_
  refine obind_step htree' ?_
  refine obind_step (mapM_some_of _ _ sz fun f hfan => hsz f hfan) ?_
  cases treeType <;> exact obind_step hl1 (obind_step hl2 rfl)

/-- C70 fails for the whole program: with `ITERATIONS=0` it never reports. -/
theorem C70_violated_main (E : Curve G1 G2 GT) (env : UInt16 → Env) (p : Process) (hp : p.iterations = "0") :
    Bench.main E env p = none := by
  have h0 : getIterations p.iterations = some 0 := by rw [hp]; decide +kernel
  rw [Option.eq_none_iff_forall_ne_some]
  intro r hr
  unfold Bench.main at hr
  obtain ⟨_, -, hr⟩ := Option.bind_eq_some_iff.1 hr
  obtain ⟨i, hi, hr⟩ := Option.bind_eq_some_iff.1 hr
  rw [h0, Option.some.injEq] at hi
  subst hi
  obtain ⟨_, -, hr⟩ := Option.bind_eq_some_iff.1 hr
  obtain ⟨_, -, hr⟩ := Option.bind_eq_some_iff.1 hr
  obtain ⟨tt, -, hr⟩ := Option.bind_eq_some_iff.1 hr
  obtain ⟨_, hm, -⟩ := Option.bind_eq_some_iff.1 hr
  unfold fanouts at hm
  rw [List.mapM_cons, (C70_violated E (env 3) totalPopulation tt (p.draws 3) 3).2] at hm
  simp at hm

/-- A round without accidents exists: fan-out 7, one identifier, over the toy curve. -/
example : ∃ (d : Draws) (sizes : List Int64), benchmarkFanout toyCurve toyEnv 1 0 .dense d 7 = some sizes ∧ sizes.length = 1 := by
  obtain ⟨id2Path, pp, L, hg, hL⟩ := params_exist toyCurve .dense 7 (by decide) 2
  obtain ⟨id2Path', L', q, q1, q2, q3, q4, q5⟩ := C69_full_depth_partial 7 (by decide) (by decide) []
  obtain ⟨L'', pp', a1, a2, -⟩ := C54_dense toyCurve 2 7 id2Path' q1 (by decide)
  rw [hg, Option.some.injEq, Prod.mk.injEq] at a2
  obtain ⟨rfl, -⟩ := a2
  have hL' : digitPathLen 7 = some L := hL
  rw [hL', Option.some.injEq] at q2
  subst q2
  obtain ⟨rnd, hrnd⟩ := rand_exists (params_fit toyCurve 2 7 .dense id2Path pp hg L hL)
  refine ⟨⟨2, 2, fun _ => [], fun _ => [], fun _ => rnd⟩, C70_round_completes_partial toyCurve_lawful toyEnv_lawful 1 0 .dense
    _ 7 id2Path pp hg L hL ⟨?_, ?_, fun _ _ => hrnd, fun _ _ ls _ => toy_challenges ls rnd _⟩ le_rfl (by norm_num) (by norm_num)⟩
  · intro e he
    obtain rfl : e = (idGen .dense [], 666) := by simpa [history, populate] using he
    exact ⟨q, q3, q4, q5⟩
  · intro i _ p hp
    have e : byPath id2Path (history .dense 1 0 ⟨2, 2, fun _ => [], fun _ => [], fun _ => rnd⟩) = [(p, 666)] := by
      have hp' : id2Path (idGen .dense []) = some p := hp
      simp [byPath, history, populate, hp']
    rw [e]
    simp [writesBelow, List.dropLast_prefix]

/-! ## C71: averages -/

/-- C71: the average of measurements is the quotient, rounded down, of their sum by their number; it lies between any lower
and any upper bound of the measurements. -/
theorem C71_average (s : List Int64) (hne : s ≠ []) (h0 : ∀ x ∈ s, 0 ≤ x.toInt) (hsum : (s.map Int64.toInt).sum < 2 ^ 63)
    (hlen : s.length < 2 ^ 63) :
    ∃ a, avg s = some a ∧ a.toInt = (s.map Int64.toInt).sum / s.length ∧
      ∀ lo hi : ℤ, (∀ x ∈ s, lo ≤ x.toInt ∧ x.toInt ≤ hi) → lo ≤ a.toInt ∧ a.toInt ≤ hi := by
  have hl : s.length ≠ 0 := by rwa [Ne, List.length_eq_zero_iff]
  have hs := foldl_add_toInt s 0 (by simp) h0 (by simpa using hsum)
  have hn : (Int64.ofNat s.length).toInt = s.length := Int64.toInt_ofNat_of_lt hlen
  have hpos : 0 ≤ (s.map Int64.toInt).sum := List.sum_nonneg fun y hy => by
    obtain ⟨z, hz, rfl⟩ := List.mem_map.1 hy
    exact h0 z hz
  have ha : (s.foldl (fun sum size => sum + size) 0 / Int64.ofNat s.length).toInt = (s.map Int64.toInt).sum / s.length := by
    rw [Int64.toInt_div, hs, hn]
    have e : (0 : Int64).toInt = 0 := rfl
    rw [e, zero_add, Int.tdiv_eq_ediv_of_nonneg hpos]
    have h1 : 0 ≤ (s.map Int64.toInt).sum / (s.length : ℤ) := Int.ediv_nonneg hpos (by omega)
    have h2 := Int.ediv_le_self (s.length : ℤ) hpos
    rw [Int.bmod_eq_of_le (by omega) (by omega)]
  refine ⟨_, by unfold avg; rw [if_neg hl], ha, fun lo hi hb => ?_⟩
  rw [ha]
  have h1 : s.length * lo ≤ (s.map Int64.toInt).sum := by
    have := List.card_nsmul_le_sum (s.map Int64.toInt) lo (by simpa using fun x hx => (hb x hx).1)
    simpa using this
  have h2 : (s.map Int64.toInt).sum ≤ s.length * hi := by
    have := List.sum_le_card_nsmul (s.map Int64.toInt) hi (by simpa using fun x hx => (hb x hx).2)
    simpa using this
  have hp : (0 : ℤ) < s.length := by omega
  exact ⟨(Int.le_ediv_iff_mul_le hp).2 (by linarith), Int.ediv_le_of_le_mul hp (by linarith)⟩

/-- C71: there is no average of no measurements. -/
theorem C71_no_measurements : avg [] = none := rfl

/-- The bounds of `C71_average` are met. -/
example : avg [3, 4, 6] = some 4 := by decide

end PoL.Props

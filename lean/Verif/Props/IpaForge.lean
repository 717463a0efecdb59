import Verif.Proofs.IpaForge
import Verif.Props.SumForge

/-! # C82: challenges of the inner-product argument do not depend on its statement -/

set_option linter.unusedSectionVars false

namespace PoL.Props

open BP

variable {G1 G2 GT : Type} [AddCommGroup G1] [Module Zr G1] [AddCommGroup G2] [Module Zr G2]
  [AddCommGroup GT] [Module Zr GT] [DecidableEq G1]

/-- **C82 fails.** For all vectors `a`, `b` of length `2^k` and any numbers `es`, one for each round, the rounds of `forge`
are accepted for the commitment to `a` and `b` but for the inner product `<a,b> - Σ es_i·x_i²`, where the `x_i` are the
challenges of the rounds.  (`forge` adds `es_i·U` to `L_i`; the claim is adjusted afterwards.  `x` is the first challenge,
which depends on the parameters only.) -/
theorem C82_violated (E : Curve G1 G2 GT) (hE : E.Lawful) (pp : BP.PP G1) (k : ℕ) (hG : pp.G.length = 2 ^ k)
    (hH : pp.H.length = 2 ^ k) (x : Zr) (d : Bytes)
    (hpp : ∀ (P : G1) (C : Zr), computeInstanceSpecificParams E pp P C
      = some ({ digest := d, G := pp.G, H := pp.H, U := x • pp.U }, P + (x * C) • pp.U))
    (a b : List Zr) (ha : a.length = 2 ^ k) (hb : b.length = 2 ^ k) (es : List Zr) (hes : es.length = k) :
    let f := forge E d (x • pp.U) k a b pp.G pp.H es
    let xs := roundChallenges E d f.1
    (∀ y ∈ xs, y ≠ 0) → InnerProductProof.verify E
      ⟨f.1, f.2.1, f.2.2, dot a pp.G + dot b pp.H, dot a b - dot es (xs.map (· ^ 2))⟩ pp = some true := by
  intro f xs hne
  obtain ⟨hlen, hbf, hver⟩ := forge_spec E hE { digest := d, G := pp.G, H := pp.H, U := x • pp.U } k a b pp.G pp.H es
    ha hb hG hH hes
  rw [InnerProductProof.verify, hpp]
  simp only [Option.bind_eq_bind, Option.bind_some]
  rw [hver hne, Option.some_inj, decide_eq_true_iff, squareSum]
  simp only [xs, f]
  module

/-- C82 is about all parameters: the hypothesis `hpp` of `C82_violated` holds for some `x` and `d`, and with the first number
of `es` non-zero and the others zero the claimed inner product is wrong. -/
theorem C82_violated_everywhere (E : Curve G1 G2 GT) (hE : E.Lawful) (pp : BP.PP G1) (k : ℕ) (hG : pp.G.length = 2 ^ (k + 1))
    (hH : pp.H.length = 2 ^ (k + 1)) (a b : List Zr) (ha : a.length = 2 ^ (k + 1)) (hb : b.length = 2 ^ (k + 1)) :
    ∃ x d, (∀ (P : G1) (C : Zr), computeInstanceSpecificParams E pp P C
      = some ({ digest := d, G := pp.G, H := pp.H, U := x • pp.U }, P + (x * C) • pp.U)) ∧
    ∀ e : Zr, e ≠ 0 → let f := forge E d (x • pp.U) (k + 1) a b pp.G pp.H (e :: List.replicate k 0)
      let xs := roundChallenges E d f.1
      (∀ y ∈ xs, y ≠ 0) → ∃ C, C ≠ dot a b ∧ InnerProductProof.verify E
        ⟨f.1, f.2.1, f.2.2, dot a pp.G + dot b pp.H, C⟩ pp = some true := by
  obtain ⟨x, hx⟩ := fieldElementFromBytes_isSome (hE.sha_len pp.digest)
  obtain ⟨d, hinst⟩ := instance_const E pp (Or.inr (by omega)) x hx
  refine ⟨x, d, hinst, fun e he => ?_⟩
  intro f xs hne
  refine ⟨_, ?_, C82_violated E hE pp (k + 1) hG hH x d hinst a b ha hb (e :: List.replicate k 0) (by simp) hne⟩
  obtain ⟨hlen, -⟩ := forge_spec E hE { digest := d, G := pp.G, H := pp.H, U := x • pp.U } (k + 1) a b pp.G pp.H
    (e :: List.replicate k 0) ha hb hG hH (by simp)
  obtain ⟨y, ys, hy⟩ := List.exists_cons_of_length_eq_add_one (roundChallenges_length E d (k + 1) f.1 hlen)
  have hy0 : y ≠ 0 := hne y (by simp only [xs]; rw [hy]; simp)
  simp only [f] at hy
  rw [hy, List.map_cons, dot_cons, dot_replicate_zero, add_zero, smul_eq_mul]
  intro h
  exact mul_ne_zero he (pow_ne_zero 2 hy0) (by linear_combination -h)

/-- **C82 fails**, for the sum argument.  Let `v₀` be a balanced vector and `es` any numbers, one for each round.  After the
rounds of `forge`, with challenges `xs`, unless a challenge or the final scalar is zero, a vector `v` can be chosen whose
last entry differs from the sum of the others by `Σ es_i·xs_i²`, and the rounds are accepted for a commitment `r·F + <v,Gs>`
to it.  `v` is `v₀` plus a multiple of `foldWeights xs`. -/
theorem C82_sum_violated (E : Curve G1 G2 GT) (hE : E.Lawful) (pp : Sum.PP G1) (k : ℕ) (hpp : pp.Sized (2 ^ k))
    (q : BP.PP G1) (hipa : Sum.ipaParams E pp = some q) (x : Zr) (d : Bytes)
    (hq : ∀ (P : G1) (C : Zr), computeInstanceSpecificParams E q P C
      = some ({ digest := d, G := q.G, H := q.H, U := x • q.U }, P + (x * C) • q.U))
    (v₀ : List Zr) (hv₀ : v₀.length = 2 ^ k) (hbal : Balanced v₀) (es : List Zr) (hes : es.length = k) (r : Zr) :
    let f := forge E d (x • q.U) k v₀ pp.b pp.Gs pp.H es
    let xs := roundChallenges E d f.1
    (∀ y ∈ xs, y ≠ 0) → f.2.2 ≠ 0 → ∃ t a, let v := List.zipWith (· + ·) v₀ ((foldWeights xs).map (· * t))
      v.length = 2 ^ k ∧ imbalance v = dot es (xs.map (· ^ 2)) ∧
      Sum.Proof.verify E ⟨0, 0, -r, ⟨f.1, a, f.2.2, 0, 0⟩⟩ pp ⟨r • pp.F + dot v pp.Gs⟩ = some true := by
  obtain ⟨q', hq'⟩ := Sum.ipaParams_eq E pp (by rw [hpp.gs, hpp.hs])
  rw [hipa, Option.some.injEq] at hq'
  have hG : q.G = pp.Gs := by rw [hq']
  have hH : q.H = pp.H := by rw [hq']
  have lb := hpp.b_length
  obtain ⟨hlen, hbf, hver⟩ := forge_spec E hE { digest := d, G := pp.Gs, H := pp.H, U := x • q.U } k v₀ pp.b
    pp.Gs pp.H es hv₀ lb hpp.gs hpp.hs hes
  dsimp only at hlen hbf hver
  intro f xs hne hβ
  obtain ⟨β, hβd⟩ : ∃ β, f.2.2 = β := ⟨_, rfl⟩
  have hβd' : dot (foldWeights xs) pp.b = β := by rw [← hβd]; exact hbf.symm
  rw [hβd] at hβ
  have hxl : xs.length = k := roundChallenges_length E d k f.1 hlen
  have hwl : (foldWeights xs).length = 2 ^ k := by rw [foldWeights_length, hxl]
  have h0 : dot v₀ pp.b = 0 := by
    rw [hpp.b_eq, imbalance_eq hv₀ hpp.pos, imbalance_zero_iff hv₀ hpp.pos]
    exact hbal
  obtain ⟨t, ht⟩ : ∃ t, t = squareSum xs es * β⁻¹ := ⟨_, rfl⟩
  have htβ : t * β = squareSum xs es := by rw [ht, mul_assoc, inv_mul_cancel₀ hβ, mul_one]
  refine ⟨t, f.2.1 + t, ?_⟩
  intro v
  have hvl : v.length = 2 ^ k := by simp [v, hv₀, hwl]
  have hdot : ∀ {M : Type} [AddCommGroup M] [Module Zr M] (g : List M),
      dot v g = dot v₀ g + t • dot (foldWeights xs) g := by
    intro M _ _ g
    rw [dot_add_left _ _ _ (by simp [hv₀, hwl]), dot_mul_left]
  refine ⟨hvl, ?_, ?_⟩
  · have := hdot pp.b
    rw [h0, hβd', smul_eq_mul, htβ, zero_add, hpp.b_eq, imbalance_eq hvl hpp.pos] at this
    exact this
  · obtain ⟨y, hy⟩ := fieldElementFromBytes_isSome
      (hE.sha_len (zrBytes 0 ++ E.g1Bytes (r • pp.F + dot v pp.Gs) ++ E.g1Bytes (0 : G1)))
    refine Sum.verify_steps E 0 0 (-r) _ pp _ hy hipa ?_
    have hacc := (verifyLoop_iff_acceptsWith E hE { digest := d, G := pp.Gs, H := pp.H, U := x • q.U } f.2.1 β k
      ((dot v₀ pp.b - squareSum xs es) • (x • q.U) + dot v₀ pp.Gs + dot pp.b pp.H) pp.Gs pp.H f.1
      hpp.gs hpp.hs hlen).1 (by rw [← hβd, hver hne]; simp [xs, f])
    have hrl : (roundsOf xs f.1).length = k := by
      rw [← List.length_map (f := Prod.fst), roundsOf_map_fst k xs f.1 hxl hlen, hxl]
    have hs := acceptsWith_shift (x • q.U) t f.2.1 β (roundsOf xs f.1) _ pp.Gs pp.H
      (by rw [hrl, hpp.gs]) (by rw [hrl, hpp.hs]) hacc
    rw [roundsOf_map_fst k xs f.1 hxl hlen] at hs
    rw [InnerProductProof.verify, hq, hG, hH]
    simp only [Option.bind_eq_bind, Option.bind_some]
    rw [hβd, verifyLoop_iff_acceptsWith E hE { digest := d, G := pp.Gs, H := pp.H, U := x • q.U } (f.2.1 + t) β k _
      pp.Gs pp.H f.1 hpp.gs hpp.hs hlen]
    convert hs using 1
    rw [h0, hdot, hpp.B_eq, htβ]
    module

/-- The hypotheses are met: on the toy curve, with `v₀ = (1,2,3,6)`, an unbalanced vector and an accepted proof for a
commitment to it. -/
example : ∃ (pp : Sum.PP Zr) (p : Sum.Proof Zr) (v : List Zr), pp.Sized 4 ∧ v.length = 4 ∧ ¬ Balanced v ∧
    p.verify toyCurve pp ⟨4 * pp.F + dot v pp.Gs⟩ = some true := by
  obtain ⟨pp, -, hpp, hU⟩ := toy_sum_params 2
  obtain ⟨q, hq⟩ := Sum.ipaParams_eq toyCurve pp (by rw [hpp.gs, hpp.hs])
  obtain ⟨x, hx⟩ := fieldElementFromBytes_isSome (toyCurve_lawful.sha_len q)
  obtain ⟨d, hinst⟩ := instance_const toyCurve (⟨q, pp.Gs, pp.H, pp.U⟩ : BP.PP Zr)
    (Or.inr (by simp [hpp.gs, hpp.hs])) _ hx
  have key := C82_sum_violated toyCurve toyCurve_lawful pp 2 hpp _ hq _ d hinst [1, 2, 3, 6] rfl
    ⟨[1, 2, 3], 6, rfl, by norm_num⟩ [1, 0] rfl 4
  obtain ⟨hlen, hbf, -⟩ := forge_spec toyCurve toyCurve_lawful { digest := d, G := pp.Gs, H := pp.H, U := x • pp.U } 2
    [1, 2, 3, 6] pp.b pp.Gs pp.H [1, 0] rfl hpp.b_length hpp.gs hpp.hs rfl
  dsimp only at key hlen hbf
  have hxs : ∀ LRs : List Zr, LRs.length = 4 → roundChallenges toyCurve d LRs = [toyChallenge, toyChallenge] := by
    intro LRs hl
    match LRs, hl with
    | [_, _, _, _], _ => simp [roundChallenges, randomOracle, toyCurve, toy_fe]
  rw [hxs _ hlen] at key hbf
  have c0 := toyChallenge_ne
  obtain ⟨t, a, h1, h2, h3⟩ := key (by simp [c0]) (by
    rw [hbf, hpp.b_eq]
    have hT : toyChallenge = ((2 : Zr) ^ 256)⁻¹ := rfl
    have h2 : (2 : Zr) ^ 256 ≠ 0 := pow_ne_zero _ two_ne_zero_zr
    have hn : (((2 ^ 256) ^ 4 + 2 * (2 ^ 256) ^ 2 - 1 : ℕ) : Zr) ≠ 0 := by
      rw [Ne, ZMod.natCast_eq_zero_iff]
      decide +kernel
    intro h
    apply hn
    simp [foldWeights] at h
    rw [hT] at h
    have cast : (((2 ^ 256) ^ 4 + 2 * (2 ^ 256) ^ 2 - 1 : ℕ) : Zr) = ((2 : Zr) ^ 256) ^ 4 + 2 * ((2 : Zr) ^ 256) ^ 2 - 1 := by
      rw [Nat.cast_sub (by decide +kernel)]
      simp only [Nat.cast_add, Nat.cast_mul, Nat.cast_pow, Nat.cast_ofNat, Nat.cast_one]
    rw [cast]
    generalize (2 : Zr) ^ 256 = T at *
    have hi : T * T⁻¹ = 1 := mul_inv_cancel₀ h2
    rw [inv_inv] at h
    linear_combination T ^ 2 * h - (2 * T ^ 2 - T * T⁻¹ - 1) * hi)
  refine ⟨pp, _, _, hpp, h1, ?_, h3⟩
  rw [← imbalance_zero_iff h1 hpp.pos, h2]
  simp [c0]

/-- **C82**, the part that holds: if there is no non-trivial relation between the generators, then the commitment and the
pairs `(L,R)` determine the claimed inner product and the final scalars that are accepted.  Missing: that the claimed inner
product is the one of the committed vectors. -/
theorem C82_one_claim_partial (E : Curve G1 G2 GT) (hE : E.Lawful) (pp : BP.PP G1) (k : ℕ) (hG : pp.G.length = 2 ^ k)
    (hH : pp.H.length = 2 ^ k)
    (hind : ∀ q : Rep, q.a.length = 2 ^ k → q.b.length = 2 ^ k → q.eval pp.G pp.H pp.U = 0 → q.IsZero)
    (x : Zr) (hx : fieldElementFromBytes (E.sha256 pp.digest) = some x) (hx0 : x ≠ 0) (π π' : InnerProductProof G1)
    (hP : π'.P = π.P) (hLR : π'.LRs = π.LRs) (hL : π.LRs.length = 2 * k) (hne : ∀ y ∈ ippChallenges E pp π, y ≠ 0)
    (h : π.verify E pp = some true) (h' : π'.verify E pp = some true) : π'.a = π.a ∧ π'.b = π.b ∧ π'.C = π.C := by
  obtain ⟨d, hinst⟩ := instance_const E pp (Or.inr (by omega)) x hx
  rw [ippChallenges, hinst] at hne
  dsimp only at hne
  rw [InnerProductProof.verify, hinst] at h h'
  simp only [Option.bind_eq_bind, Option.bind_some] at h h'
  rw [verifyLoop_iff_acceptsWith E hE _ _ _ k _ _ _ _ hG hH hL] at h
  rw [verifyLoop_iff_acceptsWith E hE _ _ _ k _ _ _ _ hG hH (by rw [hLR, hL]), hLR, hP] at h'
  dsimp only at h h'
  set xs := roundChallenges E d π.LRs
  have hxl : xs.length = k := roundChallenges_length E d k π.LRs hL
  have hm := roundsOf_map_fst k xs π.LRs hxl hL
  have hrl : (roundsOf xs π.LRs).length = k := by
    rw [← List.length_map (f := Prod.fst), hm, hxl]
  rw [acceptsWith_iff _ _ _ _ _ _ _ (by rw [hrl, hG]) (by rw [hrl, hH]), hm] at h h'
  set w := foldWeights xs with hw
  set w' := foldWeights (xs.map (·⁻¹)) with hw'
  have lw : w.length = 2 ^ k := by rw [hw, foldWeights_length, hxl]
  have lw' : w'.length = 2 ^ k := by rw [hw', foldWeights_length, List.length_map, hxl]
  obtain ⟨z1, z2, z3⟩ := hind ⟨w.map (· * (π'.a - π.a)), w'.map (· * (π'.b - π.b)),
      x * ((π'.a * π'.b - π'.C) - (π.a * π.b - π.C))⟩ (by simp [lw]) (by simp [lw']) (by
    rw [Rep.eval, dot_mul_left, dot_mul_left]
    linear_combination (norm := module) h - h')
  have pos : 0 < 2 ^ k := by positivity
  have ea : π'.a = π.a := by
    have hm := List.getElem_mem (l := w) (n := 0) (by omega)
    have := z1 _ (List.mem_map_of_mem (f := (· * (π'.a - π.a))) hm)
    exact sub_eq_zero.1 ((mul_eq_zero.1 this).resolve_left (foldWeights_ne_zero xs hne _ hm))
  have eb : π'.b = π.b := by
    have hm := List.getElem_mem (l := w') (n := 0) (by omega)
    have := z2 _ (List.mem_map_of_mem (f := (· * (π'.b - π.b))) hm)
    refine sub_eq_zero.1 ((mul_eq_zero.1 this).resolve_left (foldWeights_ne_zero _ ?_ _ hm))
    intro y hy
    obtain ⟨u, hu, rfl⟩ := List.mem_map.1 hy
    exact inv_ne_zero (hne u hu)
  refine ⟨ea, eb, ?_⟩
  rw [ea, eb] at z3
  have := (mul_eq_zero.1 z3).resolve_left hx0
  linear_combination -this

end PoL.Props

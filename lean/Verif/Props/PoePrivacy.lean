import Verif.Proofs.PoePrivacy
import Verif.Props.Poe
import Verif.Props.RangePrivacy

/-!
# C74: equality proofs tell nothing about the vectors
-/

set_option linter.unusedSectionVars false

namespace PoL.Props

open BP Poe

variable {G1 G2 GT : Type} [AddCommGroup G1] [Module Zr G1] [AddCommGroup G2] [Module Zr G2]
  [AddCommGroup GT] [Module Zr GT] [DecidableEq G1] [DecidableEq GT]

/-- **C74.** Let the commitments of an `Equalities` open to `vs`, `ws` and as well to `vs'`, `ws'`, both with equal entries in
every pair.  Whatever `Prove` returns with a non-zero challenge `x`, it returns for equally many of its random values with
`vs`, `ws` as with `vs'`, `ws'`.  (`F` and the generator are not neutral, the trapdoor is not zero, and the group has prime
order.) -/
theorem C74_batch_equality_hides_vectors (E : Curve G1 G2 GT) (e : Equalities G1 G2 GT) (α : Zr) (hα : α ≠ 0)
    (hg : E.genG1 ≠ 0) (N m : ℕ) (hm : 0 < m) (hN : 2 ≤ N) (hcyc : PrimeOrder G1) (hF : e.PP.F ≠ 0) (vs ws vs' ws' : List (List Zr))
    (h : BatchWellFormed E e α N m vs ws) (h' : BatchWellFormed E e α N m vs' ws')
    (heq : ∀ k < m, (vs.getD k []).getD (e.I.getD k 0) 0 = (ws.getD k []).getD (e.J.getD k 0) 0)
    (heq' : ∀ k < m, (vs'.getD k []).getD (e.I.getD k 0) 0 = (ws'.getD k []).getD (e.J.getD k 0) 0)
    (p : AggregatedProof G1) (x : Zr) (hx : e.RO (p.Vaggr ++ p.Waggr ++ e.V ++ e.W) [] e.PP.digest 1 = some [x])
    (hx0 : x ≠ 0) :
    EquallyLikely (fun rnd : EqsRand => rnd.uην.length = m) (fun rnd => e.prove E rnd vs ws)
      (fun rnd => e.prove E rnd vs' ws') p := by
  have cV := h.V; have cW := h.W; have cV' := h'.V; have cW' := h'.W
  rw [h.vc] at cV cW cV' cW'
  have l1 := commit_mapM_lengths E α N vs _ cV
  have l2 := commit_mapM_lengths E α N ws _ cW
  have l3 := commit_mapM_lengths E α N vs' _ cV'
  have l4 := commit_mapM_lengths E α N ws' _ cW'
  have q1 := commit_mapM_eq E α N (by omega) vs _ cV
  have q2 := commit_mapM_eq E α N (by omega) ws _ cW
  have q3 := commit_mapM_eq E α N (by omega) vs' _ cV'
  have q4 := commit_mapM_eq E α N (by omega) ws' _ cW'
  have hI : ∀ i ∈ e.I, i + 1 < N := fun i hi => by have := h.I_lt i hi; omega
  have hJ : ∀ i ∈ e.J, i + 1 < N := fun i hi => by have := h.J_lt i hi; omega
  refine equallyLikely_of_matching (finite_eqsRand m) (fun a b => ∀ k < m, a.u k * x + entry vs e.I k = b.u k * x + entry vs' e.I k) ?_ ?_ ?_ ?_
  · intro a ha hp
    exact prove_switch E e α hα N m hm hN h.vc h.G h.H hcyc hF h.RO vs ws vs' ws' h.vs_length h.ws_length h'.vs_length
      h'.ws_length l1 l2 l3 l4 q1 q2 q3 q4 h.I h.J hI hJ heq heq' p x hx hx0 a ha hp
  · intro b hb hp
    obtain ⟨a, h1, h2, h3⟩ := prove_switch E e α hα N m hm hN h.vc h.G h.H hcyc hF h.RO vs' ws' vs ws h'.vs_length h'.ws_length
      h.vs_length h.ws_length l3 l4 l1 l2 q3 q4 q1 q2 h.I h.J hI hJ heq' heq p x hx hx0 b hb hp
    exact ⟨a, h1, h2, fun k hk => (h3 k hk).symm⟩
  · intro a b b' _ _ hb p1 hb' p2 r1 r2
    exact prove_unique E e α hα hg N m hm hN h.vc h.G h.H hF h.RO vs' ws' h'.vs_length h'.ws_length l3 l4 q3 q4 h.I h.J hI hJ
      heq' p x hx hx0 b b' hb hb' p1 p2 fun k hk => (r1 k hk).symm.trans (r2 k hk)
  · intro a a' b ha p1 ha' p2 _ _ r1 r2
    exact prove_unique E e α hα hg N m hm hN h.vc h.G h.H hF h.RO vs ws h.vs_length h.ws_length l1 l2 q1 q2 h.I h.J hI hJ
      heq p x hx hx0 a a' ha ha' p1 p2 fun k hk => (r1 k hk).trans (r2 k hk).symm

/-- What `(*Equality).Prove` computes: a function of the commitments, of the two masks and of the masked entry. -/
theorem single_prove_eq (E : Curve G1 G2 GT) (e : Equality G1 G2 GT) (α : Zr) (N : ℕ) (hN : 2 ≤ N)
    (hvc : e.PP.vc = PP.newPublicParams E α N) (v w : List Zr)
    (hV : PP.commit e.PP.vc v = some e.V) (hW : PP.commit e.PP.vc w = some e.W)
    (hI : e.I < N - 1) (hJ : e.J < N - 1) (heq : v.getD e.I 0 = w.getD e.J 0) (u η ν : Zr) (p : Poe.Proof G1) :
    e.prove E u η ν v w = some p ↔ ∃ lx x lt t₀ t₁,
      p.V = (u * α ^ (e.I + 1) + ν * α ^ N) • E.genG1 ∧ p.W = (u * α ^ (e.J + 1) + η * α ^ N) • E.genG1 ∧
      e.RO [e.V, e.W, p.V, p.W] [] e.PP.digest 1 = some lx ∧ lx[0]? = some x ∧ p.C = v.getD e.I 0 + u * x ∧
      e.RO [e.V, e.W, x • p.V, x • p.W, p.C • E.genG1] [e.I, e.J] e.PP.digest 2 = some lt ∧ lt[0]? = some t₀ ∧ lt[1]? = some t₁ ∧
      p.Ω = t₀ • (α ^ (N - e.I) • (e.V + x • p.V) - (p.C * α ^ (N + 1)) • E.genG1)
        + t₁ • (α ^ (N - e.J) • (e.W + x • p.W) - (p.C * α ^ (N + 1)) • E.genG1) := by
  rw [hvc] at hV hW
  have hv : v.length = N := by
    by_contra hne
    rw [PP.commit, if_pos (by simpa using hne)] at hV; simp at hV
  have hw : w.length = N := by
    by_contra hne
    rw [PP.commit, if_pos (by simpa using hne)] at hW; simp at hW
  rw [PP.commit_eq E α N v hv (by omega), Option.some_inj] at hV
  rw [PP.commit_eq E α N w hw (by omega), Option.some_inj] at hW
  have gv : v[e.I]? = some (v.getD e.I 0) := by
    rw [List.getD_eq_getElem?_getD, List.getElem?_eq_getElem (by omega)]; rfl
  have gw : w[e.J]? = some (w.getD e.J 0) := by
    rw [List.getD_eq_getElem?_getD, List.getElem?_eq_getElem (by omega)]; rfl
  have g : e.PP.vc.G1s[N - 1]? = some (α ^ N • E.genG1) := by
    rw [hvc, PP.new_G1s_lt E α N (by omega)]; congr 3; omega
  have gI : e.PP.vc.G1s[e.I]? = some (α ^ (e.I + 1) • E.genG1) := by rw [hvc, PP.new_G1s_lt E α N (by omega)]
  have gJ : e.PP.vc.G1s[e.J]? = some (α ^ (e.J + 1) • E.genG1) := by rw [hvc, PP.new_G1s_lt E α N (by omega)]
  have fI : fromEnd e.PP.vc.G1s e.I = some (α ^ (2 * N - e.I) • E.genG1) := by rw [hvc, fromEnd_G1s E α N e.I (by omega)]
  have fJ : fromEnd e.PP.vc.G1s e.J = some (α ^ (2 * N - e.J) • E.genG1) := by rw [hvc, fromEnd_G1s E α N e.J (by omega)]
  have oI : PP.openAt e.PP.vc e.I v = some (v.getD e.I 0, PP.openExpo α N e.I v • E.genG1) := by
    rw [hvc, PP.openAt_eq E α N v hv hN e.I (by omega)]
  have oJ : PP.openAt e.PP.vc e.J w = some (w.getD e.J 0, PP.openExpo α N e.J w • E.genG1) := by
    rw [hvc, PP.openAt_eq E α N w hw hN e.J (by omega)]
  have o1 := PP.openExpo_add α N e.I v hv (by omega)
  have o2 := PP.openExpo_add α N e.J w hw (by omega)
  have pw : ∀ i, i + 1 < N → α ^ (N - i) * α ^ (i + 1) = α ^ (N + 1) ∧ α ^ (N - i) * α ^ N = α ^ (2 * N - i) := by
    intro i hi
    rw [← pow_add, ← pow_add]
    exact ⟨by congr 1; omega, by congr 1; omega⟩
  obtain ⟨w1, w2⟩ := pw e.I (by omega)
  obtain ⟨w3, w4⟩ := pw e.J (by omega)
  have ω : ∀ x t₀ t₁ : Zr, t₀ • (x • ν • α ^ (2 * N - e.I) • E.genG1 + PP.openExpo α N e.I v • E.genG1)
      + t₁ • (x • η • α ^ (2 * N - e.J) • E.genG1 + PP.openExpo α N e.J w • E.genG1)
      = t₀ • (α ^ (N - e.I) • (e.V + x • (u * α ^ (e.I + 1) + ν * α ^ N) • E.genG1)
          - ((v.getD e.I 0 + u * x) * α ^ (N + 1)) • E.genG1)
        + t₁ • (α ^ (N - e.J) • (e.W + x • (u * α ^ (e.J + 1) + η * α ^ N) • E.genG1)
          - ((v.getD e.I 0 + u * x) * α ^ (N + 1)) • E.genG1) := by
    intro x t₀ t₁
    rw [← hV, ← hW]
    simp only [smul_smul, ← add_smul, ← sub_smul]
    congr 1
    rw [← heq] at o2
    linear_combination t₀ * o1 + t₁ * o2 - t₀ * x * u * w1 - t₀ * x * ν * w2 - t₁ * x * u * w3 - t₁ * x * η * w4
  unfold Equality.prove
  simp only [gv, gw, g, gI, gJ, fI, fJ, oI, oJ, heq, hv, hw, ne_eq, not_true_eq_false, if_false, Option.bind_eq_bind,
    Option.bind_some, Option.bind_eq_some_iff, Option.pure_def, Option.some_inj]
  have mV : u • α ^ (e.I + 1) • E.genG1 + ν • α ^ N • E.genG1 = (u * α ^ (e.I + 1) + ν * α ^ N) • E.genG1 := by module
  have mW : u • α ^ (e.J + 1) • E.genG1 + η • α ^ N • E.genG1 = (u * α ^ (e.J + 1) + η * α ^ N) • E.genG1 := by module
  rw [mV, mW]
  simp only [heq] at ω
  constructor
  · rintro ⟨lx, h1, x, h2, lt, h3, t₀, h4, t₁, h5, rfl⟩
    exact ⟨lx, x, lt, t₀, t₁, rfl, rfl, h1, h2, rfl, h3, h4, h5, ω x t₀ t₁⟩
  · rintro ⟨lx, x, lt, t₀, t₁, e1, e2, h1, h2, e3, h3, h4, h5, e4⟩
    rw [e1, e2] at h1 h3 e4
    rw [e3] at h3 e4
    refine ⟨lx, h1, x, h2, lt, h3, t₀, h4, t₁, h5, ?_⟩
    cases p
    dsimp only at e1 e2 e3 e4
    rw [e1, e2, e3, e4, ω]

/-- **C74**, a single pair: the same for `(*Equality).Prove`. -/
theorem C74_equality_hides_vectors (E : Curve G1 G2 GT) (e : Equality G1 G2 GT) (α : Zr) (hα : α ≠ 0) (hg : E.genG1 ≠ 0) (N : ℕ)
    (hN : 2 ≤ N) (hvc : e.PP.vc = PP.newPublicParams E α N) (v w v' w' : List Zr)
    (hV : PP.commit e.PP.vc v = some e.V) (hW : PP.commit e.PP.vc w = some e.W)
    (hV' : PP.commit e.PP.vc v' = some e.V) (hW' : PP.commit e.PP.vc w' = some e.W)
    (hI : e.I < N - 1) (hJ : e.J < N - 1) (heq : v.getD e.I 0 = w.getD e.J 0) (heq' : v'.getD e.I 0 = w'.getD e.J 0)
    (p : Poe.Proof G1) (x : Zr) (hx : e.RO [e.V, e.W, p.V, p.W] [] e.PP.digest 1 = some [x]) (hx0 : x ≠ 0) :
    EquallyLikely (fun _ : Zr × Zr × Zr => True) (fun r => e.prove E r.1 r.2.1 r.2.2 v w)
      (fun r => e.prove E r.1 r.2.1 r.2.2 v' w') p := by
  have hαN : α ^ N ≠ 0 := pow_ne_zero _ hα
  have switch : ∀ v w v' w' : List Zr, PP.commit e.PP.vc v = some e.V → PP.commit e.PP.vc w = some e.W →
      PP.commit e.PP.vc v' = some e.V → PP.commit e.PP.vc w' = some e.W → v.getD e.I 0 = w.getD e.J 0 →
      v'.getD e.I 0 = w'.getD e.J 0 → ∀ r : Zr × Zr × Zr, e.prove E r.1 r.2.1 r.2.2 v w = some p →
      ∃ r' : Zr × Zr × Zr, e.prove E r'.1 r'.2.1 r'.2.2 v' w' = some p := by
    rintro v w v' w' hV hW hV' hW' heq heq' ⟨u, η, ν⟩ h
    obtain ⟨lx, x', lt, t₀, t₁, e1, e2, h1, h2, e3, h3, h4, h5, e4⟩ :=
      (single_prove_eq E e α N hN hvc v w hV hW hI hJ heq u η ν p).1 h
    obtain rfl : x = x' := by
      rw [hx] at h1
      rw [← Option.some_inj.1 h1] at h2
      simpa using h2
    obtain ⟨d, hd⟩ : ∃ d, d = x⁻¹ * (v.getD e.I 0 - v'.getD e.I 0) := ⟨_, rfl⟩
    refine ⟨(u + d, η - d * α ^ (e.J + 1) * (α ^ N)⁻¹, ν - d * α ^ (e.I + 1) * (α ^ N)⁻¹),
      (single_prove_eq E e α N hN hvc v' w' hV' hW' hI hJ heq' _ _ _ p).2
        ⟨lx, x, lt, t₀, t₁, ?_, ?_, h1, h2, ?_, h3, h4, h5, e4⟩⟩
    · rw [e1]; congr 1; dsimp only; field_simp; ring
    · rw [e2]; congr 1; dsimp only; field_simp; ring
    · rw [e3, hd]; dsimp only; field_simp; ring
  have unique : ∀ v w : List Zr, PP.commit e.PP.vc v = some e.V → PP.commit e.PP.vc w = some e.W →
      v.getD e.I 0 = w.getD e.J 0 → ∀ r r' : Zr × Zr × Zr, e.prove E r.1 r.2.1 r.2.2 v w = some p →
      e.prove E r'.1 r'.2.1 r'.2.2 v w = some p → r = r' := by
    rintro v w hV hW heq ⟨u, η, ν⟩ ⟨u', η', ν'⟩ h h'
    obtain ⟨lx, y, lt, t₀, t₁, e1, e2, h1, h2, e3, h3, h4, h5, e4⟩ :=
      (single_prove_eq E e α N hN hvc v w hV hW hI hJ heq u η ν p).1 h
    obtain ⟨lx', y', lt', t₀', t₁', e1', e2', h1', h2', e3', h3', h4', h5', e4'⟩ :=
      (single_prove_eq E e α N hN hvc v w hV hW hI hJ heq u' η' ν' p).1 h'
    rw [hx] at h1 h1'
    obtain rfl : x = y := by rw [← Option.some_inj.1 h1] at h2; simpa using h2
    obtain rfl : x = y' := by rw [← Option.some_inj.1 h1'] at h2'; simpa using h2'
    obtain rfl : u = u' := mul_right_cancel₀ hx0 (add_left_cancel (e3.symm.trans e3'))
    obtain rfl : ν = ν' := mul_right_cancel₀ hαN (add_left_cancel (smul_scalar_cancel hg (e1.symm.trans e1')))
    obtain rfl : η = η' := mul_right_cancel₀ hαN (add_left_cancel (smul_scalar_cancel hg (e2.symm.trans e2')))
    rfl
  refine equallyLikely_of_matching inferInstance (fun _ _ => True) ?_ ?_ ?_ ?_
  · intro a _ h
    obtain ⟨b, hb⟩ := switch v w v' w' hV hW hV' hW' heq heq' a h
    exact ⟨b, trivial, hb, trivial⟩
  · intro a _ h
    obtain ⟨b, hb⟩ := switch v' w' v w hV' hW' hV hW heq' heq a h
    exact ⟨b, trivial, hb, trivial⟩
  · intro _ b b' _ _ _ h _ h' _ _
    exact unique v' w' hV' hW' heq' b b' h h'
  · intro b b' _ _ h _ h' _ _ _ _
    exact unique v w hV hW heq b b' h h'

/-- The hypotheses of C74 are met by two different pairs of witnesses for the same commitments; the common entries are
`4`, `6` in one and `9`, `5` in the other. -/
theorem toy_two_witnesses : ∃ e : Equalities Zr Zr Zr, e.I = [0, 1] ∧ e.J = [1, 1] ∧ e.RO = ro toyCurve ∧ e.PP.F ≠ 0 ∧
    BatchWellFormed toyCurve e 5 3 (2 ^ 1) [[4, 7, 1], [2, 6, 1]] [[9, 4, 2], [0, 6, 3]] ∧
    BatchWellFormed toyCurve e 5 3 (2 ^ 1) [[9, 6, 1], [7, 5, 1]] [[34, 9, 0], [5, 5, 3]] := by
  obtain ⟨pp, -, h1, h2, h3⟩ := C24_new_params toyCurve 5 3 2
  have hc : ∀ vs : List (List Zr), (∀ v ∈ vs, v.length = 3) →
      vs.mapM (PP.commit pp.vc) = some (vs.map fun v => PP.expo 5 v • toyCurve.genG1) := by
    intro vs hvs
    rw [h1]
    exact mapM_some _ _ vs fun v hv => PP.commit_eq toyCurve 5 3 v (hvs v hv) (by norm_num)
  have ex : ∀ a b c : Zr, PP.expo 5 [a, b, c] = 5 * a + 25 * b + 125 * c := by
    intro a b c
    simp only [PP.expo, List.length_cons, List.length_nil, Finset.sum_range_succ, Finset.sum_range_zero,
      List.getD_cons_zero, List.getD_cons_succ]
    ring
  have s1 : ([[9, 6, 1], [7, 5, 1]] : List (List Zr)).map (fun v => PP.expo 5 v • toyCurve.genG1)
      = ([[4, 7, 1], [2, 6, 1]] : List (List Zr)).map fun v => PP.expo 5 v • toyCurve.genG1 := by
    simp only [List.map_cons, List.map_nil, ex]
    norm_num
  have s2 : ([[34, 9, 0], [5, 5, 3]] : List (List Zr)).map (fun v => PP.expo 5 v • toyCurve.genG1)
      = ([[9, 4, 2], [0, 6, 3]] : List (List Zr)).map fun v => PP.expo 5 v • toyCurve.genG1 := by
    simp only [List.map_cons, List.map_nil, ex]
    norm_num
  have c1 := hc [[4, 7, 1], [2, 6, 1]] (by simp)
  have c2 := hc [[9, 4, 2], [0, 6, 3]] (by simp)
  have c3 := hc [[9, 6, 1], [7, 5, 1]] (by simp)
  have c4 := hc [[34, 9, 0], [5, 5, 3]] (by simp)
  rw [s1] at c3
  rw [s2] at c4
  exact ⟨{ RO := ro toyCurve, PP := { pp with F := 1 }, V := _, W := _, I := [0, 1], J := [1, 1] }, rfl, rfl, rfl, one_ne_zero,
    { vc := h1, G := h2, H := h3, RO := ro_total toyCurve toyCurve_lawful, vs_length := rfl, ws_length := rfl, V := c1, W := c2
      I := rfl, J := rfl, I_lt := by simp, J_lt := by simp },
    { vc := h1, G := h2, H := h3, RO := ro_total toyCurve toyCurve_lawful, vs_length := rfl, ws_length := rfl, V := c3, W := c4
      I := rfl, J := rfl, I_lt := by simp, J_lt := by simp }⟩

/-- C74 applies to them, with a proof that does come up. -/
example : ∃ (e : Equalities Zr Zr Zr) (rnd : EqsRand) (p : AggregatedProof Zr),
    e.prove toyCurve rnd [[4, 7, 1], [2, 6, 1]] [[9, 4, 2], [0, 6, 3]] = some p ∧
    EquallyLikely (fun rnd : EqsRand => rnd.uην.length = 2 ^ 1)
      (fun rnd => e.prove toyCurve rnd [[4, 7, 1], [2, 6, 1]] [[9, 4, 2], [0, 6, 3]])
      (fun rnd => e.prove toyCurve rnd [[9, 6, 1], [7, 5, 1]] [[34, 9, 0], [5, 5, 3]]) p := by
  obtain ⟨e, hI, hJ, hRO, hF, h, h'⟩ := toy_two_witnesses
  obtain ⟨p, hp, -⟩ := C24_batch_equality_complete toyCurve toyCurve_lawful e 5 3 1 (by norm_num) _ _ h
    (by rw [hI, hJ]; intro k hk; interval_cases k <;> rfl) ⟨[(1, 2, 3), (4, 5, 6)], 7, 8⟩ rfl
  refine ⟨e, _, p, hp, C74_batch_equality_hides_vectors toyCurve e 5 ?_ ?_ 3 2 (by norm_num) (by norm_num) toy_primeOrder hF
    _ _ _ _ h h' (by rw [hI, hJ]; intro k hk; interval_cases k <;> rfl) (by rw [hI, hJ]; intro k hk; interval_cases k <;> rfl)
    p toyChallenge ?_ toyChallenge_ne⟩
  · have : ((5 : ℕ) : Zr) ≠ 0 := by
      rw [Ne, ZMod.natCast_eq_zero_iff]
      exact fun hd => absurd (Nat.le_of_dvd (by norm_num) hd) (by have := two_pow_63_lt_order; norm_num at this; omega)
    simpa using this
  · exact one_ne_zero
  · rw [hRO, ro, List.range_succ, List.range_zero, List.nil_append, List.mapM_cons, List.mapM_nil]
    exact obind_step toy_fe rfl

end PoL.Props

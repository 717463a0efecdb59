import Verif.Props.Pol
import Verif.Props.Range
import Verif.Proofs.PolToy

/-!
# C101: totals of `2^63` and more
-/

set_option linter.unusedSectionVars false

namespace PoL.Pol
open Spec BP PP Verkle

variable {G1 G2 GT : Type} [AddCommGroup G1] [Module Zr G1] [AddCommGroup G2] [Module Zr G2]
  [AddCommGroup GT] [Module Zr GT] [DecidableEq G1] [DecidableEq GT]

/-- If `ProveLiability` returns a proof, `ProveRange` has returned for each vertex. -/
theorem prove_ranges {E : Curve G1 G2 GT} {env : Env} {ls : LiabilitySet G1 G2 GT} {rnd : ProveRand} {id : Str}
    {m : ℤ} {lp : LiabilityProof G1} (h : ls.proveLiability E env rnd id = some (some (m, lp))) {path : List ℕ}
    (hp : ls.tree.id2Path id = some path) {n : ℤ} {vs : List (Verkle.Vertex G1)}
    (hg : ls.tree.get E env id ls.s.db = some (some (n, vs))) (i : ℕ) (hi : i < path.length) :
    ∃ v rp, vs[i]? = some v ∧
      proveRange E ls.pp.RPPP (rnd.range i) v.V (v.valuesVec (ls.tree.fanOut + 1)) v.blindingFactor = some rp := by
  unfold LiabilitySet.proveLiability at h
  obtain ⟨path', hp', h⟩ := obind_elim h
  rw [hp, Option.some.injEq] at hp'
  subst hp'
  obtain ⟨r, hg', h⟩ := obind_elim h
  rw [hg, Option.some.injEq] at hg'
  subst hg'
  dsimp only at h
  split_ifs at h with hlen
  obtain ⟨layers, hl, h⟩ := obind_elim h
  have hll : layers.length = path.length := by rw [mapM_length _ _ _ hl]; simp
  have hy := mapM_getElem _ _ _ hl i i (List.getElem?_range hi)
  rw [List.getElem?_eq_getElem (by omega)] at hy
  unfold proveLayer at hy
  obtain ⟨v, e1, hy⟩ := obind_elim hy
  obtain ⟨rp, hrp, hy⟩ := obind_elim hy
  exact ⟨v, rp, e1, hrp⟩

theorem intToZr_mod (a : ℤ) : ((intToZr a).val : ℤ) = a % order := by
  unfold intToZr
  exact ZMod.val_intCast a

end PoL.Pol

namespace PoL.Props
open Spec BP PP Verkle Pol

variable {G1 G2 GT : Type} [AddCommGroup G1] [Module Zr G1] [AddCommGroup G2] [Module Zr G2]
  [AddCommGroup GT] [Module Zr GT] [DecidableEq G1] [DecidableEq GT]

/-- C101: after any non-empty history `ProveTot` returns exactly if the total, reduced modulo the group order, is below
`2^63`; otherwise it panics. -/
theorem C101_total_iff {E : Curve G1 G2 GT} (hE : E.Lawful) {env : Env} (henv : env.Lawful) {α : Zr} {F L : ℕ}
    {ls ls' : LiabilitySet G1 G2 GT} (h : NewSet E α F L ls) (hist : List (Str × ℤ)) (hne : hist ≠ [])
    (hids : ValidIds ls.tree.id2Path F L hist) (hr : ls.sets E env hist = some ls') :
    (∃ tp, ls'.proveTot E = some tp) ↔ totalAmount (byPath ls.tree.id2Path hist) % order < 2 ^ 63 := by
  have hL := h.pp.depth
  obtain ⟨hn, t, s, hputs, rfl⟩ := (sets_iff E env hist ls ls').1 hr
  obtain ⟨x, hx, hval, -, -⟩ := root_onPath hE henv h.tree hL hist hne hids hputs
  have hl : (x.valuesVec (F + 1) ++ [x.blindingFactor]).length = F + 2 := by simp [valuesVec_length]
  obtain ⟨C, mi, π, -, c2, c3, -⟩ := C01_opening_verifies E hE α (F + 2) (by omega) _ hl F (by omega)
  have hmi : mi = intToZr (totalAmount (byPath ls.tree.id2Path hist)) := by
    rw [List.getElem?_append_left (by rw [valuesVec_length]; omega), hval,
      List.getElem?_append_right (by simp)] at c3
    simpa using c3.symm
  have ho : LiabilitySet.openSumFromVertex { ls with tree := t, s := s } x = some (mi, π) := by
    unfold LiabilitySet.openSumFromVertex
    dsimp only
    have hN : ls.pp.PPPP.N = F + 2 := by rw [h.pp.PPPP]; rfl
    rw [hN, if_neg (by omega)]
    have e1 : F + 2 - 1 = F + 1 := rfl
    rw [e1, hl, if_neg (by omega), h.pp.PPPP]
    exact c2
  have hpt : LiabilitySet.proveTot E { ls with tree := t, s := s } = (zrInt mi).map fun a => ⟨π, a⟩ := by
    unfold LiabilitySet.proveTot
    simp only [hx, ho, Option.bind_eq_bind, Option.bind_some]
    cases zrInt mi <;> rfl
  have key : (intToZr (totalAmount (byPath ls.tree.id2Path hist))).val < 2 ^ 63 ↔
      totalAmount (byPath ls.tree.id2Path hist) % order < 2 ^ 63 := by
    rw [← intToZr_mod]
    exact ⟨fun hc => by exact_mod_cast hc, fun hc => by exact_mod_cast hc⟩
  rw [hpt, hmi, ← key]
  unfold zrInt
  split_ifs with hc
  · exact ⟨fun _ => hc, fun _ => ⟨_, rfl⟩⟩
  · exact ⟨fun ⟨_, h⟩ => by simp at h, fun h => absurd h hc⟩

/-- C101: while the total is `2^63` or more, no client gets a proof. -/
theorem C101_no_liability_proof {E : Curve G1 G2 GT} (hE : E.Lawful) {env : Env} (henv : env.Lawful) {α : Zr} {F L : ℕ}
    {ls ls' : LiabilitySet G1 G2 GT} (h : NewSet E α F L ls) (hist : List (Str × ℤ))
    (hids : ValidIds ls.tree.id2Path F L hist) (hr : ls.sets E env hist = some ls')
    (htot : 2 ^ 63 ≤ totalAmount (byPath ls.tree.id2Path hist) % order) (id : Str) (p : List ℕ)
    (hp : ls.tree.id2Path id = some p) (hw : p ∈ (byPath ls.tree.id2Path hist).map Prod.fst) (rnd : ProveRand)
    (hrnd : RandSized F L rnd) : ls'.proveLiability E env rnd id = none := by
  have hL := h.pp.depth
  obtain ⟨hn, t, s, hputs, rfl⟩ := (sets_iff E env hist ls ls').1 hr
  obtain ⟨hpL, hlt⟩ := byPath_length hids p (List.mem_toFinset.2 hw)
  obtain ⟨vs, hget, hvsl, hvs⟩ := get_onPath hE henv h.tree (by omega) hist hids hputs id p hp hpL hw
  have hne : hist ≠ [] := by rintro rfl; simp [byPath] at hw
  obtain ⟨x, hx, hval, -, -⟩ := root_onPath hE henv h.tree hL hist hne hids hputs
  obtain ⟨y, hy, hy', -⟩ := hvs 0 (by omega)
  have hxy : x = y := Option.some.inj (hx.symm.trans hy')
  subst hxy
  have hfields := puts_fields' hputs
  have hid : t.id2Path id = some p := by rw [hfields]; exact hp
  cases hpr : LiabilitySet.proveLiability E env { ls with tree := t, s := s } rnd id with
  | none => rfl
  | some r =>
    exfalso
    cases r with
    | none =>
      unfold LiabilitySet.proveLiability at hpr
      obtain ⟨path', hp', hpr⟩ := obind_elim hpr
      obtain ⟨r, hg', hpr⟩ := obind_elim hpr
      rw [hget, Option.some.injEq] at hg'
      subst hg'
      dsimp only at hpr
      split_ifs at hpr with hlen
      repeat obtain ⟨_, -, hpr⟩ := obind_elim hpr
      simp at hpr
    | some r =>
      obtain ⟨v, rp, hv, hrp⟩ := prove_ranges (m := r.1) (lp := r.2) hpr hid hget 0 (by omega)
      rw [hy, Option.some.injEq] at hv
      subst hv
      have hfan : t.fanOut = F := by rw [hfields]; exact h.tree.fanOut
      have := (C17_prover_refuses_out_of_range E ls.pp.RPPP (F + 1) h.pp.rp_Hs (rnd.range 0) (hrnd.range 0 (by omega)) _ _ _ rp hrp).2
        (intToZr (totalAmount (byPath ls.tree.id2Path hist))) (by
          show _ ∈ x.valuesVec (t.fanOut + 1)
          rw [hfan, hval]; simp)
      have h2 : ((intToZr (totalAmount (byPath ls.tree.id2Path hist))).val : ℤ) < 2 ^ 63 := by exact_mod_cast this
      rw [intToZr_mod] at h2
      omega
/-- C101: so neither total nor liability proof is made for a total from `2^63` up to the group order … -/
theorem C101_nothing_proved {E : Curve G1 G2 GT} (hE : E.Lawful) {env : Env} (henv : env.Lawful) {α : Zr} {F L : ℕ}
    {ls ls' : LiabilitySet G1 G2 GT} (h : NewSet E α F L ls) (hist : List (Str × ℤ))
    (hids : ValidIds ls.tree.id2Path F L hist) (hr : ls.sets E env hist = some ls')
    (hlo : 2 ^ 63 ≤ totalAmount (byPath ls.tree.id2Path hist)) (hhi : totalAmount (byPath ls.tree.id2Path hist) < order) :
    ls'.proveTot E = none ∧ ∀ e ∈ hist, ∀ rnd, RandSized F L rnd → ls'.proveLiability E env rnd e.1 = none := by
  have hm : totalAmount (byPath ls.tree.id2Path hist) % order = totalAmount (byPath ls.tree.id2Path hist) :=
    Int.emod_eq_of_lt (le_trans (by norm_num) hlo) hhi
  have hne : hist ≠ [] := by
    rintro rfl
    simp [byPath, totalAmount] at hlo
  constructor
  · cases hp : ls'.proveTot E with
    | none => rfl
    | some tp =>
      have := (C101_total_iff hE henv h hist hne hids hr).1 ⟨tp, hp⟩
      omega
  · intro e he rnd hrnd
    obtain ⟨p, hp, -⟩ := hids e he
    exact C101_no_liability_proof hE henv h hist hids hr (by omega) e.1 p hp
      (List.mem_map.2 ⟨(p, e.2), List.mem_map.2 ⟨e, he, by simp [hp]⟩, rfl⟩) rnd hrnd

/-- C101: … but a write that brings the total back below `2^63` makes `ProveTot` answer again, with the exact total. -/
theorem C101_total_again {E : Curve G1 G2 GT} (hE : E.Lawful) {env : Env} (henv : env.Lawful) {α : Zr} {F L : ℕ}
    {ls ls' : LiabilitySet G1 G2 GT} (h : NewSet E α F L ls) (hist : List (Str × ℤ)) (id : Str) (a : ℤ)
    (hids : ValidIds ls.tree.id2Path F L (hist ++ [(id, a)])) (hr : ls.sets E env (hist ++ [(id, a)]) = some ls')
    (htot : totalAmount (byPath ls.tree.id2Path (hist ++ [(id, a)])) < 2 ^ 63) :
    ∃ tp x, ls'.proveTot E = some tp ∧ tp.sum = totalAmount (byPath ls.tree.id2Path (hist ++ [(id, a)])) ∧
      Verkle.Vertex.fromBytes E (ls'.s.db []) = some x ∧ tp.verify E ls.pp x.V = some true :=
  C44_total_proof hE henv h _ (by simp) hids hr htot

/-- Two clients with `2^62` each: the total is too large. -/
example : ∃ ls ls' : LiabilitySet Zr Zr Zr, NewSet toyCurve 2 3 3 ls ∧
    ls.sets toyCurve toyEnv [(['0', '1', '2'], 2 ^ 62), (['2', '2', '1'], 2 ^ 62)] = some ls' ∧
    ls'.proveTot toyCurve = none ∧ ∀ rnd, RandSized 3 3 rnd → ls'.proveLiability toyCurve toyEnv rnd ['0', '1', '2'] = none := by
  obtain ⟨ls, h, ht⟩ := toy_set
  have hids : ValidIds ls.tree.id2Path 3 3 [(['0', '1', '2'], 2 ^ 62), (['2', '2', '1'], 2 ^ 62)] := by
    rw [ht]
    intro e he
    refine ⟨_, toyTree_path e.1, ?_⟩
    simp only [List.mem_cons, List.not_mem_nil, or_false] at he
    rcases he with rfl | rfl <;> exact ⟨by decide, by decide⟩
  obtain ⟨t, s, hp⟩ := C39_writes_return toyCurve_lawful toyEnv_lawful h.tree (by norm_num : 1 ≤ 3) _ ls.s hids
  have hr := (sets_iff toyCurve toyEnv _ ls { ls with tree := t, s := s }).2
    ⟨by intro e he
        simp only [List.mem_cons, List.not_mem_nil, or_false] at he
        rcases he with rfl | rfl <;> norm_num, t, s, hp, rfl⟩
  have htot : totalAmount (byPath ls.tree.id2Path [(['0', '1', '2'], 2 ^ 62), (['2', '2', '1'], 2 ^ 62)]) = 2 ^ 63 := by
    rw [ht]; decide
  obtain ⟨h1, h2⟩ := C101_nothing_proved toyCurve_lawful toyEnv_lawful h _ hids hr (by rw [htot])
    (by rw [htot]; unfold order; norm_num)
  exact ⟨ls, _, h, hr, h1, h2 (['0', '1', '2'], 2 ^ 62) (by simp)⟩

end PoL.Props

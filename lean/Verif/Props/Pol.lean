import Verif.Proofs.PolToy

/-!
# Liability sets (C43–C48, C51)
-/

set_option linter.unusedSectionVars false

namespace PoL.Props
open Spec Pol Verkle PP

variable {G1 G2 GT : Type} [AddCommGroup G1] [Module Zr G1] [AddCommGroup G2] [Module Zr G2]
  [AddCommGroup GT] [Module Zr GT] [DecidableEq G1] [DecidableEq GT]

/-! ## C43: a map -/

/-- C43: any sequence of `Set`s with valid identifiers and non-negative amounts returns. -/
theorem C43_sets_return {E : Curve G1 G2 GT} (hE : E.Lawful) {env : Env} (henv : env.Lawful) {α : Zr} {F L : ℕ}
    {ls : LiabilitySet G1 G2 GT} (h : NewSet E α F L ls) (hist : List (Str × ℤ))
    (hids : ValidIds ls.tree.id2Path F L hist) (hn : ∀ e ∈ hist, 0 ≤ e.2) : ∃ ls', ls.sets E env hist = some ls' := by
  have hL := h.pp.depth
  obtain ⟨t, s, hr⟩ := C39_writes_return hE henv h.tree (by omega) hist ls.s hids
  exact ⟨_, (sets_iff E env hist ls _).2 ⟨hn, t, s, hr, rfl⟩⟩

/-- C43: `Set` with a negative amount panics, whatever the state. -/
theorem C43_negative_panics (E : Curve G1 G2 GT) (env : Env) (ls : LiabilitySet G1 G2 GT) (id : Str) (n : ℤ)
    (hn : n < 0) : ls.set E env id n = none := by
  unfold LiabilitySet.set; rw [if_pos hn]

/-- C43: after any history of `Set`s, `Get` gives the amount last set for the identifier, and `false` if there
is none, provided no other identifier of the history has the same path. -/
theorem C43_get_latest {E : Curve G1 G2 GT} (hE : E.Lawful) {env : Env} (henv : env.Lawful) {α : Zr} {F L : ℕ}
    {ls ls' : LiabilitySet G1 G2 GT} (h : NewSet E α F L ls) (hist : List (Str × ℤ))
    (hids : ValidIds ls.tree.id2Path F L hist) (hr : ls.sets E env hist = some ls') (id : Str) (p : List ℕ)
    (hp : ls.tree.id2Path id = some p) (hpL : p.length = L)
    (hinj : ∀ e ∈ hist, ls.tree.id2Path e.1 = ls.tree.id2Path id → e.1 = id) :
    ls'.get E env id = some (lastPut hist id) := by
  have hL := h.pp.depth
  obtain ⟨-, t, s, hputs, rfl⟩ := (sets_iff E env hist ls ls').1 hr
  rw [← lastPut_byPath hp hist (fun e he => by obtain ⟨q, hq, -⟩ := hids e he; rw [hq]; rfl) hinj]
  unfold LiabilitySet.get
  by_cases hw : p ∈ (byPath ls.tree.id2Path hist).map Prod.fst
  · obtain ⟨vs, hg, -⟩ := get_onPath hE henv h.tree (by omega) hist hids hputs id p hp hpL hw
    refine obind_step hg ?_
    obtain ⟨n, hn⟩ := Option.isSome_iff_exists.1 ((lastPut_isSome _ p).2 hw)
    unfold latest
    rw [hn]
    rfl
  · refine obind_step (get_unset h.tree.root hids hputs id p hp hpL hw _) ?_
    have hn : lastPut (byPath ls.tree.id2Path hist) p = none := by
      rw [← Option.not_isSome_iff_eq_none, lastPut_isSome]; exact hw
    rw [hn]
    rfl

/-! ## C44: the total -/

/-- C44: after any non-empty history with total below `2^63`, `ProveTot` states the sum of the latest amounts,
and its proof is accepted against the commitment in the stored root. -/
theorem C44_total_proof {E : Curve G1 G2 GT} (hE : E.Lawful) {env : Env} (henv : env.Lawful) {α : Zr} {F L : ℕ}
    {ls ls' : LiabilitySet G1 G2 GT} (h : NewSet E α F L ls) (hist : List (Str × ℤ)) (hne : hist ≠ [])
    (hids : ValidIds ls.tree.id2Path F L hist) (hr : ls.sets E env hist = some ls')
    (htot : totalAmount (byPath ls.tree.id2Path hist) < 2 ^ 63) :
    ∃ tp x, ls'.proveTot E = some tp ∧ tp.sum = totalAmount (byPath ls.tree.id2Path hist) ∧
      Verkle.Vertex.fromBytes E (ls'.s.db []) = some x ∧ tp.verify E ls.pp x.V = some true := by
  have hL := h.pp.depth
  obtain ⟨hn, t, s, hputs, rfl⟩ := (sets_iff E env hist ls ls').1 hr
  obtain ⟨x, hx, hval, hV, -⟩ := root_onPath hE henv h.tree hL hist hne hids hputs
  have hl : (x.valuesVec (F + 1) ++ [x.blindingFactor]).length = F + 2 := by simp [valuesVec_length]
  obtain ⟨C, mi, π, c1, c2, c3, c4⟩ := C01_opening_verifies E hE α (F + 2) (by omega) _ hl F (by omega)
  rw [commit_eq E α (F + 2) _ hl (by omega), Option.some.injEq] at c1
  have hmi : mi = intToZr (totalAmount (byPath ls.tree.id2Path hist)) := by
    rw [List.getElem?_append_left (by rw [valuesVec_length]; omega), hval,
      List.getElem?_append_right (by simp)] at c3
    simpa using c3.symm
  have h0 : 0 ≤ totalAmount (byPath ls.tree.id2Path hist) :=
    Finset.sum_nonneg fun p _ => latest_nonneg (byPath_nonneg hn) p
  have hN : ls.pp.PPPP.N = F + 2 := by rw [h.pp.PPPP]; rfl
  refine ⟨⟨π, totalAmount (byPath ls.tree.id2Path hist)⟩, x, ?_, rfl, hx, ?_⟩
  · unfold LiabilitySet.proveTot
    refine obind_step hx ?_
    have : LiabilitySet.openSumFromVertex { ls with tree := t, s := s } x = some (mi, π) := by
      unfold LiabilitySet.openSumFromVertex
      dsimp only
      rw [hN, if_neg (by omega)]
      have e1 : F + 2 - 1 = F + 1 := rfl
      rw [e1, hl, if_neg (by omega), h.pp.PPPP]
      exact c2
    refine obind_step this ?_
    rw [hmi]
    exact obind_step (zrInt_intToZr h0 htot) rfl
  · unfold TotalProof.verify
    dsimp only
    rw [← hmi, h.pp.PPPP, h.pp.fanout, hV]
    unfold com
    rw [c1]
    exact c4

/-! ## C45: one total per root -/

/-- C45: two accepted proofs of different totals (as `int64`) for one commitment give the group element
`α^(N+1) g₁`, which is left out of the parameters. -/
theorem C45_one_total {E : Curve G1 G2 GT} (hE : E.Lawful) (hnd : E.NonDegenerate) {α : Zr} {F L : ℕ}
    {pp : PublicParams G1 G2 GT} (h : Fits E α F L pp) (V : G1) (tp tp' : TotalProof G1)
    (hb : -2 ^ 63 ≤ tp.sum ∧ tp.sum < 2 ^ 63) (hb' : -2 ^ 63 ≤ tp'.sum ∧ tp'.sum < 2 ^ 63)
    (h1 : tp.verify E pp V = some true) (h2 : tp'.verify E pp V = some true) (hne : tp.sum ≠ tp'.sum) :
    ((tp'.sum : Zr) - (tp.sum : Zr))⁻¹ • (tp.liabilityProof - tp'.liabilityProof)
      = α ^ (F + 2 + 1) • E.genG1 := by
  unfold TotalProof.verify at h1 h2
  rw [h.PPPP, h.fanout] at h1 h2
  refine C03_position_binding E hE hnd α (F + 2) V _ _ _ _ F h1 h2 ?_
  intro hc
  rw [ZMod.intCast_eq_intCast_iff_dvd_sub] at hc
  have hlt := two_pow_127_lt_order
  obtain ⟨k, hk⟩ := hc
  have hk0 : k = 0 := by
    by_contra hk0
    have h1 : (order : ℤ) ≤ |tp'.sum - tp.sum| := by
      rw [hk, abs_mul]
      have h2 : (1 : ℤ) ≤ |k| := Int.one_le_abs hk0
      have h3 : |(order : ℤ)| = order := abs_of_nonneg (by positivity)
      rw [h3]
      nlinarith
    have h2 : |tp'.sum - tp.sum| ≤ 2 ^ 64 := by rw [abs_le]; constructor <;> omega
    have h3 : ((2 : ℤ) ^ 127) < order := by exact_mod_cast hlt
    norm_num at h2 h3
    omega
  rw [hk0, mul_zero, sub_eq_zero] at hk
  exact hne hk.symm

/-! ## C46: `Root` -/

/-- C46 before the first write: `nil, nil`. -/
theorem C46_empty (E : Curve G1 G2 GT) (ls : LiabilitySet G1 G2 GT) (h : ls.tree.root = none) :
    ls.root E = some (none, ls) := by
  unfold LiabilitySet.root; rw [h]

/-- C46 for the first call: after any non-empty history of `Set`s without a call of `Root`, `Root` gives the
commitments of the root as stored.  What is missing: calls after the first one, see `C46_violated`. -/
theorem C46_first_call_partial {E : Curve G1 G2 GT} (hE : E.Lawful) {env : Env} (henv : env.Lawful) {α : Zr} {F L : ℕ}
    {ls ls' : LiabilitySet G1 G2 GT} (h : NewSet E α F L ls) (hist : List (Str × ℤ)) (hne : hist ≠ [])
    (hids : ValidIds ls.tree.id2Path F L hist) (hr : ls.sets E env hist = some ls') :
    ∃ x, Verkle.Vertex.fromBytes E (ls'.s.db []) = some x ∧
      ls'.root E = some (some (x.V, x.W), { ls' with memRoot := ls'.s.db [] }) := by
  have hL := h.pp.depth
  obtain ⟨-, t, s, hputs, rfl⟩ := (sets_iff E env hist ls ls').1 hr
  obtain ⟨v, x, hv, hd, hx⟩ := root_data hE henv h.tree (by omega) hist hne hids hputs
  refine ⟨x, load_fromBytes hx, ?_⟩
  have := root_eq (E := E) (ls := { ls with tree := t, s := s }) hv hd x (by
    rw [if_neg (by rw [h.memRoot]; simp)]; exact load_fromBytes hx)
  rw [if_neg (by rw [h.memRoot]; simp)] at this
  exact this

/-- C46, what happens instead: once `Root` has been called, it gives the same result after any further
history. -/
theorem C46_root_frozen {E : Curve G1 G2 GT} (hE : E.Lawful) {env : Env} (henv : env.Lawful) {α : Zr} {F L : ℕ}
    {ls ls1 ls2 ls3 : LiabilitySet G1 G2 GT} (h : NewSet E α F L ls) (hist hist' : List (Str × ℤ)) (hne : hist ≠ [])
    (hids : ValidIds ls.tree.id2Path F L (hist ++ hist')) (h1 : ls.sets E env hist = some ls1)
    (r : Option (G1 × Option G1)) (h2 : ls1.root E = some (r, ls2)) (h3 : ls2.sets E env hist' = some ls3) :
    ∃ ls4, ls3.root E = some (r, ls4) := by
  have hL := h.pp.depth
  have hids1 : ValidIds ls.tree.id2Path F L hist := fun e he => hids e (by simp [he])
  obtain ⟨x, hx, hroot⟩ := C46_first_call_partial hE henv h hist hne hids1 h1
  rw [hroot, Option.some.injEq, Prod.mk.injEq] at h2
  obtain ⟨rfl, rfl⟩ := h2
  obtain ⟨hn1, t1, s1, hp1, rfl⟩ := (sets_iff E env hist ls ls1).1 h1
  obtain ⟨hn3, t3, s3, hp3, rfl⟩ := (sets_iff E env hist' _ ls3).1 h3
  dsimp only at hp3 ⊢
  have hall : ls.tree.puts E env (hist ++ hist') ls.s = some (t3, s3) := by
    unfold Tree.puts
    rw [List.foldlM_append]
    exact obind_step hp1 hp3
  obtain ⟨v, y, hv, hd, -⟩ := root_data hE henv h.tree (by omega) (hist ++ hist') (by simp [hne]) hids hall
  have hne0 : (s1.db []).length ≠ 0 := by
    intro hc
    obtain ⟨v1, x1, -, -, hx1⟩ := root_data hE henv h.tree (by omega) hist hne hids1 hp1
    rw [load_eq, if_pos hc] at hx1
    simp at hx1
  refine ⟨_, root_eq (E := E) (ls := { ls with tree := t3, s := s3, memRoot := s1.db [] }) hv hd x ?_⟩
  rw [if_pos hne0]
  exact hx

/-- C46 fails: `Set(id, a)`, `Root()`, `Set(id, b)`, `Root()` gives the old commitments, which are not those of
the stored root. -/
theorem C46_violated {E : Curve G1 G2 GT} (hE : E.Lawful) (hgen : E.genG1 ≠ 0) {env : Env} (henv : env.Lawful) {α : Zr}
    {F L : ℕ} {ls : LiabilitySet G1 G2 GT} (h : NewSet E α F L ls) (id : Str) (i : ℕ) (rest : List ℕ)
    (hp : ls.tree.id2Path id = some (i :: rest)) (hpL : (i :: rest).length = L) (hlt : ∀ x ∈ i :: rest, x < F)
    (hα : α ^ (i + 1) + α ^ (F + 1) ≠ 0) (a b : ℤ) (ha : 0 ≤ a) (hb : 0 ≤ b) (hab : intToZr a ≠ intToZr b) :
    ∃ ls1 r ls2 ls3 ls4 x, ls.set E env id a = some ls1 ∧ ls1.root E = some (r, ls2) ∧
      ls2.set E env id b = some ls3 ∧ ls3.root E = some (r, ls4) ∧
      Verkle.Vertex.fromBytes E (ls3.s.db []) = some x ∧ r ≠ some (x.V, x.W) := by
  have hL := h.pp.depth
  have hids2 : ValidIds ls.tree.id2Path F L ([(id, a)] ++ [(id, b)]) := by
    intro e he
    simp only [List.cons_append, List.nil_append, List.mem_cons, List.not_mem_nil, or_false] at he
    rcases he with rfl | rfl <;> exact ⟨_, hp, hpL, hlt⟩
  have hids1 : ValidIds ls.tree.id2Path F L [(id, a)] := fun e he => hids2 e (by simp at he ⊢; exact .inl he)
  have hs1 : ∀ (l : LiabilitySet G1 G2 GT) n, l.sets E env [(id, n)] = l.set E env id n := by
    intro l n
    unfold LiabilitySet.sets
    simp
  obtain ⟨ls3', h3'⟩ := C43_sets_return hE henv h ([(id, a)] ++ [(id, b)]) hids2 (by
    intro e he
    simp only [List.cons_append, List.nil_append, List.mem_cons, List.not_mem_nil, or_false] at he
    rcases he with rfl | rfl
    · exact ha
    · exact hb)
  obtain ⟨-, t3, s3, hp3, rfl⟩ := (sets_iff E env _ ls ls3').1 h3'
  have hrun3 := h3'
  rw [sets_append] at h3'
  obtain ⟨ls1, h1, h13⟩ := Option.bind_eq_some_iff.1 h3'
  obtain ⟨x1, hx1, hroot1⟩ := C46_first_call_partial hE henv h [(id, a)] (by simp) hids1 h1
  obtain ⟨-, t1, s1, hp1, rfl⟩ := (sets_iff E env _ ls ls1).1 h1
  obtain ⟨-, t3', s3', hp13, heq⟩ := (sets_iff E env _ _ _).1 h13
  dsimp only at hp13 heq hroot1 hx1
  rw [LiabilitySet.mk.injEq] at heq
  obtain ⟨rfl, -, -, rfl⟩ := heq
  have h23 : LiabilitySet.sets E env { ls with tree := t1, s := s1, memRoot := s1.db [] } [(id, b)]
      = some { ls with tree := t3, s := s3, memRoot := s1.db [] } := by
    refine (sets_iff E env _ _ _).2 ⟨?_, t3, s3, hp13, rfl⟩
    intro e he
    rw [List.mem_singleton] at he
    subst he; exact hb
  obtain ⟨ls4, h4⟩ := C46_root_frozen hE henv h [(id, a)] [(id, b)] (by simp) hids2 h1 _ hroot1 h23
  obtain ⟨x3, hx3, hval3, hV3, -⟩ := root_onPath hE henv h.tree hL _ (by simp) hids2 hp3
  obtain ⟨y1, hy1, hval1, hV1, -⟩ := root_onPath hE henv h.tree hL _ (by simp) hids1 hp1
  rw [hx1, Option.some.injEq] at hy1
  subst hy1
  obtain ⟨z1, z3, hz1, hz3, hbf⟩ := C41_blinding_factor_kept hE henv h.tree (by omega) [(id, a)] [(id, b)] hids2 hp1 hp13 []
    (by simp; omega) ⟨_, List.mem_cons_self, List.nil_prefix⟩
  have hk : keyOf [] = [] := rfl
  rw [hk, hx1, Option.some.injEq] at hz1
  rw [hk, hx3, Option.some.injEq] at hz3
  subst hz1 hz3
  refine ⟨_, _, _, _, ls4, x3, by rw [← hs1]; exact h1, hroot1, by rw [← hs1]; exact h23, h4, hx3, ?_⟩
  intro hc
  rw [Option.some.injEq, Prod.mk.injEq] at hc
  have hc := hc.1
  obtain ⟨hA1, hA2⟩ := amounts_single hp a [(id, a)] (.inl rfl)
  obtain ⟨hB1, hB2⟩ := amounts_single hp b ([(id, a)] ++ [(id, b)]) (.inr ⟨a, rfl⟩)
  rw [hV1, hV3, hval1, hval3, hbf, hA1, hB1] at hc
  unfold com at hc
  rw [expo_map_range, expo_map_range] at hc
  have hi : i < F := hlt i (by simp)
  have hsum : ∀ n : ℤ, ∀ h' : List (List ℕ × ℤ), (∀ j, amountBelow h' [j] = if j = i then n else 0) →
      ∑ j ∈ Finset.range F, intToZr (amountBelow h' [j]) * α ^ (j + 1) = intToZr n * α ^ (i + 1) := by
    intro n h' hh
    rw [Finset.sum_eq_single i]
    · rw [hh, if_pos rfl]
    · intro j _ hj
      rw [hh, if_neg hj, intToZr_zero, zero_mul]
    · intro hc; exact absurd (Finset.mem_range.2 hi) hc
  rw [hsum a _ hA2, hsum b _ hB2, ← sub_eq_zero, ← sub_smul, smul_eq_zero] at hc
  rcases hc with hc | hc
  · have : (intToZr a - intToZr b) * (α ^ (i + 1) + α ^ (F + 1)) = 0 := by linear_combination hc
    rcases mul_eq_zero.1 this with h' | h'
    · exact hab (sub_eq_zero.1 h')
    · exact hα h'
  · exact hgen hc

/-! ## C47: liability proofs -/

/-- C47 for identifiers whose vertex over the leaves was written once: `ProveLiability` gives the latest amount
with a proof that is accepted against the stored root.  What is missing: identifiers whose vertex over the
leaves was written more than once, see `C47_violated`. -/
theorem C47_liability_proof_verifies_partial {E : Curve G1 G2 GT} (hE : E.Lawful) {env : Env} (henv : env.Lawful)
    {α : Zr} {F L : ℕ} {ls ls' : LiabilitySet G1 G2 GT} (h : NewSet E α F L ls) (hist : List (Str × ℤ))
    (hids : ValidIds ls.tree.id2Path F L hist) (hr : ls.sets E env hist = some ls')
    (htot : totalAmount (byPath ls.tree.id2Path hist) < 2 ^ 63) (id : Str) (p : List ℕ)
    (hp : ls.tree.id2Path id = some p) (hw : p ∈ (byPath ls.tree.id2Path hist).map Prod.fst)
    (hone : writesBelow (byPath ls.tree.id2Path hist) p.dropLast = 1) (rnd : ProveRand) (hrnd : RandSized F L rnd)
    (hne : NonzeroChallenges E env ls' rnd id) :
    ∃ lp x W, ls'.proveLiability E env rnd id = some (some (latest (byPath ls.tree.id2Path hist) p, lp)) ∧
      lp.total.sum = latest (byPath ls.tree.id2Path hist) p ∧
      Verkle.Vertex.fromBytes E (ls'.s.db []) = some x ∧ x.W = some W ∧
      lp.verify E ls.pp id x.V W ls.tree.id2Path = some true := by
  have hL := h.pp.depth
  obtain ⟨hn, t, s, hputs, rfl⟩ := (sets_iff E env hist ls ls').1 hr
  obtain ⟨hpL, hlt⟩ := byPath_length hids p (List.mem_toFinset.2 hw)
  obtain ⟨vs, hget, hvsl, hvs⟩ := get_onPath hE henv h.tree (by omega) hist hids hputs id p hp hpL hw
  have : Nonempty (Verkle.Vertex G1) := ⟨⟨0, fun _ => none, fun _ => none, 0, 0, none⟩⟩
  choose! fx hx1 hx2 hx3 using hvs
  have hvseq : vs = (List.range L).map fx := by
    apply List.ext_getElem?
    intro i
    by_cases hi : i < L
    · rw [hx1 i hi]; simp [hi]
    · rw [List.getElem?_eq_none (by omega), List.getElem?_eq_none (by simp; omega)]
  subst hvseq
  have hfields := puts_fields' hputs
  have hhon := honestPath_of_hist (E := E) (α := α) hL hist hids hn htot p hpL hlt fx hx3
    (((hx3 (L - 1) (by omega)).leaf (by omega)).2 (by rw [← hpL, ← List.dropLast_eq_take]; exact hone))
  have h0 := latest_nonneg (byPath_nonneg hn (id2Path := ls.tree.id2Path)) p
  have h1 : latest (byPath ls.tree.id2Path hist) p < 2 ^ 63 := by
    rw [← amountBelow_self hids p hpL]
    exact lt_of_le_of_lt (amountBelow_le_total (byPath_nonneg hn) p) htot
  obtain ⟨lp, W, g1, g2, g3, g4⟩ := prove_honest hE h.pp { ls with tree := t, s := s }
    (by show t.PP = _; rw [hfields]; exact h.tree.pp) (by show t.fanOut = _; rw [hfields]; exact h.tree.fanOut) rfl id p
    (by show t.id2Path id = _; rw [hfields]; exact hp) hpL hlt fx _ _ hget hhon h0 h1 rnd hrnd hne
  refine ⟨lp, fx 0, W, g1, g2, hx2 0 (by omega), g3, ?_⟩
  exact (verify_iff E lp ls.pp id _ W _).2 ⟨p, hp, g4⟩

/-- C47 fails: after writing the same non-zero amount twice for an identifier whose path does not end in 1,
`ProveLiability` does not give an accepted proof, for any randomness and any claimed root. -/
theorem C47_violated {E : Curve G1 G2 GT} (hE : E.Lawful) (hnd : E.NonDegenerate) (hgen : E.genG1 ≠ 0) {env : Env}
    (henv : env.Lawful) {α : Zr} (hα : α ≠ 0) {F L : ℕ} {ls : LiabilitySet G1 G2 GT} (h : NewSet E α F L ls) (id : Str)
    (q : List ℕ) (i : ℕ) (hp : ls.tree.id2Path id = some (q ++ [i])) (hpL : (q ++ [i]).length = L)
    (hlt : ∀ x ∈ q ++ [i], x < F) (hi : i ≠ 1) (b : ℤ) (hb0 : 0 ≤ b) (hb : intToZr b ≠ 0) :
    ∃ ls', ls.sets E env [(id, b), (id, b)] = some ls' ∧
      ∀ rnd n lp, ls'.proveLiability E env rnd id = some (some (n, lp)) →
        ∀ V W, lp.verify E ls.pp id V W ls.tree.id2Path ≠ some true := by
  have hL := h.pp.depth
  obtain ⟨t, s, x, hputs, hx, hbad⟩ := C40_violated hE hgen henv hα h.tree ls.s id q i hp hlt hi b hb
  have hsets := (sets_iff E env [(id, b), (id, b)] ls { ls with tree := t, s := s }).2
    ⟨by simp [hb0], t, s, hputs, rfl⟩
  refine ⟨_, hsets, ?_⟩
  intro rnd n lp hpr V W
  have hids : ValidIds ls.tree.id2Path F L [(id, b), (id, b)] := by
    intro e he
    simp only [List.mem_cons, List.not_mem_nil, or_false, or_self] at he
    subst he
    exact ⟨_, hp, hpL, hlt⟩
  obtain ⟨vs, hget, -, hvs⟩ := get_onPath hE henv h.tree (by omega) _ hids hputs id _ hp hpL (by simp [byPath, hp])
  obtain ⟨y, hy1, hy2, -⟩ := hvs (L - 1) (by omega)
  have htk : (q ++ [i]).take (L - 1) = q := by
    rw [← hpL]; simp
  rw [htk, hx, Option.some.injEq] at hy2
  subst hy2
  have hfields := puts_fields' hputs
  have hid : t.id2Path = ls.tree.id2Path := by rw [hfields]
  have := prove_rejected hE hnd hα h.pp { ls with tree := t, s := s } rfl (id := id) (path := q ++ [i])
    (by show t.id2Path id = _; rw [hid]; exact hp) hlt hget (by rw [hpL]; exact hy1) (by
      intro hc
      apply hbad
      have hl : valuesOf F x = x.valuesVec (F + 1) ++ [x.blindingFactor] := by
        rw [valuesVec_eq]; unfold valuesOf; rw [List.append_assoc]; rfl
      rw [hl, h.tree.pp, commit_eq E α (F + 2) _ (by simp [valuesVec_length]) (by omega), hc]
      rfl) hpr V W
  dsimp only at this
  rw [hid] at this
  exact this

/-! ## C48: unknown identifiers -/

/-- C48 for identifiers with paths of full length: after any history, `ProveLiability` reports `false` for an
identifier whose path was never written.  What is missing: identifiers with shorter paths, see
`C48_violated`. -/
theorem C48_unknown_id_partial {E : Curve G1 G2 GT} {env : Env} {α : Zr} {F L : ℕ} {ls ls' : LiabilitySet G1 G2 GT}
    (h : NewSet E α F L ls) (hist : List (Str × ℤ)) (hids : ValidIds ls.tree.id2Path F L hist)
    (hr : ls.sets E env hist = some ls') (id : Str) (p : List ℕ) (hp : ls.tree.id2Path id = some p)
    (hpL : p.length = L) (hw : ∀ e ∈ hist, ls.tree.id2Path e.1 ≠ some p) (rnd : ProveRand) :
    ls'.proveLiability E env rnd id = some none := by
  obtain ⟨-, t, s, hputs, rfl⟩ := (sets_iff E env hist ls ls').1 hr
  have hid : t.id2Path = ls.tree.id2Path := by rw [puts_fields' hputs]
  have hnw : p ∉ (byPath ls.tree.id2Path hist).map Prod.fst := by
    intro hc
    obtain ⟨e, he, hep⟩ := List.mem_map.1 hc
    obtain ⟨e', he', rfl⟩ := List.mem_map.1 he
    obtain ⟨p', hp', -⟩ := hids e' he'
    rw [hp', Option.getD_some] at hep
    exact hw e' he' (by rw [hp']; exact congrArg some hep)
  unfold LiabilitySet.proveLiability
  refine obind_step (show t.id2Path id = some p by rw [hid]; exact hp) ?_
  exact obind_step (get_unset h.tree.root hids hputs id p hp hpL hnw _) rfl

/-- C48 fails: for an identifier whose path is a proper prefix of a written one (and so was never written
itself), `ProveLiability` and `Get` panic. -/
theorem C48_violated {E : Curve G1 G2 GT} (hE : E.Lawful) {env : Env} (henv : env.Lawful) {α : Zr} {F L : ℕ}
    {ls ls' : LiabilitySet G1 G2 GT} (h : NewSet E α F L ls) (hist : List (Str × ℤ))
    (hids : ValidIds ls.tree.id2Path F L hist) (hr : ls.sets E env hist = some ls') (id : Str) (q : List ℕ)
    (hq : ls.tree.id2Path id = some q) (hqL : q.length < L) (ht : touched (byPath ls.tree.id2Path hist) q)
    (rnd : ProveRand) : ls'.proveLiability E env rnd id = none ∧ ls'.get E env id = none := by
  have hL := h.pp.depth
  obtain ⟨-, t, s, hputs, rfl⟩ := (sets_iff E env hist ls ls').1 hr
  have hid : t.id2Path = ls.tree.id2Path := by rw [puts_fields' hputs]
  have hg := get_prefix hE henv h.tree (by omega) hist hids hputs id q hq hqL ht s.db
  constructor
  · unfold LiabilitySet.proveLiability
    refine obind_step (show t.id2Path id = some q by rw [hid]; exact hq) ?_
    show Option.bind (t.get E env id s.db) _ = none
    rw [hg]; rfl
  · unfold LiabilitySet.get
    show Option.bind (t.get E env id s.db) _ = none
    rw [hg]; rfl

/-! ## C51: what an accepted proof guarantees -/

/-- C51: `Verify` accepts exactly if all of `Accepted` holds for the identifier's path. -/
theorem C51_accepted_iff (E : Curve G1 G2 GT) (lp : LiabilityProof G1) (pp : PublicParams G1 G2 GT) (id : Str)
    (V W : G1) (id2path : Str → Option (List ℕ)) :
    lp.verify E pp id V W id2path = some true ↔ ∃ path, id2path id = some path ∧ Accepted E pp path V W lp :=
  verify_iff E lp pp id V W id2path

/-! ## The hypotheses can be met: a set of fan-out 3 over the toy curve -/

section Examples

/-- `Get` after four writes, two of them for `012`: the latest amount, and `false` for `000`. -/
example : ∃ ls ls' : LiabilitySet Zr Zr Zr, ls.sets toyCurve toyEnv toyHist = some ls' ∧
    ls'.get toyCurve toyEnv ['0', '1', '2'] = some (some 30) ∧
    ls'.get toyCurve toyEnv ['0', '0', '0'] = some none := by
  obtain ⟨ls, h, ht⟩ := toy_set
  have hids : ValidIds ls.tree.id2Path 3 3 toyHist := by rw [ht]; exact toyHist_valid
  obtain ⟨ls', hs⟩ := C43_sets_return toyCurve_lawful toyEnv_lawful h toyHist hids (by decide)
  refine ⟨ls, ls', hs, ?_, ?_⟩
  · exact C43_get_latest toyCurve_lawful toyEnv_lawful h toyHist hids hs ['0', '1', '2'] [0, 1, 2] (by rw [ht]; rfl) rfl
      (by rw [ht]; decide)
  · exact C43_get_latest toyCurve_lawful toyEnv_lawful h toyHist hids hs ['0', '0', '0'] [0, 0, 0] (by rw [ht]; rfl) rfl
      (by rw [ht]; decide)

/-- The total of these writes is 42, and its proof is accepted. -/
example : ∃ (ls ls' : LiabilitySet Zr Zr Zr) (tp : TotalProof Zr) (x : Verkle.Vertex Zr),
    ls.sets toyCurve toyEnv toyHist = some ls' ∧ ls'.proveTot toyCurve = some tp ∧ tp.sum = 42 ∧
    tp.verify toyCurve ls.pp x.V = some true := by
  obtain ⟨ls, h, ht⟩ := toy_set
  have hids : ValidIds ls.tree.id2Path 3 3 toyHist := by rw [ht]; exact toyHist_valid
  have h42 : totalAmount (byPath ls.tree.id2Path toyHist) = 42 := by rw [ht]; decide
  obtain ⟨ls', hs⟩ := C43_sets_return toyCurve_lawful toyEnv_lawful h toyHist hids (by decide)
  obtain ⟨tp, x, h1, h2, -, h4⟩ := C44_total_proof toyCurve_lawful toyEnv_lawful h toyHist (by decide) hids hs
    (by rw [h42]; norm_num)
  exact ⟨ls, ls', tp, x, hs, h1, by rw [h2, h42], h4⟩

/-- Two different totals can be accepted for one commitment if `α` is known, so that `C45_one_total` is not about
nothing. -/
example : ∃ (pp : PublicParams Zr Zr Zr) (V : Zr) (tp tp' : TotalProof Zr), Fits toyCurve 2 3 3 pp ∧
    tp.verify toyCurve pp V = some true ∧ tp'.verify toyCurve pp V = some true ∧ tp.sum ≠ tp'.sum := by
  obtain ⟨pp, h⟩ := toy_fits
  have hv : ∀ n : ℤ, (⟨-(n : Zr) * 2 ^ 6, n⟩ : TotalProof Zr).verify toyCurve pp 0 = some true := by
    intro n
    unfold TotalProof.verify
    rw [h.PPPP, h.fanout]
    refine (C02_verify_iff toyCurve toyCurve_lawful toyCurve_nonDegenerate 2 5 0 _ _ 3 (by norm_num)).2 ?_
    simp only [toyCurve, smul_eq_mul, intToZr]
    ring
  exact ⟨pp, 0, _, _, h, hv 1, hv 2, by decide⟩

/-- `C46_violated` applies to `012` with the amounts 10 and 0. -/
example : ∃ (ls ls1 : LiabilitySet Zr Zr Zr) (r : Option (Zr × Option Zr)) (ls2 ls3 ls4 : LiabilitySet Zr Zr Zr)
    (x : Verkle.Vertex Zr), ls.set toyCurve toyEnv ['0', '1', '2'] 10 = some ls1 ∧ ls1.root toyCurve = some (r, ls2) ∧
      ls2.set toyCurve toyEnv ['0', '1', '2'] 0 = some ls3 ∧ ls3.root toyCurve = some (r, ls4) ∧
      Verkle.Vertex.fromBytes toyCurve (ls3.s.db []) = some x ∧ r ≠ some (x.V, x.W) := by
  obtain ⟨ls, h, ht⟩ := toy_set
  refine ⟨ls, C46_violated toyCurve_lawful (by exact one_ne_zero) toyEnv_lawful h ['0', '1', '2'] 0 [1, 2]
    (by rw [ht]; rfl) rfl (by decide) ?_ 10 0 (by decide) (by decide) ?_⟩
  · have := natCast_ne_zero_of_lt (n := 18) (by decide) (by unfold order; decide)
    have e : (2 : Zr) ^ (0 + 1) + 2 ^ (3 + 1) = ((18 : ℕ) : Zr) := by push_cast; norm_num
    rw [e]; exact this
  · rw [intToZr_zero]; exact toy_intToZr_ten

/-- A liability proof for `221`, whose vertex over the leaves was written once, is accepted. -/
example : ∃ (ls ls' : LiabilitySet Zr Zr Zr) (lp : LiabilityProof Zr) (x : Verkle.Vertex Zr) (W : Zr),
    ls.sets toyCurve toyEnv toyHist = some ls' ∧
    ls'.proveLiability toyCurve toyEnv toyRand ['2', '2', '1'] = some (some (7, lp)) ∧ lp.total.sum = 7 ∧
    lp.verify toyCurve ls.pp ['2', '2', '1'] x.V W ls.tree.id2Path = some true := by
  obtain ⟨ls, h, ht⟩ := toy_set
  have hids : ValidIds ls.tree.id2Path 3 3 toyHist := by rw [ht]; exact toyHist_valid
  have h42 : totalAmount (byPath ls.tree.id2Path toyHist) = 42 := by rw [ht]; decide
  have h7 : latest (byPath ls.tree.id2Path toyHist) [2, 2, 1] = 7 := by rw [ht]; decide
  obtain ⟨ls', hs⟩ := C43_sets_return toyCurve_lawful toyEnv_lawful h toyHist hids (by decide)
  obtain ⟨lp, x, W, h1, h2, -, -, h4⟩ := C47_liability_proof_verifies_partial toyCurve_lawful toyEnv_lawful h toyHist hids hs
    (by rw [h42]; norm_num) ['2', '2', '1'] [2, 2, 1] (by rw [ht]; rfl) (by rw [ht]; decide) (by rw [ht]; decide) toyRand
    toyRand_sized (toy_challenges _ _ _)
  rw [h7] at h1 h2
  exact ⟨ls, ls', lp, x, W, hs, h1, h2, h4⟩

/-- `C47_violated` applies to `012`, written twice with 10. -/
example : ∃ ls ls' : LiabilitySet Zr Zr Zr,
    ls.sets toyCurve toyEnv [(['0', '1', '2'], 10), (['0', '1', '2'], 10)] = some ls' ∧
    ∀ rnd n lp, ls'.proveLiability toyCurve toyEnv rnd ['0', '1', '2'] = some (some (n, lp)) →
      ∀ V W, lp.verify toyCurve ls.pp ['0', '1', '2'] V W ls.tree.id2Path ≠ some true := by
  obtain ⟨ls, h, ht⟩ := toy_set
  exact ⟨ls, C47_violated toyCurve_lawful toyCurve_nonDegenerate (by exact one_ne_zero) toyEnv_lawful two_ne_zero_zr h
    ['0', '1', '2'] [0, 1] 2 (by rw [ht]; rfl) rfl (by decide) (by decide) 10 (by decide) toy_intToZr_ten⟩

/-- An unknown identifier with a full path, and one whose path is a prefix. -/
example : ∃ ls ls' : LiabilitySet Zr Zr Zr, ls.sets toyCurve toyEnv toyHist = some ls' ∧
    ls'.proveLiability toyCurve toyEnv toyRand ['0', '0', '0'] = some none ∧
    ls'.proveLiability toyCurve toyEnv toyRand ['0', '1'] = none := by
  obtain ⟨ls, h, ht⟩ := toy_set
  have hids : ValidIds ls.tree.id2Path 3 3 toyHist := by rw [ht]; exact toyHist_valid
  obtain ⟨ls', hs⟩ := C43_sets_return toyCurve_lawful toyEnv_lawful h toyHist hids (by decide)
  refine ⟨ls, ls', hs, ?_, ?_⟩
  · exact C48_unknown_id_partial h toyHist hids hs ['0', '0', '0'] [0, 0, 0] (by rw [ht]; rfl) rfl (by rw [ht]; decide) _
  · exact (C48_violated toyCurve_lawful toyEnv_lawful h toyHist hids hs ['0', '1'] [0, 1] (by rw [ht]; rfl) (by decide)
      (by rw [ht]; exact ⟨([0, 1, 2], 10), by decide, by decide⟩) _).1

end Examples

end PoL.Props

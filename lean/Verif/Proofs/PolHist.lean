import Verif.Proofs.PolSet

/-! After a history of writes, the path of an identifier is an honest one. -/

set_option linter.unusedSectionVars false

namespace PoL.Pol
open Spec BP PP Verkle

variable {G1 G2 GT : Type} [AddCommGroup G1] [Module Zr G1] [AddCommGroup G2] [Module Zr G2]
  [AddCommGroup GT] [Module Zr GT] [DecidableEq G1] [DecidableEq GT]

theorem intToZr_sum {ι : Type} (s : Finset ι) (f : ι → ℤ) : intToZr (∑ i ∈ s, f i) = ∑ i ∈ s, intToZr (f i) := by
  unfold intToZr
  rw [Int.cast_sum]

theorem values_balanced {id2Path : Str → Option (List ℕ)} {F L : ℕ} {hist : List (Str × ℤ)}
    (hids : ValidIds id2Path F L hist) (q : List ℕ) (hq : q.length < L) :
    Balanced (((List.range F).map fun j => intToZr (amountBelow (byPath id2Path hist) (q ++ [j])))
      ++ [intToZr (amountBelow (byPath id2Path hist) q)]) := by
  refine ⟨_, _, rfl, ?_⟩
  rw [sum_range_map, amountBelow_split hids q hq, intToZr_sum]

theorem byPath_nonneg {id2Path : Str → Option (List ℕ)} {hist : List (Str × ℤ)} (hn : ∀ e ∈ hist, 0 ≤ e.2) :
    ∀ e ∈ byPath id2Path hist, 0 ≤ e.2 := by
  intro e he
  obtain ⟨e', he', rfl⟩ := List.mem_map.1 he
  exact hn e' he'

theorem values_small {id2Path : Str → Option (List ℕ)} {F : ℕ} {hist : List (Str × ℤ)}
    (hn : ∀ e ∈ hist, 0 ≤ e.2) (ht : totalAmount (byPath id2Path hist) < 2 ^ 63) (q : List ℕ) (x : Zr)
    (hx : x ∈ ((List.range F).map fun j => intToZr (amountBelow (byPath id2Path hist) (q ++ [j])))
      ++ [intToZr (amountBelow (byPath id2Path hist) q)]) : x.val < 2 ^ 63 := by
  have key : ∀ q, (intToZr (amountBelow (byPath id2Path hist) q)).val < 2 ^ 63 := by
    intro q
    have h0 := amountBelow_nonneg (byPath_nonneg hn (id2Path := id2Path)) q
    have h1 := amountBelow_le_total (byPath_nonneg hn (id2Path := id2Path)) q
    rw [intToZr_val h0 (by omega)]
    omega
  rw [List.mem_append, List.mem_map, List.mem_singleton] at hx
  rcases hx with ⟨j, -, rfl⟩ | rfl
  · exact key _
  · exact key _

theorem getD_map_range_append (f : ℕ → Zr) (F i : ℕ) (a : Zr) (h : i < F) :
    ((List.range F).map f ++ [a]).getD i 0 = f i := by
  rw [List.getD_eq_getElem?_getD, List.getElem?_append_left (by simpa using h), List.getElem?_map,
    List.getElem?_range h]
  rfl

theorem getD_map_range_last (f : ℕ → Zr) (F : ℕ) (a : Zr) : ((List.range F).map f ++ [a]).getD F 0 = a := by
  rw [List.getD_eq_getElem?_getD, List.getElem?_append_right (by simp)]
  simp

theorem honestPath_of_hist {E : Curve G1 G2 GT} {α : Zr} {F L : ℕ} {id2Path : Str → Option (List ℕ)} (hL : 2 ≤ L)
    (hist : List (Str × ℤ)) (hids : ValidIds id2Path F L hist) (hn : ∀ e ∈ hist, 0 ≤ e.2)
    (htot : totalAmount (byPath id2Path hist) < 2 ^ 63) (p : List ℕ) (hpL : p.length = L) (hlt : ∀ x ∈ p, x < F)
    (fx : ℕ → Verkle.Vertex G1) (hon : ∀ i < L, OnPath E α F L (byPath id2Path hist) p ((List.range L).map fx) i (fx i))
    (hV : (fx (L - 1)).V = com E α ((fx (L - 1)).valuesVec (F + 1) ++ [(fx (L - 1)).blindingFactor])) :
    HonestPath E α F L p fx (latest (byPath id2Path hist) p) := by
  have hpi : ∀ i < L, p.getD i 0 < F := by
    intro i hi
    rw [List.getD_eq_getElem?_getD, List.getElem?_eq_getElem (by omega)]
    exact hlt _ (List.getElem_mem _)
  have htk : ∀ i < L, p.take i ++ [p.getD i 0] = p.take (i + 1) := by
    intro i hi
    rw [List.getD_eq_getElem?_getD, List.getElem?_eq_getElem (by omega), Option.getD_some,
      List.take_append_getElem (by omega)]
  refine ⟨?_, ?_, ?_, ?_, ?_, ?_, ?_, ?_⟩
  · intro i hi
    by_cases hiL : i + 1 < L
    · exact ((hon i hi).inner hiL).1
    · have hi' : i = L - 1 := by omega
      rw [hi']; exact hV
  · intro i hi
    exact ((hon i (by omega)).inner hi).2.1
  · exact ((hon (L - 1) (by omega)).leaf (by omega)).1
  · intro i hi
    rw [(hon i hi).values]
    exact values_balanced hids _ (by rw [List.length_take]; omega)
  · intro i hi x hx
    rw [(hon i hi).values] at hx
    exact values_small hn htot _ x hx
  · intro i hi
    rw [(hon i (by omega)).values, (hon (i + 1) hi).values, getD_map_range_append _ _ _ _ (hpi i (by omega)),
      getD_map_range_last, htk i (by omega)]
  · intro i hi
    obtain ⟨y, hy, hd⟩ := ((hon i (by omega)).inner hi).2.2
    rw [List.getElem?_map, List.getElem?_range hi, Option.map_some, Option.some.injEq] at hy
    rw [hy, ← hd]
    unfold dvec
    rw [List.getD_eq_getElem?_getD, List.getElem?_map, List.getElem?_range (by have := hpi i (by omega); omega)]
    rfl
  · have hlast : p.getLastD 0 = p.getD (L - 1) 0 := by
      rw [List.getLastD_eq_getLast?, List.getLast?_eq_getElem?, hpL, List.getD_eq_getElem?_getD]
    rw [(hon (L - 1) (by omega)).values, hlast, getD_map_range_append _ _ _ _ (hpi _ (by omega)), htk _ (by omega),
      Nat.sub_add_cancel (by omega), ← hpL, List.take_length, amountBelow_self hids p hpL]

/-- What can be read off a proof that was returned. -/
theorem proveLiability_elim {E : Curve G1 G2 GT} {env : Env} {ls : LiabilitySet G1 G2 GT} {rnd : ProveRand} {id : Str}
    {m : ℤ} {lp : LiabilityProof G1} (h : ls.proveLiability E env rnd id = some (some (m, lp))) :
    ∃ path n vs v idx l π, ls.tree.id2Path id = some path ∧ ls.tree.get E env id ls.s.db = some (some (n, vs)) ∧
      path.length ≠ 0 ∧ vs[path.length - 1]? = some v ∧ path.getLast? = some idx ∧
      ls.openForClient v idx = some (l, π) ∧ zrInt l = some m ∧ lp.V.getLast? = some v.V ∧ lp.total = ⟨π, m⟩ := by
  unfold LiabilitySet.proveLiability at h
  obtain ⟨path, hp, h⟩ := obind_elim h
  obtain ⟨r, hg, h⟩ := obind_elim h
  cases r with
  | none => simp at h
  | some r =>
    obtain ⟨n, vs⟩ := r
    dsimp only at h
    split_ifs at h with hlen
    obtain ⟨layers, hl, h⟩ := obind_elim h
    obtain ⟨last, hlast, h⟩ := obind_elim h
    obtain ⟨idx, hidx, h⟩ := obind_elim h
    obtain ⟨⟨l, π⟩, ho, h⟩ := obind_elim h
    obtain ⟨m', hm, h⟩ := obind_elim h
    obtain ⟨ts, -, h⟩ := obind_elim h
    obtain ⟨a1, -, h⟩ := obind_elim h
    obtain ⟨a2, -, h⟩ := obind_elim h
    obtain ⟨a3, -, h⟩ := obind_elim h
    obtain ⟨a4, -, h⟩ := obind_elim h
    obtain ⟨a5, -, h⟩ := obind_elim h
    obtain ⟨a6, -, h⟩ := obind_elim h
    obtain ⟨a7, -, h⟩ := obind_elim h
    rw [Option.pure_def, Option.some.injEq, Option.some.injEq, Prod.mk.injEq] at h
    have hll : layers.length = path.length := by rw [mapM_length _ _ _ hl]; simp
    have hlast' : layers[path.length - 1]? = some last := by rw [← hlast, List.getLast?_eq_getElem?, hll]
    have hv : vs[path.length - 1]? = some last.v := by
      have hy2 := mapM_getElem _ _ _ hl (path.length - 1) (path.length - 1) (List.getElem?_range (by omega))
      rw [hlast'] at hy2
      unfold proveLayer at hy2
      obtain ⟨v, e1, hy2⟩ := obind_elim hy2
      obtain ⟨rp, -, hy2⟩ := obind_elim hy2
      obtain ⟨pi, -, hy2⟩ := obind_elim hy2
      obtain ⟨o, -, hy2⟩ := obind_elim hy2
      rw [e1, ← Option.some.inj hy2]
    refine ⟨path, n, vs, last.v, idx, l, π, hp, hg, hlen, hv, hidx, ho, by rw [hm, h.1], ?_, ?_⟩
    · rw [← h.2]
      dsimp only
      rw [List.getLast?_map, hlast]
      rfl
    · rw [← h.2, h.1]

/-- A proof for a vertex over the leaves that is not a commitment to its contents is not accepted. -/
theorem prove_rejected {E : Curve G1 G2 GT} (hE : E.Lawful) (hnd : E.NonDegenerate) {env : Env} {α : Zr} (hα : α ≠ 0)
    {F L : ℕ} {pp : PublicParams G1 G2 GT} (h : Fits E α F L pp) (ls : LiabilitySet G1 G2 GT) (hpp : ls.pp = pp)
    {id : Str} {path : List ℕ} (hp : ls.tree.id2Path id = some path) (hlt : ∀ x ∈ path, x < F) {n : ℤ}
    {vs : List (Verkle.Vertex G1)} (hget : ls.tree.get E env id ls.s.db = some (some (n, vs))) {v : Verkle.Vertex G1}
    (hv : vs[path.length - 1]? = some v) (hV : v.V ≠ com E α (v.valuesVec (F + 1) ++ [v.blindingFactor]))
    {rnd : ProveRand} {m : ℤ} {lp : LiabilityProof G1} (hpr : ls.proveLiability E env rnd id = some (some (m, lp)))
    (V W : G1) : lp.verify E pp id V W ls.tree.id2Path ≠ some true := by
  intro hver
  rw [verify_iff] at hver
  obtain ⟨path', hp', hacc⟩ := hver
  rw [hp, Option.some.injEq] at hp'
  subst hp'
  obtain ⟨path', n', vs', v', idx, l, π, g1, g2, -, g4, g5, g6, g7, g8, g9⟩ := proveLiability_elim hpr
  rw [hp, Option.some.injEq] at g1
  subst g1
  rw [hget, Option.some.injEq, Option.some.injEq, Prod.mk.injEq] at g2
  obtain ⟨-, rfl⟩ := g2
  rw [hv, Option.some.injEq] at g4
  subst g4
  obtain ⟨C, idx', c1, c2, c3⟩ := hacc.liability
  rw [g8, Option.some.injEq] at c1
  rw [g5, Option.some.injEq] at c2
  subst c1 c2
  have hiF : idx < F := hlt _ (List.mem_of_getLast? g5)
  rw [g9] at c3
  dsimp only at c3
  have hml : intToZr m = l := by
    unfold zrInt at g7
    split_ifs at g7
    rw [← Option.some.inj g7]
    unfold intToZr
    push_cast
    exact ZMod.natCast_zmod_val l
  unfold LiabilitySet.openForClient at g6
  have hN : pp.PPPP.N = F + 2 := by rw [h.PPPP]; rfl
  rw [hpp, hN, if_neg (by omega), h.PPPP] at g6
  obtain ⟨C, mi, π', d1, d2, -, d4⟩ := Props.C01_opening_verifies E hE α (F + 2) (by omega)
    (v.valuesVec (F + 1) ++ [v.blindingFactor]) (by simp [valuesVec_length]) idx (by omega)
  have e1 : F + 2 - 1 = F + 1 := rfl
  rw [e1, d2, Option.some.injEq, Prod.mk.injEq] at g6
  rw [commit_eq E α (F + 2) _ (by simp [valuesVec_length]) (by omega), Option.some.injEq] at d1
  rw [g6.1, g6.2, ← d1] at d4
  rw [show ((m : ℤ) : Zr) = intToZr m from rfl, hml, h.PPPP] at c3
  rw [Props.C02_verify_iff E hE hnd α (F + 2) _ _ _ idx (by omega)] at c3 d4
  rw [c3, sub_left_inj] at d4
  apply hV
  have := congrArg (fun z => (α ^ (F + 2 - idx))⁻¹ • z) d4
  rw [inv_smul_smul₀ (pow_ne_zero _ hα), inv_smul_smul₀ (pow_ne_zero _ hα)] at this
  exact this

/-- The stored root after a history. -/
theorem root_onPath {E : Curve G1 G2 GT} (hE : E.Lawful) {env : Env} (henv : env.Lawful) {α : Zr} {F : ℕ}
    {t t' : Tree G1 G2 GT} (ht : NewTree E α F t) {L : ℕ} (hL : 2 ≤ L) (hist : List (Str × ℤ)) (hne : hist ≠ [])
    {s s' : State} (hids : ValidIds t.id2Path F L hist) (h : t.puts E env hist s = some (t', s')) :
    ∃ x : Verkle.Vertex G1, Verkle.Vertex.fromBytes E (s'.db []) = some x ∧
      x.valuesVec (F + 1) = ((List.range F).map fun j => intToZr (amountBelow (byPath t.id2Path hist) [j]))
        ++ [intToZr (totalAmount (byPath t.id2Path hist))] ∧
      x.V = com E α (x.valuesVec (F + 1) ++ [x.blindingFactor]) ∧
      x.W = some (com E α ((List.range (F + 2)).map fun j => (x.digests (UInt16.ofNat j)).getD 0)) := by
  obtain ⟨e, l, rfl⟩ := List.exists_cons_of_ne_nil hne
  obtain ⟨p, hp, hpL, -⟩ := hids e (by simp)
  obtain ⟨vs, -, -, hvs⟩ := get_onPath hE henv ht (by omega) _ hids h e.1 p hp hpL (by simp [byPath, hp])
  obtain ⟨x, -, hx, hon⟩ := hvs 0 (by omega)
  have hi := hon.inner (by omega)
  refine ⟨x, hx, ?_, hi.1, hi.2.1⟩
  rw [hon.values]
  have : amountBelow (byPath t.id2Path (e :: l)) (p.take 0) = totalAmount (byPath t.id2Path (e :: l)) := by
    unfold amountBelow totalAmount
    congr 1
    ext q
    simp
  rw [this]
  rfl

end PoL.Pol

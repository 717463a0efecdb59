import Verif.Proofs.Deviation
import Verif.Props.Pol

/-!
# How far the commitments over the leaves are off (C40, C47)

`Spec/Deviation.lean` says what `verkle/tree.go:424` adds by mistake, as a polynomial in the trapdoor.
-/

set_option linter.unusedSectionVars false

namespace PoL.Props
open PoL.PP Spec Verkle Pol

variable {G1 G2 GT : Type} [AddCommGroup G1] [Module Zr G1] [AddCommGroup G2] [Module Zr G2]
  [AddCommGroup GT] [Module Zr GT] [DecidableEq G1] [DecidableEq GT]

/-- C40, all vertices over the leaves: after any history of writes, the stored `V` is the commitment to values,
sum and blinding factor plus the deviation. -/
theorem C40_deviation {E : Curve G1 G2 GT} (hE : E.Lawful) {env : Env} (henv : env.Lawful) {α : Zr} {F : ℕ}
    {t t' : Tree G1 G2 GT} (ht : NewTree E α F t) {L : ℕ} (hL : 1 ≤ L) (hist : List (Str × ℤ)) {s s' : State}
    (hids : ValidIds t.id2Path F L hist) (h : t.puts E env hist s = some (t', s')) (q : List ℕ)
    (hqL : q.length + 1 = L) (hq : touched (byPath t.id2Path hist) q) :
    ∃ x C, Vertex.fromBytes E (s'.db (keyOf q)) = some x ∧ t.PP.commit (valuesOf F x) = some C ∧
      x.V = C + (deviation F (byPath t.id2Path hist) q).eval α • E.genG1 ∧ x.W = none := by
  obtain ⟨bf, hl⟩ := leaf_exact hE henv ht.bound.le ht.pp ht.fanOut ht.root hL hids h q hqL hq
  refine ⟨_, com E α (valVec F (histVals (byPath t.id2Path hist) q) bf), load_fromBytes hl, ?_, rfl, rfl⟩
  rw [ht.pp]
  have hFb := ht.bound
  have e1 : ∀ (V : G1) (vals : ℕ → Option Zr), valuesOf F (leafVertex F bf vals V) = valVec F vals bf := by
    intro V vals
    unfold valuesOf leafVertex valVec
    dsimp only
    congr 1
    apply List.map_congr_left
    intro j hj
    rw [List.mem_range] at hj
    rw [mapBelow_ofNat _ (by omega), if_pos hj]
  rw [e1]
  exact commit_eq E α (F + 2) _ (by simp [valVec]) (by omega)

/-- C40: so the stored `V` is right exactly when the trapdoor is a root of the deviation. -/
theorem C40_right_iff {E : Curve G1 G2 GT} (hE : E.Lawful) (hgen : E.genG1 ≠ 0) {env : Env} (henv : env.Lawful)
    {α : Zr} {F : ℕ} {t t' : Tree G1 G2 GT} (ht : NewTree E α F t) {L : ℕ} (hL : 1 ≤ L) (hist : List (Str × ℤ))
    {s s' : State} (hids : ValidIds t.id2Path F L hist) (h : t.puts E env hist s = some (t', s')) (q : List ℕ)
    (hqL : q.length + 1 = L) (hq : touched (byPath t.id2Path hist) q) :
    ∃ x, Vertex.fromBytes E (s'.db (keyOf q)) = some x ∧
      (t.PP.commit (valuesOf F x) = some x.V ↔ (deviation F (byPath t.id2Path hist) q).eval α = 0) := by
  obtain ⟨x, C, h1, h2, h3, -⟩ := C40_deviation hE henv ht hL hist hids h q hqL hq
  refine ⟨x, h1, ?_⟩
  rw [h2, h3, Option.some.injEq, left_eq_add, smul_eq_zero]
  exact ⟨fun hc => hc.resolve_right hgen, .inl⟩

/-- C40 fails whenever two identifiers with a common vertex over the leaves are written: for positive amounts
under different paths, the commitment is wrong for all trapdoors but at most `F + 1`. -/
theorem C40_violated_generally (id2Path : Str → Option (List ℕ)) {F L : ℕ} (hF : 3 ≤ F) (hist : List (Str × ℤ))
    (hids : ValidIds id2Path F L hist) (hn : ∀ e ∈ hist, 0 < e.2)
    (hnd : ((byPath id2Path hist).map Prod.fst).Nodup) (hsum : (hist.map Prod.snd).sum < 2 ^ 63) (q : List ℕ)
    (hq : q.length + 1 = L) (hw : 2 ≤ writesBelow (byPath id2Path hist) q) :
    ∃ S : Finset Zr, S.card ≤ F + 1 ∧ ∀ α ∉ S, ∀ {E : Curve G1 G2 GT}, E.Lawful → E.genG1 ≠ 0 → ∀ {env : Env}, env.Lawful →
      ∀ {t t' : Tree G1 G2 GT} {s s' : State}, NewTree E α F t → t.id2Path = id2Path →
        t.puts E env hist s = some (t', s') →
        ∃ x, Vertex.fromBytes E (s'.db (keyOf q)) = some x ∧ t.PP.commit (valuesOf F x) ≠ some x.V := by
  obtain ⟨S, hS, -, hne⟩ := deviation_roots hF hids hn hnd hsum q hq hw
  refine ⟨S, hS, ?_⟩
  intro α hα E hE hgen env henv t t' s s' ht hid h
  subst hid
  have htou : touched (byPath t.id2Path hist) q := by
    by_contra hc
    have : writesBelow (byPath t.id2Path hist) q = 0 := by
      unfold writesBelow
      rw [List.countP_eq_zero]
      intro e he hp
      exact hc ⟨e, he, by simpa using hp⟩
    omega
  obtain ⟨x, hx, hiff⟩ := C40_right_iff hE hgen henv ht (by omega) hist hids h q hq htou
  exact ⟨x, hx, fun hc => hne α hα (hiff.1 hc)⟩

/-- C47, all identifiers: `ProveLiability` gives an accepted proof of the latest amount if the trapdoor is a root of the
deviation of the vertex over the identifier's leaf; otherwise none of its proofs is accepted, for any
randomness and any claimed root. -/
theorem C47_verifies_iff {E : Curve G1 G2 GT} (hE : E.Lawful) (hnd : E.NonDegenerate) (hgen : E.genG1 ≠ 0) {env : Env}
    (henv : env.Lawful) {α : Zr} (hα : α ≠ 0) {F L : ℕ} {ls ls' : LiabilitySet G1 G2 GT} (h : NewSet E α F L ls)
    (hist : List (Str × ℤ)) (hids : ValidIds ls.tree.id2Path F L hist) (hr : ls.sets E env hist = some ls')
    (htot : totalAmount (byPath ls.tree.id2Path hist) < 2 ^ 63) (id : Str) (p : List ℕ)
    (hp : ls.tree.id2Path id = some p) (hw : p ∈ (byPath ls.tree.id2Path hist).map Prod.fst) :
    ((deviation F (byPath ls.tree.id2Path hist) p.dropLast).eval α = 0 →
      ∀ rnd, RandSized F L rnd → NonzeroChallenges E env ls' rnd id →
        ∃ lp x W, ls'.proveLiability E env rnd id = some (some (latest (byPath ls.tree.id2Path hist) p, lp)) ∧
          Verkle.Vertex.fromBytes E (ls'.s.db []) = some x ∧ x.W = some W ∧
          lp.verify E ls.pp id x.V W ls.tree.id2Path = some true) ∧
    ((deviation F (byPath ls.tree.id2Path hist) p.dropLast).eval α ≠ 0 →
      ∀ rnd n lp, ls'.proveLiability E env rnd id = some (some (n, lp)) →
        ∀ V W, lp.verify E ls.pp id V W ls.tree.id2Path ≠ some true) := by
  have hL := h.pp.depth
  obtain ⟨hn, t, s, hputs, rfl⟩ := (sets_iff E env hist ls ls').1 hr
  obtain ⟨hpL, hlt⟩ := byPath_length hids p (List.mem_toFinset.2 hw)
  obtain ⟨vs, hget, hvsl, hvs⟩ := get_onPath hE henv h.tree (by omega) hist hids hputs id p hp hpL hw
  have : Nonempty (Verkle.Vertex G1) := ⟨⟨0, fun _ => none, fun _ => none, 0, 0, none⟩⟩
  choose! fx hx1 hx2 hx3 using hvs
  have hvseq : vs = (List.range L).map fx := by
    apply List.ext_getElem?
    intro i
    by_cases hi : i < L
    · rw [hx1 i hi]; simp [hi]
    · rw [List.getElem?_eq_none (by omega), List.getElem?_eq_none (by simp; omega)]
  subst hvseq
  have hfields := puts_fields' hputs
  have hid : t.id2Path = ls.tree.id2Path := by rw [hfields]
  have hFb := h.tree.bound
  have hdl : p.take (L - 1) = p.dropLast := by rw [List.dropLast_eq_take, hpL]
  have htou : touched (byPath ls.tree.id2Path hist) p.dropLast := by
    obtain ⟨e, he, rfl⟩ := List.mem_map.1 hw
    exact ⟨e, he, List.dropLast_prefix _⟩
  obtain ⟨x, hx, hiff⟩ := C40_right_iff hE hgen henv h.tree (by omega) hist hids hputs p.dropLast
    (by rw [List.length_dropLast]; omega) htou
  have hx' := hx2 (L - 1) (by omega)
  rw [hdl] at hx'
  have hxx := hx.symm.trans hx'
  rw [Option.some.injEq] at hxx
  subst hxx
  have hiff' : (fx (L - 1)).V = com E α ((fx (L - 1)).valuesVec (F + 1) ++ [(fx (L - 1)).blindingFactor]) ↔
      (deviation F (byPath ls.tree.id2Path hist) p.dropLast).eval α = 0 := by
    rw [← hiff]
    have hl : valuesOf F (fx (L - 1)) = (fx (L - 1)).valuesVec (F + 1) ++ [(fx (L - 1)).blindingFactor] := by
      rw [valuesVec_eq]; unfold valuesOf; rw [List.append_assoc]; rfl
    rw [hl, h.tree.pp, commit_eq E α (F + 2) _ (by simp [valuesVec_length]) (by omega), Option.some.injEq]
    exact ⟨fun hc => hc.symm, fun hc => hc.symm⟩
  constructor
  · intro h0 rnd hrnd hne
    have hhon := honestPath_of_hist (E := E) (α := α) hL hist hids hn htot p hpL hlt fx hx3 (hiff'.2 h0)
    have h0 := latest_nonneg (byPath_nonneg hn (id2Path := ls.tree.id2Path)) p
    have h1 : latest (byPath ls.tree.id2Path hist) p < 2 ^ 63 := by
      rw [← amountBelow_self hids p hpL]
      exact lt_of_le_of_lt (amountBelow_le_total (byPath_nonneg hn) p) htot
    obtain ⟨lp, W, g1, g2, g3, g4⟩ := prove_honest hE h.pp { ls with tree := t, s := s }
      (by show t.PP = _; rw [hfields]; exact h.tree.pp) (by show t.fanOut = _; rw [hfields]; exact h.tree.fanOut) rfl id p
      (by show t.id2Path id = _; rw [hfields]; exact hp) hpL hlt fx _ _ hget hhon h0 h1 rnd hrnd hne
    refine ⟨lp, fx 0, W, g1, hx2 0 (by omega), g3, ?_⟩
    exact (verify_iff E lp ls.pp id _ W _).2 ⟨p, hp, g4⟩
  · intro h0 rnd n lp hpr V W
    have := prove_rejected hE hnd hα h.pp { ls with tree := t, s := s } rfl (id := id) (path := p)
      (by show t.id2Path id = _; rw [hid]; exact hp) hlt hget (by rw [hpL]; exact hx1 (L - 1) (by omega))
      (fun hc => h0 (hiff'.1 hc)) hpr V W
    dsimp only at this
    rw [hid] at this
    exact this

/-- C47 fails whenever another identifier shares the vertex over the leaf: for positive amounts under different
paths, no proof is accepted, for all trapdoors but at most `F + 1`. -/
theorem C47_violated_generally (id2Path : Str → Option (List ℕ)) {F L : ℕ} (hF : 3 ≤ F) (hist : List (Str × ℤ))
    (hids : ValidIds id2Path F L hist) (hn : ∀ e ∈ hist, 0 < e.2)
    (hnodup : ((byPath id2Path hist).map Prod.fst).Nodup) (hsum : (hist.map Prod.snd).sum < 2 ^ 63) (id : Str) (p : List ℕ)
    (hp : id2Path id = some p) (hw : p ∈ (byPath id2Path hist).map Prod.fst)
    (htwo : 2 ≤ writesBelow (byPath id2Path hist) p.dropLast) :
    ∃ S : Finset Zr, S.card ≤ F + 1 ∧ ∀ α ∉ S, ∀ {E : Curve G1 G2 GT}, E.Lawful → E.NonDegenerate → E.genG1 ≠ 0 →
      ∀ {env : Env}, env.Lawful → ∀ {ls ls' : LiabilitySet G1 G2 GT}, NewSet E α F L ls → ls.tree.id2Path = id2Path →
        ls.sets E env hist = some ls' → ∀ rnd n lp, ls'.proveLiability E env rnd id = some (some (n, lp)) →
          ∀ V W, lp.verify E ls.pp id V W id2Path ≠ some true := by
  obtain ⟨hpL, -⟩ := byPath_length hids p (List.mem_toFinset.2 hw)
  rcases Nat.eq_zero_or_pos L with hL0 | hL0
  · refine ⟨∅, by simp, ?_⟩
    intro α _ E _ _ _ env _ ls ls' h
    have := h.pp.depth
    omega
  have hdl : p.dropLast.length + 1 = L := by rw [List.length_dropLast]; omega
  obtain ⟨S, hS, h0S, hne⟩ := deviation_roots hF hids hn hnodup hsum p.dropLast hdl htwo
  refine ⟨S, hS, ?_⟩
  intro α hα E hE hnd hgen env henv ls ls' h hid hr rnd n lp hpr V W
  subst hid
  refine (C47_verifies_iff hE hnd hgen henv (α := α) (fun hc => hα (by rw [hc]; exact h0S)) h hist hids hr ?_ id p hp hw).2 (hne α hα) rnd n lp hpr V W
  refine lt_of_le_of_lt ?_ hsum
  have := amountBelow_le_sum (h := byPath ls.tree.id2Path hist) (by
    intro e he
    obtain ⟨e', he', rfl⟩ := List.mem_map.1 he
    exact (hn e' he').le) hnodup []
  have e1 : amountBelow (byPath ls.tree.id2Path hist) [] = totalAmount (byPath ls.tree.id2Path hist) := by
    unfold amountBelow totalAmount
    congr 1
    ext q
    simp
  have e2 : (byPath ls.tree.id2Path hist).map Prod.snd = hist.map Prod.snd := by simp [byPath]
  rw [← e1, ← e2]
  exact this

/-- `C40_violated_generally` and `C47_violated_generally` apply to two identifiers that differ in the last digit. -/
example : ∃ S : Finset Zr, S.card ≤ 4 ∧ ∀ α ∉ S, ∀ {E : Curve Zr Zr Zr}, E.Lawful → E.NonDegenerate → E.genG1 ≠ 0 →
      ∀ {env : Env}, env.Lawful → ∀ {ls ls' : LiabilitySet Zr Zr Zr}, NewSet E α 3 3 ls → ls.tree.id2Path = toyPath →
        ls.sets E env [(['0', '1', '2'], 10), (['0', '1', '0'], 5)] = some ls' →
        ∀ rnd n lp, ls'.proveLiability E env rnd ['0', '1', '2'] = some (some (n, lp)) →
          ∀ V W, lp.verify E ls.pp ['0', '1', '2'] V W toyPath ≠ some true := by
  apply C47_violated_generally toyPath (by norm_num) _ _ (by decide) (by decide) (by decide) ['0', '1', '2'] [0, 1, 2] rfl
    (by decide) (by decide)
  intro e he
  refine ⟨_, rfl, ?_⟩
  revert e
  decide

/-- The deviation vanishes, although there were two writes, when the same amount is written again at index 1. -/
example (b : ℤ) : deviation 3 [([0, 1], b), ([0, 1], b)] [0] = 0 := by
  have h1 : pathsBelow [([0, 1], b), ([0, 1], b)] [0] = 1 := rfl
  have h2 : amountBelow [([0, 1], b), ([0, 1], b)] [0] = b := by
    unfold amountBelow
    have : (([([0, 1], b), ([0, 1], b)].map Prod.fst).toFinset.filter fun p => [0] <+: p) = {[0, 1]} := rfl
    rw [this, Finset.sum_singleton]
    simp [latest, lastPut]
  have h3 : amountBelow [([0, 1], b)] [0] = b := by
    unfold amountBelow
    have : (([([0, 1], b)].map Prod.fst).toFinset.filter fun p => [0] <+: p) = {[0, 1]} := rfl
    rw [this, Finset.sum_singleton]
    simp [latest, lastPut]
  have h4 : latest [([0, 1], b)] ([0] ++ [1]) = b := by simp [latest, lastPut]
  unfold deviation
  rw [show [([0, 1], b), ([0, 1], b)].length = 2 from rfl, Finset.sum_range_succ, Finset.sum_range_one]
  rw [if_neg (by simp)]
  simp only [List.take_succ_cons, List.take_zero]
  unfold strayed
  rw [h1, h2, h3, h4]
  simp

end PoL.Props

import Verif.Proofs.Access
import Verif.Proofs.Lost
import Verif.Props.Pol

/-! # C114: the calls of the database -/

namespace PoL.Props
open Spec Verkle Pol PoL.Trace

variable {G1 G2 GT : Type} [AddCommGroup G1] [Module Zr G1] [AddCommGroup G2] [Module Zr G2]
  [AddCommGroup GT] [Module Zr GT] [DecidableEq G1] [DecidableEq GT]

/-- C114: the functions that record the calls of the database return what those of `Model/Pol.lean` return, in every state. -/
theorem C114_same_results (E : Curve G1 G2 GT) (env : Env) (ls : LiabilitySet G1 G2 GT) (tr : List Access) :
    (∀ id n, (Trace.set E env ls id n tr).map Prod.fst = ls.set E env id n) ∧
    (∀ id, (Trace.get E env ls id tr).map Prod.fst = ls.get E env id) ∧
    ((Trace.root E ls tr).map (fun r => (r.1, r.2.1)) = ls.root E) ∧
    ((Trace.proveTot E ls tr).map Prod.fst = ls.proveTot E) ∧
    (∀ rnd id, (Trace.proveLiability E env ls rnd id tr).map Prod.fst = ls.proveLiability E env rnd id) := by
  refine ⟨fun id n => set_erase E env ls id n tr, fun id => get_erase E env ls id tr, root_erase E ls tr, ?_,
    fun rnd id => prove_erase E env ls rnd id tr⟩
  rw [proveTot_erase]
  cases ls.proveTot E <;> rfl

/-- C114: a `Set` after any history calls the database for the vertices on its path alone, each written once, from the deepest up to
the root. -/
theorem C114_set_accesses {E : Curve G1 G2 GT} (hE : E.Lawful) {env : Env} (henv : env.Lawful) {α : Zr} {F L : ℕ}
    {ls ls' : LiabilitySet G1 G2 GT} (h : NewSet E α F L ls) (hist : List (Str × ℤ))
    (hids : ValidIds ls.tree.id2Path F L hist) (hr : ls.sets E env hist = some ls') (id : Str) (n : ℤ) (hn : 0 ≤ n)
    (p : List ℕ) (hp : ls.tree.id2Path id = some p) (hpL : p.length = L) (hpF : ∀ x ∈ p, x < F) (tr : List Access) :
    ∃ ls'', ls'.set E env id n = some ls'' ∧
      Trace.set E env ls' id n tr = some (ls'', tr ++ writeAccesses (byPath ls.tree.id2Path hist) p) := by
  have hL := h.pp.depth
  obtain ⟨-, t, s, ht, rfl⟩ := (sets_iff E env hist ls ls').1 hr
  have hown := own_of_puts hE henv h.tree.bound.le h.tree.pp h.tree.fanOut h.tree.root (by omega) hist hids ht
  obtain ⟨t', s', h1, h2⟩ := put_calls hE henv h.tree.bound.le h.tree.pp h.tree.fanOut h.tree.root hown hids id n p hp hpL hpF tr
  refine ⟨{ ls with tree := t', s := s' }, ?_, ?_⟩
  · unfold LiabilitySet.set
    rw [if_neg (by omega)]
    exact obind_step h1 rfl
  · unfold Trace.set
    rw [if_neg (by omega)]
    exact obind_step h2 rfl

/-- C114, what these calls are: every key is one of a vertex on the path, the keys written are those of the vertices of the path without
the leaf, deepest first, and with a path of length `L` there are from `2 L - 1` calls, the case of the first write, to `3 L - 1`, the case of a path that was written before. -/
theorem C114_write_accesses (hh : List (List ℕ × ℤ)) (p : List ℕ) (hp : p ≠ []) :
    putKeys (writeAccesses hh p) = (List.range p.length).reverse.map (fun i => keyOf (p.take i)) ∧
    (∀ k ∈ getKeys (writeAccesses hh p), ∃ i < p.length, k = keyOf (p.take i)) ∧
    2 * p.length - 1 ≤ (writeAccesses hh p).length ∧ (writeAccesses hh p).length ≤ 3 * p.length - 1 ∧
    (hh = [] → (writeAccesses hh p).length = 2 * p.length - 1) ∧
    (p ∈ hh.map Prod.fst → (writeAccesses hh p).length = 3 * p.length - 1) := by
  rw [writeAccesses_eq]
  have hl := List.length_pos_iff.2 hp
  obtain ⟨k, hk, hkl, hk0, hk1⟩ := below_length hh [] p hp
  refine ⟨by simpa using below_puts hh [] p, by simpa using below_gets hh [] p, by omega, by omega, ?_, ?_⟩
  · rintro rfl
    have := hk0 (fun q hq => by obtain ⟨e, he, -⟩ := hq; simp at he)
    omega
  · intro hm
    obtain ⟨e, he, rfl⟩ := List.mem_map.1 hm
    have := hk1 ⟨e, he, by simp⟩
    omega

/-- C114: the calls of a whole history. -/
theorem C114_history_accesses {E : Curve G1 G2 GT} (hE : E.Lawful) {env : Env} (henv : env.Lawful) {α : Zr} {F L : ℕ}
    {ls ls' : LiabilitySet G1 G2 GT} (h : NewSet E α F L ls) (hist : List (Str × ℤ))
    (hids : ValidIds ls.tree.id2Path F L hist) (hr : ls.sets E env hist = some ls') :
    Trace.sets E env ls hist [] = some (ls', historyAccesses (byPath ls.tree.id2Path hist)) ∧
    (historyAccesses (byPath ls.tree.id2Path hist)).length ≤ hist.length * (3 * L - 1) := by
  have hL := h.pp.depth
  induction hist using List.reverseRecOn generalizing ls' with
  | nil =>
    obtain rfl : ls = ls' := by simpa [LiabilitySet.sets] using hr
    exact ⟨rfl, by simp [historyAccesses, byPath]⟩
  | append_singleton hist e ih =>
    obtain ⟨p, hp, hpL, hpF⟩ := hids e (by simp)
    rw [sets_append] at hr
    obtain ⟨ls1, h1, h2⟩ := Option.bind_eq_some_iff.1 hr
    have hids1 : ValidIds ls.tree.id2Path F L hist := fun c hc => hids c (by simp [hc])
    obtain ⟨i1, i2⟩ := ih hids1 h1
    have h2 : ls1.set E env e.1 e.2 = some ls' := by
      simpa [LiabilitySet.sets] using h2
    have hn : 0 ≤ e.2 := by
      by_contra hc
      rw [C43_negative_panics E env ls1 e.1 e.2 (by omega)] at h2
      simp at h2
    obtain ⟨ls'', h3, h4⟩ := C114_set_accesses hE henv h hist hids1 h1 e.1 e.2 hn p hp hpL hpF
      (historyAccesses (byPath ls.tree.id2Path hist))
    rw [h2, Option.some.injEq] at h3
    subst h3
    have hb : byPath ls.tree.id2Path (hist ++ [e]) = byPath ls.tree.id2Path hist ++ [(p, e.2)] := by
      simp [byPath, hp]
    have hacc : historyAccesses (byPath ls.tree.id2Path (hist ++ [e])) =
        historyAccesses (byPath ls.tree.id2Path hist) ++ writeAccesses (byPath ls.tree.id2Path hist) p := by
      rw [hb]
      exact historyAccesses_concat _ _
    refine ⟨?_, ?_⟩
    · rw [hacc]
      unfold Trace.sets at i1 ⊢
      rw [List.foldlM_append]
      refine obind_step i1 ?_
      simp only [List.foldlM_cons, List.foldlM_nil]
      exact obind_step h4 rfl
    · have := (C114_write_accesses (byPath ls.tree.id2Path hist) p (by rintro rfl; simp at hpL; omega)).2.2.2.1
      rw [hacc, List.length_append, List.length_append, List.length_singleton, Nat.add_mul, Nat.one_mul]
      rw [hpL] at this
      omega

/-- C114: `Get` reads the vertices of the path without the leaf, from the root down, if the path was written, and otherwise nothing. -/
theorem C114_get_accesses {E : Curve G1 G2 GT} (hE : E.Lawful) {env : Env} (henv : env.Lawful) {α : Zr} {F L : ℕ}
    {ls ls' : LiabilitySet G1 G2 GT} (h : NewSet E α F L ls) (hist : List (Str × ℤ))
    (hids : ValidIds ls.tree.id2Path F L hist) (hr : ls.sets E env hist = some ls') (id : Str)
    (p : List ℕ) (hp : ls.tree.id2Path id = some p) (hpL : p.length = L) (tr : List Access) :
    ∃ r, ls'.get E env id = some r ∧
      Trace.get E env ls' id tr = some (r, tr ++ readAccesses (byPath ls.tree.id2Path hist) p) := by
  have hL := h.pp.depth
  obtain ⟨-, t, s, ht, rfl⟩ := (sets_iff E env hist ls ls').1 hr
  have hown := own_of_puts hE henv h.tree.bound.le h.tree.pp h.tree.fanOut h.tree.root (by omega) hist hids ht
  obtain ⟨r, hg⟩ := own_get_returns hown id p hp hpL
  have hc := get_calls h.tree.root hown hids id p hp hpL tr hg
  refine ⟨r.map Prod.fst, ?_, ?_⟩
  · unfold LiabilitySet.get
    exact obind_step hg rfl
  · unfold Trace.get
    exact obind_step hc rfl

/-- C114: so does `ProveLiability`, however large the proof is. -/
theorem C114_prove_accesses {E : Curve G1 G2 GT} (hE : E.Lawful) {env : Env} (henv : env.Lawful) {α : Zr} {F L : ℕ}
    {ls ls' : LiabilitySet G1 G2 GT} (h : NewSet E α F L ls) (hist : List (Str × ℤ))
    (hids : ValidIds ls.tree.id2Path F L hist) (hr : ls.sets E env hist = some ls') (rnd : ProveRand) (id : Str)
    (p : List ℕ) (hp : ls.tree.id2Path id = some p) (hpL : p.length = L) (tr : List Access)
    (r : Option (ℤ × LiabilityProof G1)) (hprove : ls'.proveLiability E env rnd id = some r) :
    Trace.proveLiability E env ls' rnd id tr = some (r, tr ++ readAccesses (byPath ls.tree.id2Path hist) p) := by
  have hL := h.pp.depth
  obtain ⟨-, t, s, ht, rfl⟩ := (sets_iff E env hist ls ls').1 hr
  have hown := own_of_puts hE henv h.tree.bound.le h.tree.pp h.tree.fanOut h.tree.root (by omega) hist hids ht
  obtain ⟨x, hg⟩ := own_get_returns hown id p hp hpL
  have hc := get_calls h.tree.root hown hids id p hp hpL tr hg
  unfold Trace.proveLiability
  exact obind_step hc (obind_step hprove rfl)

/-- C114: `ProveTot` reads the root and nothing else. -/
theorem C114_total_accesses (E : Curve G1 G2 GT) (ls : LiabilitySet G1 G2 GT) (tr : List Access) (tp : TotalProof G1)
    (h : ls.proveTot E = some tp) : Trace.proveTot E ls tr = some (tp, tr ++ [.get (keyOf [])]) := by
  rw [proveTot_erase, h]
  rfl

/-- C114: `Root` reads nothing on an empty set; otherwise the first call reads the root, and no later call reads anything, whatever is
written in between. -/
theorem C114_root_accesses {E : Curve G1 G2 GT} (hE : E.Lawful) {env : Env} (henv : env.Lawful) {α : Zr} {F L : ℕ}
    {ls ls' : LiabilitySet G1 G2 GT} (h : NewSet E α F L ls) (hist : List (Str × ℤ))
    (hids : ValidIds ls.tree.id2Path F L hist) (hr : ls.sets E env hist = some ls') (tr : List Access) :
    (hist = [] → Trace.root E ls' tr = some (none, ls', tr)) ∧
    (hist ≠ [] → ∃ C ls1, ls'.root E = some (some C, ls1) ∧
      Trace.root E ls' tr = some (some C, ls1, tr ++ [.get (keyOf [])]) ∧
      ∀ more ls2, ValidIds ls.tree.id2Path F L (hist ++ more) → ls1.sets E env more = some ls2 → ∀ tr',
        Trace.root E ls2 tr' = some (some C, ls2, tr')) := by
  have hL := h.pp.depth
  constructor
  · rintro rfl
    obtain rfl : ls = ls' := by simpa [LiabilitySet.sets] using hr
    unfold Trace.root
    rw [h.tree.root]
  · intro hne
    obtain ⟨hpos, t, s, ht, rfl⟩ := (sets_iff E env hist ls ls').1 hr
    obtain ⟨v, x, hv, hd, hload⟩ := root_data hE henv h.tree (by omega) hist hne hids ht
    have hx := load_fromBytes hload
    have hlen : (s.db []).length ≠ 0 := by
      intro hc
      rw [List.length_eq_zero_iff.1 hc, fromBytes_nil] at hx
      simp at hx
    have hrt := root_eq (E := E) (ls := { ls with tree := t, s := s }) hv hd x (by
      dsimp only
      rw [if_neg (by rw [h.memRoot]; simp)]
      exact hx)
    refine ⟨_, _, hrt, ?_, ?_⟩
    · unfold Trace.root
      dsimp only
      rw [hv]
      dsimp only
      refine obind_step hd (obind_step (show Data.str (.key []) = some [] from rfl) ?_)
      have hm : Trace.memGet s.db ls.memRoot [] tr = (s.db [], s.db [], tr ++ [.get []]) := by
        unfold Trace.memGet
        rw [if_neg (by rw [h.memRoot]; simp)]
        simp
      rw [hm]
      refine obind_step hx ?_
      rw [h.memRoot]
      rfl
    · intro more ls2 hids2 hr2 tr'
      obtain ⟨hpos2, t2, s2, ht2, rfl⟩ := (sets_iff E env more _ ls2).1 hr2
      have hall : ls.tree.puts E env (hist ++ more) ls.s = some (t2, s2) := by
        unfold Tree.puts at ht ht2 ⊢
        rw [List.foldlM_append, ht]
        exact ht2
      obtain ⟨v2, _, hv2, hd2, -⟩ := root_data hE henv h.tree (by omega) (hist ++ more) (by simp [hne]) hids2 hall
      unfold Trace.root
      dsimp only
      rw [hv2]
      dsimp only
      refine obind_step hd2 (obind_step (show Data.str (.key []) = some [] from rfl) ?_)
      have hif : (if ls.memRoot.length ≠ 0 then ls.memRoot else s.db []) = s.db [] := by
        rw [if_neg (by rw [h.memRoot]; simp)]
      rw [hif]
      have hm : Trace.memGet s2.db (s.db []) [] tr' = (s.db [], s.db [], tr') := by
        unfold Trace.memGet
        rw [if_pos ⟨rfl, hlen⟩]
      rw [hm]
      exact obind_step hx rfl

/-! ## The hypotheses can be met -/

/-- A second write of "012" in a tree of depth 3 makes 8 calls and writes the keys ".0.1", ".0" and "", in this order; `Get` reads them in
the other one. -/
example : ∃ (ls ls' ls'' : LiabilitySet Zr Zr Zr) (tr : List Access),
    ls.sets toyCurve toyEnv toyHist = some ls' ∧ Trace.set toyCurve toyEnv ls' ['0', '1', '2'] 5 [] = some (ls'', tr) ∧
    putKeys tr = [['.', '0', '.', '1'], ['.', '0'], []] ∧ tr.length = 8 ∧
    Trace.get toyCurve toyEnv ls' ['0', '1', '2'] [] =
      some (some 30, [.get [], .get ['.', '0'], .get ['.', '0', '.', '1']]) := by
  obtain ⟨ls, hnew, htree⟩ := toy_set
  have hids : ValidIds ls.tree.id2Path 3 3 toyHist := by rw [htree]; exact toyHist_valid
  have hp : ls.tree.id2Path ['0', '1', '2'] = some [0, 1, 2] := by rw [htree]; exact toyTree_path _
  obtain ⟨ls', hr⟩ := C43_sets_return toyCurve_lawful toyEnv_lawful hnew toyHist hids (by decide)
  have hmem : ([0, 1, 2] : List ℕ) ∈ (byPath ls.tree.id2Path toyHist).map Prod.fst := by
    rw [htree]; decide
  obtain ⟨ls'', -, h2⟩ := C114_set_accesses toyCurve_lawful toyEnv_lawful hnew toyHist hids hr ['0', '1', '2'] 5 (by norm_num) _ hp rfl
    (by decide) []
  obtain ⟨w1, -, -, -, -, w2⟩ := C114_write_accesses (byPath ls.tree.id2Path toyHist) [0, 1, 2] (by decide)
  obtain ⟨r, h3, h4⟩ := C114_get_accesses toyCurve_lawful toyEnv_lawful hnew toyHist hids hr ['0', '1', '2'] _ hp rfl []
  have hg := C43_get_latest toyCurve_lawful toyEnv_lawful hnew toyHist hids hr ['0', '1', '2'] _ hp rfl (by rw [htree]; decide)
  have e30 : lastPut toyHist ['0', '1', '2'] = some 30 := by decide
  rw [hg, e30, Option.some.injEq] at h3
  subst h3
  refine ⟨ls, ls', ls'', _, hr, h2, ?_, ?_, ?_⟩
  · rw [List.nil_append, w1]; decide
  · rw [List.nil_append, w2 hmem]; rfl
  · rw [h4]
    obtain ⟨e, he, hpe⟩ := List.mem_map.1 hmem
    unfold readAccesses
    rw [if_pos ⟨e, he, by rw [hpe]⟩]
    have : (List.range ([0, 1, 2] : List ℕ).length).map (fun i => Access.get (keyOf (([0, 1, 2] : List ℕ).take i))) =
        [.get [], .get ['.', '0'], .get ['.', '0', '.', '1']] := by decide
    rw [this]
    rfl

end PoL.Props

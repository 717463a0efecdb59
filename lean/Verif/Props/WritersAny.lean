import Verif.Proofs.WritersRepair
import Verif.Props.Writers

/-!
# C110: overlapping `Set` calls return, and setting all identifiers again repairs the totals
-/

set_option linter.unusedSectionVars false

namespace PoL.Props
open Spec BP PP Verkle Pol

variable {G1 G2 GT : Type} [AddCommGroup G1] [Module Zr G1] [AddCommGroup G2] [Module Zr G2]
  [AddCommGroup GT] [Module Zr GT] [DecidableEq G1] [DecidableEq GT]

/-- The events of one writer alone are what `Set` does. -/
theorem C110_alone {E : Curve G1 G2 GT} (hE : E.Lawful) {env : Env} (henv : env.Lawful) {α : Zr} {F L : ℕ}
    {ls ls1 : LiabilitySet G1 G2 GT} (h : NewSet E α F L ls) (hist : List (Str × ℤ))
    (hids : ValidIds ls.tree.id2Path F L hist) (h1 : ls.sets E env hist = some ls1) (id : Str) (n : ℤ) (hn : 0 ≤ n) (p : List ℕ)
    (hp : ls.tree.id2Path id = some p) (hw : p ∈ (byPath ls.tree.id2Path hist).map Prod.fst)
    {v : Sparse.Vertex Data} (hv : ls1.tree.root = some v) :
    ∃ r ls2, (Running.start [(p, n)] v ls1.s).run E ls.tree.PP env F
        (.sets 0 :: (List.replicate L [.reads 0, .writes 0]).flatten) = some r ∧ r.ended ∧
      ls1.sets E env [(id, n)] = some ls2 ∧ ls2 = { ls1 with tree := { ls1.tree with root := some r.root }, s := r.s } := by
  obtain ⟨-, t, s, hputs, rfl⟩ := (sets_iff E env hist ls ls1).1 h1
  have hL := h.pp.depth
  have hpL := (byPath_length hids p (List.mem_toFinset.2 hw)).1
  have hT : touched (byPath ls.tree.id2Path hist) p := by
    obtain ⟨e, he, rfl⟩ := List.mem_map.1 hw
    exact ⟨e, he, List.prefix_rfl⟩
  have hb := start_between hE henv h.tree.bound.le h.tree.pp h.tree.fanOut h.tree.root (by omega) hids hputs hv
    [] (by simp) (by simp)
  obtain ⟨hid, hPP, hfan⟩ : t.id2Path = ls.tree.id2Path ∧ t.PP = ls.tree.PP ∧ t.fanOut = ls.tree.fanOut := by
    rw [vputs_sparse] at hputs
    obtain ⟨ts, -, hts⟩ := Option.map_eq_some_iff.1 hputs
    rw [Prod.mk.injEq] at hts
    rw [← hts.1]
    exact ⟨rfl, rfl, rfl⟩
  obtain ⟨s', c1, -, c3⟩ := hb.inv.putAt hE henv h.tree.bound.le (fun q p => touched_prefix q p) hb.mem hpL hT n p [] rfl
    (u := v) rfl []
  rw [hpL] at c3
  refine ⟨⟨[⟨p, n, true, L, none⟩], setLeaf (.amount n) p v, s'⟩,
    { ls with tree := { t with root := some (setLeaf (.amount n) p v) }, s := s' }, ?_, ?_, ?_, rfl⟩
  · rw [h.tree.pp, run_cons, step_sets (w := ⟨p, n, false, 0, none⟩) rfl rfl, Option.bind_some]
    exact c3
  · intro w hw
    rw [List.mem_singleton] at hw
    subst hw
    exact ⟨rfl, hpL.symm, rfl⟩
  · rw [sets_iff]
    refine ⟨by simpa using hn, _, _, ?_, rfl⟩
    rw [show [(id, n)] = [] ++ [(id, n)] from rfl, vputs_concat, vputs_nil, Option.bind_some]
    have ht : t = { t with root := some v } := by rw [← hv]
    dsimp only
    rw [ht]
    exact put_of_putAt (by rw [← h.tree.pp, ← hPP]) (by rw [← h.tree.fanOut, ← hfan]) (by rw [← hp, ← hid]) c1

/-- C110, first part: `Set`s of identifiers that were set before run at once, their callbacks overlapping in any way, the same
identifier being set several times or not.  All of them return.  Afterwards `Get` gives the amount whose leaf was set last,
and every stored vertex has entries for its children only, carries their sum and, above the layer over the leaves, the
commitments to its entries. -/
theorem C110_overlapping_sets_return {E : Curve G1 G2 GT} (hE : E.Lawful) {env : Env} (henv : env.Lawful) {α : Zr} {F L : ℕ}
    {ls ls1 : LiabilitySet G1 G2 GT} (h : NewSet E α F L ls) (hist news : List (Str × ℤ))
    (hids : ValidIds ls.tree.id2Path F L hist) (h1 : ls.sets E env hist = some ls1)
    (hnew : ∀ e ∈ byPath ls.tree.id2Path news, e.1 ∈ (byPath ls.tree.id2Path hist).map Prod.fst)
    {v : Sparse.Vertex Data} (hv : ls1.tree.root = some v)
    (events : List Event) (hev : OwnOrder news.length L events) :
    ∃ r ls2, (Running.start (byPath ls.tree.id2Path news) v ls1.s).run E ls.tree.PP env F events = some r ∧ r.ended ∧
      ls2 = { ls1 with tree := { ls1.tree with root := some r.root }, s := r.s } ∧
      (∀ id p, ls.tree.id2Path id = some p → p ∈ (byPath ls.tree.id2Path hist).map Prod.fst →
        ls2.get E env id = some (some (latest (byPath ls.tree.id2Path hist ++
          setOrder (byPath ls.tree.id2Path news) events) p))) ∧
      ∀ q, q.length < L → touched (byPath ls.tree.id2Path hist) q → ∃ x, Verkle.Vertex.fromBytes E (r.s.db (keyOf q)) = some x ∧
        (∀ k : UInt16, (x.values k).isSome = true ↔ touched (byPath ls.tree.id2Path hist) (q ++ [k.toNat])) ∧
        x.sum = ∑ i ∈ Finset.range F, (x.values (UInt16.ofNat i)).getD 0 ∧
        (q.length + 1 < L → ls.tree.PP.commit (valuesOf F x) = some x.V ∧
          ∃ W, x.W = some W ∧ ls.tree.PP.commit (digestsOf F x) = some W) := by
  have hFb := h.tree.bound
  obtain ⟨hn, t, s, hputs, rfl⟩ := (sets_iff E env hist ls ls1).1 h1
  have hL := h.pp.depth
  have hstart := start_any hE henv h.tree.bound.le h.tree.pp h.tree.fanOut h.tree.root (by omega) hids hputs hv
    (byPath ls.tree.id2Path news) hnew
  have hlen : (Running.start (byPath ls.tree.id2Path news) v s).writers.length = news.length := by
    simp [Running.start, byPath]
  obtain ⟨r, c1, c2, c3, c4⟩ := hstart.all hE henv h.tree.bound.le (fun q p => touched_prefix q p) events
    (by
      intro w hw
      obtain ⟨e, -, rfl⟩ := List.mem_map.1 hw
      exact ⟨Nat.zero_le _, fun _ => ⟨rfl, rfl⟩, fun hc => by simp at hc⟩)
    (by rw [hlen]; exact hev.1) (by
      intro i w hw
      have hi : i < news.length := by rw [← hlen]; exact (List.getElem?_eq_some_iff.1 hw).1
      obtain ⟨e, -, rfl⟩ := List.mem_map.1 (List.mem_of_getElem? hw)
      rw [hev.2 i hi]
      rfl)
  obtain ⟨hany, -⟩ := hstart.run hE henv h.tree.bound.le (fun q p => touched_prefix q p) events
    (byPath ls.tree.id2Path hist) (byPath ls.tree.id2Path news) (by unfold Running.start; rw [List.map_map]; exact List.map_id _) c1
  have hid : t.id2Path = ls.tree.id2Path := by
    obtain ⟨t1, s1, e1, e2, -⟩ := puts_good hE henv α F h.tree.bound.le ls.tree h.tree.pp h.tree.fanOut h.tree.root L (by omega)
      hist ls.s hids
    rw [hputs, Option.some.injEq, Prod.mk.injEq] at e1
    rw [e1.1, e2]
  refine ⟨r, _, by rw [h.tree.pp]; exact c1, ?_, rfl, ?_, ?_⟩
  · intro w hw
    obtain ⟨i, hi⟩ := List.mem_iff_getElem?.1 hw
    exact ended_of_ahead (hany.writer w hw).1 (c3 w hw) (c4 i w hi)
  · intro id p hp hw
    have hpL := (byPath_length hids p (List.mem_toFinset.2 hw)).1
    have hT : touched (byPath ls.tree.id2Path hist) p := by
      obtain ⟨e, he, rfl⟩ := List.mem_map.1 hw
      exact ⟨e, he, List.prefix_rfl⟩
    exact get_of_mem hany.mem (fun q p => touched_prefix q p) _ rfl (by rw [← hp, ← hid]) hpL hT
      (fun q hq hT => hany.inv.stored q hq hT)
  · intro q hq hT
    obtain ⟨x, x1, x2⟩ := hany.inv.shaped hq hT
    have hlt : ∀ i, touched (byPath ls.tree.id2Path hist) (q ++ [i]) → i < F := fun i hi =>
      (touched_length hids hi).2 i (by simp)
    have hvals : ∀ vals : ℕ → Option Zr, (∀ i, (vals i).isSome = true ↔ touched (byPath ls.tree.id2Path hist) (q ++ [i])) →
        (∀ k : UInt16, (mapBelow F vals k).isSome = true ↔ touched (byPath ls.tree.id2Path hist) (q ++ [k.toNat])) ∧
        ∑ i ∈ Finset.range F, (vals i).getD 0 = ∑ i ∈ Finset.range F, (mapBelow F vals (UInt16.ofNat i)).getD 0 := by
      intro vals hvs
      constructor
      · intro k
        unfold mapBelow
        split_ifs with hk
        · exact hvs _
        · simp only [Option.isSome_none, Bool.false_eq_true, false_iff]
          exact fun hc => hk (hlt _ hc)
      · refine Finset.sum_congr rfl fun i hi => ?_
        rw [Finset.mem_range] at hi
        rw [mapBelow_ofNat _ (by omega), if_pos hi]
    have hvo : ∀ (vals : ℕ → Option Zr), ((List.range F).map fun i => (mapBelow F vals (UInt16.ofNat i)).getD 0)
        = (List.range F).map fun i => (vals i).getD 0 := by
      intro vals
      apply List.map_congr_left
      intro i hi
      rw [List.mem_range] at hi
      rw [mapBelow_ofNat _ (by omega), if_pos hi]
    refine ⟨x, load_fromBytes x1, ?_⟩
    by_cases hl : q.length + 1 = L
    · obtain ⟨bf, vals, V, rfl, hvs⟩ := x2.leaf hl
      obtain ⟨e1, e2⟩ := hvals vals hvs
      exact ⟨e1, e2, fun hc => by omega⟩
    · obtain ⟨bf, vals, digs, rfl, hvs, -⟩ := x2.inner (by omega)
      obtain ⟨e1, e2⟩ := hvals vals hvs
      refine ⟨e1, e2, fun _ => ?_⟩
      rw [h.tree.pp]
      refine ⟨?_, _, rfl, ?_⟩
      · unfold valuesOf innerVertex
        dsimp only
        rw [hvo]
        exact commit_eq E α (F + 2) _ (by simp) (by omega)
      · unfold digestsOf innerVertex
        dsimp only
        rw [hvo]
        exact commit_eq E α (F + 2) _ (by simp) (by omega)

/-- C110, second part: whatever `Set`s of identifiers that were set before have done, overlapping in any way, returned or not:
when they are over and all identifiers are set again, one after the other, these `Set`s return; the stored vertices carry the
sums of the amounts set by them, with matching commitments and digests above the layer over the leaves; `Get` gives these
amounts and `ProveTot` an accepted proof of their sum. -/
theorem C110_setting_again_repairs {E : Curve G1 G2 GT} (hE : E.Lawful) {env : Env} (henv : env.Lawful) {α : Zr} {F L : ℕ}
    {ls ls1 ls2 : LiabilitySet G1 G2 GT} (h : NewSet E α F L ls) (hist news again : List (Str × ℤ))
    (hids : ValidIds ls.tree.id2Path F L hist) (h1 : ls.sets E env hist = some ls1)
    (hnew : ∀ e ∈ byPath ls.tree.id2Path news, e.1 ∈ (byPath ls.tree.id2Path hist).map Prod.fst)
    {v : Sparse.Vertex Data} (hv : ls1.tree.root = some v) (events : List Event) {r : Running}
    (hr : (Running.start (byPath ls.tree.id2Path news) v ls1.s).run E ls.tree.PP env F events = some r)
    (h2 : ls2 = { ls1 with tree := { ls1.tree with root := some r.root }, s := r.s })
    (hids' : ValidIds ls.tree.id2Path F L again) (hpos : ∀ e ∈ again, 0 ≤ e.2)
    (hall : ∀ p, p ∈ (byPath ls.tree.id2Path again).map Prod.fst ↔ p ∈ (byPath ls.tree.id2Path hist).map Prod.fst)
    (htot : totalAmount (byPath ls.tree.id2Path again) < 2 ^ 63) :
    ∃ ls3, ls2.sets E env again = some ls3 ∧
      (∀ q, q.length < L → touched (byPath ls.tree.id2Path again) q → ∃ x, Verkle.Vertex.fromBytes E (ls3.s.db (keyOf q)) = some x ∧
        x.sum = intToZr (amountBelow (byPath ls.tree.id2Path again) q) ∧
        (∀ k : UInt16, touched (byPath ls.tree.id2Path again) (q ++ [k.toNat]) →
          x.values k = some (intToZr (amountBelow (byPath ls.tree.id2Path again) (q ++ [k.toNat])))) ∧
        (∀ k : UInt16, ¬ touched (byPath ls.tree.id2Path again) (q ++ [k.toNat]) → x.values k = none) ∧
        (q.length + 1 < L → ls.tree.PP.commit (valuesOf F x) = some x.V ∧
          (∃ W, x.W = some W ∧ ls.tree.PP.commit (digestsOf F x) = some W) ∧
          ∀ k : UInt16, touched (byPath ls.tree.id2Path again) (q ++ [k.toNat]) →
            ∃ y, Verkle.Vertex.fromBytes E (ls3.s.db (keyOf (q ++ [k.toNat]))) = some y ∧ x.digests k = y.digest E)) ∧
      (∀ id p, ls.tree.id2Path id = some p → p ∈ (byPath ls.tree.id2Path hist).map Prod.fst →
        ls3.get E env id = some (some (latest (byPath ls.tree.id2Path again) p))) ∧
      ∃ tp x, ls3.proveTot E = some tp ∧ tp.sum = totalAmount (byPath ls.tree.id2Path again) ∧
        Verkle.Vertex.fromBytes E (ls3.s.db []) = some x ∧ tp.verify E ls.pp x.V = some true := by
  obtain ⟨hn, t, s, hputs, rfl⟩ := (sets_iff E env hist ls ls1).1 h1
  have hL := h.pp.depth
  have hstart := start_any hE henv h.tree.bound.le h.tree.pp h.tree.fanOut h.tree.root (by omega) hids hputs hv
    (byPath ls.tree.id2Path news) hnew
  rw [h.tree.pp] at hr
  obtain ⟨hany, -⟩ := hstart.run hE henv h.tree.bound.le (fun q p => touched_prefix q p) events
    (byPath ls.tree.id2Path hist) (byPath ls.tree.id2Path news) (by unfold Running.start; rw [List.map_map]; exact List.map_id _) hr
  obtain ⟨hid, hPP, hfan⟩ : t.id2Path = ls.tree.id2Path ∧ t.PP = ls.tree.PP ∧ t.fanOut = ls.tree.fanOut := by
    rw [vputs_sparse] at hputs
    obtain ⟨ts, -, hts⟩ := Option.map_eq_some_iff.1 hputs
    rw [Prod.mk.injEq] at hts
    rw [← hts.1]
    exact ⟨rfl, rfl, rfl⟩
  have hT : ∀ p, p ∈ (byPath ls.tree.id2Path hist).map Prod.fst → touched (byPath ls.tree.id2Path hist) p := by
    intro p hw
    obtain ⟨e, he, rfl⟩ := List.mem_map.1 hw
    exact ⟨e, he, List.prefix_rfl⟩
  have htt : ∀ q, touched (byPath ls.tree.id2Path hist) q ↔ touched (byPath ls.tree.id2Path again) q := by
    intro q
    constructor
    · rintro ⟨e, he, hq⟩
      obtain ⟨e', he', hee⟩ := List.mem_map.1 ((hall e.1).2 (List.mem_map.2 ⟨e, he, rfl⟩))
      exact ⟨e', he', by rw [hee]; exact hq⟩
    · rintro ⟨e, he, hq⟩
      obtain ⟨e', he', hee⟩ := List.mem_map.1 ((hall e.1).1 (List.mem_map.2 ⟨e, he, rfl⟩))
      exact ⟨e', he', by rw [hee]; exact hq⟩
  obtain ⟨root', s', c1, c2, c3⟩ := hany.inv.puts hE henv h.tree.bound.le (fun q p => touched_prefix q p)
    (t := { t with root := some r.root }) (by rw [← h.tree.pp, ← hPP]) (by rw [← h.tree.fanOut, ← hfan]) rfl hany.mem again (by
      intro e he
      obtain ⟨p, hp, hpl, -⟩ := hids' e he
      refine ⟨p, by rw [← hp, ← hid], hpl, hT _ ((hall p).1 (List.mem_map.2 ⟨(p, e.2), ?_, rfl⟩))⟩
      exact List.mem_map.2 ⟨e, he, by rw [hp]; rfl⟩)
  have hid' : ({ t with root := some r.root } : Tree G1 G2 GT).id2Path = ls.tree.id2Path := hid
  rw [hid'] at c2 c3
  have hinv := c3.mono (ex' := fun _ => False) (by
    rintro c hc hTc ⟨-, hx⟩
    rcases hx with hx | hx
    · exact hc hx
    · exact hx ((htt c).1 hTc))
  have hso : ∀ e ∈ setOrder (byPath ls.tree.id2Path news) events, e.1 ∈ (byPath ls.tree.id2Path hist).map Prod.fst := by
    intro e he
    unfold setOrder at he
    obtain ⟨ev, -, hev⟩ := List.mem_filterMap.1 he
    cases ev with
    | sets i => exact hnew e (List.mem_of_getElem? hev)
    | reads i => simp at hev
    | writes i => simp at hev
  have hA : AmountsOf ls.tree.id2Path F L (touched (byPath ls.tree.id2Path hist))
      (latest (byPath ls.tree.id2Path hist ++ setOrder (byPath ls.tree.id2Path news) events ++ byPath ls.tree.id2Path again))
      again := by
    refine ⟨hids', htt, fun p _ => ?_⟩
    by_cases hp : p ∈ (byPath ls.tree.id2Path again).map Prod.fst
    · exact latest_append_mem _ _ p hp
    · have hp' : p ∉ (byPath ls.tree.id2Path hist).map Prod.fst := fun hc => hp ((hall p).2 hc)
      rw [latest_not_mem _ _ hp, latest_not_mem]
      rw [List.map_append, List.map_append, List.mem_append, List.mem_append]
      rintro ((hc | hc) | hc)
      · exact hp' hc
      · obtain ⟨e, he, rfl⟩ := List.mem_map.1 hc
        exact hp' (hso e he)
      · exact hp hc
  refine ⟨{ ls2 with tree := { t with root := some root' }, s := s' }, ?_, ?_, ?_, ?_⟩
  · rw [sets_iff]
    refine ⟨hpos, _, _, ?_, rfl⟩
    rw [h2]
    exact c1
  · intro q hq hTq
    have := stored_of_inv hE h.tree.bound.le hinv (fun _ _ hc => hc) hA q hq ((htt q).2 hTq)
    rw [← h.tree.pp] at this
    simp only [htt] at this
    exact this
  · intro id p hp hw
    have hpL := (byPath_length hids p (List.mem_toFinset.2 hw)).1
    rw [get_of_mem c2 (fun q p => touched_prefix q p) _ rfl (by rw [← hp, ← hid]) hpL (hT p hw)
      (fun q hq hT => hinv.stored q hq hT), hA.amount p hpL]
  · have hroot : touched (byPath ls.tree.id2Path hist) [] := by
      cases hist with
      | nil =>
        rw [vputs_nil, Option.some.injEq, Prod.mk.injEq] at hputs
        rw [← hputs.1, h.tree.root] at hv
        simp at hv
      | cons e hist => exact ⟨_, List.mem_cons_self, List.nil_prefix⟩
    obtain ⟨bf, vals, digs, k1, -⟩ := hinv.inner [] (by simp; omega) hroot
    obtain ⟨x, x1, x2⟩ := hinv.sum hA (L - 1) [] (by simp; omega) hroot (fun r hr => id)
    rw [k1, Option.some.injEq] at x1
    have hpp : ls2.pp = ls.pp := by rw [h2]
    rw [← hpp]
    refine proveTot_of_inner hE (ls := { ls2 with tree := { t with root := some root' }, s := s' }) (hpp ▸ h.pp) h.tree.bound.le
      k1 ?_ (Finset.sum_nonneg fun p _ => latest_nonneg (byPath_nonneg hpos) p) htot
    rw [← amountBelow_nil, ← x2, ← x1]
    rfl

/-- `000` and `100` are set from 10 and 5 to 31 and 7, every callback reading before the other one writes; the total of 17 is
wrong.  Then both are set again: the total is 38. -/
example : ∃ (ls ls1 ls2 ls3 : LiabilitySet Zr Zr Zr) (v : Sparse.Vertex Data) (r : Running) (tp tp' : TotalProof Zr),
    NewSet toyCurve 2 3 3 ls ∧ ls.sets toyCurve toyEnv [(['0', '0', '0'], 10), (['1', '0', '0'], 5)] = some ls1 ∧
    ls1.tree.root = some v ∧
    (Running.start [([0, 0, 0], 31), ([1, 0, 0], 7)] v ls1.s).run toyCurve ls.tree.PP toyEnv 3
      (eventsOf [.sets 0, .calls 0, .sets 1, .calls 0, .calls 1, .calls 1] ++ [.reads 0, .reads 1, .writes 0, .writes 1]) = some r ∧
    ls2 = { ls1 with tree := { ls1.tree with root := some r.root }, s := r.s } ∧
    ls2.proveTot toyCurve = some tp ∧ tp.sum = 17 ∧
    ls2.sets toyCurve toyEnv [(['0', '0', '0'], 31), (['1', '0', '0'], 7)] = some ls3 ∧
    ls3.proveTot toyCurve = some tp' ∧ tp'.sum = 38 := by
  obtain ⟨ls, h, ht⟩ := toy_set
  have hid : ls.tree.id2Path = toyPath := by rw [ht]; rfl
  have hids : ValidIds ls.tree.id2Path 3 3
      ([(['0', '0', '0'], 10), (['1', '0', '0'], 5)] ++ [(['0', '0', '0'], 31), (['1', '0', '0'], 7)]) := by
    rw [hid]; exact toyPath_valid _ (by decide)
  have hids1 : ValidIds ls.tree.id2Path 3 3 [(['0', '0', '0'], 10), (['1', '0', '0'], 5)] :=
    fun e he => hids e (by simp at he ⊢; tauto)
  have hpos : ∀ e ∈ [(['0', '0', '0'], (10 : ℤ)), (['1', '0', '0'], 5)], 0 ≤ e.2 := by decide
  obtain ⟨ls1, h1⟩ := C43_sets_return toyCurve_lawful toyEnv_lawful h _ hids1 hpos
  obtain ⟨-, t, s, hputs, rfl⟩ := (sets_iff toyCurve toyEnv _ ls ls1).1 h1
  obtain ⟨v, x, hv, -⟩ := root_data toyCurve_lawful toyEnv_lawful h.tree (by norm_num) _ (by simp) hids1 hputs
  have ht : totalAmount (byPath ls.tree.id2Path
      ([(['0', '0', '0'], 10), (['1', '0', '0'], 5)] ++ [(['1', '0', '0'], 7)])) = 17 := by
    rw [hid]; decide
  have ht' : totalAmount (byPath ls.tree.id2Path [(['0', '0', '0'], 31), (['1', '0', '0'], 7)]) = 38 := by
    rw [hid]; decide
  obtain ⟨r, ls2, c1, -, c0, -, -, tp, y, c2, c3, -⟩ := C109_violated toyCurve_lawful toyEnv_lawful h
    [(['0', '0', '0'], 10), (['1', '0', '0'], 5)] ['0', '0', '0'] ['1', '0', '0'] 31 7 hids h1 (by decide) [0, 0, 0] [1, 0, 0]
    (by rw [hid]; rfl) (by rw [hid]; rfl) (by rw [hid]; decide) (by rw [hid]; decide) (by decide) hv (by rw [ht]; norm_num)
    [.sets 0, .calls 0, .sets 1, .calls 0, .calls 1, .calls 1]
    (by intro t ht; simp at ht; rcases ht with rfl | rfl | rfl | rfl | rfl <;> decide)
    (by
      intro i hi
      have : i = 0 ∨ i = 1 := by omega
      rcases this with rfl | rfl <;> rfl)
  have hb : byPath ls.tree.id2Path [(['0', '0', '0'], 31), (['1', '0', '0'], 7)] = [([0, 0, 0], 31), ([1, 0, 0], 7)] := by
    rw [hid]; rfl
  obtain ⟨ls3, d1, -, -, tp', y', d2, d3, -⟩ := C110_setting_again_repairs toyCurve_lawful toyEnv_lawful h
    [(['0', '0', '0'], 10), (['1', '0', '0'], 5)] [(['0', '0', '0'], 31), (['1', '0', '0'], 7)]
    [(['0', '0', '0'], 31), (['1', '0', '0'], 7)] hids1 h1 (by rw [hid]; decide) hv _ (by rw [hb]; exact c1) c0
    (fun e he => hids e (by simp at he ⊢; tauto)) (by decide) (fun p => by rw [hid]; rfl) (by rw [ht']; norm_num)
  exact ⟨ls, _, ls2, ls3, v, r, tp, tp', h, h1, hv, c1, c0, c2, by rw [c3, ht], d1, d2, by rw [d3, ht']⟩

/-- `OwnOrder` holds of events that overlap everywhere. -/
example : OwnOrder 2 3 [.sets 0, .sets 1, .reads 0, .reads 1, .writes 1, .reads 1, .writes 0, .reads 0, .writes 0, .writes 1, .reads 1,
    .reads 0, .writes 1, .writes 0] := by
  constructor
  · intro e he
    simp at he
    rcases he with rfl | rfl | rfl | rfl | rfl | rfl | rfl | rfl | rfl | rfl | rfl | rfl | rfl | rfl <;> decide
  · intro i hi
    have : i = 0 ∨ i = 1 := by omega
    rcases this with rfl | rfl <;> rfl

end PoL.Props
